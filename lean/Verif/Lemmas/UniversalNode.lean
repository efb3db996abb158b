import Verif.Lemmas.UniversalDen
import Verif.Lemmas.ClockedPasses

/-! # Nodes with registers compute the solutions of their equations -/

set_option autoImplicit false
set_option linter.unusedSectionVars false

namespace Chandeliers.Uni
open Chandeliers.San Chandeliers.Spec Chandeliers.Syn Chandeliers.Den Chandeliers.Pres
open Chandeliers.Err Chandeliers.Props

/-! ## Inside expressions -/

mutual
theorem fetches_inside {id : Nat} {f : Expr} : (e : Expr) → (id, f) ∈ Spec.fetches e →
    .fetchPre id f ∈ inside e ∨ ∃ i, .fetchFby id i f ∈ inside e
  | .lit _, h => by simp [Spec.fetches] at h
  | .global _, h => by simp [Spec.fetches] at h
  | .var _ _, h => by simp [Spec.fetches] at h
  | .tuple es, h => by
    have := fetches_insideList es (by simpa [Spec.fetches] using h)
    simp only [inside]; grind
  | .dummyPre e, h => by
    have := fetches_inside e (by simpa [Spec.fetches] using h)
    simp only [inside]; grind
  | .dummyParen e, h => by
    have := fetches_inside e (by simpa [Spec.fetches] using h)
    simp only [inside]; grind
  | .un _ e, h => by
    have := fetches_inside e (by simpa [Spec.fetches] using h)
    simp only [inside]; grind
  | .substep _ _ e, h => by
    have := fetches_inside e (by simpa [Spec.fetches] using h)
    simp only [inside]; grind
  | .bin _ l r, h => by
    have h1 := fetches_inside (id := id) (f := f) l
    have h2 := fetches_inside (id := id) (f := f) r
    simp only [inside, Spec.fetches] at h ⊢; grind
  | .cmp _ l r, h => by
    have h1 := fetches_inside (id := id) (f := f) l
    have h2 := fetches_inside (id := id) (f := f) r
    simp only [inside, Spec.fetches] at h ⊢; grind
  | .clock _ l r, h => by
    have h1 := fetches_inside (id := id) (f := f) l
    have h2 := fetches_inside (id := id) (f := f) r
    simp only [inside, Spec.fetches] at h ⊢; grind
  | .later _ l r, h => by
    have h1 := fetches_inside (id := id) (f := f) l
    have h2 := fetches_inside (id := id) (f := f) r
    simp only [inside, Spec.fetches] at h ⊢; grind
  | .flip _ l r, h => by
    have h1 := fetches_inside (id := id) (f := f) l
    have h2 := fetches_inside (id := id) (f := f) r
    simp only [inside, Spec.fetches] at h ⊢; grind
  | .fetchPre _ l, h => by
    have h1 := fetches_inside (id := id) (f := f) l
    simp only [inside, Spec.fetches] at h ⊢; grind
  | .fetchFby _ l r, h => by
    have h1 := fetches_inside (id := id) (f := f) l
    have h2 := fetches_inside (id := id) (f := f) r
    simp only [inside, Spec.fetches] at h ⊢; grind
  | .ifx b l r, h => by
    have h0 := fetches_inside (id := id) (f := f) b
    have h1 := fetches_inside (id := id) (f := f) l
    have h2 := fetches_inside (id := id) (f := f) r
    simp only [inside, Spec.fetches] at h ⊢; grind
  | .merge b l r, h => by
    have h0 := fetches_inside (id := id) (f := f) b
    have h1 := fetches_inside (id := id) (f := f) l
    have h2 := fetches_inside (id := id) (f := f) r
    simp only [inside, Spec.fetches] at h ⊢; grind
theorem fetches_insideList {id : Nat} {f : Expr} : (es : List Expr) → (id, f) ∈ Spec.fetchesList es →
    .fetchPre id f ∈ insideList es ∨ ∃ i, .fetchFby id i f ∈ insideList es
  | [], h => by simp [Spec.fetchesList] at h
  | e :: es, h => by
    have h1 := fetches_inside (id := id) (f := f) e
    have h2 := fetches_insideList (id := id) (f := f) es
    simp only [insideList, Spec.fetchesList] at h ⊢; grind
end

mutual
theorem starts_inside {id : Nat} {i : Option Expr} : (e : Expr) → (id, i) ∈ starts e →
    (i = none ∧ ∃ f, .fetchPre id f ∈ inside e) ∨ ∃ x f, i = some x ∧ .fetchFby id x f ∈ inside e
  | .lit _, h => by simp [starts] at h
  | .global _, h => by simp [starts] at h
  | .var _ _, h => by simp [starts] at h
  | .tuple es, h => by
    have := starts_insideList es (by simpa [starts] using h)
    simp only [inside]; grind
  | .dummyPre e, h => by
    have := starts_inside e (by simpa [starts] using h)
    simp only [inside]; grind
  | .dummyParen e, h => by
    have := starts_inside e (by simpa [starts] using h)
    simp only [inside]; grind
  | .un _ e, h => by
    have := starts_inside e (by simpa [starts] using h)
    simp only [inside]; grind
  | .substep _ _ e, h => by
    have := starts_inside e (by simpa [starts] using h)
    simp only [inside]; grind
  | .bin _ l r, h => by
    have h1 := starts_inside (id := id) (i := i) l
    have h2 := starts_inside (id := id) (i := i) r
    simp only [inside, starts] at h ⊢; grind
  | .cmp _ l r, h => by
    have h1 := starts_inside (id := id) (i := i) l
    have h2 := starts_inside (id := id) (i := i) r
    simp only [inside, starts] at h ⊢; grind
  | .clock _ l r, h => by
    have h1 := starts_inside (id := id) (i := i) l
    have h2 := starts_inside (id := id) (i := i) r
    simp only [inside, starts] at h ⊢; grind
  | .later _ l r, h => by
    have h1 := starts_inside (id := id) (i := i) l
    have h2 := starts_inside (id := id) (i := i) r
    simp only [inside, starts] at h ⊢; grind
  | .flip _ l r, h => by
    have h1 := starts_inside (id := id) (i := i) l
    have h2 := starts_inside (id := id) (i := i) r
    simp only [inside, starts] at h ⊢; grind
  | .fetchPre _ l, h => by
    have h1 := starts_inside (id := id) (i := i) l
    simp only [inside, starts] at h ⊢; grind
  | .fetchFby _ l r, h => by
    have h1 := starts_inside (id := id) (i := i) l
    have h2 := starts_inside (id := id) (i := i) r
    simp only [inside, starts] at h ⊢; grind
  | .ifx b l r, h => by
    have h0 := starts_inside (id := id) (i := i) b
    have h1 := starts_inside (id := id) (i := i) l
    have h2 := starts_inside (id := id) (i := i) r
    simp only [inside, starts] at h ⊢; grind
  | .merge b l r, h => by
    have h0 := starts_inside (id := id) (i := i) b
    have h1 := starts_inside (id := id) (i := i) l
    have h2 := starts_inside (id := id) (i := i) r
    simp only [inside, starts] at h ⊢; grind
theorem starts_insideList {id : Nat} {i : Option Expr} : (es : List Expr) → (id, i) ∈ startsList es →
    (i = none ∧ ∃ f, .fetchPre id f ∈ insideList es) ∨
      ∃ x f, i = some x ∧ .fetchFby id x f ∈ insideList es
  | [], h => by simp [startsList] at h
  | e :: es, h => by
    have h1 := starts_inside (id := id) (i := i) e
    have h2 := starts_insideList (id := id) (i := i) es
    simp only [insideList, startsList] at h ⊢; grind
end

mutual
/-- The parts of an expression that has a clock have clocks. -/
theorem hasClock_inside {strict : Bool} {K : String → Option Clk} {p : Expr} : (e : Expr) →
    ∀ {k : Clk}, HasClock strict K e k → p ∈ inside e → ∃ k', HasClock strict K p k'
  | .lit _, k, h, hp => by
    simp only [inside, List.mem_singleton] at hp; subst hp; exact ⟨k, h⟩
  | .global _, k, h, hp => by
    simp only [inside, List.mem_singleton] at hp; subst hp; exact ⟨k, h⟩
  | .var _ _, k, h, hp => by
    simp only [inside, List.mem_singleton] at hp; subst hp; exact ⟨k, h⟩
  | .tuple es, k, h, hp => by
    rcases List.mem_cons.1 (by simpa only [inside] using hp) with rfl | hp
    · exact ⟨k, h⟩
    cases h with
    | empty => cases hp
    | tuple h h' =>
      rcases List.mem_append.1 (by simpa only [insideList] using hp) with hp | hp
      · exact hasClock_inside _ h hp
      · exact haveClock_inside _ h' hp
  | .dummyPre e, k, h, hp => by
    rcases List.mem_cons.1 (by simpa only [inside] using hp) with rfl | hp
    · exact ⟨k, h⟩
    cases h with
    | dummyPre h _ => exact hasClock_inside e h hp
  | .dummyParen e, k, h, hp => by
    rcases List.mem_cons.1 (by simpa only [inside] using hp) with rfl | hp
    · exact ⟨k, h⟩
    cases h with
    | dummyParen h => exact hasClock_inside e h hp
  | .un _ e, k, h, hp => by
    rcases List.mem_cons.1 (by simpa only [inside] using hp) with rfl | hp
    · exact ⟨k, h⟩
    cases h with
    | un h => exact hasClock_inside e h hp
  | .substep _ _ e, k, h, hp => by
    rcases List.mem_cons.1 (by simpa only [inside] using hp) with rfl | hp
    · exact ⟨k, h⟩
    cases h with
    | substep h => exact hasClock_inside e h hp
  | .fetchPre _ e, k, h, hp => by
    rcases List.mem_cons.1 (by simpa only [inside] using hp) with rfl | hp
    · exact ⟨k, h⟩
    cases h with
    | fetchPre h => exact hasClock_inside e h hp
  | .fetchFby _ i f, k, h, hp => by
    rcases List.mem_cons.1 (by simpa only [inside] using hp) with rfl | hp
    · exact ⟨k, h⟩
    cases h with
    | fetchFby h h' _ =>
      rcases List.mem_append.1 hp with hp | hp
      · exact hasClock_inside i h' hp
      · exact hasClock_inside f h hp
  | .bin _ l r, k, h, hp => by
    rcases List.mem_cons.1 (by simpa only [inside] using hp) with rfl | hp
    · exact ⟨k, h⟩
    cases h with
    | bin h h' _ =>
      rcases List.mem_append.1 hp with hp | hp
      · exact hasClock_inside l h hp
      · exact hasClock_inside r h' hp
  | .cmp _ l r, k, h, hp => by
    rcases List.mem_cons.1 (by simpa only [inside] using hp) with rfl | hp
    · exact ⟨k, h⟩
    cases h with
    | cmp h h' _ =>
      rcases List.mem_append.1 hp with hp | hp
      · exact hasClock_inside l h hp
      · exact hasClock_inside r h' hp
  | .later _ l r, k, h, hp => by
    rcases List.mem_cons.1 (by simpa only [inside] using hp) with rfl | hp
    · exact ⟨k, h⟩
    cases h with
    | later h h' _ =>
      rcases List.mem_append.1 hp with hp | hp
      · exact hasClock_inside l h hp
      · exact hasClock_inside r h' hp
  | .flip _ l r, k, h, hp => by
    rcases List.mem_cons.1 (by simpa only [inside] using hp) with rfl | hp
    · exact ⟨k, h⟩
    cases h with
    | flip h h' _ =>
      rcases List.mem_append.1 hp with hp | hp
      · exact hasClock_inside l h hp
      · exact hasClock_inside r h' hp
  | .clock _ l r, k, h, hp => by
    rcases List.mem_cons.1 (by simpa only [inside] using hp) with rfl | hp
    · exact ⟨k, h⟩
    cases h with
    | clock h h' _ =>
      rcases List.mem_append.1 hp with hp | hp
      · exact hasClock_inside l h hp
      · simp only [inside, List.mem_singleton] at hp; subst hp; exact ⟨_, .var h'⟩
  | .ifx b l r, k, h, hp => by
    rcases List.mem_cons.1 (by simpa only [inside] using hp) with rfl | hp
    · exact ⟨k, h⟩
    cases h with
    | ifx h h' h'' _ _ =>
      simp only [List.mem_append] at hp
      rcases hp with hp | hp | hp
      · exact hasClock_inside b h hp
      · exact hasClock_inside l h' hp
      · exact hasClock_inside r h'' hp
  | .merge b l r, k, h, hp => by
    rcases List.mem_cons.1 (by simpa only [inside] using hp) with rfl | hp
    · exact ⟨k, h⟩
    cases h with
    | merge h h' h'' _ _ =>
      simp only [List.mem_append] at hp
      rcases hp with hp | hp | hp
      · simp only [inside, List.mem_singleton] at hp; subst hp; exact ⟨_, .var h⟩
      · exact hasClock_inside l h' hp
      · exact hasClock_inside r h'' hp
theorem haveClock_inside {strict : Bool} {K : String → Option Clk} {p : Expr} : (es : List Expr) →
    ∀ {k : Clk}, HaveClock strict K es k → p ∈ insideList es → ∃ k', HasClock strict K p k'
  | [], k, h, hp => by cases hp
  | e :: es, k, h, hp => by
    cases h with
    | cons h _ h' =>
      rcases List.mem_append.1 (by simpa only [insideList] using hp) with hp | hp
      · exact hasClock_inside e h hp
      · exact haveClock_inside es h' hp
end

/-! ## Shapes -/

theorem shape_flat (θ : Subst) (ts : List TyBase) :
    (substTy θ (flatTuple ts)).shape = flatShape ts.length := by
  have : ∀ ts : List TyBase, TyTuple.shapeList (substTys θ (ts.map .single)) =
      List.replicate ts.length (.leaf ()) := by
    intro ts
    induction ts with
    | nil => rfl
    | cons t ts ih => simp [substTys, substTy, TyTuple.shapeList, TyTuple.shape, ih, List.replicate_succ]
  match ts with
  | [] => rfl
  | [t] => rfl
  | t :: t' :: ts =>
    have h := this (t' :: ts)
    simp only [flatTuple, substTy, List.map_cons, substTys, TyTuple.shape, flatShape,
      List.length_cons] at h ⊢
    rw [h]

mutual
/-- The type of an expression says what it is made of. -/
theorem shape_typed {ms : List Machine} {Γ : TyEnv}
    (hc : ∀ i t u, Γ.call i t u → ∃ m, ms[i]? = some m ∧ m.outTy = u.shape) : {e : Expr} →
    {t : TyTuple} → HasType Γ e t → t.shape = shapeX ms e
  | _, _, .lit => rfl
  | _, _, .global _ => rfl
  | _, _, .var _ => rfl
  | _, _, .dummyPre h => by rw [shapeX]; exact shape_typed hc h
  | _, _, .dummyParen h => by rw [shapeX]; exact shape_typed hc h
  | _, _, .tuple (es := es) (ts := ts) h => by
    have := shapes_typed hc h
    rw [shapeX, ← this]
    cases ts <;> rfl
  | _, _, .bin _ _ _ => rfl
  | _, _, .un _ _ => rfl
  | _, _, .cmp _ _ _ => rfl
  | _, _, .clock h _ => by rw [shapeX]; exact shape_typed hc h
  | _, _, .later h _ => by rw [shapeX]; exact shape_typed hc h
  | _, _, .flip h _ => by rw [shapeX]; exact shape_typed hc h
  | _, _, .ifx _ h _ => by rw [shapeX]; exact shape_typed hc h
  | _, _, .merge _ h _ => by rw [shapeX]; exact shape_typed hc h
  | _, _, .substep _ h => by
    obtain ⟨m, h1, h2⟩ := hc _ _ _ h
    rw [shapeX, h1]
    exact h2.symm
  | _, _, .fetchPre h _ => by rw [shapeX]; exact shape_typed hc h
  | _, _, .fetchFby h _ _ => by rw [shapeX]; exact shape_typed hc h
theorem shapes_typed {ms : List Machine} {Γ : TyEnv}
    (hc : ∀ i t u, Γ.call i t u → ∃ m, ms[i]? = some m ∧ m.outTy = u.shape) : {es : List Expr} →
    {ts : List TyTuple} → HasTypes Γ es ts → TyTuple.shapeList ts = shapeXs ms es
  | _, _, .nil => rfl
  | _, _, .cons h hs => by rw [TyTuple.shapeList, shapeXs, shape_typed hc h, shapes_typed hc hs]
end

/-! ## Nodes -/

/-- What the code of a node with registers is made of. -/
structure Neat (ms : List Machine) (n : Node) (K : String → Option Clk) (D : String → Clock) :
    Prop where
  updates : (updated n.stmts).Nodup
  clocked : ∀ st ∈ n.stmts, ∀ e ∈ Stmt.source st, ∃ k, HasClock false K e k
  known : ∀ x k, K x = some k → (D x).intoClk = k
  regs : ∀ id f, .updateRegister id f ∈ n.stmts → ∀ i c, .initRegister id i c ∈ n.stmts →
    ∃ k, HasClock false K f k ∧ c = some (clockExpr k)
  noLater : ∀ st ∈ n.stmts, ∀ e ∈ Stmt.source st, ∀ d b a, .later d b a ∉ inside e
  direct : ∀ st ∈ n.stmts, ∀ e ∈ Stmt.source st, ∀ d i a, .substep d i a ∈ inside e → d = 0
  pres : ∀ st ∈ n.stmts, ∀ e ∈ Stmt.source st, ∀ id f, .fetchPre id f ∈ inside e →
    .updateRegister id f ∈ n.stmts ∧ ∃ c, .initRegister id none c ∈ n.stmts
  fbys : ∀ st ∈ n.stmts, ∀ e ∈ Stmt.source st, ∀ id i f, .fetchFby id i f ∈ inside e →
    .updateRegister id f ∈ n.stmts ∧ ∃ c, .initRegister id (some i) c ∈ n.stmts
  shapes : ∀ id f, .updateRegister id f ∈ n.stmts →
    ∃ ty, n.registers[id]? = some (some ty) ∧ ty.shape = shapeX ms f
  fetched : ∀ id f, .updateRegister id f ∈ n.stmts →
    ∃ st ∈ n.stmts, ∃ e ∈ Stmt.source st, (id, f) ∈ Spec.fetches e
  started : ∀ id i c, .initRegister id i c ∈ n.stmts →
    ∃ st ∈ n.stmts, ∃ e ∈ Stmt.source st, (id, i) ∈ starts e

section
variable {A : Arith} {glob : Globals} {ms : List Machine} {F : Flow} {D : String → Clock} {n : Node}
  {K : String → Option Clk}

/-- The clock of a register is that of the expression that reads it. -/
theorem Neat.fby_clock (hs : Neat ms n K D) {st : Stmt} (hst : st ∈ n.stmts) {e : Expr}
    (he : e ∈ Stmt.source st) {id : Nat} {i f : Expr} (hp : .fetchFby id i f ∈ inside e) (t : Nat)
    {X : String → Nat → Nillable Scalar} : tickX X D i t = tickX X D f t := by
  obtain ⟨k, hk⟩ := hs.clocked st hst e he
  obtain ⟨k', hk'⟩ := hasClock_inside e hk hp
  cases hk' with
  | fetchFby h h' hk => rw [tick_clock hs.known i h', tick_clock hs.known f h, clkOn_same hk]

/-- A solution computes the reference. -/
theorem Neat.sound (hs : Neat ms n K D) {T : Nat}
    (hsh : ∀ id ty, n.registers[id]? = some ty →
      F.shape id = match ty with | some ty => ty.shape | none => .leaf ())
    (hh : ∀ t, t < T → ∀ st ∈ n.stmts, Holds A glob ms F t st) {st : Stmt} (hst : st ∈ n.stmts)
    {e : Expr} (he : e ∈ Stmt.source st) :
    (∀ p ∈ inside e, AptAt ms F D T p) ∧
      ∀ u, u < T → ∀ p ∈ inside e, SoundAt A glob ms F D u p := by
  have hclk : ∀ id f i c, .updateRegister id f ∈ n.stmts → .initRegister id i c ∈ n.stmts →
      ∀ u, u < T → tickX F.X D f u = some (F.C id u) := by
    intro id f i c h1 h2 u hu
    obtain ⟨k, hk, rfl⟩ := hs.regs id f h1 i c h2
    obtain ⟨⟨e, v, he, hv, hc⟩, -⟩ := hh u hu _ h2
    cases he
    rw [tick_clock hs.known f hk]
    exact (clock_code k u _).1 ⟨v, hv, hc⟩
  refine ⟨fun p hp => ?_, fun u hu p hp => ?_⟩
  · cases p with
    | later d b a => exact hs.noLater st hst e he d b a hp
    | substep d i a => exact hs.direct st hst e he d i a hp
    | fetchPre id f =>
      obtain ⟨h1, c, h2⟩ := hs.pres st hst e he id f hp
      obtain ⟨ty, h3, h4⟩ := hs.shapes id f h1
      refine ⟨by rw [hsh id _ h3, ← h4], fun u hu b hb => ?_⟩
      rw [hclk id f none c h1 h2 u hu] at hb
      exact Option.some.inj hb
    | fetchFby id i f =>
      obtain ⟨h1, c, h2⟩ := hs.fbys st hst e he id i f hp
      intro u hu b hb
      rw [hs.fby_clock hst he hp, hclk id f (some i) c h1 h2 u hu] at hb
      exact Option.some.inj hb
    | _ => trivial
  · cases p with
    | fetchPre id f =>
      obtain ⟨h1, c, h2⟩ := hs.pres st hst e he id f hp
      exact ⟨hh u hu _ h1, hclk id f none c h1 h2 u hu⟩
    | fetchFby id i f =>
      obtain ⟨h1, c, h2⟩ := hs.fbys st hst e he id i f hp
      refine ⟨(hh u hu _ h2).2 i rfl, hh u hu _ h1, ?_⟩
      rw [hs.fby_clock hst he hp]
      exact hclk id f (some i) c h1 h2 u hu
    | _ => trivial

open Classical in
/-- The streams of the reference, as those of the code. -/
noncomputable def uniFlow (n : Node) (D : String → Clock) (X : String → Nat → Nillable Scalar) :
    Flow where
  X := X
  C := fun id u =>
    if h : ∃ f, .updateRegister id f ∈ n.stmts then (tickX X D h.choose u).getD false else false
  shape := fun id => match n.registers[id]? with
    | some (some ty) => ty.shape
    | _ => .leaf ()

theorem Neat.flow_clock (hs : Neat ms n K D) {X : String → Nat → Nillable Scalar} {id : Nat}
    {f : Expr} (hf : .updateRegister id f ∈ n.stmts) {u : Nat} {b : Bool}
    (hb : tickX X D f u = some b) : (uniFlow n D X).C id u = b := by
  have h : ∃ f, .updateRegister id f ∈ n.stmts := ⟨f, hf⟩
  simp only [uniFlow]
  rw [dif_pos h, update_unique hs.updates h.choose_spec hf, hb]
  rfl

/-- The reference is a solution. -/
theorem Neat.holds (hs : Neat ms n K D) {X : String → Nat → Nillable Scalar} {T : Nat}
    (hl : ∀ t, t < T → ∀ p e, .let_ p e ∈ n.stmts →
      ∃ v, valU A glob ms X D e t = some v ∧ Assigns (X · t) p v)
    (ha : ∀ t, t < T → ∀ e, .assert e ∈ n.stmts →
      valU A glob ms X D e t = some (.leaf (.defined (.bool true)))) :
    ∀ t, t < T → ∀ st ∈ n.stmts, Holds A glob ms (uniFlow n D X) t st := by
  have hval : ∀ t, t < T → ∀ st ∈ n.stmts, ∀ e ∈ Stmt.source st,
      ∃ v, valU A glob ms X D e t = some v := by
    intro t ht st hst e he
    cases st with
    | let_ p x =>
      obtain rfl := List.mem_singleton.1 he
      obtain ⟨v, hv, -⟩ := hl t ht p e hst
      exact ⟨v, hv⟩
    | assert x =>
      obtain rfl := List.mem_singleton.1 he
      exact ⟨_, ha t ht e hst⟩
    | _ => cases he
  have hapt : ∀ st ∈ n.stmts, ∀ e ∈ Stmt.source st, ∀ p ∈ inside e, AptAt ms (uniFlow n D X) D T p := by
    intro st hst e he p hp
    cases p with
    | later d b a => exact hs.noLater st hst e he d b a hp
    | substep d i a => exact hs.direct st hst e he d i a hp
    | fetchPre id f =>
      obtain ⟨h1, c, h2⟩ := hs.pres st hst e he id f hp
      obtain ⟨ty, h3, h4⟩ := hs.shapes id f h1
      exact ⟨by simp only [uniFlow, h3, h4], fun u hu b hb => hs.flow_clock h1 hb⟩
    | fetchFby id i f =>
      obtain ⟨h1, c, h2⟩ := hs.fbys st hst e he id i f hp
      intro u hu b hb
      rw [hs.fby_clock hst he hp] at hb
      exact hs.flow_clock h1 hb
    | _ => trivial
  have hsound : ∀ t, t < T → ∀ st ∈ n.stmts, ∀ e ∈ Stmt.source st, ∀ p ∈ inside e,
      SoundAt A glob ms (uniFlow n D X) D t p := by
    intro t
    induction t using Nat.strongRecOn with
    | ind t ih =>
      intro ht st hst e he
      obtain ⟨v, hv⟩ := hval t ht st hst e he
      exact sound_of_val e ht (hapt st hst e he) (fun u hu => ih u hu (by omega) st hst e he) hv
  have hden : ∀ t, t < T → ∀ st ∈ n.stmts, ∀ e ∈ Stmt.source st,
      valU A glob ms X D e t = (den A glob ms (uniFlow n D X) 0 e t).toOption :=
    fun t ht st hst e he => valU_den (F := uniFlow n D X) e (hapt st hst e he)
      fun u hu => hsound u (by omega) st hst e he
  intro t ht st hst
  cases st with
  | let_ p e =>
    obtain ⟨v, hv, hg⟩ := hl t ht p e hst
    rw [hden t ht _ hst e (by simp [Stmt.source])] at hv
    exact ⟨v, toOption_some.1 hv, hg⟩
  | assert e =>
    have := ha t ht e hst
    rw [hden t ht _ hst e (by simp [Stmt.source])] at this
    exact toOption_some.1 this
  | updateRegister id f =>
    obtain ⟨st', h1, e, h2, h3⟩ := hs.fetched id f hst
    rcases fetches_inside e h3 with h4 | ⟨i, h4⟩
    · exact (hsound t ht st' h1 e h2 _ h4).1
    · exact (hsound t ht st' h1 e h2 _ h4).2.1
  | initRegister id i c =>
    obtain ⟨st', h1, e, h2, h3⟩ := hs.started id i c hst
    have key : ∀ f, .updateRegister id f ∈ n.stmts →
        tickX X D f t = some ((uniFlow n D X).C id t) →
        ∃ e v, c = some e ∧ den A glob ms (uniFlow n D X) 0 e t = .ok v ∧
          IsClock v ((uniFlow n D X).C id t) := by
      intro f hf hc
      obtain ⟨k, hk, rfl⟩ := hs.regs id f hf i c hst
      rw [tick_clock hs.known f hk] at hc
      obtain ⟨v, hv, hb⟩ := (clock_code (A := A) (glob := glob) (ms := ms) (F := uniFlow n D X) k t
        _).2 hc
      exact ⟨_, v, rfl, hv, hb⟩
    rcases starts_inside e h3 with ⟨rfl, f, h4⟩ | ⟨x, f, rfl, h4⟩
    · have := hsound t ht st' h1 e h2 _ h4
      exact ⟨key f (hs.pres st' h1 e h2 id f h4).1 this.2, fun e h => by cases h⟩
    · have := hsound t ht st' h1 e h2 _ h4
      refine ⟨key f (hs.fbys st' h1 e h2 id x f h4).1 ?_, fun e h => ?_⟩
      · rw [← hs.fby_clock h1 h2 h4]
        exact this.2.2
      · cases h
        exact this.1

end

section
variable {o : TyOpts} {sigs : String → Option Sig} {consts : String → Option TyBase}
  {src : SrcNode} {n n₁ n₂ : Node} {c : ExprCtx} {ctx : TyCtx} {clk : Nat → Expr} {m : Depths}
  {K : String → Option Clk} {ms : List Machine} {nodes : String → Option Machine}

theorem neat_of_final (hf : Final true o sigs consts src n n₁ n₂ c ctx clk m K)
    (hw : ∀ f s, sigs f = some s → s.Wf)
    (hc : ∀ (i : Nat) b s, n.blocks[i]? = some b → sigs b.name = some s →
      ∃ m, ms[i]? = some m ∧ m.outTy = flatShape s.2.2.length) :
    Neat ms n K (SrcNode.clocks src) := by
  have hsrc : ∀ st ∈ n.stmts, ∀ e ∈ Stmt.source st, st ∈ c.stmts ∧ e ∈ Spec.evaluated st := by
    intro st hst e he
    rw [hf.final_stmts] at hst
    obtain ⟨st', h1, rfl⟩ := List.mem_map.1 hst
    cases st' with
    | let_ p x => exact ⟨hf.perm.mem_iff.1 h1, he⟩
    | assert x => exact ⟨hf.perm.mem_iff.1 h1, he⟩
    | _ => cases he
  have hback : ∀ st ∈ c.stmts, ∀ e ∈ Stmt.source st, st ∈ n.stmts := by
    intro st hst e he
    rw [hf.final_stmts]
    refine List.mem_map.2 ⟨st, hf.perm.mem_iff.2 hst, ?_⟩
    cases st with
    | initRegister => cases he
    | _ => rfl
  have hok : ∀ st ∈ n.stmts, ∀ e ∈ Stmt.source st, ∀ p ∈ inside e, Okay (src.view true) c.stmts p := by
    intro st hst e he p hp
    obtain ⟨h1, h2⟩ := hsrc st hst e he
    obtain ⟨st', h3, e', h4, h5⟩ := hf.inside h1 h2 hp
    exact hf.okay h3 h4 h5
  constructor
  · exact hf.wired.updates
  · intro st hst e he
    have := (final_clocked hf).stmts st hst
    cases this with
    | let_ h h' _ =>
      obtain rfl := List.mem_singleton.1 he
      exact ⟨_, h'⟩
    | assert h _ =>
      obtain rfl := List.mem_singleton.1 he
      exact ⟨_, h⟩
    | updateRegister => cases he
    | initRegister => cases he
  · exact final_known hf
  · exact final_regs hf
  · intro st hst e he d b a hp
    have := hok st hst e he _ hp
    cases this
  · intro st hst e he d i a hp
    exact hok st hst e he _ hp rfl
  · intro st hst e he id f hp
    obtain ⟨-, h1, h2⟩ := hok st hst e he _ hp
    exact ⟨hf.update_mem.2 h1, _, hf.init_mem h2⟩
  · intro st hst e he id i f hp
    obtain ⟨-, h1, h2⟩ := hok st hst e he _ hp
    exact ⟨hf.update_mem.2 h1, _, hf.init_mem h2⟩
  · intro id f h1
    have := hf.runTyped hw _ h1
    cases this with
    | @update _ _ t he hr =>
      refine ⟨t, hr, shape_typed (Γ := runEnv sigs consts n) ?_ he⟩
      rintro i t u ⟨b, gens, ins, outs, θ, k1, k2, -, -, rfl⟩
      obtain ⟨m, k3, k4⟩ := hc i b _ k1 k2
      exact ⟨m, k3, by rw [k4, shape_flat]⟩
  · intro id f h1
    obtain ⟨st, h2, h3⟩ := List.mem_flatMap.1 ((hf.built.fetched id f).2 (hf.update_mem.1 h1))
    cases st with
    | let_ p e => exact ⟨_, hback _ h2 e (by simp [Stmt.source]), e, by simp [Stmt.source], h3⟩
    | assert e => exact ⟨_, hback _ h2 e (by simp [Stmt.source]), e, by simp [Stmt.source], h3⟩
    | _ => cases h3
  · intro id i c' h1
    rw [hf.final_stmts] at h1
    obtain ⟨st', h2, h3⟩ := List.mem_map.1 h1
    cases st' with
    | initRegister id' i' c'' =>
      simp only [Stmt.withClocks, Stmt.initRegister.injEq] at h3
      obtain ⟨rfl, rfl, rfl⟩ := h3
      cases hf.init_none h2
      obtain ⟨st, h4, h5⟩ := List.mem_flatMap.1 ((hf.built.started id' i').2 (hf.perm.mem_iff.1 h2))
      cases st with
      | let_ p e => exact ⟨_, hback _ h4 e (by simp [Stmt.source]), e, by simp [Stmt.source], h5⟩
      | assert e => exact ⟨_, hback _ h4 e (by simp [Stmt.source]), e, by simp [Stmt.source], h5⟩
      | _ => cases h5
    | _ => cases h3

variable {A : Arith} {glob : Globals}

/-- The equations of a node with registers have the same solutions before and after compilation. -/
theorem solution_universal (h : Passes true o sigs consts src n)
    (hw : ∀ f s, sigs f = some s → s.Wf)
    (hc : ∀ (i : Nat) b, n.blocks[i]? = some b → ∃ m s, ms[i]? = some m ∧ sigs b.name = some s ∧
      m.outTy = flatShape s.2.2.length)
    (hL : Linked ms nodes n.blocks) (is : List Value) (X : String → Nat → Nillable Scalar) :
    (∃ F, F.X = X ∧ Solution A glob ms F n is) ↔
      UniSolution ⟨A, SrcNode.vars src, X, glob, nodes⟩ (SrcNode.clocks src) src is := by
  obtain ⟨n₁, n₂, c, ctx, clk, m, K, hf⟩ := passes_final h
  have hs : Neat ms n K (SrcNode.clocks src) := neat_of_final hf hw fun i b s h1 h2 => by
    obtain ⟨m, s', k1, k2, k3⟩ := hc i b h1
    rw [h2] at k2
    cases k2
    exact ⟨m, k1, k3⟩
  have hLc := final_linked hf hL
  have hW : (⟨A, SrcNode.vars src, X, glob, nodes⟩ : World) =
      worldX A glob nodes X (src.view true) := by
    simp only [worldX, SrcNode.view, SrcNode.vars, List.map_append, args_names]
  obtain ⟨new, e1, e2, e3⟩ := stmts_come hf.stmts
  simp only [List.nil_append] at e1
  subst e1
  have e5 : n.inputs.map (·.name) = argNames src.inputs := by
    rw [hf.final, hf.same, hf.start, ← args_names]
    simp [Node.withDepths, setDepths, Node.withClocks, Node.fill, Function.comp_def]
  rw [hW]
  constructor
  · rintro ⟨F, rfl, hF⟩
    refine ⟨fun t i ht hne => ?_, fun t ht st hst => ?_⟩
    · rw [← e5] at hne ⊢
      exact assigns_inputs.1 (hF.inputs t i ht) hne
    · obtain ⟨st', h1, h2⟩ := e2 st hst
      have hmem : ∀ s, Stmt.withClocks clk s = s → s ∈ c.stmts → s ∈ n.stmts := by
        intro s h0 hs'
        rw [hf.final_stmts]
        exact List.mem_map.2 ⟨s, hf.perm.mem_iff.2 hs', h0⟩
      have hval : ∀ s ∈ n.stmts, ∀ e ∈ Stmt.source s, valU A glob ms F.X (SrcNode.clocks src) e t =
          (den A glob ms F 0 e t).toOption := by
        intro s h3 e he
        obtain ⟨k1, k2⟩ := hs.sound (A := A) (glob := glob) hF.shape hF.stmts h3 he
        exact valU_den e k1 fun u hu => k2 u (by omega)
      cases st with
      | def_ p e =>
        obtain ⟨c₀, c₁, x, g1, g2, rfl⟩ := h2
        have h3 := hmem _ rfl h1
        obtain ⟨v, hd, ha⟩ := hF.stmts t ht _ h3
        have hv := hval _ h3 x (by simp [Stmt.source])
        rw [hd, translate_uni rfl rfl e g1 (linked_of_prefix hLc g2)] at hv
        exact ⟨v, hv, (gets_translate p v).1 ha⟩
      | assert e =>
        obtain ⟨c₀, c₁, x, g1, g2, rfl⟩ := h2
        have h3 := hmem _ rfl h1
        have hd := hF.stmts t ht _ h3
        have hv := hval _ h3 x (by simp [Stmt.source])
        simp only [Holds] at hd
        rw [hd, translate_uni rfl rfl e g1 (linked_of_prefix hLc g2)] at hv
        exact hv
  · intro hX
    have hcome : ∀ st ∈ n.stmts, Stmt.source st ≠ [] →
        ∃ s ∈ src.defs, Comes (src.view true) c.blocks s st := by
      intro st hst hne
      rw [hf.final_stmts] at hst
      obtain ⟨st', h1, rfl⟩ := List.mem_map.1 hst
      rw [source_withClocks] at hne
      have := e3 st' (hf.perm.mem_iff.1 h1) hne
      cases st' with
      | initRegister => exact absurd rfl hne
      | _ => exact this
    refine ⟨uniFlow n (SrcNode.clocks src) X, rfl, ?_, ?_, ?_⟩
    · intro id ty hid
      simp only [uniFlow, hid]
      cases ty <;> rfl
    · intro t i ht
      refine assigns_inputs.2 fun hne => ?_
      rw [e5] at hne ⊢
      exact hX.inputs t i ht hne
    · refine hs.holds (T := is.length) (fun t ht p e hst => ?_) (fun t ht e hst => ?_)
      · obtain ⟨s, h1, h2⟩ := hcome _ hst (by simp [Stmt.source])
        have hh := hX.defs t ht s h1
        cases s with
        | def_ p' e' =>
          obtain ⟨c₀, c₁, x, g1, g2, h3⟩ := h2
          cases h3
          obtain ⟨v, hv, hg⟩ := hh
          exact ⟨v, by rw [translate_uni rfl rfl e' g1 (linked_of_prefix hLc g2)]; exact hv,
            (gets_translate p' v).2 hg⟩
        | assert e' =>
          obtain ⟨c₀, c₁, x, g1, g2, h3⟩ := h2
          cases h3
      · obtain ⟨s, h1, h2⟩ := hcome _ hst (by simp [Stmt.source])
        have hh := hX.defs t ht s h1
        cases s with
        | def_ p' e' =>
          obtain ⟨c₀, c₁, x, g1, g2, h3⟩ := h2
          cases h3
        | assert e' =>
          obtain ⟨c₀, c₁, x, g1, g2, h3⟩ := h2
          cases h3
          rw [translate_uni rfl rfl e' g1 (linked_of_prefix hLc g2)]
          exact hh

end

end Chandeliers.Uni
