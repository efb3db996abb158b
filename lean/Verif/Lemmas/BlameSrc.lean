import Verif.Spec.BlameSrc
import Verif.Lemmas.BlameAll
import Verif.Lemmas.LegalOrder

/-!
# Messages about names and definitions, in terms of the source
-/

set_option autoImplicit false

namespace Chandeliers.Den
open Chandeliers.San Chandeliers.Spec Chandeliers.Syn Chandeliers.Spec.Static

section
variable {v : View} {src : List SrcStmt} {C : ExprCtx}

/-- Registers are not set up from each other in circles. -/
theorem register_acc (h : NodeComes v src C) (id : Nat) :
    Acc (fun w u => Uses C.stmts u w ∧ ∃ i, u = .initRegister i) (.initRegister id) := by
  have hR : ∀ u w, (Uses C.stmts u w ∧ ∃ i, u = .initRegister i) → Uses C.stmts u w :=
    fun _ _ h => h.1
  have local_ : ∀ x, Acc (fun w u => Uses C.stmts u w ∧ ∃ i, u = .initRegister i)
      (.localVarName x) := fun x => ⟨_, fun r ⟨_, i, hi⟩ => by cases hi⟩
  refine ⟨_, fun r hr => ?_⟩
  obtain ⟨st, hst, hw, -⟩ := _root_.id hr.1
  cases hw with
  | register =>
    rename_i i k
    have := h.clocks _ _ _ hst
    subst this
    have hm := (h.started _ _).2 hst
    obtain ⟨st', hst', hm⟩ := List.mem_flatMap.1 hm
    have all : ∀ id i, (id, i) ∈ startsIn st' → .initRegister id i none ∈ C.stmts :=
      fun id i hi => (h.started _ _).1 (List.mem_flatMap.2 ⟨st', hst', hi⟩)
    cases st' with
    | let_ t x => exact ((requires_acc h hR local_ x all).2 _ _ hm).inv hr
    | assert x => exact ((requires_acc h hR local_ x all).2 _ _ hm).inv hr
    | _ => simp [startsIn] at hm

/-- One of these variables is needed, possibly to set up registers. -/
inductive Hits (C : ExprCtx) (T : String → Prop) : Reference → Prop
  | var {x : String} (h : T x) : Hits C T (.localVarName x)
  | register {id : Nat} {b : Expr} {r : Reference} (hi : .initRegister id (some b) none ∈ C.stmts)
    (hr : r ∈ b.requires) (h : Hits C T r) : Hits C T (.initRegister id)

theorem uses_hits (h : NodeComes v src C) {T : String → Prop} {x : String} {r : Reference}
    (hu : Uses C.stmts (.localVarName x) r) (hr : Hits C T r) : ∃ z, T z ∧ DefinedFrom src x z := by
  obtain ⟨p, e, y, h1, h2, h3, h4, h5⟩ := (uses_local h r).1 hu
  have key := comes_req (P := fun r => ¬ Hits C T r) (C := C)
    (fun z hz => by cases hz)
    (fun id i hi => ⟨fun hn r hr hh => hn (.register hi hr hh), fun hq hh => by
      cases hh with
      | @register _ b r hi' hr hh =>
        obtain ⟨e, -⟩ := init_once h.once hi hi'
        cases e
        exact hq r hr hh⟩)
    (fun id hi hh => by
      cases hh with
      | @register _ b r hi' hr hh =>
        obtain ⟨e, -⟩ := init_once h.once hi hi'
        cases e)
    e h3
  have hn : ¬ Now (fun r => ¬ Hits C T r) v (instant e) := fun hq => key.2 hq r h5 hr
  simp only [Now, not_forall, not_not] at hn
  obtain ⟨-, z, hz, -, hh⟩ := hn
  cases hh with
  | var ht => exact ⟨z, ht, p, e, h1, h2, hz⟩

/-- A path between variables in the translation is one in the source. -/
theorem path_source (h : NodeComes v src C) {x y : String}
    (hp : Relation.TransGen (Uses C.stmts) (.localVarName x) (.localVarName y)) :
    Relation.TransGen (DefinedFrom src) x y := by
  have key : ∀ r, Relation.ReflTransGen (Uses C.stmts) r (.localVarName y) →
      Hits C (fun z => Relation.ReflTransGen (DefinedFrom src) z y) r := by
    intro r hr
    induction hr using Relation.ReflTransGen.head_induction_on with
    | refl => exact .var .refl
    | @head a c hac _ ih =>
      cases a with
      | localVarName z =>
        obtain ⟨w, h1, h2⟩ := uses_hits h hac ih
        exact .var (.head h2 h1)
      | initRegister id =>
        obtain ⟨st, hst, hw, -⟩ := _root_.id hac
        cases hw with
        | register =>
          rename_i i k
          have := h.clocks _ _ _ hst
          subst this
          obtain ⟨b, rfl, hr⟩ := (uses_register h hst c).1 hac
          exact .register hst hr ih
      | globalVarName z => exact absurd hac uses_global
      | _ => obtain ⟨st, _, hw, _⟩ := hac; cases hw
  obtain ⟨c, h1, h2⟩ := Relation.TransGen.head'_iff.1 hp
  obtain ⟨z, h3, h4⟩ := uses_hits h h1 (key c h2)
  exact .head' h4 h3

theorem itself_source (h : NodeComes v src C) {r : Reference} (hu : Uses C.stmts r r) :
    ∃ x, r = .localVarName x ∧ DefinedFrom src x x := by
  cases r with
  | localVarName x =>
    obtain ⟨z, rfl, hz⟩ := uses_hits h (T := fun z => z = x) hu (.var rfl)
    exact ⟨_, rfl, hz⟩
  | initRegister id => exact absurd ⟨hu, id, rfl⟩ (irrefl_of_acc (register_acc h id))
  | globalVarName z => exact absurd hu uses_global
  | _ => obtain ⟨st, _, hw, _⟩ := hu; cases hw

theorem uses_from {sts : List Stmt} {r r' : Reference} (h : Uses sts r r') :
    (∃ x, r = .localVarName x) ∨ ∃ id, r = .initRegister id := by
  obtain ⟨st, _, hw, _⟩ := h
  cases hw
  · exact .inl ⟨_, rfl⟩
  · exact .inr ⟨_, rfl⟩

/-- There is a variable in every cycle. -/
theorem cycle_variable (h : NodeComes v src C) {rs : List Reference} {r : Reference} (hr : r ∈ rs)
    (hu : Relation.TransGen (Uses C.stmts) r r)
    (hc : ∀ r ∈ rs, ∀ r', Relation.TransGen (Uses C.stmts) r r' →
      Relation.TransGen (Uses C.stmts) r' r → r' ∈ rs) : ∃ x, .localVarName x ∈ rs := by
  by_contra hn
  push Not at hn
  have reg : ∀ r' ∈ rs, (∃ r'', Uses C.stmts r' r'') → ∃ i, r' = .initRegister i := by
    rintro r' hr' ⟨r'', hu⟩
    rcases uses_from hu with ⟨x, rfl⟩ | h
    · exact absurd hr' (hn x)
    · exact h
  have key : ∀ w, Relation.TransGen (Uses C.stmts) r w → Relation.ReflTransGen (Uses C.stmts) w r →
      Relation.TransGen (fun u w => Uses C.stmts u w ∧ ∃ i, u = .initRegister i) r w := by
    intro w hw
    induction hw with
    | single h1 =>
      intro _
      exact .single ⟨h1, reg r hr ⟨_, h1⟩⟩
    | @tail b c hb h1 ih =>
      intro h2
      have h3 : Relation.TransGen (Uses C.stmts) b r := .head' h1 h2
      exact (ih h3.to_reflTransGen).tail ⟨h1, reg b (hc r hr b hb h3) ⟨_, h1⟩⟩
  have hk := key r hu .refl
  obtain ⟨i, rfl⟩ : ∃ i, r = .initRegister i := by
    obtain ⟨c, h1, -⟩ := Relation.TransGen.head'_iff.1 hk
    exact h1.2
  exact no_cycle_of_acc (register_acc h i) hk

end

/-! ### What the translation mentions -/

/-- Constants are among these names, variables among those. -/
def Named (N S : String → Prop) (e : Expr) : Prop :=
  (∀ y, Inside (.global y) e → N y ∧ ¬ S y) ∧ ∀ y d, Inside (.var y d) e → S y

section
variable {N S F : String → Prop}

theorem named_under {e : Expr} (hg : ∀ y, e = .global y → N y ∧ ¬ S y)
    (hv : ∀ y d, e = .var y d → S y) (h : ∀ c, Under c e → Named N S c) : Named N S e := by
  constructor
  · intro y hy
    rcases Relation.ReflTransGen.cases_tail hy with rfl | ⟨c, h1, h2⟩
    · exact hg y rfl
    · exact (h c h2).1 y h1
  · intro y d hy
    rcases Relation.ReflTransGen.cases_tail hy with rfl | ⟨c, h1, h2⟩
    · exact hv y d rfl
    · exact (h c h2).2 y d h1

/-- The statements and the blocks of the context. -/
structure Uttered (F N S : String → Prop) (c : ExprCtx) : Prop where
  stmts : ∀ st ∈ c.stmts, ∀ e ∈ values st, Named N S e
  blocks : ∀ b ∈ c.blocks, F b.name

/-- A run that mentions only these. -/
def Says {α : Type} (F N S : String → Prop) (m : Tr α) (Q : α → Prop) : Prop :=
  ∀ c, Uttered F N S c → ∀ x c', m c = .ok (x, c') → Uttered F N S c' ∧ Q x

variable {α β : Type}

theorem Says.pure {x : α} {Q : α → Prop} (h : Q x) : Says F N S (Pure.pure x : Tr α) Q := by
  intro c hc y c' e
  cases tr_pure_ok.1 e
  exact ⟨hc, h⟩

theorem Says.throw {e : TrErr} {Q : α → Prop} : Says F N S (MonadExcept.throw e : Tr α) Q := by
  intro c hc y c' e
  cases e

theorem Says.bind {m : Tr α} {f : α → Tr β} {Q : α → Prop} {R : β → Prop} (hm : Says F N S m Q)
    (hf : ∀ x, Q x → Says F N S (f x) R) : Says F N S (m >>= f) R := by
  intro c hc y c' h
  cases e : m c with
  | error t =>
    have : (m >>= f) c = .error t := by simp [Bind.bind, StateT.bind, e, Except.bind]
    rw [this] at h
    cases h
  | ok r =>
    obtain ⟨x, c1⟩ := r
    have : (m >>= f) c = f x c1 := by simp [Bind.bind, StateT.bind, e, Except.bind]
    rw [this] at h
    obtain ⟨k1, k2⟩ := hm c hc x c1 e
    exact hf x k2 c1 k1 _ _ h

theorem named_compose (op : LOp) {l r : Expr} (hl : Named N S l) (hr : Named N S r) :
    Named N S (op.compose l r) := by
  cases op <;>
  · refine named_under (fun _ h => by cases h) (fun _ _ h => by cases h) fun c h => ?_
    cases h with
    | operand h => cases h <;> assumption

theorem named_parenthesise {es : List Expr} (h : ∀ e ∈ es, Named N S e) (t : Bool) :
    Named N S (parenthesise es t) := by
  unfold Syn.parenthesise
  split
  · refine named_under (fun _ h => by cases h) (fun _ _ h => by cases h) fun c k => ?_
    cases k with
    | operand k => cases k; exact h _ (by simp)
  · refine named_under (fun _ h => by cases h) (fun _ _ h => by cases h) fun c k => ?_
    cases k with
    | operand k => cases k with | tuple k => exact h _ k

theorem says_mkFby (v : View) (i : Nat) {l r : Expr} (hl : Named N S l) (hr : Named N S r) :
    Says F N S (mkFby v i l r) (Named N S) := by
  intro c hc
  unfold mkFby
  split <;> intro y c' e <;> cases e
  · refine ⟨⟨fun st hst => ?_, hc.blocks⟩, named_under (fun _ h => by cases h)
      (fun _ _ h => by cases h) fun c h => ?_⟩
    · simp only [List.mem_append, List.mem_cons, List.not_mem_nil, or_false] at hst
      rcases hst with hst | rfl | rfl
      · exact hc.stmts st hst
      · simpa [values] using hr
      · simpa [values] using hl
    · cases h with
      | operand h => cases h
      | fbyInit => exact hl
      | fbyNext => exact hr
  · refine ⟨hc, named_under (fun _ h => by cases h) (fun _ _ h => by cases h) fun c h => ?_⟩
    cases h with
    | operand h => cases h <;> assumption

theorem says_mkThen (v : View) (i : Nat) {l r : Expr} (hl : Named N S l) (hr : Named N S r) :
    Says F N S (mkThen v i l r) (Named N S) := by
  intro c hc
  unfold mkThen
  split <;>
  · intro y c' e
    cases e
    refine ⟨⟨hc.stmts, hc.blocks⟩, named_under (fun _ h => by cases h) (fun _ _ h => by cases h)
      fun c h => ?_⟩
    cases h with
    | operand h => cases h <;> assumption

theorem says_mkCall (v : View) {f : String} {e : Expr} (he : Named N S e) (hf : F f) :
    Says F N S (mkCall v f e) (Named N S) := by
  intro c hc y c' k
  unfold mkCall at k
  cases k
  refine ⟨⟨hc.stmts, fun b hb => ?_⟩, named_under (fun _ h => by cases h) (fun _ _ h => by cases h)
      fun c h => ?_⟩
  · simp only [List.mem_append, List.mem_cons, List.not_mem_nil, or_false] at hb
    rcases hb with hb | rfl
    · exact hc.blocks b hb
    · exact hf
  · cases h with
    | operand h => cases h; exact he

theorem says_push {st : Stmt} (h : ∀ e ∈ values st, Named N S e) :
    Says F N S (pushStmt st) fun _ => True := by
  intro c hc y c' e
  unfold pushStmt at e
  cases e
  refine ⟨⟨fun b hb => ?_, hc.blocks⟩, trivial⟩
  simp only [List.mem_append, List.mem_cons, List.not_mem_nil, or_false] at hb
  rcases hb with hb | rfl
  · exact hc.stmts b hb
  · exact h

theorem says_newRegister : Says F N S newRegister fun _ => True := by
  intro c hc y c' e
  unfold newRegister at e
  cases e
  exact ⟨⟨hc.stmts, hc.blocks⟩, trivial⟩

theorem says_mkPre (id : Nat) {e : Expr} (he : Named N S e) :
    Says F N S (mkPre id e) (Named N S) := by
  intro c hc y c' k
  unfold mkPre at k
  cases k
  refine ⟨⟨fun st hst => ?_, hc.blocks⟩, named_under (fun _ h => by cases h)
    (fun _ _ h => by cases h) fun c h => ?_⟩
  · simp only [List.mem_append, List.mem_cons, List.not_mem_nil, or_false] at hst
    rcases hst with hst | rfl | rfl
    · exact hc.stmts st hst
    · simpa [values] using he
    · simp [values]
  · cases h with
    | operand h => cases h
    | pre => exact he

theorem named_lit (l : San.Lit) : Named N S (.lit l) :=
  named_under (fun _ h => by cases h) (fun _ _ h => by cases h) fun c h => by
    cases h with
    | operand h => cases h

theorem says_lit (l : Syn.Lit) : Says F N S l.translate (Named N S) := by
  cases l with
  | bool b => exact Says.pure (named_lit _)
  | int n =>
    simp only [Lit.translate]
    split
    · exact Says.pure (named_lit _)
    · exact Says.throw
  | float o =>
    cases o with
    | none => exact Says.throw
    | some f => exact Says.pure (named_lit _)
  | other => exact Says.throw

mutual
theorem says_translate : (e : Src) → (v : View) → (∀ x, x ∈ v.shadow ↔ S x) →
    (∀ x ∈ names e, N x) → (∀ f ∈ callees e, F f) → Says F N S (e.translate v) (Named N S)
  | .lit l, v, _, _, hf => by
    simp only [Src.translate]
    exact says_lit l
  | .var x, v, hs, hl, _ => by
    simp only [Src.translate]
    have hx := hl x (by simp [names])
    split
    · rename_i h
      exact Says.pure (named_under (fun _ h => by cases h) (fun _ _ e => by cases e; exact (hs x).1 h)
        fun c h => by cases h with | operand h => cases h)
    · rename_i h
      exact Says.pure (named_under (fun _ e => by cases e; exact ⟨hx, fun k => h ((hs x).2 k)⟩)
        (fun _ _ h => by cases h) fun c h => by cases h with | operand h => cases h)
  | .paren es t, v, hs, hl, hf => by
    simp only [Src.translate, names, callees] at *
    exact (says_list es v hs hl hf).bind fun es h => Says.pure (named_parenthesise h t)
  | .left first rest, v, hs, hl, hf => by
    simp only [Src.translate, names, callees, List.mem_append] at *
    exact (says_translate first v hs (fun l h => hl l (.inl h)) fun f h => hf f (.inl h)).bind
      fun acc ha => says_left rest v acc ha hs (fun l h => hl l (.inr h)) fun f h => hf f (.inr h)
  | .cmp first rest, v, hs, hl, hf => by
    simp only [Src.translate, names, callees, List.mem_append] at *
    exact (says_translate first v hs (fun l h => hl l (.inl h)) fun f h => hf f (.inl h)).bind
      fun acc ha => says_cmp rest v acc ha hs (fun l h => hl l (.inr h)) fun f h => hf f (.inr h)
  | .fby first rest, v, hs, hl, hf => by
    simp only [Src.translate, names, callees, List.mem_append] at *
    refine (says_fby rest v 1 hs (fun l h => hl l (.inr h)) fun f h => hf f (.inr h)).bind
      fun acc ha => (says_translate first _ (by first | exact hs | (split <;> exact hs)) (fun l h => hl l (.inl h)) fun f h =>
        hf f (.inl h)).bind fun b hb => ?_
    cases acc with
    | none => exact Says.pure hb
    | some x => exact says_mkFby v 0 hb (ha x rfl)
  | .arrow first rest, v, hs, hl, hf => by
    simp only [Src.translate, names, callees, List.mem_append] at *
    refine (says_then rest v 1 hs (fun l h => hl l (.inr h)) fun f h => hf f (.inr h)).bind
      fun acc ha => (says_translate first _ (by exact hs) (fun l h => hl l (.inl h)) fun f h =>
        hf f (.inl h)).bind fun b hb => ?_
    cases acc with
    | none => exact Says.pure hb
    | some x => exact says_mkThen v 0 hb (ha x rfl)
  | .ifx b y n, v, hs, hl, hf => by
    simp only [Src.translate, names, callees, List.mem_append] at *
    refine (says_translate b v hs (fun l h => hl l (.inl h)) fun f h => hf f (.inl h)).bind
      fun b' hb => (says_translate y v hs (fun l h => hl l (.inr (.inl h))) fun f h =>
        hf f (.inr (.inl h))).bind fun y' hy => (says_translate n v hs (fun l h =>
        hl l (.inr (.inr h))) fun f h => hf f (.inr (.inr h))).bind fun n' hn => Says.pure ?_
    refine named_under (fun _ h => by cases h) (fun _ _ h => by cases h) fun c h => ?_
    cases h with
    | operand h => cases h <;> assumption
  | .merge b y n, v, hs, hl, hf => by
    simp only [Src.translate, names, callees, List.mem_append] at *
    refine (says_translate b v hs (fun l h => hl l (.inl h)) fun f h => hf f (.inl h)).bind
      fun b' hb => (says_translate y v hs (fun l h => hl l (.inr (.inl h))) fun f h =>
        hf f (.inr (.inl h))).bind fun y' hy => (says_translate n v hs (fun l h =>
        hl l (.inr (.inr h))) fun f h => hf f (.inr (.inr h))).bind fun n' hn => Says.pure ?_
    refine named_under (fun _ h => by cases h) (fun _ _ h => by cases h) fun c h => ?_
    cases h with
    | operand h => cases h <;> assumption
  | .call f args t, v, hs, hl, hf => by
    simp only [Src.translate, names, callees, List.mem_cons] at *
    exact (says_list args v hs hl fun f h => hf f (.inr h)).bind fun es h =>
      says_mkCall v (named_parenthesise h t) (hf f (.inl rfl))
  | .pre e, v, hs, hl, hf => by
    simp only [Src.translate, names, callees] at *
    split
    · exact says_newRegister.bind fun id _ => (says_translate e v hs hl hf).bind fun e' he =>
        says_mkPre id he
    · refine (says_translate e _ (by exact hs) hl hf).bind fun e' he => Says.pure ?_
      refine named_under (fun _ h => by cases h) (fun _ _ h => by cases h) fun c h => ?_
      cases h with
      | operand h => cases h; assumption
  | .neg e, v, hs, hl, hf => by
    simp only [Src.translate, names, callees] at *
    refine (says_translate e _ (by exact hs) hl hf).bind fun e' he => Says.pure ?_
    refine named_under (fun _ h => by cases h) (fun _ _ h => by cases h) fun c h => ?_
    cases h with
    | operand h => cases h; assumption
  | .not e, v, hs, hl, hf => by
    simp only [Src.translate, names, callees] at *
    refine (says_translate e _ (by exact hs) hl hf).bind fun e' he => Says.pure ?_
    refine named_under (fun _ h => by cases h) (fun _ _ h => by cases h) fun c h => ?_
    cases h with
    | operand h => cases h; assumption
termination_by structural e => e
theorem says_list : (es : List Src) → (v : View) → (∀ x, x ∈ v.shadow ↔ S x) →
    (∀ l ∈ namesList es, N l) → (∀ f ∈ calleesList es, F f) →
    Says F N S (Src.translateList v es) fun es => ∀ e ∈ es, Named N S e
  | [], v, _, _, _ => by simp only [Src.translateList]; exact Says.pure (by simp)
  | e :: es, v, hs, hl, hf => by
    simp only [Src.translateList, namesList, calleesList, List.mem_append] at *
    exact (says_translate e v hs (fun l h => hl l (.inl h)) fun f h => hf f (.inl h)).bind
      fun e' he => (says_list es v hs (fun l h => hl l (.inr h)) fun f h => hf f (.inr h)).bind
        fun es' hes => Says.pure (List.forall_mem_cons.2 ⟨he, hes⟩)
termination_by structural es => es
theorem says_left : (es : List (LOp × Src)) → (v : View) → (acc : Expr) →
    Named N S acc → (∀ x, x ∈ v.shadow ↔ S x) → (∀ l ∈ namesLeft es, N l) →
    (∀ f ∈ calleesLeft es, F f) → Says F N S (Src.translateLeft v acc es) (Named N S)
  | [], v, _, ha, _, _, _ => by simp only [Src.translateLeft]; exact Says.pure ha
  | (op, e) :: es, v, acc, ha, hs, hl, hf => by
    simp only [Src.translateLeft, namesLeft, calleesLeft, List.mem_append] at *
    exact (says_translate e v hs (fun l h => hl l (.inl h)) fun f h => hf f (.inl h)).bind
      fun e' he => says_left es v _ (named_compose op ha he) hs (fun l h => hl l (.inr h))
        fun f h => hf f (.inr h)
termination_by structural es => es
theorem says_cmp : (es : List (CmpOp × Src)) → (v : View) → (acc : Expr) →
    Named N S acc → (∀ x, x ∈ v.shadow ↔ S x) → (∀ l ∈ namesCmp es, N l) →
    (∀ f ∈ calleesCmp es, F f) → Says F N S (Src.translateCmp v acc es) (Named N S)
  | [], v, _, ha, _, _, _ => by simp only [Src.translateCmp]; exact Says.pure ha
  | [(op, e)], v, acc, ha, hs, hl, hf => by
    simp only [Src.translateCmp, namesCmp, calleesCmp, List.mem_append] at *
    refine (says_translate e v hs (fun l h => hl l (.inl h)) fun f h => hf f (.inl h)).bind
      fun e' he => Says.pure ?_
    refine named_under (fun _ h => by cases h) (fun _ _ h => by cases h) fun c h => ?_
    cases h with
    | operand h => cases h <;> assumption
  | (_, e) :: (_, e') :: es, v, acc, ha, hs, hl, hf => by
    simp only [Src.translateCmp, namesCmp, calleesCmp, List.mem_append] at *
    exact (says_translate e v hs (fun l h => hl l (.inl h)) fun f h => hf f (.inl h)).bind
      fun _ _ => (says_translate e' v hs (fun l h => hl l (.inr (.inl h))) fun f h =>
        hf f (.inr (.inl h))).bind fun _ _ => Says.throw
termination_by structural es => es
theorem says_fby : (es : List Src) → (v : View) → (i : Nat) → (∀ x, x ∈ v.shadow ↔ S x) →
    (∀ l ∈ namesList es, N l) → (∀ f ∈ calleesList es, F f) →
    Says F N S (Src.translateFby v i es) fun o => ∀ x, o = some x → Named N S x
  | [], v, i, _, _, _ => by simp only [Src.translateFby]; exact Says.pure (by simp)
  | e :: es, v, i, hs, hl, hf => by
    simp only [Src.translateFby, namesList, calleesList, List.mem_append] at *
    refine (says_fby es v (i + 1) hs (fun l h => hl l (.inr h)) fun f h => hf f (.inr h)).bind
      fun acc ha => (says_translate e _ (by first | exact hs | (split <;> exact hs)) (fun l h => hl l (.inl h)) fun f h => hf f (.inl h)).bind
        fun b hb => ?_
    cases acc with
    | none => exact Says.pure (by rintro x ⟨⟩; exact hb)
    | some x => exact (says_mkFby v i hb (ha x rfl)).bind fun y hy =>
        Says.pure (by rintro x ⟨⟩; exact hy)
termination_by structural es => es
theorem says_then : (es : List Src) → (v : View) → (i : Nat) → (∀ x, x ∈ v.shadow ↔ S x) →
    (∀ l ∈ namesList es, N l) → (∀ f ∈ calleesList es, F f) →
    Says F N S (Src.translateThen v i es) fun o => ∀ x, o = some x → Named N S x
  | [], v, i, _, _, _ => by simp only [Src.translateThen]; exact Says.pure (by simp)
  | e :: es, v, i, hs, hl, hf => by
    simp only [Src.translateThen, namesList, calleesList, List.mem_append] at *
    refine (says_then es v (i + 1) hs (fun l h => hl l (.inr h)) fun f h => hf f (.inr h)).bind
      fun acc ha => (says_translate e _ (by exact hs) (fun l h => hl l (.inl h)) fun f h => hf f (.inl h)).bind
        fun b hb => ?_
    cases acc with
    | none => exact Says.pure (by rintro x ⟨⟩; exact hb)
    | some x => exact (says_mkThen v i hb (ha x rfl)).bind fun y hy =>
        Says.pure (by rintro x ⟨⟩; exact hy)
termination_by structural es => es
end

theorem says_stmts (v : View) (hs : ∀ x, x ∈ v.shadow ↔ S x) : (sts : List SrcStmt) →
    (∀ st ∈ sts, ∀ x ∈ names (SrcStmt.expr st), N x) →
    (∀ st ∈ sts, ∀ f ∈ callees (SrcStmt.expr st), F f) →
    Says F N S (translateStmts v sts) fun _ => True
  | [], _, _ => Says.pure trivial
  | st :: sts, hl, hf => by
    simp only [List.mem_cons, forall_eq_or_imp] at hl hf
    unfold translateStmts
    refine Says.bind (Q := fun _ => True) ?_ fun _ _ => says_stmts v hs sts hl.2 hf.2
    cases st with
    | assert e => exact (says_translate e v hs hl.1 hf.1).bind fun x hx => says_push (by
        simpa [values] using hx)
    | def_ t e => exact (says_translate e v hs hl.1 hf.1).bind fun x hx => says_push (by
        simpa [values] using hx)

end

end Chandeliers.Den
