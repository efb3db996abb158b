import Verif.Spec.Compile
import Verif.Lemmas.TranslateNode
import Verif.Lemmas.NodeTyping
import Verif.Lemmas.Clockcheck
import Verif.Lemmas.PositiveNode
import Verif.Lemmas.Reorder

/-! What the passes leave of a node. -/

set_option autoImplicit false

namespace Chandeliers.Den
open Chandeliers.San Chandeliers.Spec Chandeliers.Syn Chandeliers.Err

/-! ## Lists of statements -/

theorem evaluated_withClocks {clk : Nat → Expr} {st : Stmt} {e : Expr}
    (h : e ∈ evaluated (Stmt.withClocks clk st)) :
    e ∈ evaluated st ∨ ∃ id ∈ initialised [st], e = clk id := by
  cases st with
  | initRegister id i c =>
    simp only [Stmt.withClocks, evaluated, Option.toList_some, List.cons_append, List.nil_append,
      List.mem_cons] at h
    rcases h with h | h
    · exact .inr ⟨id, by simp [initialised], h⟩
    · exact .inl (by simp [evaluated, h])
  | _ => exact .inl h

theorem updated_withClocks (clk : Nat → Expr) (l : List Stmt) :
    updated (l.map (Stmt.withClocks clk)) = updated l := by
  induction l with
  | nil => rfl
  | cons st l ih => cases st <;> simp [updated, Stmt.withClocks, ih]

theorem occurrencesIn_withClocks (clk : Nat → Expr) (l : List Stmt) :
    occurrencesIn (l.map (Stmt.withClocks clk)) = occurrencesIn l := by
  induction l with
  | nil => rfl
  | cons st l ih => cases st <;> simp [occurrencesIn, Stmt.withClocks, ih]

theorem flatBinds_withClocks (clk : Nat → Expr) (l : List Stmt) :
    (l.map (Stmt.withClocks clk)).flatMap binds = l.flatMap binds := by
  rw [List.flatMap_map]
  exact congrArg (List.flatMap · l) (funext fun st => binds_withClocks clk st)

theorem assigned_binds (l : List Stmt) : assigned l = l.flatMap binds := by
  induction l with
  | nil => rfl
  | cons st l ih => cases st <;> simp [assigned, binds, ih]

theorem live_clockExpr (k : Clk) : live (clockExpr k) = [] := by cases k <;> rfl

theorem parts_clockExpr {k : Clk} {p : Expr} (h : p ∈ parts (clockExpr k)) :
    (∃ l, p = .lit l) ∨ (∃ x, p = .var x 0) ∨ ∃ e, p = .un .not e := by
  cases k <;> simp [clockExpr, parts] at h
  · exact .inl ⟨_, h⟩
  · exact .inl ⟨_, h⟩
  · exact .inr (.inl ⟨_, h⟩)
  · rcases h with h | h
    · exact .inr (.inr ⟨_, h⟩)
    · exact .inr (.inl ⟨_, h⟩)

theorem liveIn_withClocks {clk : Nat → Expr} {st : Stmt}
    (hc : ∀ id ∈ initialised [st], ∃ k, clk id = clockExpr k)
    (hn : ∀ id i k, st = .initRegister id i k → k = none) :
    liveIn (Stmt.withClocks clk st) = liveIn st := by
  cases st with
  | initRegister id i c =>
    obtain ⟨k, hk⟩ := hc id (by simp [initialised])
    cases hn id i c rfl
    simp [liveIn, Stmt.withClocks, evaluated, hk, live_clockExpr]
  | _ => rfl

mutual
/-- The places that hold state, but for registers. -/
theorem live_places : (e : Expr) → live e = (places e).filter (fun s => match s with | .reg _ => false | _ => true)
  | .lit _ => rfl
  | .global _ => rfl
  | .var _ _ => rfl
  | .tuple es => by simp only [live, places, live_placesList es]
  | .dummyPre e => by simp only [live, places, live_places e]
  | .dummyParen e => by simp only [live, places, live_places e]
  | .bin _ l r => by simp only [live, places, live_places l, live_places r, List.filter_append]
  | .un _ e => by simp only [live, places, live_places e]
  | .cmp _ l r => by simp only [live, places, live_places l, live_places r, List.filter_append]
  | .clock _ l r => by simp only [live, places, live_places l, live_places r, List.filter_append]
  | .later _ l r => by simp only [live, places, live_places l, live_places r, List.filter_append]
  | .fetchPre _ _ => rfl
  | .fetchFby _ _ _ => rfl
  | .flip i l r => by
    simp only [live, places, live_places l, live_places r, List.filter_append, List.filter_cons,
      if_true]
  | .ifx b y n => by
    simp only [live, places, live_places b, live_places y, live_places n, List.filter_append]
  | .merge b y n => by
    simp only [live, places, live_places b, live_places y, live_places n, List.filter_append]
  | .substep _ i e => by simp only [live, places, live_places e, List.filter_cons, if_true]
/-- Of a list. -/
theorem live_placesList : (es : List Expr) →
    liveList es = (placesList es).filter (fun s => match s with | .reg _ => false | _ => true)
  | [] => rfl
  | e :: es => by
    simp only [liveList, placesList, live_places e, live_placesList es, List.filter_append]
end

theorem liveIn_places (l : List Stmt) : l.flatMap liveIn =
    (l.flatMap placesIn).filter (fun s => match s with | .reg _ => false | _ => true) := by
  have h : ∀ st, liveIn st =
      (placesIn st).filter (fun s => match s with | .reg _ => false | _ => true) := by
    intro st
    unfold liveIn placesIn
    induction evaluated st with
    | nil => rfl
    | cons e es ih => simp only [List.flatMap_cons, List.filter_append, ih, live_places e]
  induction l with
  | nil => rfl
  | cons st l ih => simp only [List.flatMap_cons, List.filter_append, ih, h st]

theorem slotsBetween_nodup (c c' : ExprCtx) : (slotsBetween c c').Nodup := by
  unfold slotsBetween
  rw [List.nodup_append, List.nodup_append]
  have h1 : ∀ f : Nat → Slot, Function.Injective f → ∀ a b, ((List.range' a b).map f).Nodup :=
    fun f hf a b => (List.nodup_range').map hf
  refine ⟨⟨h1 _ (fun a b h => by cases h; rfl) _ _, h1 _ (fun a b h => by cases h; rfl) _ _, ?_⟩,
    h1 _ (fun a b h => by cases h; rfl) _ _, ?_⟩
  · intro x hx y hy e
    obtain ⟨_, _, rfl⟩ := List.mem_map.1 hx
    obtain ⟨_, _, rfl⟩ := List.mem_map.1 hy
    cases e
  · intro x hx y hy e
    obtain ⟨_, _, rfl⟩ := List.mem_map.1 hy
    rcases List.mem_append.1 hx with hx | hx <;> obtain ⟨_, _, rfl⟩ := List.mem_map.1 hx <;> cases e

theorem slotsOf_perm {l l' : List Stmt} (h : l.Perm l') : (slotsOf l).Perm (slotsOf l') := by
  have e : ∀ l, slotsOf l = l.flatMap fun st => slotsOf [st] := by
    intro l
    induction l with
    | nil => rfl
    | cons st l ih => rw [slotsOf_cons, List.flatMap_cons, ih]
  rw [e l, e l']
  exact h.flatMap_right _

theorem declsTyped_nodup {vs : List TyVar} (h : DeclsTyped vs) : (vs.map (·.name)).Nodup := by
  induction h with
  | nil => simp
  | snoc _ hn _ ih =>
    rw [List.map_append, List.nodup_append]
    refine ⟨ih, by simp, ?_⟩
    intro x hx y hy
    obtain ⟨w, hw, rfl⟩ := List.mem_map.1 hx
    simp only [List.map_cons, List.map_nil, List.mem_singleton] at hy
    subst hy
    exact hn w hw

theorem declared_withDepths (n : Node) (m : Depths) : (declared (n.withDepths m)).map (·.name) =
    (declared n).map (·.name) := by
  simp [declared, Node.withDepths, setDepths, Function.comp_def]

/-! ## The whole chain -/

/-- What the passes leave of a node: the statements of the translation in another order, with the
clocks of registers; what the type checker learned; the depths of histories. -/
structure Final (b : Bool) (o : TyOpts) (sigs : String → Option Sig)
    (consts : String → Option TyBase) (src : SrcNode) (n n₁ n₂ : Node) (c : ExprCtx) (ctx : TyCtx)
    (clk : Nat → Expr) (m : Depths) (K : String → Option Clk) : Prop where
  translated : src.translate b = .ok n₁
  stmts : translateStmts (src.view b) src.defs {} = .ok ((), c)
  built : Built (src.view b) {} c c.stmts
  start : n₁ = { name := src.name, inputs := translateArgs src.inputs,
                 outputs := translateArgs src.outputs, locals := translateArgs src.locals,
                 blocks := c.blocks, stmts := c.stmts,
                 registers := List.replicate c.registers none, flips := c.flips }
  causality : n₁.causality = .ok n₂
  perm : n₂.stmts.Perm c.stmts
  same : n₂ = { n₁ with stmts := n₂.stmts }
  sig : SigTyped (o.main || o.test) o.generics n₂.inputs n₂.outputs n₂.locals
  decls : DeclsTyped (n₂.inputs ++ n₂.outputs ++ n₂.locals)
  blocks : ∀ b ∈ n₂.blocks, ∃ s, sigs b.name = some s
  types : ∃ a a' : EAccum Diag, Chk.inScope (n₂.stmts.map Stmt.typecheck)
    (a, bodyCtx sigs consts n₂) = (.some (), (a', ctx))
  clocked : NodeClocked false (n₂.fill ctx) K
  clocks : ∀ id ∈ initialised n₂.stmts, ∃ f k, (id, f) ∈ n₂.stmts.flatMap fetchesIn ∧
    HasClock false K f k ∧ clk id = clockExpr k
  tracks : Tracks (fun _ => none) m (occurrencesIn n₂.stmts)
  final : n = (Node.withClocks clk (n₂.fill ctx)).withDepths m

theorem passes_final {b : Bool} {o : TyOpts} {sigs : String → Option Sig}
    {consts : String → Option TyBase} {src : SrcNode} {n : Node} (h : Passes b o sigs consts src n) :
    ∃ n₁ n₂ c ctx clk m K, Final b o sigs consts src n n₁ n₂ c ctx clk m K := by
  obtain ⟨n₁, n₂, n₃, n₄, h1, h2, ⟨⟨a, u⟩, s', h3⟩, ⟨s1, s2, h4⟩, ⟨s3, s4, h5⟩⟩ := h
  obtain ⟨c, hc, e1⟩ := node_translate h1
  obtain ⟨new, hb⟩ := built_stmts hc
  have hnew : c.stmts = new := by simpa using hb.stmts
  subst hnew
  obtain ⟨hp, hsame⟩ := Props.C22_node h2
  obtain ⟨j1, j2, j3, a', ctx, j4, rfl, -⟩ := nodeTypecheck_some.1 h3
  have hnames : ((declared (n₂.fill ctx)).map (·.name)).Nodup := declsTyped_nodup j2
  obtain ⟨-, -, K, hK, -, clk, rfl, hclk⟩ := Clk.node_clk_sound hnames h4
  obtain ⟨m, ht, -, rfl⟩ := makePositive_some h5
  refine ⟨n₁, n₂, c, ctx, clk, m, K, h1, hc, hb, e1, h2, ?_, ?_, j1, j2, j3, ⟨a, a', j4⟩, hK, hclk, ?_, rfl⟩
  · rw [e1] at hp; exact hp
  · rw [← hsame]
  · have : occurrencesIn (Node.withClocks clk (n₂.fill ctx)).stmts = occurrencesIn n₂.stmts :=
      occurrencesIn_withClocks clk _
    rw [this] at ht
    exact ht

section
variable {b : Bool} {o : TyOpts} {sigs : String → Option Sig}
  {consts : String → Option TyBase} {src : SrcNode} {n n₁ n₂ : Node} {c : ExprCtx} {ctx : TyCtx}
  {clk : Nat → Expr} {m : Depths} {K : String → Option Clk}

theorem Final.inputs_names (h : Final b o sigs consts src n n₁ n₂ c ctx clk m K) :
    n.inputs.map (·.name) = n₁.inputs.map (·.name) := by
  have e : n₂.inputs = n₁.inputs := by rw [h.same]
  rw [h.final, ← e]
  simp [Node.withDepths, setDepths, Node.withClocks, Node.fill, Function.comp_def]

theorem Final.final_stmts (h : Final b o sigs consts src n n₁ n₂ c ctx clk m K) :
    n.stmts = n₂.stmts.map (Stmt.withClocks clk) := by rw [h.final]; rfl

theorem Final.declared_names (h : Final b o sigs consts src n n₁ n₂ c ctx clk m K) :
    (declared n).map (·.name) = (src.view b).shadow := by
  rw [h.final, declared_withDepths, h.same, h.start]
  rfl

theorem Final.init_none (h : Final b o sigs consts src n n₁ n₂ c ctx clk m K) {id : Nat}
    {i k : Option Expr} (hm : .initRegister id i k ∈ n₂.stmts) : k = none :=
  h.built.clocks id i k (h.perm.mem_iff.1 hm)

/-- What is evaluated is evaluated in the translation, or is the clock of a register. -/
theorem Final.evaluated (h : Final b o sigs consts src n n₁ n₂ c ctx clk m K) {st : Stmt}
    (hst : st ∈ n.stmts) {e : Expr} (he : e ∈ evaluated st) :
    (∃ st' ∈ c.stmts, e ∈ Spec.evaluated st') ∨
      ∃ id ∈ initialised n₂.stmts, ∃ k, e = clk id ∧ clk id = clockExpr k := by
  rw [h.final_stmts] at hst
  obtain ⟨st', h1, rfl⟩ := List.mem_map.1 hst
  rcases evaluated_withClocks he with h2 | ⟨id, h2, rfl⟩
  · exact .inl ⟨st', h.perm.mem_iff.1 h1, h2⟩
  · have : id ∈ initialised n₂.stmts := by
      obtain ⟨i, k, h3⟩ := mem_initialised'.1 h2
      simp only [List.mem_singleton] at h3
      exact mem_initialised'.2 ⟨i, k, h3 ▸ h1⟩
    obtain ⟨_, k, _, _, hk⟩ := h.clocks id this
    exact .inr ⟨id, this, k, rfl, hk⟩

theorem Final.okay (h : Final b o sigs consts src n n₁ n₂ c ctx clk m K) {st : Stmt}
    (hst : st ∈ c.stmts) {e p : Expr} (he : e ∈ Spec.evaluated st) (hp : p ∈ parts e) :
    Okay (src.view b) c.stmts p :=
  h.built.parts e (List.mem_flatMap.2 ⟨st, hst, he⟩) p hp

theorem Final.update_mem (h : Final b o sigs consts src n n₁ n₂ c ctx clk m K) {id : Nat} {f : Expr} :
    .updateRegister id f ∈ n.stmts ↔ .updateRegister id f ∈ c.stmts := by
  rw [h.final_stmts, List.mem_map, ← h.perm.mem_iff]
  constructor
  · rintro ⟨st, h1, h2⟩
    cases st <;> simp [Stmt.withClocks] at h2
    obtain ⟨rfl, rfl⟩ := h2
    exact h1
  · intro h1
    exact ⟨_, h1, rfl⟩

theorem Final.init_mem (h : Final b o sigs consts src n n₁ n₂ c ctx clk m K) {id : Nat}
    {i : Option Expr} (hm : .initRegister id i none ∈ c.stmts) :
    .initRegister id i (some (clk id)) ∈ n.stmts := by
  rw [h.final_stmts]
  exact List.mem_map.2 ⟨_, h.perm.mem_iff.2 hm, rfl⟩

mutual
/-- Occurrences of variables include those among the parts. -/
theorem occurrence_of_part {x : String} {d : Nat} : (e : Expr) → .var x d ∈ parts e →
    (x, d) ∈ occurrences e
  | .lit _, h => by simp [parts] at h
  | .global _, h => by simp [parts] at h
  | .var _ _, h => by simpa [parts, occurrences] using h
  | .tuple es, h => by
    simp only [parts, List.mem_cons, reduceCtorEq, false_or] at h
    exact occurrence_of_partList es h
  | .dummyPre e, h => by
    simp only [parts, List.mem_cons, reduceCtorEq, false_or] at h
    exact occurrence_of_part e h
  | .dummyParen e, h => by
    simp only [parts, List.mem_cons, reduceCtorEq, false_or] at h
    exact occurrence_of_part e h
  | .bin _ l r, h => by
    simp only [parts, List.mem_cons, List.mem_append, reduceCtorEq, false_or] at h
    simp only [occurrences, List.mem_append]
    exact h.imp (occurrence_of_part l) (occurrence_of_part r)
  | .un _ e, h => by
    simp only [parts, List.mem_cons, reduceCtorEq, false_or] at h
    exact occurrence_of_part e h
  | .cmp _ l r, h => by
    simp only [parts, List.mem_cons, List.mem_append, reduceCtorEq, false_or] at h
    simp only [occurrences, List.mem_append]
    exact h.imp (occurrence_of_part l) (occurrence_of_part r)
  | .clock _ l r, h => by
    simp only [parts, List.mem_cons, List.mem_append, reduceCtorEq, false_or] at h
    simp only [occurrences, List.mem_append]
    exact (h.imp (occurrence_of_part l) (occurrence_of_part r)).symm
  | .later _ l r, h => by
    simp only [parts, List.mem_cons, List.mem_append, reduceCtorEq, false_or] at h
    simp only [occurrences, List.mem_append]
    exact h.imp (occurrence_of_part l) (occurrence_of_part r)
  | .fetchPre _ _, h => by simp [parts] at h
  | .fetchFby _ _ _, h => by simp [parts] at h
  | .flip _ l r, h => by
    simp only [parts, List.mem_cons, List.mem_append, reduceCtorEq, false_or] at h
    simp only [occurrences, List.mem_append]
    exact h.imp (occurrence_of_part l) (occurrence_of_part r)
  | .ifx b y z, h => by
    simp only [parts, List.mem_cons, List.mem_append, reduceCtorEq, false_or] at h
    simp only [occurrences, List.mem_append]
    exact h.imp (occurrence_of_part b) (Or.imp (occurrence_of_part y) (occurrence_of_part z))
  | .merge b y z, h => by
    simp only [parts, List.mem_cons, List.mem_append, reduceCtorEq, false_or] at h
    simp only [occurrences, List.mem_append]
    exact h.imp (occurrence_of_part b) (Or.imp (occurrence_of_part y) (occurrence_of_part z))
  | .substep _ _ e, h => by
    simp only [parts, List.mem_cons, reduceCtorEq, false_or] at h
    exact occurrence_of_part e h
/-- Of a list. -/
theorem occurrence_of_partList {x : String} {d : Nat} : (es : List Expr) → .var x d ∈ partsList es →
    (x, d) ∈ occurrencesList es
  | [], h => by simp [partsList] at h
  | e :: es, h => by
    simp only [partsList, List.mem_append] at h
    simp only [occurrencesList, List.mem_append]
    exact h.imp (occurrence_of_part e) (occurrence_of_partList es)
end

theorem mem_occurrencesIn {l : List Stmt} {p : String × Nat} : p ∈ occurrencesIn l ↔
    ∃ st ∈ l, p ∈ occurrencesIn [st] := by
  induction l with
  | nil => simp [occurrencesIn]
  | cons st l ih => cases st <;> simp [occurrencesIn, ih]

/-- Histories are deep enough for the equations. -/
theorem Final.depth (h : Final b o sigs consts src n n₁ n₂ c ctx clk m K) {x : String} {d : Nat}
    (hx : (x, d + 1) ∈ occurrencesIn n₂.stmts) (hd : x ∈ (src.view b).shadow) :
    ∃ v ∈ declared n, v.name = x ∧ d + 1 ≤ v.depth := by
  obtain ⟨k, hk, hle⟩ := (h.tracks x).1 _ hx
  rw [← h.declared_names, List.mem_map] at hd
  obtain ⟨v, hv, rfl⟩ := hd
  have hv' := hv
  rw [h.final] at hv'
  obtain ⟨w, -, -, hw⟩ := mem_declared hv'
  refine ⟨v, hv, rfl, ?_⟩
  rw [hw, hk]
  exact hle

theorem Final.once (h : Final b o sigs consts src n n₁ n₂ c ctx clk m K) :
    (n.inputs.map (·.name) ++ n.stmts.flatMap binds).Nodup := by
  obtain ⟨h1, h2, -⟩ := Props.C25_exactly_one_definition h.causality
  have hn : ((declared n).map (·.name)).Nodup := by
    have := declsTyped_nodup h.decls
    rw [h.final, declared_withDepths]
    exact this
  rw [h.final_stmts, flatBinds_withClocks, ← assigned_binds, List.nodup_append]
  refine ⟨?_, h1, ?_⟩
  · refine hn.sublist ?_
    simp [declared]
  · intro x hx y hy e
    subst e
    rw [h.inputs_names] at hx
    obtain ⟨v, hv, rfl⟩ := List.mem_map.1 hx
    exact h2 v hv hy

theorem Final.defined (h : Final b o sigs consts src n n₁ n₂ c ctx clk m K) :
    ∀ v ∈ n.outputs ++ n.locals, ∃ st ∈ n.stmts, v.name ∈ binds st := by
  obtain ⟨-, -, h3⟩ := Props.C25_exactly_one_definition h.causality
  intro v hv
  have : ∃ w ∈ n₁.locals ++ n₁.outputs, w.name = v.name := by
    rw [h.final, h.same] at hv
    simp only [Node.withDepths, setDepths, Node.withClocks, Node.fill, List.mem_append,
      List.mem_map] at hv ⊢
    rcases hv with ⟨w, hw, rfl⟩ | ⟨w, hw, rfl⟩
    · exact ⟨w, .inr hw, rfl⟩
    · exact ⟨w, .inl hw, rfl⟩
  obtain ⟨w, hw, e⟩ := this
  have := h3 w hw
  rw [e, assigned_binds, ← flatBinds_withClocks clk, ← h.final_stmts] at this
  exact List.mem_flatMap.1 this

theorem Final.deep_parts (h : Final b o sigs consts src n n₁ n₂ c ctx clk m K) {st' : Stmt}
    (h1 : st' ∈ c.stmts) {e : Expr} (h2 : e ∈ Spec.evaluated st') {x : String} {d : Nat}
    (hp' : .var x (d + 1) ∈ parts e) : ∃ v ∈ declared n, v.name = x ∧ d + 1 ≤ v.depth := by
  obtain ⟨h3, h4⟩ := h.okay h1 h2 hp'
  cases b with
  | true => have := h4 rfl; simp [SrcNode.view] at this
  | false =>
    refine h.depth (mem_occurrencesIn.2 ⟨st', h.perm.mem_iff.2 h1, ?_⟩) h3
    have h5 := occurrence_of_part e hp'
    have hr := (h.built.plain rfl).1
    have e1 : updated c.stmts = [] := by
      have := h.built.updates
      rw [regsBetween, hr] at this
      simpa using this
    have e2 : initialised c.stmts = [] := by
      have := h.built.inits
      rw [regsBetween, hr] at this
      simpa using this
    cases st' with
    | let_ t e' =>
      simp only [Spec.evaluated, List.mem_singleton] at h2
      subst h2
      simpa [occurrencesIn] using h5
    | assert e' =>
      simp only [Spec.evaluated, List.mem_singleton] at h2
      subst h2
      simpa [occurrencesIn] using h5
    | updateRegister id f =>
      have : id ∈ updated c.stmts := mem_updated.2 ⟨f, h1⟩
      rw [e1] at this
      simp at this
    | initRegister id i k =>
      have : id ∈ initialised c.stmts := mem_initialised'.2 ⟨i, k, h1⟩
      rw [e2] at this
      simp at this

theorem Final.deep (h : Final b o sigs consts src n n₁ n₂ c ctx clk m K) :
    ∀ st ∈ n.stmts, ∀ e ∈ Spec.evaluated st, ∀ x d, Part (.var x (d + 1)) e →
      ∃ v ∈ declared n, v.name = x ∧ d + 1 ≤ v.depth := by
  intro st hst e he x d hp
  have hp' := mem_parts_of_part hp
  rcases h.evaluated hst he with ⟨st', h1, h2⟩ | ⟨id, h1, k, rfl, h2⟩
  · exact h.deep_parts h1 h2 hp'
  · rw [h2] at hp'
    rcases parts_clockExpr hp' with ⟨_, e⟩ | ⟨_, e⟩ | ⟨_, e⟩ <;> cases e

theorem Final.live (h : Final b o sigs consts src n n₁ n₂ c ctx clk m K) :
    n.stmts.flatMap liveIn = n₂.stmts.flatMap liveIn := by
  rw [h.final_stmts, List.flatMap_map]
  have : ∀ l : List Stmt, (∀ st ∈ l, st ∈ n₂.stmts) →
      l.flatMap (fun st => liveIn (Stmt.withClocks clk st)) = l.flatMap liveIn := by
    intro l hl
    induction l with
    | nil => rfl
    | cons st l ih =>
      rw [List.flatMap_cons, List.flatMap_cons, ih fun s hs => hl s (by simp [hs])]
      rw [liveIn_withClocks]
      · intro id hid
        obtain ⟨i, k, h3⟩ := mem_initialised'.1 hid
        simp only [List.mem_singleton] at h3
        obtain ⟨_, k, _, _, hk⟩ := h.clocks id (mem_initialised'.2 ⟨_, _, h3 ▸ hl st (by simp)⟩)
        exact ⟨k, hk⟩
      · intro id i k e
        exact h.init_none (e ▸ hl st (by simp))
  exact this _ fun _ h => h

/-- The node is well put together. -/
theorem Final.wired (h : Final b o sigs consts src n n₁ n₂ c ctx clk m K) : Wired n where
  names := by
    have := declsTyped_nodup h.decls
    rw [h.final, declared_withDepths]
    exact this
  once := h.once
  defined := h.defined
  deep := h.deep
  slots := by
    rw [h.live, (h.perm.flatMap_right _).nodup_iff, liveIn_places]
    exact (h.built.slots.nodup_iff.2 (slotsBetween_nodup _ _)).filter _
  flips := by
    intro st hst i hi
    have h1 : Slot.flip i ∈ n.stmts.flatMap liveIn := List.mem_flatMap.2 ⟨st, hst, hi⟩
    rw [h.live, (h.perm.flatMap_right _).mem_iff, liveIn_places] at h1
    have h2 := h.built.slots.mem_iff.1 (List.mem_filter.1 h1).1
    have e : n.flips = c.flips := by rw [h.final, h.same, h.start]; rfl
    simp [slotsBetween] at h2
    omega
  inits := by
    rw [h.final_stmts, initialised_withClocks, (initialised_perm h.perm).nodup_iff,
      h.built.inits.nodup_iff]
    exact List.nodup_range'
  updates := by
    rw [h.final_stmts, updated_withClocks, (updated_perm h.perm).nodup_iff,
      h.built.updates.nodup_iff]
    exact List.nodup_range'
  paired := by
    intro id
    rw [h.final_stmts, initialised_withClocks, updated_withClocks, (initialised_perm h.perm).mem_iff,
      (updated_perm h.perm).mem_iff, h.built.inits.mem_iff, h.built.updates.mem_iff]
  registers := by
    intro id hid
    rw [h.final_stmts, updated_withClocks, (updated_perm h.perm).mem_iff,
      h.built.updates.mem_iff] at hid
    have e : n.registers.length = c.registers := by
      rw [h.final, h.same, h.start]; simp [Node.withDepths, Node.withClocks, Node.fill]
    simp [regsBetween] at hid
    omega
  fetchPre := by
    intro st hst e he id f hp
    have hp' := mem_parts_of_part hp
    rcases h.evaluated hst he with ⟨st', h1, h2⟩ | ⟨id, h1, k, rfl, h2⟩
    · obtain ⟨-, h3, h4⟩ := h.okay h1 h2 hp'
      exact ⟨h.update_mem.2 h3, _, h.init_mem h4⟩
    · rw [h2] at hp'
      rcases parts_clockExpr hp' with ⟨_, e⟩ | ⟨_, e⟩ | ⟨_, e⟩ <;> cases e
  fetchFby := by
    intro st hst e he id i f hp
    have hp' := mem_parts_of_part hp
    rcases h.evaluated hst he with ⟨st', h1, h2⟩ | ⟨id, h1, k, rfl, h2⟩
    · obtain ⟨-, h3, h4⟩ := h.okay h1 h2 hp'
      exact ⟨h.update_mem.2 h3, _, h.init_mem h4⟩
    · rw [h2] at hp'
      rcases parts_clockExpr hp' with ⟨_, e⟩ | ⟨_, e⟩ | ⟨_, e⟩ <;> cases e

end

end Chandeliers.Den
