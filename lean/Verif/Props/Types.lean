import Verif.Lemmas.NodeTyping

/-! # C27, C44, C43: unification, the type checker against the typing rules, honest reports -/

set_option autoImplicit false
set_option linter.unusedSectionVars false

namespace Chandeliers.Props
open Chandeliers.Err Chandeliers.Err.Chk Chandeliers.San Chandeliers.Spec

/-! ## C27 -/

/-- C27: when matching a formal type against an actual one succeeds, the choices made turn the
formal type into the actual one. -/
theorem C27_unify_sound {gens : List String} {u : TyUnifier}
    (hu : TyUnifier.fromGenerics gens = some u) {t r : TyTuple} (ht : ∀ x ∈ tyVars t, x ∈ gens)
    {a a' : EAccum Diag} {u' : TyUnifier} (h : t.identical r (a, u) = (.some (), (a', u'))) :
    ∃ θ : Subst, substTy θ t = r ∧ ∀ x ∈ tyVars t, u'.image x = some (θ x) := by
  obtain ⟨hwf, -⟩ := fromGenerics_wf hu
  obtain ⟨u1, e, m⟩ := identical_matches t hwf ht h
  cases e
  have hb : u'.Below (fun x => (u'.val x).getD .int) := by
    intro x v hx; simp [hx]
  refine ⟨_, m.sound _ hb, fun x hx => ?_⟩
  obtain ⟨v, hv⟩ := m.dom x hx
  simp only [hv, Option.getD_some]
  have hw := m.wf
  cases u' with
  | identity => simp [TyUnifier.val] at hv
  | null => simp [TyUnifier.val] at hv
  | mapping idx subst =>
    simp only [TyUnifier.val] at hv
    simp only [TyUnifier.image]
    cases hi : idx x with
    | none => simp [hi] at hv
    | some i =>
      rw [hi] at hv
      cases hs : subst[i]? with
      | none => simp [hs] at hv
      | some o =>
        simp only [Option.bind_some, hs, Option.join_some] at hv ⊢
        exact hv

/-- C27: when some substitution makes them equal, matching succeeds. -/
theorem C27_unify_complete {gens : List String} {u : TyUnifier}
    (hu : TyUnifier.fromGenerics gens = some u) {t : TyTuple} (ht : ∀ x ∈ tyVars t, x ∈ gens)
    (θ : Subst) (a : EAccum Diag) : ∃ u', t.identical (substTy θ t) (a, u) = (.some (), (a, u')) := by
  obtain ⟨hwf, hn⟩ := fromGenerics_wf hu
  obtain ⟨u', h, -⟩ := identical_complete t hwf ht (θ := θ) (fun x v hx => by simp [hn] at hx) rfl a
  exact ⟨u', h⟩

/-- C27: when none does, matching reports an error; it does not panic. -/
theorem C27_unify_refuses {gens : List String} {u : TyUnifier}
    (hu : TyUnifier.fromGenerics gens = some u) {t r : TyTuple} (ht : ∀ x ∈ tyVars t, x ∈ gens)
    (hr : ¬ ∃ θ, substTy θ t = r) (a : EAccum Diag) :
    (t.identical r (a, u)).1 = .none ∧
      ∃ e es, (t.identical r (a, u)).2.1.err = a.err ++ e :: es := by
  obtain ⟨hwf, -⟩ := fromGenerics_wf hu
  have hc := (identical_calm (P := fun u => u.Wf gens)
    (fun l r hl => requireIdentical_calm hl r) t r ht a u hwf).1
  have hnone : (t.identical r (a, u)).1 = .none := by
    cases hx : (t.identical r (a, u)).1 with
    | abort => exact absurd hx hc
    | none => rfl
    | some v =>
      exfalso
      obtain ⟨θ, hθ, -⟩ := C27_unify_sound hu ht (a := a)
        (a' := (t.identical r (a, u)).2.1) (u' := (t.identical r (a, u)).2.2) (r := r) (by rw [← hx])
      exact hr ⟨θ, hθ⟩
  exact ⟨hnone, (identical_honest t r).none_err (a, u) hnone⟩

/-- C27: distinct generics always give a unifier to start from. -/
theorem C27_starts {gens : List String} :
    gens.Nodup ↔ ∃ u, TyUnifier.fromGenerics gens = some u :=
  ⟨fromGenerics_ok, fun ⟨_, h⟩ => fromGenerics_nodup h⟩

/-- C27: a call is accepted exactly when the type of its argument is an instance of the inputs of
the node; its type is the same instance of the outputs; and this instance is what is recorded for
the generated code. -/
theorem C27_call {c c1 : TyCtx} (hc : c.Wf) {id d : Nat} {gens : List String}
    {ins outs : List TyBase} (hg : ∃ o, c.nodesGenerics id = some (gens, o))
    (hi : c.nodesIn id = some ins) (ho : c.nodesOut id = some outs) {a : EAccum Diag} {args : Expr}
    {t : TyTuple} (hargs : args.typecheck (a, c) = (.some t, (a, c1))) {u : TyTuple}
    {s' : EAccum Diag × TyCtx} :
    (Expr.substep d id args).typecheck (a, c) = (.some u, s') ↔
      ∃ θ : Subst, substTy θ (flatTuple ins) = t ∧ u = substTy θ (flatTuple outs) ∧
        s'.1 = a ∧ s'.2.nodesGenerics id = some (gens, some (gens.map θ)) ∧
        s'.2 = { c1 with nodesGenerics := s'.2.nodesGenerics } ∧
        ∀ j, j ≠ id → s'.2.nodesGenerics j = c1.nodesGenerics j := by
  obtain ⟨o, hg⟩ := hg
  obtain ⟨c1', e, fr, -⟩ := typecheck_sound _ _ _ _ _ hc hargs
  cases e
  have hg1 : ∃ o', c1.nodesGenerics id = some (gens, o') := by
    have := fr.gens id
    rw [hg] at this
    cases hx : c1.nodesGenerics id with
    | none => rw [hx] at this; cases this
    | some p =>
      obtain ⟨g, o'⟩ := p
      rw [hx] at this
      simp only [Option.map_some, Option.some.injEq] at this
      subst this
      exact ⟨o', rfl⟩
  obtain ⟨o', hg1⟩ := hg1
  have ho1 : c1.nodesOut id = some outs := fr.nodesOut ▸ ho
  have key := callType_some (a := a) (actual := t) (t := u) (s' := s') hg1 ho1
    (hc id _ _ _ _ hg hi ho)
  have hrun : (Expr.substep d id args).typecheck (a, c) = callType id gens ins t (a, c1) := by
    rw [substep_typecheck, run_bind, getOrAbort_some.2 ⟨hi, rfl⟩]
    dsimp only
    rw [run_bind, getOrAbort_some.2 ⟨hg, rfl⟩]
    dsimp only
    rw [run_bind, hargs]
  rw [hrun, key]
  constructor
  · rintro ⟨θ, h1, h2, rfl⟩
    exact ⟨θ, h1, h2, rfl, by simp [TyCtx.inst], rfl, fun j hj => by simp [TyCtx.inst, hj]⟩
  · rintro ⟨θ, h1, h2, h3, h4, h5, h6⟩
    refine ⟨θ, h1, h2, ?_⟩
    obtain ⟨a', c'⟩ := s'
    simp only at h3 h4 h5 h6
    subst h3
    rw [h5]
    simp only [TyCtx.inst, Prod.mk.injEq, true_and]
    congr 1
    funext j
    split
    next hj => subst hj; exact h4
    next hj => exact h6 j hj

/-- Non-vacuity: `(T, bool, U)` against `(int, bool, float)` and against `(int, int, float)`. -/
example : ∃ u a', (flatTuple [.other "T", .bool, .other "U"]).identical
    (flatTuple [.int, .bool, .float])
    ((⟨[], []⟩ : EAccum Diag), (TyUnifier.fromGenerics ["T", "U"]).getD .null) = (.some (), (a', u)) ∧
    u.image "T" = some .int ∧ u.image "U" = some .float := ⟨_, _, rfl, rfl, rfl⟩

example : ¬ ∃ θ, substTy θ (flatTuple [.other "T", .bool, .other "T"]) =
    flatTuple [.int, .bool, .float] := by
  rintro ⟨θ, h⟩
  simp only [flatTuple, List.map, substTy, substTys, substBase, TyTuple.multiple.injEq,
    List.cons.injEq, TyTuple.single.injEq] at h
  rw [h.1] at h
  simp at h

/-! ## C44 -/

/-- C44: inside a node, an expression is accepted at a type exactly when the typing rules give it
this type; nothing is reported then. -/
theorem C44_expression {sigs : String → Option Sig} {consts : String → Option TyBase} {n : Node}
    (hs : ∀ f s, sigs f = some s → s.Wf) {e : Expr} {t : TyTuple} {a : EAccum Diag} :
    (∃ s', e.typecheck (a, bodyCtx sigs consts n) = (.some t, s')) ↔
      HasType (nodeEnv sigs consts n) e t := by
  constructor
  · rintro ⟨s', h⟩
    obtain ⟨c', -, f, j⟩ := typecheck_sound _ _ _ _ _ (bodyCtx_wf hs) h
    exact j _ nodeEnv_vars (.inl (nodeEnv_free f))
  · intro h
    obtain ⟨c', h, -⟩ := typecheck_complete h a (nodeEnv_fits hs)
    exact ⟨_, h⟩

/-- C44: an expression has at most one type. -/
theorem C44_unique_type {sigs : String → Option Sig} {consts : String → Option TyBase} {n : Node}
    (hs : ∀ f s, sigs f = some s → s.Wf) {e : Expr} {t u : TyTuple}
    (ht : HasType (nodeEnv sigs consts n) e t) (hu : HasType (nodeEnv sigs consts n) e u) :
    t = u := by
  obtain ⟨s1, h1⟩ := (C44_expression hs (a := ⟨[], []⟩)).2 ht
  obtain ⟨s2, h2⟩ := (C44_expression hs (a := ⟨[], []⟩)).2 hu
  rw [h1] at h2
  cases h2
  rfl

/-- C44: a node is accepted exactly when the rules accept it. -/
theorem C44_node {σ : Type} {o : TyOpts} {sigs : String → Option Sig}
    {consts : String → Option TyBase} (hs : ∀ f s, sigs f = some s → s.Wf) {n : Node}
    {a : EAccum Diag} {s : σ} :
    (∃ n' s', n.typecheck o sigs consts (a, s) = (.some n', s')) ↔
      NodeTyped (o.main || o.test) o.generics sigs consts n := by
  rw [← nodeTypecheck_iff (a := a) (s := s) hs]
  constructor
  · rintro ⟨n', s', h⟩
    have := nodeTypecheck_state hs h
    subst this
    exact ⟨n', h⟩
  · rintro ⟨n', h⟩
    exact ⟨n', _, h⟩

/-- C44: a constant is accepted exactly when the rules accept it. -/
theorem C44_constant {σ : Type} {consts : String → Option TyBase} {c : Const}
    {a : EAccum Diag} {s : σ} :
    (∃ s', c.typecheck consts (a, s) = (.some (), s')) ↔ ConstTyped consts c := by
  rw [← constTypecheck_iff (a := a) (s := s)]
  constructor
  · rintro ⟨s', h⟩
    have := constTypecheck_state h
    subst this
    exact h
  · intro h
    exact ⟨_, h⟩

/-- C44: a program is accepted exactly when the rules accept it. -/
theorem C44_program {σ : Type} {opts : String → TyOpts} (hg : ∀ f, (opts f).generics.Nodup)
    {ds : List Decl} {a : EAccum Diag} {s : σ} :
    (∃ ds' s', progTypecheck opts ds (a, s) = (.some ds', s')) ↔
      ProgTyped opts (fun _ => none) (fun _ => none) ds :=
  progTypecheck_iff hg

/-- `#[generic[T]] node swap(a, b : T) returns (x, y : T); let (x, y) = (b, a); tel`. -/
def swapNode : Node where
  name := "swap"
  inputs := [⟨"a", .other "T", .implicit, 0⟩, ⟨"b", .other "T", .implicit, 0⟩]
  outputs := [⟨"x", .other "T", .implicit, 0⟩, ⟨"y", .other "T", .implicit, 0⟩]
  locals := []
  blocks := []
  stmts := [.let_ (.multiple [.single "x", .single "y"]) (.tuple [.var "b" 0, .var "a" 0])]
  registers := []
  flips := 0

/-- `node use(c : bool) returns (n, m : int when c); let (n, m) = swap(K, 0 -> n + 1); tel`, where
the second argument is compiled with a flip and a register. -/
def useNode : Node where
  name := "use"
  inputs := [⟨"c", .bool, .implicit, 0⟩]
  outputs := [⟨"n", .int, .explicit true "c", 0⟩, ⟨"m", .int, .explicit true "c", 0⟩]
  locals := []
  blocks := [⟨"swap", none⟩]
  stmts := [.let_ (.multiple [.single "n", .single "m"]) (.substep 0 0 (.tuple [.global "K",
      .flip 0 (.lit (.int 0)) (.fetchPre 0 (.bin .add (.var "n" 0) (.lit (.int 1))))])),
    .updateRegister 0 (.bin .add (.var "n" 0) (.lit (.int 1))), .initRegister 0 none none]
  registers := [none]
  flips := 1

/-- The options of the two nodes. -/
def swapOpts (f : String) : TyOpts := ⟨false, false, if f = "swap" then ["T"] else []⟩

/-- The hypotheses of `C44_program` are met, and the program is accepted: `T` is `int`, and the
register holds an `int`. -/
example : (∀ f, (swapOpts f).generics.Nodup) ∧
    ∃ s', progTypecheck swapOpts [.const ⟨"K", .int, .lit (.int 3)⟩, .node swapNode, .node useNode]
      ((⟨[], []⟩ : EAccum Diag), ()) =
      (.some [.const ⟨"K", .int, .lit (.int 3)⟩, .node swapNode,
        .node { useNode with blocks := [⟨"swap", some [.int]⟩], registers := [some (.single .int)] }],
        s') := by
  refine ⟨fun f => ?_, _, rfl⟩
  unfold swapOpts
  dsimp only
  split <;> simp

/-- Without the constant it is refused. -/
example : (progTypecheck swapOpts [.node swapNode, .node useNode]
    ((⟨[], []⟩ : EAccum Diag), ())).1 = .none := rfl

/-! ## C43 -/

/-- C43: type checking reports an error exactly when it refuses the program (unless it panics),
and never removes a report. -/
theorem C43_typecheck {σ : Type} (opts : String → TyOpts) (ds : List Decl) (a : EAccum Diag)
    (s : σ) :
    (∃ es ws, (progTypecheck opts ds (a, s)).2.1.err = a.err ++ es ∧
      (progTypecheck opts ds (a, s)).2.1.warn = a.warn ++ ws) ∧
    ((progTypecheck opts ds (a, s)).1 = .none →
      ∃ e es, (progTypecheck opts ds (a, s)).2.1.err = a.err ++ e :: es) ∧
    (∀ ds', (progTypecheck opts ds (a, s)).1 = .some ds' →
      (progTypecheck opts ds (a, s)).2.1.err = a.err) :=
  have h := progTypecheck_honest (σ := σ) opts ds
  ⟨h.grows (a, s), h.none_err (a, s), h.some_err (a, s)⟩

/-- C43: the same for the check of depths. -/
theorem C43_positivity {σ : Type} (ds : List Decl) (a : EAccum Diag) (s : σ) :
    (∃ es ws, (progMakePositive ds (a, s)).2.1.err = a.err ++ es ∧
      (progMakePositive ds (a, s)).2.1.warn = a.warn ++ ws) ∧
    ((progMakePositive ds (a, s)).1 = .none →
      ∃ e es, (progMakePositive ds (a, s)).2.1.err = a.err ++ e :: es) ∧
    (∀ ds', (progMakePositive ds (a, s)).1 = .some ds' →
      (progMakePositive ds (a, s)).2.1.err = a.err) :=
  have h := progMakePositive_honest (σ := σ) ds
  ⟨h.grows (a, s), h.none_err (a, s), h.some_err (a, s)⟩

end Chandeliers.Props
