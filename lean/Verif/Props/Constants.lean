import Verif.Lemmas.ConstExpr

/-! # C29: accepted constants compile and mean the same as in a node -/

set_option autoImplicit false

namespace Chandeliers.Props
open Chandeliers.San Chandeliers.Spec

/-- C29: generating code for an accepted constant does not abort. -/
theorem C29_compiles {consts : String → Option TyBase} {c : Const} (h : ConstTyped consts c) :
    ∃ e, c.value.constTokens = some e :=
  constTokens_some h.const

/-- C29: an accepted constant has a value of its declared type, unless rustc refuses it for an
arithmetic error (overflow or division by zero). -/
theorem C29_value {A : Arith} {consts : String → Option TyBase} {glob : Globals} {c : Const}
    (hg : ConstsOk consts glob) (h : ConstTyped consts c) :
    (∃ v, c.eval A glob = .ok v ∧ ScalarTy c.ty v) ∨ c.eval A glob = .error .arith := by
  obtain ⟨e, he⟩ := C29_compiles h
  have g := const_agree (A := A) (ms := []) (env := fun _ => none)
    (s := ⟨0, fun _ => none, (), [], []⟩) hg h.const h.type he
  simp only [Const.eval, he]
  exact g.const

/-- C29: whenever the same expression, written inside a node, has a value at some instant, that
is the value of the constant.  Without overflow checks in the program, it may also be that rustc
refuses the constant. -/
theorem C29_same_value {A : Arith} {consts : String → Option TyBase} {glob : Globals} {c : Const}
    (hg : ConstsOk consts glob) (h : ConstTyped consts c) {ms : List Machine} {env : Env}
    {s s' : NodeState ms} {w : Scalar}
    (he : eval A glob ms env c.value s = .ok (.leaf (.defined w), s')) :
    s' = s ∧ (c.eval A glob = .ok w ∨
      (A.overflowChecks = false ∧ c.eval A glob = .error .arith)) := by
  obtain ⟨e, hc⟩ := C29_compiles h
  have g := const_agree (A := A) (ms := ms) (env := env) (s := s) hg h.const h.type hc
  have hs : s' = s := by
    rcases g.node with ⟨l, hl, -⟩ | hl
    · rw [hl] at he; cases he; rfl
    · rw [hl] at he; cases he
  subst hs
  refine ⟨rfl, ?_⟩
  simp only [Const.eval, hc]
  rcases g.same w he with h1 | ⟨h1, h2⟩
  · exact .inl h1
  · exact .inr ⟨h2, h1⟩

/-- C29 in the other direction.  Missing: the value may be absent inside the node when an ordering
comparison meets a NaN, and the node may panic in the branch of an `if` that a constant does not
evaluate (see the two counterexamples). -/
theorem C29_node_value_partial {A : Arith} {consts : String → Option TyBase} {glob : Globals}
    {c : Const} (hg : ConstsOk consts glob) (h : ConstTyped consts c) {v : Scalar}
    (hv : c.eval A glob = .ok v) (ms : List Machine) (env : Env) (s : NodeState ms) :
    eval A glob ms env c.value s = .ok (.leaf (.defined v), s) ∨
      (eval A glob ms env c.value s = .ok (.leaf .nil, s) ∧ ∃ x y, A.fcmp x y = none) ∨
      eval A glob ms env c.value s = .error .arith := by
  obtain ⟨e, hc⟩ := C29_compiles h
  have g := const_agree (A := A) (ms := ms) (env := env) (s := s) hg h.const h.type hc
  simp only [Const.eval, hc] at hv
  rcases g.node with ⟨l, hl, -⟩ | hl
  · cases l with
    | nil => exact .inr (.inl ⟨hl, g.nil hl⟩)
    | defined w =>
      rcases g.same w hl with h1 | ⟨h1, -⟩
      · rw [hv] at h1; cases h1; exact .inl hl
      · rw [hv] at h1; cases h1
  · exact .inr (.inr hl)

/-- C29 in the other direction, when it holds: if all the parts of an accepted constant have a value
as constants, also those that are not needed, and no NaN is ordered, then the same expression inside
a node has the value of the constant at every instant.  The two counterexamples show that neither
condition can be left out. -/
theorem C29_node_same_partial {A : Arith} {consts : String → Option TyBase} {glob : Globals}
    {c : Const} (h : ConstTyped consts c)
    (hv : ∀ e, Part e c.value → ∃ v, Const.eval A glob ⟨c.name, c.ty, e⟩ = .ok v)
    (ho : ∀ op l r x y, Part (.cmp op l r) c.value → op ≠ .eq → op ≠ .ne →
      Const.eval A glob ⟨c.name, c.ty, l⟩ = .ok (.float x) →
      Const.eval A glob ⟨c.name, c.ty, r⟩ = .ok (.float y) → A.fcmp x y ≠ none) :
    ∃ v, c.eval A glob = .ok v ∧ ∀ (ms : List Machine) (env : Env) (s : NodeState ms),
      eval A glob ms env c.value s = .ok (.leaf (.defined v), s) := by
  obtain ⟨v, hc⟩ := hv c.value .refl
  exact ⟨v, hc, fun ms env s => calm_eval h.const hv ho hc⟩

/-- `const C : int = if N < 3 then N * 2 else 0;`, after `const N : int = 2;`. -/
def exConst : Const where
  name := "C"
  ty := .int
  value := .ifx (.cmp .lt (.global "N") (.lit (.int 3)))
    (.bin .mul (.global "N") (.lit (.int 2))) (.lit (.int 0))

def exConsts : String → Option TyBase := fun x => if x = "N" then some .int else none
def exGlobals : Globals := fun x => if x = "N" then some (.int 2) else none

theorem exConst_typed : ConstTyped exConsts exConst where
  const := .ifx (.cmp .global .lit) (.bin .global .lit) .lit
  type := .ifx (.cmp (t := .int) (.global rfl) .lit (by decide))
    (.bin (.global rfl) .lit (by decide)) .lit

theorem exGlobals_ok : ConstsOk exConsts exGlobals := by
  intro x t h
  by_cases hx : x = "N"
  · subst hx
    cases h
    exact ⟨fun g hg => (by cases hg), .int 2, rfl, trivial⟩
  · simp [exConsts, hx] at h

example (A : Arith) : exConst.eval A exGlobals = .ok (.int 4) ∧
    ∀ (ms : List Machine) (env : Env) (s : NodeState ms),
      eval A exGlobals ms env exConst.value s = .ok (.leaf (.defined (.int 4)), s) :=
  ⟨rfl, fun _ _ _ => rfl⟩

/-- `exConst` meets the hypotheses of `C29_node_same_partial`. -/
example (A : Arith) :
    (∀ e, Part e exConst.value → ∃ v, Const.eval A exGlobals ⟨"C", .int, e⟩ = .ok v) ∧
    ∀ op l r x y, Part (.cmp op l r) exConst.value → op ≠ .eq → op ≠ .ne →
      Const.eval A exGlobals ⟨"C", .int, l⟩ = .ok (.float x) →
      Const.eval A exGlobals ⟨"C", .int, r⟩ = .ok (.float y) → A.fcmp x y ≠ none := by
  have parts : ∀ e e', Part e e' → e' = exConst.value →
      e ∈ [exConst.value, .cmp .lt (.global "N") (.lit (.int 3)), .global "N", .lit (.int 3),
        .bin .mul (.global "N") (.lit (.int 2)), .lit (.int 2), .lit (.int 0)] := by
    intro e e' h he
    induction h using Relation.ReflTransGen.head_induction_on with
    | refl => subst he; exact .head _
    | head h _ ih =>
      simp only [List.mem_cons, List.not_mem_nil, or_false] at ih
      rcases ih with rfl | rfl | rfl | rfl | rfl | rfl | rfl <;> cases h <;> simp
  constructor
  · intro e he
    have := parts e _ he rfl
    simp only [List.mem_cons, List.not_mem_nil, or_false] at this
    rcases this with rfl | rfl | rfl | rfl | rfl | rfl | rfl <;> exact ⟨_, rfl⟩
  · intro op l r x y he _ _ hl
    have := parts _ _ he rfl
    simp only [exConst, List.mem_cons, List.not_mem_nil, or_false, reduceCtorEq, false_or,
      Expr.cmp.injEq] at this
    obtain ⟨-, rfl, -⟩ := this
    cases hl

/-- `const C : bool = x / y < z;` when the quotient is a NaN, as `0.0 / 0.0` is: the constant is
`false`, the same expression inside a node has no value. -/
theorem C29_nan_counterexample (A : Arith) (x y z : F64)
    (hn : A.fcmp (A.fbin .div x y) z = none) :
    let c : Const := ⟨"C", .bool, .cmp .lt (.bin .div (.lit (.float x)) (.lit (.float y)))
      (.lit (.float z))⟩
    ConstTyped (fun _ => none) c ∧
    c.eval A (fun _ => none) = .ok (.bool false) ∧
    ∀ (ms : List Machine) (env : Env) (s : NodeState ms),
      eval A (fun _ => none) ms env c.value s = .ok (.leaf .nil, s) := by
  refine ⟨⟨.cmp (.bin .lit .lit) .lit,
    .cmp (t := .float) (.bin .lit .lit (by decide)) .lit (by decide)⟩, ?_, ?_⟩
  · simp [Const.eval, Expr.constTokens, CExpr.eval, Lit.scalar, bind, Except.bind, comparable,
      rustCmp, scalarPcmp, scalarBin, hn]
  · intro ms env s
    simp [eval, Lit.scalar, bind, Except.bind, asLeaf, scalarCmp, comparable, Candle.cmp,
      Candle.nillableCmpOrd, Nillable.cmp, scalarPcmp, scalarBin, Nillable.binop, Except.map, hn,
      Nillable.map]

/-- `const C : int = if true then 1 else 1 / 0;`: the constant is `1`, the same expression inside a
node panics, because both branches are evaluated there. -/
theorem C29_lazy_if_counterexample (A : Arith) :
    let c : Const := ⟨"C", .int, .ifx (.lit (.bool true)) (.lit (.int 1))
      (.bin .div (.lit (.int 1)) (.lit (.int 0)))⟩
    ConstTyped (fun _ => none) c ∧
    c.eval A (fun _ => none) = .ok (.int 1) ∧
    ∀ (ms : List Machine) (env : Env) (s : NodeState ms),
      eval A (fun _ => none) ms env c.value s = .error .arith :=
  ⟨⟨.ifx .lit .lit (.bin .lit .lit), .ifx .lit .lit (.bin .lit .lit (by decide))⟩, rfl,
    fun _ _ _ => rfl⟩

end Chandeliers.Props
