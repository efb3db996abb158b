import Verif.Lemmas.Twice
import Verif.Props.Program

/-!
# The two evaluations of the switch of `merge`

C15.
-/

set_option autoImplicit false

namespace Chandeliers.Props
open Chandeliers.Err Chandeliers.San Chandeliers.Spec Chandeliers.Syn

theorem linkNodesTwice_eq {A : Arith} {X : Extern} {g : Globals} {sigs : String → Option Sig}
    {consts : String → Option TyBase} {q : List SrcDecl} {ds : List San.Decl}
    (h : ProgPasses sigs consts q ds) : (N : String → Option Machine) →
    linkNodesTwice A X g N ds = linkNodes A X g N ds := by
  induction h with
  | nil => intro N; rfl
  | const _ _ _ _ ih => intro N; unfold linkNodesTwice linkNodes; exact ih N
  | extConst _ _ ih => intro N; unfold linkNodesTwice linkNodes; exact ih N
  | node h _ _ ih =>
    intro N
    obtain ⟨_, _, _, _, _, _, _, hF⟩ := Den.passes_final h
    unfold linkNodesTwice linkNodes
    cases subnodes N _ with
    | none => rfl
    | some ms => dsimp only; rw [machineTwice_eq A g ms _ (Final.plain hF)]; exact ih _
  | extNode _ _ _ _ ih =>
    intro N
    unfold linkNodesTwice linkNodes
    cases X.nodes _ with
    | none => rfl
    | some m => exact ih _

/-- C15.  The code emitted for `merge` evaluates the switch twice.  In programs that the compiler
accepts this is the same as evaluating it once: every node behaves in the same way. -/
theorem C15_switch_evaluated_twice (A : Arith) (X : Extern) {p : SrcProg} {p' : Prog}
    {w : List Report} (h : decl (compile p) = .done w (some p')) :
    linkTwice A X p'.decls = link A X p'.decls := by
  obtain ⟨q, -, hp⟩ := accepted_passes h
  unfold linkTwice link
  cases linkConsts A X _ p'.decls with
  | error p => rfl
  | ok g => dsimp only; rw [linkNodesTwice_eq hp]; rfl

/-! ## Why the compiler has to refuse other switches -/

/-- A machine that answers true and false in turn. -/
def exToggle : Machine where
  σ := Bool
  init := true
  outTy := .leaf ()
  step := fun s _ => .ok (.leaf (.defined (.bool s)), !s)

/-- `merge toggle() 1 2`. -/
def exSwitch : Expr := .merge (.substep 0 0 (.tuple [])) (.lit (.int 1)) (.lit (.int 2))

/-- The state of a new node that calls `toggle`. -/
def exSwitchState : NodeState [exToggle] := ⟨0, fun _ => none, (true, ()), [], []⟩

/-- With a call for switch, two evaluations are not one: the call is stepped twice and the second
answer counts. -/
theorem C15_twice_matters (A : Arith) :
    ((evalTwice A (fun _ => none) [exToggle] (fun _ => none) exSwitch exSwitchState).map (·.1) =
      .ok (.leaf (.defined (.int 2)))) ∧
    ((eval A (fun _ => none) [exToggle] (fun _ => none) exSwitch exSwitchState).map (·.1) =
      .ok (.leaf (.defined (.int 1)))) := ⟨rfl, rfl⟩

/-- Non-vacuity: a program with a `merge` is accepted.
`node f(b: bool; x: int) returns (y: int); let y = merge b (x when b) (0 whenot b); tel` -/
def exMergeProg : SrcProg := [
  ⟨[], .node {
    name := "f"
    inputs := [⟨["b"], .bool, .implicit⟩, ⟨["x"], .int, .implicit⟩]
    outputs := [⟨["y"], .int, .implicit⟩]
    locals := []
    defs := [.def_ (.var "y") (.merge (.var "b")
      (.paren [.left (.var "x") [(.when, .var "b")]] false)
      (.paren [.left (.lit (.int 0)) [(.whenot, .var "b")]] false))] }⟩]

example : ∃ w p', decl (compile exMergeProg) = .done w (some p') ∧ p'.decls.length = 1 := by
  have : (match decl (compile exMergeProg) with
    | .done _ (some p) => p.decls.length == 1 | _ => false) = true := by decide +kernel
  revert this
  generalize decl (compile exMergeProg) = o
  rcases o with _ | ⟨w, _ | p'⟩
  · simp
  · simp
  · intro h; exact ⟨w, p', rfl, by simpa using h⟩

end Chandeliers.Props
