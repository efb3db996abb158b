import Verif.Lemmas.NodeSafety
import Verif.Props.Steps

/-! # C28: well-typed code does not go wrong -/

set_option autoImplicit false

namespace Chandeliers.Props
open Chandeliers.San Chandeliers.Spec

/-- C28: in a state that fits its typing, an expression of type `t` yields a value of type `t` and
leaves a state that fits, or panics in an arithmetic operation or an assertion; it is never
rejected and never looks too far into the past. -/
theorem C28_expression {A : Arith} {Γ : TyEnv} {glob : Globals} {ms : List Machine} {e : Expr}
    {t : TyTuple} (hx : Exact Γ) (ht : HasType Γ e t) {env : Env} {s : NodeState ms}
    (hs : StateOk Γ glob ms e env s) :
    (∀ p, eval A glob ms env e s = .error p → ¬ Faulty p) ∧
    ∀ v s', eval A glob ms env e s = .ok (v, s') → ValTy t v ∧ StateOk Γ glob ms e env s' := by
  have hside : Side s.hist env s.flips.length e :=
    ⟨fun x h => hs.bound x (requires_local.1 h), hs.deep, hs.flips⟩
  have := eval_fine (A := A) hx hs.globals hs.subs hs.vars hs.past ht hside (s := s)
    ⟨rfl, rfl, hs.regs, hs.nodes⟩
  rw [fine_iff] at this
  refine ⟨this.2, fun v s' h => ?_⟩
  obtain ⟨h1, h2⟩ := this.1 _ h
  refine ⟨h1, hs.globals, hs.vars, ?_, h2.regs, h2.nodes, hs.subs, hs.bound, ?_, ?_⟩
  · have := h2.hist; dsimp only at this; rw [this]; exact hs.past
  · have := h2.hist; dsimp only at this; rw [this]; exact hs.deep
  · have := h2.flips; dsimp only at this; rw [this]; exact hs.flips

/-- C28: a node that is ready for code generation, with subnodes that respect their signatures,
respects its own at every instance of its type parameters: on every sequence of inputs of the
input type it produces outputs of the output type, or panics in an arithmetic operation or an
assertion. -/
theorem C28_node {A : Arith} {sigs : String → Option Sig} {consts : String → Option TyBase}
    {glob : Globals} {n : Node} {ms : List Machine} (hw : ∀ f s, sigs f = some s → s.Wf)
    (h : CodegenReady sigs consts n) (hc : ConstsOk consts glob) (hs : SubsOk sigs n ms)
    (θ : Subst) :
    Respects (n.machine A glob ms) (substTy θ (flatTuple (n.inputs.map (·.ty))))
      (substTy θ (flatTuple (n.outputs.map (·.ty)))) :=
  node_respects hw h hc hs θ

/-- The counter, once more, with a register and a subnode:
`node total(i : int) returns (n : int); var c : int;
let c = counter(true); n = i -> pre n + c; tel` compiled by hand. -/
def exTotal : Node where
  name := "total"
  inputs := [⟨"i", .int, .implicit, 0⟩]
  outputs := [⟨"n", .int, .implicit, 0⟩]
  locals := [⟨"c", .int, .implicit, 0⟩]
  blocks := [⟨"counter", some []⟩]
  stmts := [.initRegister 0 none (some (.lit (.bool true))),
    .let_ (.single "c") (.substep 0 0 (.lit (.bool true))),
    .let_ (.single "n") (.flip 0 (.var "i" 0) (.bin .add (.fetchPre 0 (.var "n" 0)) (.var "c" 0))),
    .updateRegister 0 (.var "n" 0)]
  registers := [some (.single .int)]
  flips := 1

def exSigs : String → Option Sig := fun f => if f = "counter" then some ([], [.bool], [.int]) else none

theorem exSigs_wf : ∀ f s, exSigs f = some s → s.Wf := by
  intro f s h
  by_cases hf : f = "counter"
  · subst hf
    cases h
    refine ⟨by simp, ?_, ?_⟩ <;> simp [flatTuple, tyVars, baseVars]
  · simp [exSigs, hf] at h

theorem exConsts_ok : ConstsOk (fun _ => none) (fun _ => none) := fun x t h => by cases h

theorem exCounter_ready : CodegenReady (fun _ => none) (fun _ => none) exCounter where
  names := by decide
  typed := by
    intro st h
    simp only [exCounter, List.mem_singleton] at h
    subst h
    exact .let_ (.single rfl) (.later .lit (.bin (.var rfl) .lit (by decide)))
  ordered := by
    refine ⟨?_, trivial⟩
    intro e he x hx
    simp only [evaluated, List.mem_singleton] at he
    subst he
    have := requires_local.2 hx
    simp [Expr.requires] at this
  defined := by
    intro v hv
    simp only [exCounter, List.append_nil, List.mem_singleton] at hv
    subst hv
    exact ⟨_, List.mem_singleton.2 rfl, by simp [binds, VarTuple.vars]⟩
  deep := by
    intro st h e he x d hx
    simp only [exCounter, List.mem_singleton] at h
    subst h
    simp only [evaluated, List.mem_singleton] at he
    subst he
    simp [occurrences] at hx
    obtain ⟨rfl, rfl⟩ := hx
    exact ⟨⟨"n", .int, .implicit, 1⟩, by simp [declared, exCounter], rfl, by simp⟩
  flips := by
    intro st h e he i hi
    simp only [exCounter, List.mem_singleton] at h
    subst h
    simp only [evaluated, List.mem_singleton] at he
    subst he
    simp [slots] at hi
  shapes := by intro t h; simp [exCounter] at h

theorem exTotal_ready : CodegenReady exSigs (fun _ => none) exTotal where
  names := by decide
  typed := by
    intro st h
    simp only [exTotal, List.mem_cons, List.not_mem_nil, or_false] at h
    rcases h with rfl | rfl | rfl | rfl
    · exact .initPre (t := .single .int) rfl .lit
    · exact .let_ (.single rfl) (.substep .lit ⟨_, [], [.bool], [.int], fun _ => .int, rfl, rfl, rfl,
        by simp [flatTuple, substTy, substBase, litType], by simp [flatTuple, substTy, substBase]⟩)
    · exact .let_ (.single rfl) (.flip (.var rfl) (.bin (.fetchPre (.var rfl) rfl) (.var rfl)
        (by decide)))
    · exact .update (.var rfl) rfl
  ordered := by
    simp only [exTotal, Ordered, evaluated, binds, VarTuple.vars]
    refine ⟨?_, ?_, ?_, ?_, trivial⟩ <;> intro e he x hx <;> have := requires_local.2 hx <;>
      simp at he <;> subst he <;> simp [Expr.requires] at this
    · rcases this with rfl | rfl <;> simp
    · subst this; simp
  defined := by
    intro v hv
    simp only [exTotal, List.cons_append, List.nil_append, List.mem_cons, List.not_mem_nil,
      or_false] at hv
    rcases hv with rfl | rfl
    · exact ⟨.let_ (.single "n") _, .tail _ (.tail _ (.head _)),
        by simp [binds, VarTuple.vars]⟩
    · exact ⟨.let_ (.single "c") _, .tail _ (.head _),
        by simp [binds, VarTuple.vars]⟩
  deep := by
    intro st h e he x d hx
    simp only [exTotal, List.mem_cons, List.not_mem_nil, or_false] at h
    rcases h with rfl | rfl | rfl | rfl <;> simp [evaluated] at he <;> subst he <;>
      simp [occurrences] at hx
  flips := by
    intro st h e he i hi
    simp only [exTotal, List.mem_cons, List.not_mem_nil, or_false] at h
    rcases h with rfl | rfl | rfl | rfl <;> simp [evaluated] at he <;> subst he <;>
      simp [slots] at hi
    subst hi; simp [exTotal]
  shapes := by
    intro t h
    simp only [exTotal, List.mem_singleton, Option.some.injEq] at h
    subst h
    trivial

theorem exTotal_subs : SubsOk exSigs exTotal [exCounter.machine exArith (fun _ => none) []] := by
  intro i b hb
  cases i with
  | zero =>
    cases hb
    refine ⟨_, [], [.bool], [.int], rfl, rfl, fun θ => ?_⟩
    exact C28_node (n := exCounter) (fun f s h => by cases h) exCounter_ready exConsts_ok
      (fun i b h => by simp [exCounter] at h) θ
  | succ i => simp [exTotal] at hb

example : Respects (exTotal.machine exArith (fun _ => none)
    [exCounter.machine exArith (fun _ => none) []]) (.single .int) (.single .int) :=
  C28_node exSigs_wf exTotal_ready exConsts_ok exTotal_subs (fun _ => .int)

end Chandeliers.Props
