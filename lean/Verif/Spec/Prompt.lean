import Verif.Spec.Steady
import Verif.Spec.Clocked

/-!
# Expressions on which `#[universal_pre]` and Lustre agree

With `#[universal_pre]`, `a -> b` and `a fby b` wait for values (see `Spec/Universal`), and a node
does not notice that it is called with arguments that are not initialised.  Nothing of this happens
when what is asked here is true of the source.
-/

set_option autoImplicit false

namespace Chandeliers.Spec.Static
open Chandeliers.San Chandeliers.Syn

mutual
/-- The operands of `->` other than the last one, those of `fby` and the arguments of calls are not
late (`Steady`). -/
def Prompt (S : Scope) : Src → Prop
  | .lit _ => True
  | .var _ => True
  | .paren es _ => PromptAll S es
  | .left e rest => Prompt S e ∧ PromptLeft S rest
  | .cmp e rest => Prompt S e ∧ PromptCmp S rest
  | .fby e rest => Prompt S e ∧ PromptAll S rest ∧ (rest = [] ∨ AllSteady S (e :: rest) 0)
  | .arrow e rest => Prompt S e ∧ PromptAll S rest ∧ AllSteady S (e :: rest).dropLast 0
  | .ifx c y n => Prompt S c ∧ Prompt S y ∧ Prompt S n
  | .merge c y n => Prompt S c ∧ Prompt S y ∧ Prompt S n
  | .call _ args _ => PromptAll S args ∧ AllSteady S args 0
  | .pre e => Prompt S e
  | .neg e => Prompt S e
  | .not e => Prompt S e
/-- All of them. -/
def PromptAll (S : Scope) : List Src → Prop
  | [] => True
  | e :: es => Prompt S e ∧ PromptAll S es
/-- All of them. -/
def PromptLeft (S : Scope) : List (LOp × Src) → Prop
  | [] => True
  | (_, e) :: rest => Prompt S e ∧ PromptLeft S rest
/-- All of them. -/
def PromptCmp (S : Scope) : List (CmpOp × Src) → Prop
  | [] => True
  | (_, e) :: rest => Prompt S e ∧ PromptCmp S rest
end

/-- Every equation and every assertion of the node, whatever the constants and the other nodes of the
program. -/
def PromptNode (o : NodeOptions) (n : SrcNode) : Prop :=
  ∀ consts nodes, ∀ st ∈ n.defs, Prompt (scope o consts nodes n) (SrcStmt.expr st)

/-- In the clocked reference, what a statement says at an instant.  The variables of an equation have
the values of its right-hand side when it is present, and none otherwise.  An assertion holds when it
is present. -/
def ClockedObeys (W : World) (D : String → Clock) (t : Nat) : SrcStmt → Prop
  | .def_ p e => ∃ v, Target.Gets (W.X · t) p v ∧
      (clockedOn W D e t = true → clocked W D e t = some v) ∧
      (clockedOn W D e t = false → Blank v)
  | .assert e => clockedOn W D e t = true → clocked W D e t = some (.leaf (.defined (.bool true)))

/-- The streams `W.X` are what Lustre says of a node with clocks: they solve its equations over a
sequence of inputs that are present, its assertions hold, and nothing that is present is
uninitialised. -/
structure ClockedRun (W : World) (n : SrcNode) (is : List Value) : Prop where
  inputs : ∀ t i, is[t]? = some i → argNames n.inputs ≠ [] →
    i = together (W.X · t) (argNames n.inputs)
  absent : ∀ t, t < is.length → ∀ x, due W.X (SrcNode.clocks n x) t = false → W.X x t = .nil
  obeys : ∀ t, t < is.length → ∀ st ∈ n.defs, ClockedObeys W (SrcNode.clocks n) t st

end Chandeliers.Spec.Static
