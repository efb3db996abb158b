import Verif.Syn.Prog
import Verif.Spec.Safety
import Verif.Spec.Lustre

/-!
# What it is to compile a node
-/

set_option autoImplicit false

namespace Chandeliers.Spec
open Chandeliers.San Chandeliers.Syn Chandeliers.Err

/-- The node goes through all the passes, in the order of the pipeline, and this is what is left
for code generation.  `sigs` and `consts` are the signatures and constants that it may use, `o` its
options and `universalPre` whether it has registers. -/
def Passes (universalPre : Bool) (o : TyOpts) (sigs : String → Option Sig)
    (consts : String → Option TyBase) (src : SrcNode) (n : Node) : Prop :=
  ∃ n₁ n₂ n₃ n₄, src.translate universalPre = .ok n₁ ∧ n₁.causality = .ok n₂ ∧
    (∃ s s' : EAccum Diag × Unit, n₂.typecheck o sigs consts s = (.some n₃, s')) ∧
    (∃ s s' : EAccum Diag × Unit, n₃.clockcheck s = (.some n₄, s')) ∧
    ∃ s s' : EAccum Diag × Unit, n₄.makePositive s = (.some n, s')

/-- The registers of the node step on clocks that are inputs, or always (see DESIGN.md, F4). -/
def InputClocks (n : Node) : Prop :=
  ∀ id i c, .initRegister id i (some c) ∈ n.stmts → ∀ x, Part (.var x 0) c →
    x ∈ n.inputs.map (·.name)

/-- No register holds a tuple of one element (see DESIGN.md, F10). -/
def FlatRegisters (n : Node) : Prop := ∀ t, some t ∈ n.registers → NoSingleton t

/-- What the source of a node says that it returns over the `k` first instants, given the streams of
its variables. -/
def srcOutputs (X : String → Nat → Nillable Scalar) (src : SrcNode) (k : Nat) : List Value :=
  (List.range k).map fun t => together (X · t) (argNames src.outputs)

end Chandeliers.Spec
