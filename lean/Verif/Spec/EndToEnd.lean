import Verif.Spec.Universal
import Verif.Spec.Clocked
import Verif.Spec.Compile
import Verif.Spec.Attributes

/-!
# What a program means, from one end to the other
-/

set_option autoImplicit false

namespace Chandeliers.Spec
open San Syn

/-- On a sequence of inputs, all present, the outputs of the node are `outs` according to its
equations: the usual ones, or the ones with registers if the node has `#[universal_pre]`.  The constants
have the values of `consts`, and the nodes are those of `nodes`. -/
def NodeMeans (A : Arith) (consts : String → Option Scalar) (nodes : String → Option Machine)
    (attrs : List Attribute) (src : SrcNode) (is outs : List Value) : Prop :=
  ∃ S, (if hasAny attrs ["universal_pre"] = true then
      UniSolution ⟨A, SrcNode.vars src, S, consts, nodes⟩ (SrcNode.clocks src) src is
    else SrcSolution ⟨A, SrcNode.vars src, S, consts, nodes⟩ src is) ∧
    outs = srcOutputs S src is.length

end Chandeliers.Spec
