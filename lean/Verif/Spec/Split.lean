import Verif.Spec.Modular
import Verif.Spec.Replace

/-!
# A program in several invocations of the macro
-/

set_option autoImplicit false

namespace Chandeliers.Spec.Static
open Chandeliers.San Chandeliers.Syn

/-- The first declaration, in one invocation of the macro, stands for the second, which is in another:
an external constant or node with the same name and type. -/
inductive Imports : SrcDecl → SrcDecl → Prop
  | const {attrs attrs' : List Attribute} {c : SrcConst} :
    Imports ⟨attrs, .extConst c.name c.ty⟩ ⟨attrs', .const c⟩
  | node {attrs attrs' : List Attribute} {f : String} {ins outs : List ArgsTy} {n : SrcNode}
    (h : nodeSig ⟨attrs, .extNode f ins outs⟩ = nodeSig ⟨attrs', .node n⟩) :
    Imports ⟨attrs, .extNode f ins outs⟩ ⟨attrs', .node n⟩

/-- What stands for a declaration: an external constant of the same type, or an external node with the
same arguments and the same `#[generic]` attributes. -/
def importOf (d : SrcDecl) : SrcDecl :=
  match d.item with
  | .const c => ⟨[], .extConst c.name c.ty⟩
  | .node n => ⟨d.attrs.filter fun a => a.action = "generic", .extNode n.name n.inputs n.outputs⟩
  | _ => d

/-- The declarations of `r` that are put aside in another invocation of the macro. -/
def putAside (lib : SrcDecl → Bool) (r : SrcProg) : SrcProg := r.filter lib

/-- What is left of `r`, with external declarations in the place of those that are put aside. -/
def client (lib : SrcDecl → Bool) (r : SrcProg) : SrcProg :=
  r.map fun d => if lib d then importOf d else d

/-- The Rust items around the client `q` of `p` are those around the whole program (`X`), with the
constants of `p` and the structs that are emitted for its nodes.  In Rust these are only visible if
they are marked `#[export]`, which changes nothing else. -/
structure Offers (X X' : Extern) (I : Items) (p q : SrcProg) : Prop where
  oldConsts : ∀ attrs x ty, ⟨attrs, .extConst x ty⟩ ∈ q → (∀ attrs' c, ⟨attrs', .const c⟩ ∈ p → c.name ≠ x) →
    X'.consts x = X.consts x
  oldNodes : ∀ attrs f ins outs, ⟨attrs, .extNode f ins outs⟩ ∈ q →
    (∀ attrs' n, ⟨attrs', .node n⟩ ∈ p → n.name ≠ f) → X'.nodes f = X.nodes f
  consts : ∀ attrs attrs' c, ⟨attrs, .extConst c.name c.ty⟩ ∈ q → ⟨attrs', .const c⟩ ∈ p →
    X'.consts c.name = I.consts c.name
  nodes : ∀ attrs attrs' n ins outs, ⟨attrs, .extNode n.name ins outs⟩ ∈ q → ⟨attrs', .node n⟩ ∈ p →
    X'.nodes n.name = (I.nodes n.name).map wrapExport

end Chandeliers.Spec.Static
