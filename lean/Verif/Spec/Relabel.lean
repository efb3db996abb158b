import Verif.Spec.Rename
import Verif.Spec.Program

/-!
# Changing the names of nodes and constants
-/

set_option autoImplicit false

namespace Chandeliers.Spec
open San Syn Static

/-- Nodes are given other names by `ν` and constants by `κ`, where they are declared and where they are
used.  The variables of a node may get other names too, by `ρ`; what the node mentions keeps different
names for different things. -/
inductive Relabelled (ν κ : String → String) : SrcDecl → SrcDecl → Prop
  | const {attrs : List Attribute} {c : SrcConst} :
    Relabelled ν κ ⟨attrs, .const c⟩ ⟨attrs, .const ⟨κ c.name, c.ty, renameSrc κ ν c.value⟩⟩
  | extConst {attrs : List Attribute} {x : String} {t : TyBase} :
    Relabelled ν κ ⟨attrs, .extConst x t⟩ ⟨attrs, .extConst (κ x) t⟩
  | extNode {attrs : List Attribute} {f : String} {ins outs : List ArgsTy} :
    Relabelled ν κ ⟨attrs, .extNode f ins outs⟩ ⟨attrs, .extNode (ν f) ins outs⟩
  | node {attrs : List Attribute} {n : SrcNode} (ρ : String → String)
    (different : ∀ x ∈ mentions n, ∀ y ∈ mentions n, ρ x = ρ y → x = y)
    (consts : ∀ x ∈ mentions n, x ∉ SrcNode.vars n → ρ x = κ x) :
    Relabelled ν κ ⟨attrs, .node n⟩ ⟨attrs, .node (renameNode ρ ν n)⟩

/-- The same external items, under their other names. -/
structure ExternAs (ν κ : String → String) (X X' : Extern) : Prop where
  consts : ∀ x, X'.consts (κ x) = X.consts x
  nodes : ∀ f, X'.nodes (ν f) = X.nodes f

end Chandeliers.Spec
