import Verif.Spec.BlameSrc

/-!
# What a declaration needs
-/

set_option autoImplicit false

namespace Chandeliers.Spec.Static
open Chandeliers.San Chandeliers.Syn

/-- The names that stand for variables in a declaration. -/
def ownNames : SrcItem → List String
  | .node n => variablesOf n
  | _ => []

/-- A declaration needs another: it calls the node, or it uses the constant (a name that is also that
of a variable of the node is the variable). -/
inductive Needs (d d' : SrcDecl) : Prop
  | node {e : Src} {f : String} {sig : Sig} (he : e ∈ expressions d.item) (hf : f ∈ callees e)
    (hd : nodeSig d' = some (f, sig))
  | const {e : Src} {x : String} {ty : TyBase} (he : e ∈ expressions d.item) (hx : x ∈ names e)
    (hv : x ∉ ownNames d.item) (hd : constant d' = some (x, ty))

/-- All that is needed is there. -/
def Closed (p r : SrcProg) : Prop := ∀ d ∈ p, ∀ d' ∈ r, Needs d d' → d' ∈ p

/-- No constant of one program has the name of a constant of the other, and no node that of a node. -/
structure Disjoint (p q : SrcProg) : Prop where
  consts : ∀ x, x ∈ (p.filterMap constant).map (·.1) → x ∉ (q.filterMap constant).map (·.1)
  nodes : ∀ f, f ∈ (p.filterMap nodeSig).map (·.1) → f ∉ (q.filterMap nodeSig).map (·.1)

end Chandeliers.Spec.Static
