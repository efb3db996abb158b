import Verif.Spec.Solutions

/-!
# The places of a node that hold state, where they are used
-/

set_option autoImplicit false

namespace Chandeliers.Spec
open San

mutual
/-- The registers read, the flips and the subnodes used when an expression is evaluated.  The
expressions kept inside a register read are evaluated elsewhere, and are not looked at. -/
def places : Expr → List Slot
  | .lit _ => []
  | .global _ => []
  | .var _ _ => []
  | .tuple es => placesList es
  | .dummyPre e => places e
  | .dummyParen e => places e
  | .bin _ l r => places l ++ places r
  | .un _ e => places e
  | .cmp _ l r => places l ++ places r
  | .clock _ e b => places e ++ places b
  | .later _ e e' => places e ++ places e'
  | .fetchPre id _ => [.reg id]
  | .fetchFby id _ _ => [.reg id]
  | .flip i e e' => .flip i :: (places e ++ places e')
  | .ifx b y n => places b ++ (places y ++ places n)
  | .merge b y n => places b ++ (places y ++ places n)
  | .substep _ i e => .sub i :: places e
/-- Of a list of expressions. -/
def placesList : List Expr → List Slot
  | [] => []
  | e :: es => places e ++ placesList es
end

/-- Of a statement: the expressions that it evaluates. -/
def placesIn (st : Stmt) : List Slot := (evaluated st).flatMap places

end Chandeliers.Spec
