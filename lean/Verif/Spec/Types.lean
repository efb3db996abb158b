import Verif.San.Ast

/-! # Type substitutions, for reference -/

set_option autoImplicit false

namespace Chandeliers.Spec
open Chandeliers.San

/-- A choice of a type for each type variable. -/
abbrev Subst := String → TyBase

/-- Replace the type variables of a base type. -/
def substBase (θ : Subst) : TyBase → TyBase
  | .other x => θ x
  | t => t

mutual
/-- Replace the type variables of a tuple type. -/
def substTy (θ : Subst) : TyTuple → TyTuple
  | .single t => .single (substBase θ t)
  | .multiple ts => .multiple (substTys θ ts)
/-- Component-wise. -/
def substTys (θ : Subst) : List TyTuple → List TyTuple
  | [] => []
  | t :: ts => substTy θ t :: substTys θ ts
end

/-- The type variables of a base type. -/
def baseVars : TyBase → List String
  | .other x => [x]
  | _ => []

mutual
/-- The type variables of a tuple type. -/
def tyVars : TyTuple → List String
  | .single t => baseVars t
  | .multiple ts => tyVarsList ts
/-- Of a list of types. -/
def tyVarsList : List TyTuple → List String
  | [] => []
  | t :: ts => tyVars t ++ tyVarsList ts
end

/-- The type of a list of variables: the type itself when there is one, a tuple otherwise. -/
def flatTuple : List TyBase → TyTuple
  | [t] => .single t
  | ts => .multiple (ts.map .single)

end Chandeliers.Spec
