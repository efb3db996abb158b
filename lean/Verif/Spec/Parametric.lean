import Verif.Spec.Values
import Verif.Spec.Replace
import Mathlib.Data.List.Forall2

/-!
# What a generic node may do with values of its type variables
-/

set_option autoImplicit false

namespace Chandeliers.Spec
open Chandeliers.San

/-- For each type variable, a relation between values. -/
abbrev Interp := String → Scalar → Scalar → Prop

/-- Two values of a type: equal and of that type, related by the given relation for a type variable. -/
def ScalarRel (η : Interp) : TyBase → Scalar → Scalar → Prop
  | .other g, x, y => η g x y
  | t, x, y => x = y ∧ ScalarTy t x

/-- The same for values that may be uninitialised: both are, or none. -/
def LeafRel (η : Interp) (t : TyBase) : Nillable Scalar → Nillable Scalar → Prop
  | .nil, .nil => True
  | .defined x, .defined y => ScalarRel η t x y
  | _, _ => False

mutual
/-- Tuples of that type, related component by component (a tuple of one element is that element, the
empty tuple is the unit scalar). -/
def ValRel (η : Interp) : TyTuple → Value → Value → Prop
  | .single t, .leaf v, .leaf w => LeafRel η t v w
  | .multiple [], .leaf v, .leaf w => v = w ∧ (v = .nil ∨ v = .defined .unit)
  | .multiple [t], v, w => ValRel η t v w
  | .multiple (t :: u :: ts), .tup a l, .tup b k => ValRel η t a b ∧ ValRels η (u :: ts) l k
  | _, _, _ => False
/-- Component by component. -/
def ValRels (η : Interp) : List TyTuple → List Value → List Value → Prop
  | [], [], [] => True
  | t :: ts, v :: vs, w :: ws => ValRel η t v w ∧ ValRels η ts vs ws
  | _, _, _ => False
end

/-- A node of type `t → u` does not look at values of its type variables: whatever the relations,
on related histories of inputs it returns related outputs, or panics in the same way. -/
structure Parametric (m : Machine) (t u : TyTuple) : Prop where
  runs : ∀ (η : Interp) (is is' : List Value), List.Forall₂ (ValRel η t) is is' →
    Both (· = ·) (List.Forall₂ (ValRel η u)) (m.run is) (m.run is')
  absent : ∀ η, ValRel η u (Tup.allNil Scalar m.outTy) (Tup.allNil Scalar m.outTy)

/-- Change the values of type variables. -/
def mapLeaf (φ : String → Scalar → Scalar) : TyBase → Nillable Scalar → Nillable Scalar
  | .other g, .defined x => .defined (φ g x)
  | _, v => v

mutual
/-- Change the values of type variables in a tuple of that type. -/
def mapVal (φ : String → Scalar → Scalar) : TyTuple → Value → Value
  | .single t, .leaf v => .leaf (mapLeaf φ t v)
  | .multiple [t], v => mapVal φ t v
  | .multiple (t :: u :: ts), .tup a l => .tup (mapVal φ t a) (mapVals φ (u :: ts) l)
  | _, v => v
/-- Component by component. -/
def mapVals (φ : String → Scalar → Scalar) : List TyTuple → List Value → List Value
  | t :: ts, v :: vs => mapVal φ t v :: mapVals φ ts vs
  | _, vs => vs
end

mutual
/-- The values that stand in a tuple of that type at the places of a type variable. -/
def valuesAt (g : String) : TyTuple → Value → List Scalar
  | .single (.other g'), .leaf (.defined x) => if g' = g then [x] else []
  | .multiple [t], v => valuesAt g t v
  | .multiple (t :: u :: ts), .tup a l => valuesAt g t a ++ valuesAtAll g (u :: ts) l
  | _, _ => []
/-- In a list of values. -/
def valuesAtAll (g : String) : List TyTuple → List Value → List Scalar
  | t :: ts, v :: vs => valuesAt g t v ++ valuesAtAll g ts vs
  | _, _ => []
end

end Chandeliers.Spec
