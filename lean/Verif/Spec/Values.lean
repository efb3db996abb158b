import Verif.Spec.Types
import Verif.San.Eval

/-! # Values of a type, for reference -/

set_option autoImplicit false

namespace Chandeliers.Spec
open Chandeliers.San

/-- The scalar has the type. -/
def ScalarTy : TyBase → Scalar → Prop
  | .int, .int _ => True
  | .float, .float _ => True
  | .bool, .bool _ => True
  | .other n, .other m _ => n = m
  | _, _ => False

/-- A possibly uninitialised scalar of that type. -/
def LeafTy (t : TyBase) (v : Nillable Scalar) : Prop := ∀ x, v = .defined x → ScalarTy t x

mutual
/-- The value has the type: the nesting is that of the type (a tuple of one element is that
element, the empty tuple is the unit scalar) and every scalar is uninitialised or of the right
type. -/
def ValTy : TyTuple → Value → Prop
  | .single t, .leaf v => LeafTy t v
  | .single _, .tup _ _ => False
  | .multiple [], .leaf v => v = .nil ∨ v = .defined .unit
  | .multiple [], .tup _ _ => False
  | .multiple [t], v => ValTy t v
  | .multiple (t :: u :: ts), .tup h l => ValTy t h ∧ ValTys (u :: ts) l
  | .multiple (_ :: _ :: _), .leaf _ => False
/-- Component-wise. -/
def ValTys : List TyTuple → List Value → Prop
  | [], [] => True
  | t :: ts, v :: vs => ValTy t v ∧ ValTys ts vs
  | _, _ => False
end

/-- Panics that an accepted program must not cause: code that rustc would not accept, and looking
too far into the past. -/
def Faulty (p : Panic) : Prop := p = .rejected ∨ p = .agoZero ∨ p = .agoTooFar

/-- From this state on, and as long as its inputs are of type `t`, the machine produces outputs of
type `u` and does not go wrong. -/
def Safe (m : Machine) (t u : TyTuple) (s : m.σ) : Prop :=
  ∀ is : List Value, (∀ i ∈ is, ValTy t i) →
    (∀ p, m.runFrom s is = .error p → ¬ Faulty p) ∧
    ∀ os s', m.runFrom s is = .ok (os, s') → ∀ o ∈ os, ValTy u o

/-- The machine goes from inputs of type `t` to outputs of type `u`. -/
structure Respects (m : Machine) (t u : TyTuple) : Prop where
  safe : Safe m t u m.init
  absent : ValTy u (Tup.allNil Scalar m.outTy)

end Chandeliers.Spec

namespace Chandeliers.San

/-- Each subnode state has the property, which may depend on its position. -/
def States.AllI : (P : Nat → (m : Machine) → m.σ → Prop) → (ms : List Machine) → States ms → Prop
  | _, [], _ => True
  | P, m :: ms, (s, ss) => P 0 m s ∧ States.AllI (fun i => P (i + 1)) ms ss

end Chandeliers.San
