import Verif.San.Eval
import Verif.Syn.Prog

/-!
# Nodes that behave the same
-/

set_option autoImplicit false

namespace Chandeliers.Spec
open Chandeliers.San

/-- Two executions end the same way: both return related results, or both panic, with panics related
by `E`. -/
def Both.{u, v} (E : Panic → Panic → Prop) {α : Type u} {β : Type v} (Q : α → β → Prop) :
    Except Panic α → Except Panic β → Prop
  | .ok a, .ok b => Q a b
  | .error p, .error q => E p q
  | _, _ => False

/-- Two nodes of the same type that cannot be told apart by running them: on every history both
return the same outputs, or both panic, with panics related by `E`. -/
structure Alike (E : Panic → Panic → Prop) (m m' : Machine) : Prop where
  type : m.outTy = m'.outTy
  runs : ∀ is : List Value, Both E (· = ·) (m.run is) (m'.run is)

/-- Two sets of external items with the same constants, and nodes that are alike. -/
structure AlikeItems (E : Panic → Panic → Prop) (consts consts' : String → Option Scalar)
    (nodes nodes' : String → Option Machine) : Prop where
  consts : consts = consts'
  none : ∀ f, nodes f = none ↔ nodes' f = none
  nodes : ∀ f m m', nodes f = some m → nodes' f = some m' → Alike E m m'

/-- One execution may panic where the other does not, with panics in `S`.  Otherwise they end the
same way. -/
def Upto.{u, v} (S : Panic → Prop) (E : Panic → Panic → Prop) {α : Type u} {β : Type v}
    (Q : α → β → Prop) : Except Panic α → Except Panic β → Prop
  | .ok a, .ok b => Q a b
  | .error p, .error q => S p ∨ E p q
  | .error p, .ok _ => S p
  | .ok _, .error _ => False

/-- Two nodes of the same type.  On every history the first panics with a panic in `S`, or both
return the same outputs, or both panic, with panics related by `E`. -/
structure Milder (S : Panic → Prop) (E : Panic → Panic → Prop) (m m' : Machine) : Prop where
  type : m.outTy = m'.outTy
  runs : ∀ is : List Value, Upto S E (· = ·) (m.run is) (m'.run is)

end Chandeliers.Spec
