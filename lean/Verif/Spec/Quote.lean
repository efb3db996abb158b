import Verif.Spec.Program

/-!
# What the emitted code relies on
-/

set_option autoImplicit false

namespace Chandeliers.Spec
open Chandeliers.San Chandeliers.Syn

/-- External nodes declared without outputs return `()`, not `nil`, when their inputs are present. -/
def UnitOutputs (X : Extern) (p : SrcProg) : Prop :=
  ∀ attrs f ins outs m, ⟨attrs, .extNode f ins outs⟩ ∈ p → argTypes outs = [] → X.nodes f = some m →
    ∀ s i o s', i.firstIsNil = false → m.step s i = .ok (o, s') → o ≠ .leaf .nil

/-- The value can be the arguments, or the results, of a Rust function with `n` of them. -/
def Arity : Nat → Value → Prop
  | 0, v => v = .leaf (.defined .unit)
  | 1, _ => True
  | n + 2, .tup _ t => t.length = n + 1
  | _ + 2, .leaf _ => False

/-- A Rust function that is called with the arguments it is declared with, and returns what it is
declared to return. -/
structure Strict (ins outs : Nat) (m : Machine) : Prop where
  type : m.outTy = flatShape outs
  inputs : ∀ s i, i.firstIsNil = false → 2 ≤ ins → ¬ Arity ins i → m.step s i = .error .rejected
  outputs : ∀ s i o s', i.firstIsNil = false → m.step s i = .ok (o, s') → Arity outs o

end Chandeliers.Spec
