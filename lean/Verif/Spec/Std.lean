import Verif.San.Std
import Verif.Spec.Program
import Verif.Spec.Presence

/-!
# The standard library
-/

set_option autoImplicit false

namespace Chandeliers.Spec
open Chandeliers.San Chandeliers.Syn

/-- What the conversions return. -/
inductive Converts (L : Rust) : String → Scalar → Scalar → Prop
  | floatOfInt (i : Int64) : Converts L "float_of_int" (.int i) (.float (L.asFloat i))
  | intOfFloat (f : F64) : Converts L "int_of_float" (.float f) (.int (L.asInt f))
  | ceil (f : F64) : Converts L "ceil" (.float f) (.float (L.ceil f))
  | floor (f : F64) : Converts L "floor" (.float f) (.float (L.floor f))

/-- The conversions and their types. -/
inductive Conversion : String → TyBase → TyBase → Prop
  | floatOfInt : Conversion "float_of_int" .int .float
  | intOfFloat : Conversion "int_of_float" .float .int
  | ceil : Conversion "ceil" .float .float
  | floor : Conversion "floor" .float .float

/-- The random nodes, their types and the numbers that are drawn for them. -/
inductive Random (G : Draws) : String → TyBase → (Nat → Scalar) → Prop
  | int : Random G "random_int" .int fun k => .int (G.int k)
  | float : Random G "random_float" .float fun k => .float (G.float k)
  | bool : Random G "random_bool" .bool fun k => .bool (G.bool k)

/-- The node is in the library, with these types. -/
inductive InLibrary : String → List TyBase → List TyBase → Prop
  | conversion {f t u} (h : Conversion f t u) : InLibrary f [t] [u]
  | random {f t} {G : Draws} {d} (h : Random G f t d) : InLibrary f [] [t]

/-- All that the program declares `extern` is in the library, and declared with its type. -/
structure UsesLibrary (p : SrcProg) : Prop where
  consts : ∀ attrs x ty, (⟨attrs, .extConst x ty⟩ : SrcDecl) ∉ p
  nodes : ∀ attrs f ins outs, ⟨attrs, .extNode f ins outs⟩ ∈ p →
    InLibrary f (argTypes ins) (argTypes outs)

/-- At how many of these instants there is an input. -/
def activeCount (is : List (Nillable Scalar)) : Nat := is.countP fun v => v != .nil

end Chandeliers.Spec
