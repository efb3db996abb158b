import Verif.San.Eval
import Verif.Syn.Prog

/-!
# The standard library

Model of `chandeliers-std/src/cast.rs` and `chandeliers-std/src/rand.rs`: the nodes that come with
the compiler, which a program declares `extern`.
-/

set_option autoImplicit false

namespace Chandeliers.San

/-- The operations of Rust that the conversions call: `as f64` on `i64`, `as i64` on `f64`,
`f64::ceil`, `f64::floor`.  What they compute is left open. std/src/cast.rs 15-60. -/
structure Rust where
  asFloat : Int64 → F64
  asInt : F64 → Int64
  ceil : F64 → F64
  floor : F64 → F64

/-- A node without state whose `step` is `inputs.map(f)`; rustc refuses inputs of another type.
std/src/cast.rs 10-62. -/
def pointwise (f : Scalar → R Scalar) : Machine where
  σ := Unit
  init := ()
  outTy := .leaf ()
  step := fun s i =>
    match i with
    | .leaf v => do
      let o ← v.unop f
      pure (.leaf o, s)
    | .tup _ _ => .error .rejected

/-- cast.rs 6-18. -/
def floatOfInt (L : Rust) : Machine := pointwise fun x =>
  match x with
  | .int i => .ok (.float (L.asFloat i))
  | _ => .error .rejected

/-- cast.rs 20-33. -/
def intOfFloat (L : Rust) : Machine := pointwise fun x =>
  match x with
  | .float f => .ok (.int (L.asInt f))
  | _ => .error .rejected

/-- cast.rs 35-47. -/
def ceil (L : Rust) : Machine := pointwise fun x =>
  match x with
  | .float f => .ok (.float (L.ceil f))
  | _ => .error .rejected

/-- cast.rs 49-61. -/
def floor (L : Rust) : Machine := pointwise fun x =>
  match x with
  | .float f => .ok (.float (L.floor f))
  | _ => .error .rejected

/-- rand.rs 8-54: a node that draws a number at each instant where it is active.  The generator of
the thread is replaced by the sequence of the numbers that it gives to this node, which is arbitrary;
the state is how many were drawn. -/
def random (draws : Nat → Scalar) : Machine where
  σ := Nat
  init := 0
  outTy := .leaf ()
  step := fun s i => Candle.implicitClock i (.leaf ()) s (.ok (.leaf (.defined (draws s)), s + 1))

/-- What the generator gives to the nodes of rand.rs. -/
structure Draws where
  int : Nat → Int64
  float : Nat → F64
  bool : Nat → Bool

/-- The library. std/src/cast.rs and std/src/rand.rs. -/
def library (L : Rust) (G : Draws) : Extern where
  consts := fun _ => none
  nodes := fun f =>
    if f = "float_of_int" then some (floatOfInt L)
    else if f = "int_of_float" then some (intOfFloat L)
    else if f = "ceil" then some (ceil L)
    else if f = "floor" then some (floor L)
    else if f = "random_int" then some (random fun k => .int (G.int k))
    else if f = "random_float" then some (random fun k => .float (G.float k))
    else if f = "random_bool" then some (random fun k => .bool (G.bool k))
    else none

end Chandeliers.San
