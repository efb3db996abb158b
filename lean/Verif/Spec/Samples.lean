import Verif.Spec.SampleTexts
import Verif.San.Read
import Verif.Spec.Values
import Verif.Spec.Attributes
import Verif.San.Run

/-!
# What the programs that come with the project are expected to do
-/

set_option autoImplicit false

namespace Chandeliers.Spec.Samples
open San Syn

/-- The macro, given the tokens `ts`, emits code without any message, and the text of that code, read by
Rust with the external items `X`, has the items `I`. -/
def Emits (uid : Nat) (A : Arith) (X : Extern) (ts : List Tok) (I : Items) : Prop :=
  ∃ p', expand ts = some (.done [] (some p')) ∧ ∃ k, ∀ n, n ≥ k → linkText n uid A X p'.decls = .ok I

/-- The struct emitted for the node `f`. -/
def structOf (uid : Nat) (I : Items) (f : String) : Option Machine :=
  I.nodes (f ++ "__lus_" ++ toString uid ++ "_node")

/-- The value of the `const` emitted for the constant `x`. -/
def constOf (uid : Nat) (I : Items) (x : String) : Option Scalar :=
  I.consts (x ++ "__lus_" ++ toString uid ++ "_global")

/-- The nodes that have an attribute `#[export]` or `#[pub]`. -/
def exports (ts : List Tok) : List String :=
  ((parseProg ts).getD []).filterMap fun d =>
    match d.item with
    | .node src => if (meaning d.attrs).export_ then some src.name else none
    | _ => none

/-- The struct `f` that is exported for the node `f`, around the previous one. -/
def exported (uid : Nat) (A : Arith) (I : Items) (f : String) : Option Machine :=
  (structOf uid I f).map fun m => innerMachine exportQuote A I.consts m.outTy m

/-- The nodes that have an attribute `#[main(n)]`, with their `n`; it is 100 if they do not say. -/
def mains (ts : List Tok) : List (String × Nat) :=
  ((parseProg ts).getD []).filterMap fun d =>
    match d.item with
    | .node src => (meaning d.attrs).main.map (src.name, ·)
    | _ => none

/-- The nodes that have an attribute `#[test(n)]`, with their `n`; it is 100 if they do not say. -/
def tests (ts : List Tok) : List (String × Nat) :=
  ((parseProg ts).getD []).filterMap fun d =>
    match d.item with
    | .node src => (meaning d.attrs).test.map (src.name, ·)
    | _ => none

/-- The function emitted for `#[main(n)]` or `#[test(n)]` returns. -/
def Returns (m : Machine) (n : Nat) : Prop := ∃ k, Driver.after m n k = .returned

/-- The function `main` emitted for `#[main(n)]` panics. -/
def MainPanics (m : Machine) (n : Nat) : Prop := ∃ k p, Driver.after m n k = .panicked p

/-- `()` -/
def vUnit : Value := .leaf (.defined .unit)

/-- An integer that fits in 64 bits. -/
def vInt (z : Int) : Value := .leaf (.defined (.int (Int64.ofInt z)))

/-- A boolean. -/
def vBool (b : Bool) : Value := .leaf (.defined (.bool b))

/-- A float. -/
def vFloat (x : F64) : Value := .leaf (.defined (.float x))

/-- A pair. -/
def pair (a b : Value) : Value := .tup a [b]

/-- Three values. -/
def triple (a b c : Value) : Value := .tup a [b, c]

/-- The machine returns, during the first `n` instants at least, `out t` at instant `t` when it is given
`inp t` at every instant `t`. -/
def Answers (m : Machine) (n : Nat) (inp out : Nat → Value) : Prop :=
  ∀ k ≤ n, m.run ((List.range k).map inp) = .ok ((List.range k).map out)

/-- The machine panics before the end of instant `t` at the latest. -/
def Panics (m : Machine) (inp : Nat → Value) (t : Nat) : Prop :=
  ∀ k > t, ∀ os, m.run ((List.range k).map inp) ≠ .ok os

/-- The machine never panics. -/
def Forever (m : Machine) (inp out : Nat → Value) : Prop := ∀ n, Answers m n inp out

/-- Rust offers under the name `f` the node `m`, which has no input and one output of type `ty`. -/
def Offered (X : Extern) (f : String) (ty : TyBase) (m : Machine) : Prop :=
  X.nodes f = some m ∧ Respects m (.multiple []) (.single ty)

/-- The integer fits in 64 bits. -/
def Fits (z : Int) : Prop := -2 ^ 63 ≤ z ∧ z < 2 ^ 63

/-- The sum of the integers received until instant `t`. -/
def total (r : Nat → Int) : Nat → Int
  | 0 => r 0
  | t + 1 => total r t + r (t + 1)

/-- The number of instants until `t` at which `low` is true. -/
def hits (low : Nat → Bool) : Nat → Int
  | 0 => if low 0 then 1 else 0
  | t + 1 => hits low t + if low (t + 1) then 1 else 0

/-- How many of three bits are set. -/
def ones (a b c : Bool) : Nat := a.toNat + b.toNat + c.toNat

end Chandeliers.Spec.Samples
