import Verif.Spec.Samples
import Verif.Spec.Trace

/-!
# What the programs that come with the project are expected to print
-/

set_option autoImplicit false

namespace Chandeliers.Spec.Samples
open San Syn

/-- The arguments of `#[trace]` of the nodes. -/
def traces (ts : List Tok) (f : String) : Option TraceOpt :=
  ((parseProg ts).getD []).findSome? fun d =>
    match d.item with
    | .node src => if src.name = f then (meaning d.attrs).trace else none
    | _ => none

/-- The macro, given the tokens `ts`, emits code without any message, and that code has the items `I`, which
print. -/
def EmitsW (A : Arith) (D : Shows) (X : ExternW) (ts : List Tok) (I : ItemsW) : Prop :=
  ∃ p', expand ts = some (.done [] (some p')) ∧ linkW A D X (traces ts) p'.decls = .ok I

/-- The machine, called `k` times from its initial state with `inp 0`, `inp 1`..., returns `out 0`, `out 1`..., and
what it has written on the standard output, and nowhere else, is `line 0`, `line 1`... -/
def Tells (m : TMachine) (inp out : Nat → Value) (line : Nat → String) (k : Nat) : Prop :=
  ∃ s os, m.runFrom m.init ((List.range k).map inp) = ⟨.ok ((List.range k).map out, s), os⟩ ∧
    (∀ o ∈ os, o.file = .stdOut) ∧ String.join (os.map (·.text)) = String.join ((List.range k).map line)

/-- What is said instead of the number `n` in the game of Fizz buzz. -/
def fizzbuzz (n : Nat) : String :=
  if n % 15 = 0 then "FizzBuzz" else if n % 3 = 0 then "Fizz" else if n % 5 = 0 then "Buzz" else toString n

/-- The two lines that the node `foo` of the module `format` writes at an instant where its inputs are `a`, `b`
and `c`. -/
def fooLine (a b c : Int) : String :=
  s!"      foo <- (a={a}, b={b}, c={c})\n      foo -> (x={a}, y={b}, z={c})\n"

end Chandeliers.Spec.Samples
