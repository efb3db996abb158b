import Verif.San.Eval

/-!
# Drivers emitted for `#[main(n)]` and `#[test(n)]`

Model of `chandeliers-san/src/codegen/options.rs` 141-215.
-/

namespace Chandeliers.San

/-- Where the emitted `fn main()` stands. codegen/options.rs 148-176. -/
inductive Driver (σ : Type) where
  /-- In the loop; `left` is the number of iterations left, `none` for `loop {}`. -/
  | running (left : Option Nat) (s : σ)
  | returned
  | panicked (p : Panic)

/-- Entry of the emitted `fn main()`: a fresh node, then the test `nb_iter == 0`
(options.rs 163-173). -/
def Driver.start (m : Machine) (nbIter : Nat) : Driver m.σ :=
  if nbIter = 0 then .running none m.init else .running (some nbIter) m.init

/-- `().embed()`. codegen/options.rs 164. -/
abbrev unitInput : Value := .leaf (.defined .unit)

/-- One evaluation of `sys.step(().embed()).trusted();` or the end of the `for` loop.
codegen/options.rs 148-215. -/
def Driver.next (m : Machine) : Driver m.σ → Driver m.σ
  | .running (some 0) _ => .returned
  | .running left s =>
    match m.step s unitInput with
    | .error p => .panicked p
    | .ok (o, s') =>
      match o.trusted with
      | .error p => .panicked p
      | .ok _ => .running (left.map (· - 1)) s'
  | d => d

/-- The driver after `k` such evaluations. codegen/options.rs 148-215. -/
def Driver.after (m : Machine) (nbIter : Nat) : Nat → Driver m.σ
  | 0 => Driver.start m nbIter
  | k + 1 => Driver.next m (Driver.after m nbIter k)

end Chandeliers.San
