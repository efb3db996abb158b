import Verif.Spec.Legal

/-!
# Expressions without `#[universal_pre]` that are present exactly when they should

Without `#[universal_pre]` a delay is counted in instants of the node that reads it.  This says, on
the source, for which expressions the values are present exactly at the instants of their clocks.
-/

set_option autoImplicit false

namespace Chandeliers.Spec.Static
open Chandeliers.San Chandeliers.Syn

mutual
/-- The (first component of the) expression, delayed by `d` instants, is nil before instant `r`. -/
def Late (S : Scope) (r : Nat) : Nat → Src → Prop
  | _, .lit _ => False
  | d, .var x => (S.var x).isSome = true ∧ r ≤ d
  | d, .paren es _ => FirstLate S r d es
  | d, .left e rest => Late S r d e ∨ LeftLate S r d rest
  | d, .cmp e rest => Late S r d e ∨ CmpLate S r d rest
  | d, .fby e rest => Late S r d e ∧ FbyLate S r d 1 rest
  | d, .arrow e rest => Late S r d e ∧ ArrowLate S r d rest
  | d, .ifx c _ _ => Late S r d c
  | d, .merge c _ _ => Late S r d c
  | d, .call _ args _ => r ≤ d ∨ FirstLate S r d args
  | d, .pre e => Late S r (d + 1) e
  | d, .neg e => Late S r d e
  | d, .not e => Late S r d e
/-- The first one. -/
def FirstLate (S : Scope) (r : Nat) : Nat → List Src → Prop
  | _, [] => False
  | d, e :: _ => Late S r d e
/-- One of the operands. -/
def LeftLate (S : Scope) (r : Nat) : Nat → List (LOp × Src) → Prop
  | _, [] => False
  | d, (_, e) :: es => Late S r d e ∨ LeftLate S r d es
/-- The second operand. -/
def CmpLate (S : Scope) (r : Nat) : Nat → List (CmpOp × Src) → Prop
  | _, [] => False
  | d, (_, e) :: _ => Late S r d e
/-- The operands of `fby`, from the `i`-th on, which is delayed by `i` more instants. -/
def FbyLate (S : Scope) (r : Nat) : Nat → Nat → List Src → Prop
  | _, _, [] => True
  | d, i, e :: es => Late S r (d + i) e ∧ FbyLate S r d (i + 1) es
/-- The operands of `->`. -/
def ArrowLate (S : Scope) (r : Nat) : Nat → List Src → Prop
  | _, [] => True
  | d, e :: es => Late S r d e ∧ ArrowLate S r d es
end

/-- The expression is on the clock of the node. -/
def OnBase (S : Scope) (e : Src) : Prop := ∀ k, HasClk S e k → Always k

mutual
/-- The expression, delayed by `d` instants and read when at least `c` instants have passed, is
present exactly at the instants of its clock.
* The operands of `->` and `fby` are on the clock of the node.
* The arguments of a call are not partly initialised: either they all are when the call begins, or
  they all are from instant `r` on, and the first one is nil before.
* Floats are not compared: the result may be nil.
* If the condition of an `if` is constant then its branches are on the same clock. -/
def Timely (S : Scope) : Nat → Nat → Src → Prop
  | _, _, .lit _ => True
  | _, _, .var _ => True
  | d, c, .paren es _ => AllTimely S d c es
  | d, c, .left e rest => Timely S d c e ∧ LeftTimely S d c rest
  | d, c, .cmp e rest => Timely S d c e ∧ CmpTimely S d c e rest
  | d, c, .fby e rest => Timely S d c e ∧ (rest = [] ∨ OnBase S e) ∧ FbyTimely S d 1 rest
  | d, c, .arrow e rest => Timely S d c e ∧ (rest = [] ∨ OnBase S e) ∧ ArrowTimely S d 1 rest
  | d, c, .ifx b y n => Timely S d c b ∧ Timely S d c y ∧ Timely S d c n ∧
      (HasClk S b .adaptative → ∀ k k', HasClk S y k → HasClk S n k' → SameClk k k')
  | d, c, .merge b y n => Timely S d c b ∧ Timely S d c y ∧ Timely S d c n
  | d, c, .call _ args _ => d ≤ c ∧ ∃ r, r ≤ c ∧ AllReady S d r args ∧ AllTimely S d r args ∧
      (r ≤ d ∨ FirstLate S r d args)
  | d, c, .pre e => Timely S (d + 1) c e
  | d, c, .neg e => Timely S d c e
  | d, c, .not e => Timely S d c e
/-- All of them. -/
def AllTimely (S : Scope) : Nat → Nat → List Src → Prop
  | _, _, [] => True
  | d, c, e :: es => Timely S d c e ∧ AllTimely S d c es
/-- All operands. -/
def LeftTimely (S : Scope) : Nat → Nat → List (LOp × Src) → Prop
  | _, _, [] => True
  | d, c, (_, e) :: es => Timely S d c e ∧ LeftTimely S d c es
/-- At most one comparison; the first operand is `a`. -/
def CmpTimely (S : Scope) : Nat → Nat → Src → List (CmpOp × Src) → Prop
  | _, _, _, [] => True
  | d, c, a, (_, e) :: _ => Timely S d c e ∧ ∀ S' : Scope, S'.vars = S.vars →
      ¬(HasTy S' a (.single .float) ∧ HasTy S' e (.single .float))
/-- The operands of `fby`, from the `i`-th on: it is delayed by `i` more instants, and read when they
have passed. -/
def FbyTimely (S : Scope) : Nat → Nat → List Src → Prop
  | _, _, [] => True
  | d, i, e :: es => Timely S (d + i) (d + i) e ∧ OnBase S e ∧ FbyTimely S d (i + 1) es
/-- The operands of `->`, from the `i`-th on: it is read when `d + i` instants have passed. -/
def ArrowTimely (S : Scope) : Nat → Nat → List Src → Prop
  | _, _, [] => True
  | d, i, e :: es => Timely S d (d + i) e ∧ OnBase S e ∧ ArrowTimely S d (i + 1) es
end

/-- Every equation and every assertion of the node is timely, whatever the constants and the other
nodes of the program, and no variable is declared with a clock that adapts to others (there is no
syntax for that). -/
structure TimelyNode (o : NodeOptions) (n : SrcNode) : Prop where
  timely : ∀ consts nodes, ∀ st ∈ n.defs, Timely (scope o consts nodes n) 0 0 (SrcStmt.expr st)
  written : ∀ a ∈ n.inputs ++ n.outputs ++ n.locals, a.clk ≠ .adaptative

end Chandeliers.Spec.Static
