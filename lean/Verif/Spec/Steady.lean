import Verif.Spec.Legal

/-!
# Expressions that, once initialised, stay so

With `#[universal_pre]` a delay is counted in instants of a clock: an expression is nil at the first
`r` instants of its clock, for some `r`, and complete at those that follow.  This says for which
expressions, on the source.
-/

set_option autoImplicit false

namespace Chandeliers.Spec.Static
open Chandeliers.San Chandeliers.Syn

/-- An operand that is late by `r` instants of its clock can be combined with others: if it is late
at all, it has a clock, the one of the result, on which to count. -/
def Mixes (S : Scope) (e : Src) (r : Nat) : Prop := r = 0 ∨ ¬ HasClk S e .adaptative

mutual
/-- The expression is nil at the first `r` instants of its clock and complete at the others.
* `pre` is late by one more than its operand.
* `a fby b` takes over from `b` as soon as it can.
* `a -> b` begins with `a`; `b` must be initialised one instant later.
* `when`, `whenot` and `merge` change clocks: their operands are not late.
* The arguments of a call are all late by the same number of instants, and so are the results of an
  `if`, whichever branch is taken; if its condition is constant then its branches are on the same
  clock.
* Floats are not compared: the result may be nil. -/
def Steady (S : Scope) : Src → Nat → Prop
  | .lit _, r => r = 0
  | .var _, r => r = 0
  | .paren es _, r => AllSteady S es r ∧ (es = [] → r = 0)
  | .left e rest, r => ∃ s, Steady S e s ∧ (rest = [] ∨ Mixes S e s) ∧ LeftSteady S s rest r
  | .cmp e rest, r => ∃ s, Steady S e s ∧ CmpSteady S e s rest r
  | .fby e rest, r => ∃ s, Steady S e s ∧
      ((rest = [] ∧ r = s) ∨ ∃ r', FbySteady S rest r' ∧ r = min s (r' + 1))
  | .arrow e rest, r => Steady S e r ∧ (rest = [] ∨ ∃ r', ArrowSteady S rest r' ∧ r' ≤ r + 1)
  | .ifx c y n, r => ∃ rc ry rn, Steady S c rc ∧ Steady S y ry ∧ Steady S n rn ∧
      Mixes S c rc ∧ Mixes S y ry ∧ Mixes S n rn ∧ r = max rc ry ∧ r = max rc rn ∧
      (HasClk S c .adaptative → ∀ k k', HasClk S y k → HasClk S n k' → SameClk k k')
  | .merge c y n, r => Steady S c 0 ∧ Steady S y 0 ∧ Steady S n 0 ∧ r = 0
  | .call _ args _, r => AllSteady S args r ∧ (args = [] → r = 0)
  | .pre e, r => ∃ s, Steady S e s ∧ r = s + 1
  | .neg e, r => Steady S e r
  | .not e, r => Steady S e r
/-- All late by as much. -/
def AllSteady (S : Scope) : List Src → Nat → Prop
  | [], _ => True
  | e :: es, r => Steady S e r ∧ AllSteady S es r
/-- Operators associate to the left; the first operand is late by `s`. -/
def LeftSteady (S : Scope) : Nat → List (LOp × Src) → Nat → Prop
  | s, [], r => r = s
  | s, (op, e) :: rest, r => match guard op with
    | none => ∃ s', Steady S e s' ∧ Mixes S e s' ∧ LeftSteady S (max s s') rest r
    | some _ => s = 0 ∧ LeftSteady S 0 rest r
/-- At most one comparison; the first operand is `a`, late by `s`. -/
def CmpSteady (S : Scope) : Src → Nat → List (CmpOp × Src) → Nat → Prop
  | _, s, [], r => r = s
  | a, s, (_, e) :: _, r => ∃ s', Steady S e s' ∧ Mixes S a s ∧ Mixes S e s' ∧ r = max s s' ∧
      ∀ S' : Scope, S'.vars = S.vars →
        ¬(HasTy S' a (.single .float) ∧ HasTy S' e (.single .float))
/-- `e₀ fby (e₁ fby …)`. -/
def FbySteady (S : Scope) : List Src → Nat → Prop
  | [], _ => False
  | e :: es, r => ∃ s, Steady S e s ∧
      ((es = [] ∧ r = s) ∨ ∃ r', FbySteady S es r' ∧ r = min s (r' + 1))
/-- `e₀ -> (e₁ -> …)`. -/
def ArrowSteady (S : Scope) : List Src → Nat → Prop
  | [], _ => False
  | e :: es, r => Steady S e r ∧ (es = [] ∨ ∃ r', ArrowSteady S es r' ∧ r' ≤ r + 1)
end

/-- Every equation and every assertion of the node is steady, whatever the constants and the other
nodes of the program, and no variable is declared with a clock that adapts to others (there is no
syntax for that). -/
structure SteadyNode (o : NodeOptions) (n : SrcNode) : Prop where
  steady : ∀ consts nodes, ∀ st ∈ n.defs, ∃ r, Steady (scope o consts nodes n) (SrcStmt.expr st) r
  written : ∀ a ∈ n.inputs ++ n.outputs ++ n.locals, a.clk ≠ .adaptative

end Chandeliers.Spec.Static
