import Verif.Spec.Clocks
import Verif.Spec.Solutions
import Verif.Spec.Values

/-!
# When values are present

Clocks as sets of instants, and expressions that have a value from some instant on.
-/

set_option autoImplicit false

namespace Chandeliers.Spec
open San

/-- No component is nil. -/
def Full (v : Value) : Prop := ∀ l ∈ v.leaves, l ≠ .nil

/-- Every component is nil. -/
def Blank (v : Value) : Prop := ∀ l ∈ v.leaves, l = .nil

/-- The instants of a clock. -/
def Active (X : String → Nat → Nillable Scalar) : Clk → Nat → Prop
  | .implicit, _ => True
  | .adaptative, _ => True
  | .on x, t => X x t = .defined (.bool true)
  | .off x, t => X x t = .defined (.bool false)

/-- Present exactly at the instants of a clock. -/
def PresentOn (X : String → Nat → Nillable Scalar) (k : Clk) (t : Nat) (v : Value) : Prop :=
  (Active X k t → Full v) ∧ (¬Active X k t → Blank v)

/-- A node that does nothing when it is not called, and answers completely when it is: given inputs
of type `τ`, it has no uninitialised output at the instants where its first input is present,
provided that all its inputs are present at these instants. -/
structure Answers (m : Machine) (τ : TyTuple) : Prop where
  idle : ∀ s i, i.firstIsNil = true → m.step s i = .ok (Tup.allNil Scalar m.outTy, s)
  full : ∀ is os, (∀ i ∈ is, ValTy τ i ∧ (i.firstIsNil = true ∨ Full i)) → m.run is = .ok os →
    ∀ (t : Nat) i o, is[t]? = some i → os[t]? = some o → i.firstIsNil = false → Full o

/-- A machine that, given complete inputs of type `τ`, has complete outputs. -/
def Complete (m : Machine) (τ : TyTuple) : Prop :=
  ∀ is os, (∀ i ∈ is, ValTy τ i ∧ Full i) → m.run is = .ok os → ∀ o ∈ os, Full o

/-- The instants at which a variable declared with this clock should have a value: `when x` is
`explicit true x` and `whenot x` is `explicit false x`. -/
def Due (X : String → Nat → Nillable Scalar) : Clock → Nat → Prop
  | .implicit, _ => True
  | .adaptative, _ => True
  | .explicit b x, t => X x t = .defined (.bool b)

mutual
/-- Every read of the past reaches back by at most the number of instants that are known to have
elapsed: `c` to begin with, `d + 1` on the right of a `->` or `fby` that lasts until instant `d`,
one more on the right of a `->` with a flip, one less inside a `pre` with a register. -/
def ReadsWithin : Nat → Expr → Prop
  | _, .lit _ => True
  | _, .global _ => True
  | c, .var _ d => d ≤ c
  | c, .tuple es => ReadWithin c es
  | c, .dummyPre e => ReadsWithin c e
  | c, .dummyParen e => ReadsWithin c e
  | c, .un _ e => ReadsWithin c e
  | c, .bin _ l r => ReadsWithin c l ∧ ReadsWithin c r
  | c, .cmp _ l r => ReadsWithin c l ∧ ReadsWithin c r
  | c, .clock _ e b => ReadsWithin c b ∧ ReadsWithin c e
  | c, .ifx b y n => ReadsWithin c b ∧ ReadsWithin c y ∧ ReadsWithin c n
  | c, .merge b y n => ReadsWithin c b ∧ ReadsWithin c y ∧ ReadsWithin c n
  | c, .later d b a => ReadsWithin c b ∧ ReadsWithin (d + 1) a
  | c, .flip _ i a => ReadsWithin c i ∧ ReadsWithin (c + 1) a
  | c, .substep _ _ a => ReadsWithin c a
  | c, .fetchPre _ f => 0 < c ∧ ReadsWithin (c - 1) f
  | c, .fetchFby _ i f => ReadsWithin c i ∧ ReadsWithin c f
/-- All of them. -/
def ReadWithin : Nat → List Expr → Prop
  | _, [] => True
  | c, e :: es => ReadsWithin c e ∧ ReadWithin c es
end

/-- The (first component of the) expression is nil before instant `r`. -/
def NilBefore (r : Nat) : Expr → Prop
  | .lit _ => False
  | .global _ => False
  | .var _ d => r ≤ d
  | .tuple [] => False
  | .tuple (e :: _) => NilBefore r e
  | .dummyPre e => NilBefore r e
  | .dummyParen e => NilBefore r e
  | .un _ e => NilBefore r e
  | .bin _ l r' => NilBefore r l ∨ NilBefore r r'
  | .cmp _ l r' => NilBefore r l ∨ NilBefore r r'
  | .clock _ e b => NilBefore r b ∨ NilBefore r e
  | .ifx b _ _ => NilBefore r b
  | .merge b _ _ => NilBefore r b
  | .later _ b a => NilBefore r b ∧ NilBefore r a
  | .substep d _ a => r ≤ d ∨ NilBefore r a
  | .flip _ _ _ => False
  | .fetchPre _ _ => False
  | .fetchFby _ _ _ => False

mutual
/-- Every call has begun, and is not given arguments of which some are present and some are not yet
initialised: either they all are from the first instant of the call on, or they all are from some
instant `r` and nil before. -/
def CallsReady : Nat → Expr → Prop
  | _, .lit _ => True
  | _, .global _ => True
  | _, .var _ _ => True
  | c, .tuple es => CallReady c es
  | c, .dummyPre e => CallsReady c e
  | c, .dummyParen e => CallsReady c e
  | c, .un _ e => CallsReady c e
  | c, .bin _ l r => CallsReady c l ∧ CallsReady c r
  | c, .cmp _ l r => CallsReady c l ∧ CallsReady c r
  | c, .clock _ e b => CallsReady c b ∧ CallsReady c e
  | c, .ifx b y n => CallsReady c b ∧ CallsReady c y ∧ CallsReady c n
  | c, .merge b y n => CallsReady c b ∧ CallsReady c y ∧ CallsReady c n
  | c, .later d b a => CallsReady c b ∧ CallsReady (d + 1) a
  | c, .substep d _ a => d ≤ c ∧ ∃ r, r ≤ c ∧ ReadsWithin r a ∧ CallsReady r a ∧
      (r ≤ d ∨ NilBefore r a)
  | _, .flip _ _ _ => False
  | _, .fetchPre _ _ => False
  | _, .fetchFby _ _ _ => False
/-- All of them. -/
def CallReady : Nat → List Expr → Prop
  | _, [] => True
  | c, e :: es => CallsReady c e ∧ CallReady c es
end

/-- What is asked of a node for its variables to be present exactly when they should:
* its clocks are right, the delays being on the clock of the node;
* its variables are declared with no clock, `when x` or `whenot x`, which is all that the syntax
  offers;
* its calls are ready;
* it does not compare floats, whatever the types of the constants and of the nodes it calls;
* the two branches of an `if` whose condition is constant are present at the same instants. -/
structure Sober (n : Node) (K : String → Option Clk) : Prop where
  clocks : NodeClocked true n K
  written : ∀ v ∈ declared n, v.clk ≠ .adaptative
  calls : ∀ st ∈ n.stmts, ∀ e ∈ evaluated st, CallsReady 0 e
  comparisons : ∀ st ∈ n.stmts, ∀ e ∈ evaluated st, ∀ op a b, Part (.cmp op a b) e →
    ∀ sigs consts, ¬(HasType (nodeEnv sigs consts n) a (.single .float) ∧
      HasType (nodeEnv sigs consts n) b (.single .float))
  conditions : ∀ st ∈ n.stmts, ∀ e ∈ evaluated st, ∀ b y z k k', Part (.ifx b y z) e →
    HasClock true K b .adaptative → HasClock true K y k → HasClock true K z k' → SameClk k k'

/-- Given no input, the machine returns nothing and its memory does not change. -/
def Idle (m : Machine) : Prop :=
  ∀ s i, i.firstIsNil = true → m.step s i = .ok (Tup.allNil Scalar m.outTy, s)

end Chandeliers.Spec
