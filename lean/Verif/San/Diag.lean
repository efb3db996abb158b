import Verif.San.Ast
import Verif.Lemmas.Chk

/-!
# Diagnostics of the middle end

The error messages of `chandeliers-err/src/error.rs`, with the names, the types, the clocks, the
numbers and the expressions that are printed.  Spans, the wording and the lists of suggestions are
left out; so is which of `#[main]` and `#[test]` makes a node executable.
-/

namespace Chandeliers.San

/-- clockcheck.rs 27-43 `Clk`. -/
inductive Clk where
  | implicit
  | adaptative
  | on (x : String)
  | off (x : String)
  deriving DecidableEq, Repr

/-- What an operator is said to expect (typecheck.rs 623-737): `the same type`, one of some types, or
`a concrete type`. -/
inductive Expect where
  | same
  | among (ts : List TyBase)
  | concrete
  deriving DecidableEq, Repr

/-- error.rs 309-660.  `BinopMismatch` is used for two kinds of operators. -/
inductive Diag where
  | typeMismatch (left right : TyTuple)
  | varNotFound (x : String)
  | funNotFound (f : String)
  | tyVarNotFound (x : String)
  | notConst (what : String)
  | binopMismatch (op : BinOp) (expect : Expect) (left right : TyBase)
  | cmpMismatch (op : CmpOp) (expect : Expect) (left right : TyBase)
  | unopMismatch (op : UnOp) (expect : Expect) (inner : TyBase)
  | boolRequired (what : String) (inner : TyBase)
  | declTwice (x : String)
  | notPositive (x : String) (available attempted : Nat)
  | shallowPre (e : Expr)
  | unhandledLit
  | cmpNotAssociative
  | clkTooSlow (slow : Clk)
  | notAClock (e : Expr)
  | clkNotComparable (first second : Clk)
  | clkNotIdentical (first second : Clk)
  | unusedGeneric (t : String)
  | unsatGeneric (t : String) (previous new : TyBase)
  | undeclaredGeneric (t : String)
  | executableSig (inputsNonempty outputsNonempty : Bool)
  | scalarNotTuple (t : TyTuple)

end Chandeliers.San
