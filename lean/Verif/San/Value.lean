import Verif.San.Ast
import Verif.Sem.Stepping

/-!
# Run-time scalars and their operators

The scalar operations of Rust that `binop!`, `unop!` and `cmp!` (candle.rs 371-443) resolve to.
-/

namespace Chandeliers.San

/-- A run-time scalar: `i64`, `f64`, `bool`, `()` or a value of a generic/foreign type.
The types of ast/mod.rs 165-176, in Rust. -/
inductive Scalar where
  | int (i : Int64)
  | float (f : F64)
  | bool (b : Bool)
  | unit
  | other (ty : String) (payload : Nat)
  deriving DecidableEq

/-- A run-time value: nested tuple of nillable scalars.
The types of stepping.rs 12-120 and nillable.rs 20-30. -/
abbrev Value := Tup (Nillable Scalar)

/-- What the model leaves open: whether `i64` overflow panics (debug build) or wraps (release
build), and IEEE arithmetic. The operators that nillable.rs 91-141 and constexpr.rs 52-104 call. -/
structure Arith where
  overflowChecks : Bool
  fbin : BinOp → F64 → F64 → F64
  fneg : F64 → F64
  feq : F64 → F64 → Bool
  fcmp : F64 → F64 → Option Ordering

/-- An `i64` result computed exactly, then checked or wrapped.
The operators that nillable.rs 91-141 and constexpr.rs 52-104 call. -/
def checked (A : Arith) (r : Int) : R Int64 :=
  if (Int64.ofInt r).toInt = r then .ok (Int64.ofInt r)
  else if A.overflowChecks then .error .arith else .ok (Int64.ofInt r)

/-- Rust's `i64` operators.  Division and remainder panic on a zero divisor and on
`i64::MIN / -1` in every build. The operators that nillable.rs 91-117 calls. -/
def intBin (A : Arith) : BinOp → Int64 → Int64 → R Int64
  | .add, x, y => checked A (x.toInt + y.toInt)
  | .sub, x, y => checked A (x.toInt - y.toInt)
  | .mul, x, y => checked A (x.toInt * y.toInt)
  | .div, x, y =>
    if y = 0 then .error .arith
    else if (Int64.ofInt (x.toInt.tdiv y.toInt)).toInt = x.toInt.tdiv y.toInt then
      .ok (Int64.ofInt (x.toInt.tdiv y.toInt))
    else .error .arith
  | .rem, x, y =>
    if y = 0 then .error .arith
    else if (Int64.ofInt (x.toInt.tdiv y.toInt)).toInt = x.toInt.tdiv y.toInt then
      .ok (Int64.ofInt (x.toInt.tmod y.toInt))
    else .error .arith
  | .bitAnd, x, y => .ok (x &&& y)
  | .bitOr, x, y => .ok (x ||| y)
  | .bitXor, x, y => .ok (x ^^^ y)

/-- Rust's binary operators on scalars of the modelled types; `rejected` when rustc has no
such operator (`bool + bool`, `f64 & f64`, mixed types, foreign types).
The operators that nillable.rs 91-117 calls. -/
def scalarBin (A : Arith) : BinOp → Scalar → Scalar → R Scalar
  | op, .int x, .int y => (intBin A op x y).map .int
  | .bitAnd, .float _, .float _ => .error .rejected
  | .bitOr, .float _, .float _ => .error .rejected
  | .bitXor, .float _, .float _ => .error .rejected
  | op, .float x, .float y => .ok (.float (A.fbin op x y))
  | .bitAnd, .bool x, .bool y => .ok (.bool (x && y))
  | .bitOr, .bool x, .bool y => .ok (.bool (x || y))
  | .bitXor, .bool x, .bool y => .ok (.bool (xor x y))
  | _, _, _ => .error .rejected

/-- Rust's unary operators: `-` on `i64`/`f64`, `!` on `i64`/`bool`.
The operators that nillable.rs 121-141 calls. -/
def scalarUn (A : Arith) : UnOp → Scalar → R Scalar
  | .neg, .int x => (checked A (-x.toInt)).map .int
  | .neg, .float x => .ok (.float (A.fneg x))
  | .not, .int x => .ok (.int (~~~x))
  | .not, .bool x => .ok (.bool (!x))
  | _, _ => .error .rejected

/-- `PartialEq` on scalars of one type (different types: see `scalarCmp`).
What nillable.rs 154-162 calls. -/
def scalarEq (A : Arith) : Scalar → Scalar → Bool
  | .int x, .int y => x == y
  | .float x, .float y => A.feq x y
  | .bool x, .bool y => x == y
  | .unit, .unit => true
  | _, _ => false

/-- `PartialOrd::partial_cmp` on scalars of one type. What nillable.rs 199-208 calls. -/
def scalarPcmp (A : Arith) : Scalar → Scalar → Option Ordering
  | .int x, .int y => some (compare x.toInt y.toInt)
  | .float x, .float y => A.fcmp x y
  | .bool x, .bool y => some (compare x.toNat y.toNat)
  | .unit, .unit => some .eq
  | _, _ => none

/-- rustc accepts comparing these two (nillable) scalars: they have the same built-in type.
The bounds of nillable.rs 143-147 and 190-194. -/
def comparable : Nillable Scalar → Nillable Scalar → Bool
  | .defined (.int _), .defined (.int _) => true
  | .defined (.float _), .defined (.float _) => true
  | .defined (.bool _), .defined (.bool _) => true
  | .defined .unit, .defined .unit => true
  | .nil, _ => true
  | _, .nil => true
  | _, _ => false

/-- `cmp!` on nillable scalars (candle.rs 424-443), wrapped as a value. -/
def scalarCmp (A : Arith) (op : CmpOp) (l r : Nillable Scalar) : R (Nillable Scalar) :=
  if comparable l r then
    .ok ((Candle.cmp (scalarEq A) (scalarPcmp A) op l r).map .bool)
  else .error .rejected

/-- A condition must be a `Nillable<bool>`. candle.rs 350-366 and 450-455. -/
def asBool : Value → R (Nillable Bool)
  | .leaf .nil => .ok .nil
  | .leaf (.defined (.bool b)) => .ok (.defined b)
  | _ => .error .rejected

/-- Operands of arithmetic and comparisons must be scalars. candle.rs 371-443. -/
def asLeaf : Value → R (Nillable Scalar)
  | .leaf v => .ok v
  | _ => .error .rejected

/-- codegen/constexpr.rs 109-121: a literal as a scalar. -/
def Lit.scalar : Lit → Scalar
  | .int i => .int i
  | .float f => .float f
  | .bool b => .bool b

/-- The value of a tuple expression or of a list of variables: codegen/mod.rs 1092-1095
(`( … ).embed()`) and 744-762 (`as_values`): zero components give `()`, one gives the component
itself, more give a Rust tuple. -/
def tupleValue : List Value → Value
  | [] => .leaf (.defined .unit)
  | [v] => v
  | v :: v' :: vs => .tup v (v' :: vs)

/-- Tuple type of `n` scalars (`as_span_ty`, codegen/mod.rs 128-152). -/
def flatShape : Nat → Tup Unit
  | 0 => .leaf ()
  | 1 => .leaf ()
  | n + 2 => .tup (.leaf ()) (List.replicate (n + 1) (.leaf ()))

mutual
/-- Nesting of the Rust type of a `ty::Tuple` (codegen/mod.rs 107-120): note that a one-element
`Multiple` is a one-element Rust tuple `(T,)`. -/
def TyTuple.shape : TyTuple → Tup Unit
  | .single _ => .leaf ()
  | .multiple [] => .leaf ()
  | .multiple (t :: ts) => .tup t.shape (TyTuple.shapeList ts)
/-- Component-wise shape. Of `ty::Tuple`, ast/mod.rs 240-250. -/
def TyTuple.shapeList : List TyTuple → List (Tup Unit)
  | [] => []
  | t :: ts => t.shape :: TyTuple.shapeList ts
end

end Chandeliers.San
