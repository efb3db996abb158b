import Verif.San.Eval
import Verif.San.Causality

/-!
# Constants

Model of `chandeliers-san/src/codegen/constexpr.rs` and of the meaning of the Rust text it emits.
-/

namespace Chandeliers.San

/-- The Rust expressions emitted for constants, as trees.  Every emitted operator is enclosed in
parentheses (68, 72, 77), so the text determines the tree: see `San/Text`, `San/Read` and C69.
constexpr.rs 52-104. -/
inductive CExpr where
  | lit (l : Lit)
  | ident (x : String)
  | bin (op : BinOp) (lhs rhs : CExpr)
  | un (op : UnOp) (inner : CExpr)
  | cmp (op : CmpOp) (lhs rhs : CExpr)
  | tuple (es : List CExpr)
  | ite (cond yes no : CExpr)

mutual
/-- constexpr.rs 52-104 with 109-135; `none` is an `abort!`. -/
def Expr.constTokens : Expr → Option CExpr
  | .lit l => some (.lit l)
  | .global x => some (.ident x)
  | .var _ _ => none
  | .dummyPre e => e.constTokens
  | .dummyParen e => e.constTokens
  | .bin op lhs rhs => do return .bin op (← lhs.constTokens) (← rhs.constTokens)
  | .un op inner => do return .un op (← inner.constTokens)
  | .cmp op lhs rhs => do return .cmp op (← lhs.constTokens) (← rhs.constTokens)
  | .tuple es => do return .tuple (← Expr.constTokensList es)
  | .ifx cond yes no => do
    return .ite (← cond.constTokens) (← yes.constTokens) (← no.constTokens)
  | .later _ _ _ => none
  | .flip _ _ _ => none
  | .substep _ _ _ => none
  | .merge _ _ _ => none
  | .clock _ _ _ => none
  | .fetchPre _ _ => none
  | .fetchFby _ _ _ => none
/-- Component-wise (79-84). constexpr.rs 83-89. -/
def Expr.constTokensList : List Expr → Option (List CExpr)
  | [] => some []
  | e :: es => do return (← e.constTokens) :: (← Expr.constTokensList es)
end

/-- Rust's comparison operators: the `PartialOrd` ones are false when the operands are not
comparable. For the comparison emitted by constexpr.rs 78-82. -/
def rustCmp (A : Arith) : CmpOp → Scalar → Scalar → Bool
  | .eq, x, y => scalarEq A x y
  | .ne, x, y => !scalarEq A x y
  | .lt, x, y => scalarPcmp A x y == some .lt
  | .gt, x, y => scalarPcmp A x y == some .gt
  | .le, x, y => scalarPcmp A x y == some .lt || scalarPcmp A x y == some .eq
  | .ge, x, y => scalarPcmp A x y == some .gt || scalarPcmp A x y == some .eq

/-- Compile-time evaluation by rustc: overflow is an error in every build, and only the chosen
branch of an `if` is evaluated.  Tuples do not occur in accepted constants (typecheck.rs 497). -/
def CExpr.eval (A : Arith) (glob : Globals) : CExpr → R Scalar
  | .lit l => .ok l.scalar
  | .ident x =>
    match glob x with
    | some v => .ok v
    | none => .error .rejected
  | .bin op lhs rhs => do
    let l ← lhs.eval A glob
    let r ← rhs.eval A glob
    scalarBin { A with overflowChecks := true } op l r
  | .un op inner => do
    let v ← inner.eval A glob
    scalarUn { A with overflowChecks := true } op v
  | .cmp op lhs rhs => do
    let l ← lhs.eval A glob
    let r ← rhs.eval A glob
    if comparable (.defined l) (.defined r) then .ok (.bool (rustCmp A op l r))
    else .error .rejected
  | .tuple _ => .error .rejected
  | .ite cond yes no => do
    match ← cond.eval A glob with
    | .bool true => yes.eval A glob
    | .bool false => no.eval A glob
    | _ => .error .rejected

/-- The value of a constant: codegen/mod.rs 286-316. -/
def Const.eval (A : Arith) (glob : Globals) (c : Const) : R Scalar :=
  match c.value.constTokens with
  | some e => e.eval A glob
  | none => .error .rejected

end Chandeliers.San
