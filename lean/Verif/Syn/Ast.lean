import Verif.San.Causality

/-!
# Parsing AST

Model of `chandeliers-syn/src/ast.rs`.  Spans are erased.  The levels of the grammar of expressions
(`Or`, `And`, `Cmp`, `Fby`, `Then`, `Add`, `Mul`, `Clock`, `Positive`, `Atomic`) are merged into one
type: a level with one element and no operator stands for that element, and the translation of
such a level is that of the element (translate/mod.rs 1024-1026, 1065-1076, 1215-1222).  The model
therefore covers every tree that the parser can build, and more.
-/

set_option autoImplicit false

namespace Chandeliers.Syn
open San

/-- The left associative operators: ast.rs 432-510 (`kw::or`, `kw::and`, `op::Add`, `op::Mul`,
`op::Clock`). -/
inductive LOp where
  | or | and | add | sub | mul | div | rem | when | whenot
  deriving DecidableEq, Repr

/-- `syn::Lit`.  An integer token denotes an integer (negative ones only occur directly inside
`merge`); a float token denotes what `f64` reads it as, or nothing. ast.rs 538-546. -/
inductive Lit where
  | bool (b : Bool)
  | int (n : Int)
  | float (f : Option F64)
  | other

/-- ast.rs 505-882, `expr`. -/
inductive Src where
  /-- ast.rs 538 -/
  | lit (l : Lit)
  /-- ast.rs 632 -/
  | var (x : String)
  /-- ast.rs 679, with `trailing_punct` -/
  | paren (es : List Src) (trailing : Bool)
  /-- ast.rs 757-779 and 805-819 (`Clock`, `Mul`, `Add`, `And`, `Or`) -/
  | left (first : Src) (rest : List (LOp × Src))
  /-- ast.rs 797 -/
  | cmp (first : Src) (rest : List (CmpOp × Src))
  /-- ast.rs 789 -/
  | fby (first : Src) (rest : List Src)
  /-- ast.rs 781 -/
  | arrow (first : Src) (rest : List Src)
  /-- ast.rs 831 -/
  | ifx (cond yes no : Src)
  /-- ast.rs 856 -/
  | merge (clk on off : Src)
  /-- ast.rs 654, the arguments are those of a `Paren` -/
  | call (fn : String) (args : List Src) (trailing : Bool)
  /-- ast.rs 706 -/
  | pre (e : Src)
  /-- ast.rs 725 -/
  | neg (e : Src)
  /-- ast.rs 744 -/
  | not (e : Src)

/-- ast.rs 360-388, `TargetExpr` and `TargetExprTuple`. -/
inductive Target where
  | var (x : String)
  | tuple (ts : List Target) (trailing : Bool)

/-- ast.rs 926-930, `Statement` (with `Def` 895 and `Assertion` 910). -/
inductive SrcStmt where
  | def_ (target : Target) (source : Src)
  | assert (e : Src)

/-- ast.rs 299-303, `ArgsTy` (with `Decls` 285 and `ty::Type` 270). -/
structure ArgsTy where
  ids : List String
  base : TyBase
  clk : Clock

/-- ast.rs 987-1016, `Node`. -/
structure SrcNode where
  name : String
  inputs : List ArgsTy
  outputs : List ArgsTy
  locals : List ArgsTy
  defs : List SrcStmt

/-- ast.rs 1031-1038, `Const`. -/
structure SrcConst where
  name : String
  ty : TyBase
  value : Src

end Chandeliers.Syn
