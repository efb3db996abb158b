import Verif.Sem.Candle

/-!
# Sanitised AST

Model of `chandeliers-san/src/ast/mod.rs`.  Spans (`Sp`) are erased (see property C41).
Identifiers are strings; `run_uid`s are erased except in `Verif.San.Names`.
-/

namespace Chandeliers.San

/-- ast/mod.rs 165-174, `ty::Base`. -/
inductive TyBase where
  | int | float | bool
  | other (name : String)
  deriving DecidableEq, Repr

/-- ast/mod.rs 179-191, `ty::Clock`. -/
inductive Clock where
  | explicit (activation : Bool) (id : String)
  | implicit
  | adaptative
  deriving DecidableEq, Repr

/-- ast/mod.rs 240-247, `ty::Tuple`. -/
inductive TyTuple where
  | single (t : TyBase)
  | multiple (ts : List TyTuple)
  deriving Repr

/-- Bit pattern of an `f64`; its operations are a parameter of the model.
The type of `Lit::Float`, ast/mod.rs 514-522. -/
structure F64 where
  bits : BitVec 64
  deriving DecidableEq, Repr

/-- ast/mod.rs, `expr::Lit`. -/
inductive Lit where
  | int (i : Int64)
  | float (f : F64)
  | bool (b : Bool)
  deriving DecidableEq

/-- ast/mod.rs, `op::Bin`. -/
inductive BinOp where
  | add | mul | sub | div | rem | bitAnd | bitOr | bitXor
  deriving DecidableEq, Repr

/-- ast/mod.rs, `op::Un`. -/
inductive UnOp where
  | neg | not
  deriving DecidableEq, Repr

/-- ast/mod.rs, `op::Clock`. -/
inductive ClockOp where
  | when | whenot
  deriving DecidableEq, Repr

/-- ast/mod.rs 536-640, `expr::Expr`.  `FetchRegister` with `dummy_init: None` (from `pre`) is
`fetchPre`, with `Some` (from `fby`) it is `fetchFby`. `Reference` is split into `global` and
`var`. -/
inductive Expr where
  | lit (l : Lit)
  | global (name : String)
  | var (name : String) (depth : Nat)
  | tuple (es : List Expr)
  | dummyPre (e : Expr)
  | dummyParen (e : Expr)
  | bin (op : BinOp) (lhs rhs : Expr)
  | un (op : UnOp) (inner : Expr)
  | cmp (op : CmpOp) (lhs rhs : Expr)
  | clock (op : ClockOp) (inner activate : Expr)
  | later (delay : Nat) (before after : Expr)
  | fetchPre (id : Nat) (dummyFollowedBy : Expr)
  | fetchFby (id : Nat) (dummyInit dummyFollowedBy : Expr)
  | flip (id : Nat) (initial continued : Expr)
  | ifx (cond yes no : Expr)
  | merge (switch on off : Expr)
  | substep (delay : Nat) (id : Nat) (args : Expr)

/-- ast/mod.rs 695-700, `stmt::VarTuple`. -/
inductive VarTuple where
  | single (v : String)
  | multiple (vs : List VarTuple)

/-- ast/mod.rs 706-711. -/
def VarTuple.isEmpty : VarTuple → Bool
  | .single _ => false
  | .multiple vs => vs.isEmpty

mutual
/-- Variables bound by a target, in order. Of `stmt::VarTuple`, ast/mod.rs 695-700. -/
def VarTuple.vars : VarTuple → List String
  | .single v => [v]
  | .multiple vs => VarTuple.varsList vs
/-- Variables bound by a list of targets. Of `stmt::VarTuple`, ast/mod.rs 695-700. -/
def VarTuple.varsList : List VarTuple → List String
  | [] => []
  | v :: vs => v.vars ++ VarTuple.varsList vs
end

/-- ast/mod.rs 726-752, `stmt::Statement`. -/
inductive Stmt where
  | let_ (target : VarTuple) (source : Expr)
  | assert (e : Expr)
  | initRegister (id : Nat) (val : Option Expr) (clk : Option Expr)
  | updateRegister (id : Nat) (val : Expr)

/-- ast/mod.rs 767-773 (`decl::TyVar`) with 223-231 (`ty::Stream`) flattened. -/
structure TyVar where
  name : String
  ty : TyBase
  clk : Clock
  depth : Nat
  deriving DecidableEq, Repr

/-- ast/mod.rs 796-801, `decl::NodeInstance`. -/
structure NodeInstance where
  name : String
  generics : Option (List TyBase)
  deriving DecidableEq, Repr

/-- ast/mod.rs 822-843, `decl::Node`, without the options and `deptys`.
Registers and flips are identified with their position, as property C32 shows. -/
structure Node where
  name : String
  inputs : List TyVar
  outputs : List TyVar
  locals : List TyVar
  blocks : List NodeInstance
  stmts : List Stmt
  registers : List (Option TyTuple)
  flips : Nat

end Chandeliers.San
