import Verif.San.Rust
import Verif.San.Names
import Verif.Syn.Prog

/-!
# The emitted code

Model of `ToTokens` for nodes, statements and expressions (`chandeliers-san/src/codegen/mod.rs`),
and of the macros of `chandeliers-sem/src/candle.rs` as rewriting rules: one function per macro,
from the expressions given to the macro to the expression it expands to.  The expansion is textual.
Rust renames the variables that a macro introduces to keep them apart from those of its arguments;
the model does not, so what is proved does not depend on it (and the block emitted for `->` does not
come from a macro).

Left out: the string statements that serve as comments, the traces (`San/Trace`), and the reads of
`deptys` at the end, which have no effect.
-/

set_option autoImplicit false

namespace Chandeliers.San

/-- The Rust name of a local variable (codegen/mod.rs 268-272). -/
def locName (x : String) : String := (Entity.loc x).sanitized

/-- The Rust name of a global constant (codegen/mod.rs 255-260). -/
def globName (uid : Nat) (x : String) : String := (Entity.glob x uid).sanitized

/-- The Rust name of the struct of a node (codegen/mod.rs 242-247). -/
def nodeName (uid : Nat) (f : String) : String := (Entity.node f uid).sanitized

namespace Macro

/-- candle.rs 218-223, `update!(self, $var)`. -/
def update (var : String) : RStmt := .updateMut var (.path var)

/-- candle.rs 236-244, `var!(self <~ $dt; $field)`. -/
def var : Nat → String → RExpr
  | 0, field => .path field
  | dt + 1, field => .ago field (dt + 1)

/-- candle.rs 253-257, `lit!($lit)`. -/
def lit (e : RExpr) : RExpr := .defined e

/-- candle.rs 277-281, `tick!(self)`. -/
def tick : RStmt := .incrClock

/-- candle.rs 305-314, `later!(self <~ $dt; $lhs, $rhs)`. -/
def later (dt : Nat) (lhs rhs : RExpr) : RExpr :=
  .block (.bind "rhs" rhs (.value (.ite (.clockGt dt) (.path "rhs") lhs)))

/-- candle.rs 332-339, `substep!(self <~ $dt; $id => { $args })`, second rule.  The first rule is for
the token `0`, but the delay is emitted as a `usize` (codegen/mod.rs 1113-1123), which is `0usize`. -/
def substep (dt : Nat) (id : Nat) (args : RExpr) : RExpr :=
  .block (.value (.ite (.clockGe dt) (.step id (.embed args)) (.autoSize (.out id))))

/-- candle.rs 350-361, `ifx!(($b) then { $yes } else { $no })`. -/
def ifx (b yes no : RExpr) : RExpr :=
  .block (.bind "yes" yes (.bind "no" no (.value (.mtch b
    (.arm (.definedBool true) (.path "yes") (.arm (.definedBool false) (.path "no")
      (.arm .nil (.autoSize (.var "yes")) .nil)))))))

/-- candle.rs 371-373, `binop!($op; $lhs, $rhs)`. -/
def binop (op : BinOp) (lhs rhs : RExpr) : RExpr := .bin op lhs rhs

/-- candle.rs 383-385, `unop!($op; $e)`. -/
def unop (op : UnOp) (e : RExpr) : RExpr := .un op e

/-- candle.rs 390-398, `nillable_cmp_ord!($ord, $res, $lhs, $rhs)`. -/
def nillableCmpOrd (ord : Ordering) (res lhs rhs : RExpr) : RExpr :=
  .block (.value (.mtch (.cmp lhs rhs)
    (.arm (.someOrd ord) (lit res) (.arm .someAny (lit (.un .not res))
      (.arm .none (.autoSize .scalar) .nil)))))

/-- candle.rs 403-411, `nillable_cmp_eq!($equal, $lhs, $rhs)`. -/
def nillableCmpEq (equal lhs rhs : RExpr) : RExpr :=
  .block (.value (.mtch (.eq lhs rhs)
    (.arm (.someBool true) (lit equal) (.arm (.someBool false) (lit (.un .not equal))
      (.arm .none (.autoSize .scalar) .nil)))))

/-- candle.rs 424-443, `cmp!($op; $lhs, $rhs)`. -/
def cmp (op : CmpOp) (lhs rhs : RExpr) : RExpr :=
  .block (.value (match op with
    | .eq => nillableCmpEq (.lit (.bool true)) lhs rhs
    | .ne => nillableCmpEq (.lit (.bool false)) lhs rhs
    | .lt => nillableCmpOrd .lt (.lit (.bool true)) lhs rhs
    | .gt => nillableCmpOrd .gt (.lit (.bool true)) lhs rhs
    | .le => nillableCmpOrd .gt (.lit (.bool false)) lhs rhs
    | .ge => nillableCmpOrd .lt (.lit (.bool false)) lhs rhs))

/-- candle.rs 450-460, `truth!($b, $msg)`. -/
def truth (b : RExpr) : RStmt :=
  .expr (.block (.bindBool "b" b (.value (.mtch (.path "b")
    (.arm (.definedBool true) (.tuple .nil) (.arm (.definedBool false) (.panic .assertFalse)
      (.arm .wild (.panic .assertNil) .nil)))))))

/-- candle.rs 466-476, `when!($b; $e)`. -/
def when (b e : RExpr) : RExpr :=
  .block (.bindBool "b" b (.bind "e" e (.value (.mtch (.path "b")
    (.arm (.definedBool true) (.path "e") (.arm .wild (.autoSize (.var "e")) .nil))))))

/-- candle.rs 482-492, `whenot!($b; $e)`. -/
def whenot (b e : RExpr) : RExpr :=
  .block (.bindBool "b" b (.bind "e" e (.value (.mtch (.path "b")
    (.arm (.definedBool false) (.path "e") (.arm .wild (.autoSize (.var "e")) .nil))))))

/-- candle.rs 499-511, `merge!($b; $on, $off)`. -/
def merge (b on off : RExpr) : RExpr :=
  .block (.bindBool "b" b (.bind "on" on (.bind "off" off (.value (.mtch b
    (.arm (.definedBool true) (.path "on") (.arm (.definedBool false) (.path "off")
      (.arm .wild (.autoSize (.var "on")) .nil))))))))

/-- candle.rs 522-529, `implicit_clock!($inputs)`. -/
def implicitClock (inputs : RExpr) : RStmt := .returnNilIf (.firstIsNil inputs)

end Macro

section
variable (uid : Nat)

mutual
/-- codegen/mod.rs 1076-1165, `ToTokens for expr::Expr`; references are 923-961. -/
def Expr.quote : Expr → RExpr
  | .lit l => Macro.lit (.lit l)
  | .global x => Macro.lit (.path (globName uid x))
  | .var x dt => Macro.var dt (locName x)
  | .dummyPre e => e.quote
  | .dummyParen e => e.quote
  | .tuple es => .embed (.tuple (Expr.quoteList es))
  | .bin op lhs rhs => Macro.binop op lhs.quote rhs.quote
  | .un op inner => Macro.unop op inner.quote
  | .cmp op lhs rhs => Macro.cmp op lhs.quote rhs.quote
  | .later delay before after => Macro.later delay before.quote after.quote
  | .ifx cond yes no => Macro.ifx cond.quote yes.quote no.quote
  | .substep delay id args => Macro.substep delay id args.quote
  | .merge switch on off => Macro.merge switch.quote on.quote off.quote
  | .clock .when inner activate => Macro.when activate.quote inner.quote
  | .clock .whenot inner activate => Macro.whenot activate.quote inner.quote
  | .fetchPre id _ => .regGet id
  | .fetchFby id _ _ => .regGet id
  | .flip id initial continued =>
    .block (.bind "initial" initial.quote (.bind "continued" continued.quote (.value
      (.ite (.firstIsNil (.path "initial")) (.autoSize (.var "initial"))
        (.ite (.flipTas id) (.path "initial") (.path "continued"))))))
/-- codegen/mod.rs 1092-1095, the components of a tuple. -/
def Expr.quoteList : List Expr → RExprs
  | [] => .nil
  | e :: es => .cons e.quote (Expr.quoteList es)
end

mutual
/-- codegen/mod.rs 1047-1074, `ToTokens for stmt::VarTuple`. -/
def VarTuple.quote : VarTuple → RBind
  | .single x => .ident (locName x)
  | .multiple [] => .wild
  | .multiple (p :: ps) => .tuple (p.quote :: VarTuple.quoteList ps)
/-- codegen/mod.rs 1067-1071, the components of a tuple. -/
def VarTuple.quoteList : List VarTuple → List RBind
  | [] => []
  | p :: ps => p.quote :: VarTuple.quoteList ps
end

/-- codegen/mod.rs 1009-1045, `ToTokens for stmt::Statement`.  Without the clock of a register there
is no code (1032-1034): an expression that rustc rejects stands for it. -/
def Stmt.quote : Stmt → List RStmt
  | .let_ target source => [.bind target.quote (source.quote uid)]
  | .assert e => [Macro.truth (e.quote uid)]
  | .updateRegister id val => [.schedule id (val.quote uid)]
  | .initRegister _ _ none => [.expr (.panic .rejected)]
  | .initRegister id none (some clk) => [.withClock id (clk.quote uid)]
  | .initRegister id (some val) (some clk) =>
    [.withClock id (clk.quote uid), .tryInitialize id (val.quote uid)]

/-- codegen/mod.rs 744-762, `as_values`, as an expression. -/
def asValues : List TyVar → RExpr
  | [v] => .path (locName v.name)
  | vs => .tuple (vs.foldr (fun v es => .cons (.path (locName v.name)) es) .nil)

/-- codegen/mod.rs 780-786, `as_assignment_target`. -/
def asAssignmentTarget : List TyVar → RBind
  | [] => .wild
  | [v] => .ident (locName v.name)
  | vs => .tuple (vs.map fun v => .ident (locName v.name))

/-- codegen/mod.rs 589-612, the method `step` of the struct of a node. -/
def Node.quote (n : Node) : RFn where
  stmts :=
    [Macro.implicitClock (.path "inputs"), .bind (asAssignmentTarget n.inputs) (.path "inputs")] ++
    n.stmts.flatMap (Stmt.quote uid) ++
    [Macro.tick] ++
    (posNames n.inputs).map (fun x => Macro.update (locName x)) ++
    (posNames n.outputs).map (fun x => Macro.update (locName x)) ++
    (posNames n.locals).map (fun x => Macro.update (locName x)) ++
    (List.range n.registers.length).map .commit
  value := .embed (asValues n.outputs)

/-- The fields of the struct of a node (codegen/mod.rs 560-575), by their Rust names. -/
def Node.rustFields (n : Node) : String → Option AnyHist := fun y =>
  match (n.inputs ++ n.outputs ++ n.locals).find? (fun v => locName v.name = y ∧ v.depth > 0) with
  | some v => some ⟨v.depth - 1, Hist.default (v.depth - 1)⟩
  | none => none

/-- The struct of a node with the method `step` emitted for it. codegen/mod.rs 462-617. -/
def Node.rustMachine (A : Arith) (consts : String → Option Scalar) (ms : List Machine) (n : Node) :
    Machine where
  σ := NodeState ms
  init := { n.initState ms with hist := n.rustFields }
  outTy := n.outTy
  step := (n.quote uid).call A consts ms n.outTy

end

/-- codegen/mod.rs 688-704, the method `step` of the exported struct of a node.  Its field `inner` is
the only subnode. -/
def exportQuote : RFn where
  stmts := [Macro.implicitClock (.path "inputs")]
  value := .step 0 (.path "inputs")

/-- codegen/mod.rs 861-883, the method `step` of the struct of an `extern node`.  Its field `inner` is
the only subnode. -/
def externQuote (inputs outputs : List TyVar) : RFn where
  stmts := [Macro.implicitClock (.path "inputs"), .bind (asAssignmentTarget inputs) (.path "inputs"),
    .bind (asAssignmentTarget outputs) (.step 0 (.path "inputs")), Macro.tick]
  value := .embed (asValues outputs)

/-- A struct with a field `inner` and a method `step`. codegen/mod.rs 661-704 and 838-883. -/
def innerMachine (f : RFn) (A : Arith) (consts : String → Option Scalar) (outTy : Tup Unit)
    (m : Machine) : Machine where
  σ := NodeState [m]
  init := ⟨0, fun _ => none, States.init [m], [], []⟩
  outTy := outTy
  step := f.call A consts [m] outTy

/-- The names of the constants of a program. codegen/mod.rs 283-372. -/
def constNames : List Decl → List String
  | [] => []
  | .const c :: ds => c.name :: constNames ds
  | .extConst c :: ds => c.name :: constNames ds
  | .node _ :: ds => constNames ds
  | .extNode _ :: ds => constNames ds

/-- The `const` items emitted for the constants of a program, by their Rust names (codegen/mod.rs
283-372).  Their values are those of `linkConsts`. -/
def rustConsts (uid : Nat) (g : Globals) (ds : List Decl) : String → Option Scalar := fun y =>
  match (constNames ds).find? (fun x => globName uid x = y) with
  | some x => g x
  | none => none

/-- The subnodes of a node: the structs named in the type of the field `__nodes` (codegen/mod.rs
436-460, 508). -/
def rustSubnodes (uid : Nat) (N : String → Option Machine) : List NodeInstance → Option (List Machine)
  | [] => some []
  | b :: bs =>
    match N (nodeName uid b.name), rustSubnodes uid N bs with
    | some m, some ms => some (m :: ms)
    | _, _ => none

/-- The structs emitted for the nodes of a program, by their Rust names. codegen/mod.rs 378-434, and
811-889 for external ones. -/
def rustNodes (uid : Nat) (A : Arith) (X : Extern) (consts : String → Option Scalar) :
    (String → Option Machine) → List Decl → Except Panic (String → Option Machine)
  | N, [] => .ok N
  | N, .node n :: ds =>
    match rustSubnodes uid N n.blocks with
    | some ms => rustNodes uid A X consts
        (fun y => if y = nodeName uid n.name then some (n.rustMachine uid A consts ms) else N y) ds
    | none => .error .rejected
  | N, .extNode n :: ds =>
    match X.nodes n.name with
    | some m => rustNodes uid A X consts
        (fun y => if y = nodeName uid n.name then
          some (innerMachine (externQuote n.inputs n.outputs) A consts (flatShape n.outputs.length) m)
          else N y) ds
    | none => .error .rejected
  | N, .const _ :: ds => rustNodes uid A X consts N ds
  | N, .extConst _ :: ds => rustNodes uid A X consts N ds

/-- The items emitted for a program, by their Rust names. pipeline.rs 110-115. -/
def linkRust (uid : Nat) (A : Arith) (X : Extern) (ds : List Decl) : Except Panic Items :=
  match linkConsts A X (fun _ => none) ds with
  | .error p => .error p
  | .ok g =>
    match rustNodes uid A X (rustConsts uid g ds) (fun _ => none) ds with
    | .error p => .error p
    | .ok N => .ok ⟨rustConsts uid g ds, N⟩

end Chandeliers.San
