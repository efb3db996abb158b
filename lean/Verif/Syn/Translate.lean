import Verif.Syn.Ast

/-!
# Translation

Model of `chandeliers-syn/src/translate/mod.rs`.
-/

set_option autoImplicit false

namespace Chandeliers.Syn
open San

/-- Why a translation stops.  Each of the three errors is reported and then propagated by `?` up
to the whole program, so that no other follows; the last one panics. translate/mod.rs 445-1100. -/
inductive TrErr where
  /-- translate/mod.rs 1255-1262 -/
  | cmpNotAssociative
  /-- translate/mod.rs 1790 -/
  | unhandledLitType
  /-- translate/mod.rs 599-604 -/
  | notConst
  /-- translate/mod.rs 1781-1789 `err::abort!` -/
  | abort
  deriving DecidableEq

/-- translate/mod.rs 445-460, `ExprCtx`, the growing part.  A register (resp. a flip) carries no
information yet but its index. -/
structure ExprCtx where
  blocks : List NodeInstance := []
  stmts : List Stmt := []
  registers : Nat := 0
  flips : Nat := 0

/-- translate/mod.rs 465-481, `ExprCtxView`, the part that is fixed. -/
structure View where
  shadow : List String
  depth : Nat
  useRegisters : Bool

/-- translate/mod.rs 501-506, `bump`. -/
def View.bump (v : View) (n : Nat) : View := { v with depth := v.depth + n }

/-- A translation: `Option` with `?`, and a mutable `ExprCtx`. translate/mod.rs 445-506. -/
abbrev Tr (α : Type) := StateT ExprCtx (Except TrErr) α

/-- translate/mod.rs 1482-1521 (`translate` on operators) and the `compose`s of 1142-1154, 1171-1183,
1468-1478, 1535-1546, 1580-1591. -/
def LOp.compose : LOp → Expr → Expr → Expr
  | .or => .bin .bitOr
  | .and => .bin .bitAnd
  | .add => .bin .add
  | .sub => .bin .sub
  | .mul => .bin .mul
  | .div => .bin .div
  | .rem => .bin .rem
  | .when => .clock .when
  | .whenot => .clock .whenot

/-- translate/mod.rs 1770-1793, `Lit`; `base10_parse` to `i64` fails on overflow. -/
def Lit.translate : Lit → Tr Expr
  | .bool b => pure (.lit (.bool b))
  | .int n => if -2 ^ 63 ≤ n ∧ n < 2 ^ 63 then pure (.lit (.int (Int64.ofInt n))) else throw .abort
  | .float (some f) => pure (.lit (.float f))
  | .float none => throw .abort
  | .other => throw .unhandledLitType

/-- translate/mod.rs 1606-1621: `(e)` is `e`, everything else is a tuple. -/
def parenthesise (es : List Expr) (trailing : Bool) : Expr :=
  match es, trailing with
  | [e], false => .dummyParen e
  | es, _ => .tuple es

/-- translate/mod.rs 1636-1653: reserve a slot for the called node. -/
def mkCall (v : View) (f : String) (args : Expr) : Tr Expr := fun c =>
  .ok (.substep v.depth c.blocks.length args, { c with blocks := c.blocks ++ [⟨f, none⟩] })

/-- translate/mod.rs 1300-1333 and 1345-1364: the `compose` of the `i`-th `fby`. -/
def mkFby (v : View) (i : Nat) (before after : Expr) : Tr Expr := fun c =>
  if v.useRegisters then
    .ok (.fetchFby c.registers before after,
      { c with registers := c.registers + 1,
               stmts := c.stmts ++ [.updateRegister c.registers after,
                 .initRegister c.registers (some before) none] })
  else .ok (.later (v.depth + i) before after, c)

/-- translate/mod.rs 1426-1440 and 1452-1472: the `compose` of the `i`-th `->`. -/
def mkThen (v : View) (i : Nat) (before after : Expr) : Tr Expr := fun c =>
  if v.useRegisters then
    .ok (.flip c.flips before after, { c with flips := c.flips + 1 })
  else .ok (.later (v.depth + i) before after, c)

/-- translate/mod.rs 1383-1388: reserve a register for a `pre`. -/
def newRegister : Tr Nat := fun c => .ok (c.registers, { c with registers := c.registers + 1 })

/-- translate/mod.rs 1392-1411: the statements of a `pre`. -/
def mkPre (id : Nat) (inner : Expr) : Tr Expr := fun c =>
  .ok (.fetchPre id inner,
    { c with stmts := c.stmts ++ [.updateRegister id inner, .initRegister id none none] })

/-- `ctx.stmts.push`. translate/mod.rs 445-460. -/
def pushStmt (st : Stmt) : Tr Unit := fun c => .ok ((), { c with stmts := c.stmts ++ [st] })

mutual
/-- translate/mod.rs 875-1794, `Translate for src::expr::*`. -/
def Src.translate (v : View) : Src → Tr Expr
  -- 1763
  | .lit l => l.translate
  -- 1731
  | .var x => if x ∈ v.shadow then pure (.var x v.depth) else pure (.global x)
  -- 1595
  | .paren es trailing => do return parenthesise (← Src.translateList v es) trailing
  -- 1123, 1158, 1476, 1522, 1566 with 998-1052
  | .left first rest => do
    let acc ← first.translate v
    Src.translateLeft v acc rest
  -- 1207
  | .cmp first rest => do
    let lhs ← first.translate v
    Src.translateCmp v lhs rest
  -- 1279 with 1054-1119
  | .fby first rest => do
    let acc ← Src.translateFby v 1 rest
    let before ← first.translate (if v.useRegisters then v else v.bump 0)
    match acc with
    | none => return before
    | some after => mkFby v 0 before after
  -- 1413
  | .arrow first rest => do
    let acc ← Src.translateThen v 1 rest
    let before ← first.translate v
    match acc with
    | none => return before
    | some after => mkThen v 0 before after
  -- 889
  | .ifx cond yes no => do
    let cond ← cond.translate v
    let yes ← yes.translate v
    let no ← no.translate v
    return .ifx cond yes no
  -- 1714
  | .merge clk on off => do
    let switch ← clk.translate v
    let on ← on.translate v
    let off ← off.translate v
    return .merge switch on off
  -- 1625
  | .call f args trailing => do
    let args := parenthesise (← Src.translateList v args) trailing
    mkCall v f args
  -- 1369
  | .pre e =>
    if v.useRegisters then do
      let id ← newRegister
      let inner ← e.translate v
      mkPre id inner
    else do return .dummyPre (← e.translate (v.bump 1))
  -- 1579
  | .neg e => do return .un .neg (← e.translate v)
  -- 1186
  | .not e => do return .un .not (← e.translate v)
/-- translate/mod.rs 1606-1609, the elements of a parenthesis. -/
def Src.translateList (v : View) : List Src → Tr (List Expr)
  | [] => pure []
  | e :: es => do
    let e ← e.translate v
    let es ← Src.translateList v es
    return e :: es
/-- translate/mod.rs 1028-1049, the loop of `left_associative`. -/
def Src.translateLeft (v : View) (acc : Expr) : List (LOp × Src) → Tr Expr
  | [] => pure acc
  | (op, e) :: rest => do
    let e ← e.translate v
    Src.translateLeft v (op.compose acc e) rest
/-- translate/mod.rs 1216-1275, `Cmp`, after its first operand. -/
def Src.translateCmp (v : View) (lhs : Expr) : List (CmpOp × Src) → Tr Expr
  | [] => pure lhs
  | [(op, e)] => do
    let rhs ← e.translate v
    return .cmp op lhs rhs
  | (_, e) :: (_, e') :: _ => do
    let _ ← e.translate v
    let _ ← e'.translate v
    throw .cmpNotAssociative
/-- translate/mod.rs 1078-1117, `right_associative` for `fby`, on the elements from the `i`-th on;
it begins with the last one. -/
def Src.translateFby (v : View) (i : Nat) : List Src → Tr (Option Expr)
  | [] => pure none
  | e :: es => do
    let acc ← Src.translateFby v (i + 1) es
    let before ← e.translate (if v.useRegisters then v else v.bump i)
    match acc with
    | none => return some before
    | some after => return some (← mkFby v i before after)
/-- translate/mod.rs 1078-1117, `right_associative` for `->`. -/
def Src.translateThen (v : View) (i : Nat) : List Src → Tr (Option Expr)
  | [] => pure none
  | e :: es => do
    let acc ← Src.translateThen v (i + 1) es
    let before ← e.translate v
    match acc with
    | none => return some before
    | some after => return some (← mkThen v i before after)
end

mutual
/-- translate/mod.rs 821-872, `TargetExpr` and `TargetExprTuple`. -/
def Target.translate : Target → VarTuple
  | .var x => .single x
  | .tuple ts trailing =>
    match Target.translateList ts, trailing with
    | [t], false => t
    | ts, _ => .multiple ts
/-- translate/mod.rs 858-860. -/
def Target.translateList : List Target → List VarTuple
  | [] => []
  | t :: ts => t.translate :: Target.translateList ts
end

/-- translate/mod.rs 768-819, `Statement`, `Assertion` and `Def`. -/
def SrcStmt.translate (v : View) : SrcStmt → Tr Unit
  | .assert e => do
    let e ← e.translate v
    pushStmt (.assert e)
  | .def_ t e => do
    let e ← e.translate v
    pushStmt (.let_ t.translate e)

/-- translate/mod.rs 562-564. -/
def translateStmts (v : View) : List SrcStmt → Tr Unit
  | [] => pure ()
  | st :: sts => do
    st.translate v
    translateStmts v sts

/-- translate/mod.rs 614-686, `ArgsTys`, `ArgsTy`, `Decls`; the depth is set later. -/
def translateArgs (as : List ArgsTy) : List TyVar :=
  as.flatMap fun a => a.ids.map fun x => ⟨x, a.base, a.clk, 0⟩

/-- The context in which the statements of a node are translated, 552-560.
translate/mod.rs 552-560. -/
def SrcNode.view (universalPre : Bool) (n : SrcNode) : View where
  shadow := (translateArgs n.inputs ++ translateArgs n.outputs ++ translateArgs n.locals).map (·.name)
  depth := 0
  useRegisters := universalPre

/-- translate/mod.rs 530-585, `Node`; `deptys` is not modelled. -/
def SrcNode.translate (universalPre : Bool) (n : SrcNode) : Except TrErr Node := do
  let (_, c) ← (translateStmts (n.view universalPre) n.defs).run {}
  return {
    name := n.name
    inputs := translateArgs n.inputs
    outputs := translateArgs n.outputs
    locals := translateArgs n.locals
    blocks := c.blocks
    stmts := c.stmts
    registers := List.replicate c.registers none
    flips := c.flips }

/-- translate/mod.rs 587-612, `Const`. -/
def SrcConst.translate (c : SrcConst) : Except TrErr Const := do
  let (value, s) ← (c.value.translate ⟨[], 0, false⟩).run {}
  if !s.stmts.isEmpty || !s.blocks.isEmpty then throw .notConst
  return { name := c.name, ty := c.ty, value }

end Chandeliers.Syn
