import Verif.San.Typecheck

/-!
# Clock checking

Models `chandeliers-san/src/clockcheck.rs`.  Names of clocks are compared without their spans (see
C41).
-/

set_option autoImplicit false

namespace Chandeliers.San
open Chandeliers.Err

/-- clockcheck.rs 68-83 `into_clk`. -/
def Clock.intoClk : Clock → Clk
  | .implicit => .implicit
  | .adaptative => .adaptative
  | .explicit true x => .on x
  | .explicit false x => .off x

/-- clockcheck.rs 87-92 `ExprClkCtx`, hash maps as functions. -/
structure ClkCtx where
  local_ : String → Option Clock
  clockOfRegister : Nat → Option Expr

/-- clockcheck.rs 97-106 `clock_of`, with 188-195 (`Local`) and 197-206 (`Past`). -/
def clockOf (x : String) : Chk Diag ClkCtx Clk := do
  match (← Chk.get).local_ x with
  | some k => pure k.intoClk
  | none => Chk.abort

/-- clockcheck.rs 441-455 `is_implicit`. -/
def Clk.isImplicit {σ : Type} : Clk → Chk Diag σ Unit
  | .implicit => pure ()
  | .adaptative => pure ()
  | .on x => Chk.error (.clkTooSlow (.on x))
  | .off x => Chk.error (.clkTooSlow (.off x))

/-- clockcheck.rs 462-474 `identical`. -/
def Clk.identical {σ : Type} : Clk → Clk → Chk Diag σ Unit
  | .adaptative, .adaptative => pure ()
  | .adaptative, .implicit => pure ()
  | .implicit, .adaptative => pure ()
  | .implicit, .implicit => pure ()
  | .on l, .on r => if l = r then pure () else Chk.error (.clkNotIdentical (.on l) (.on r))
  | .off l, .off r => if l = r then pure () else Chk.error (.clkNotIdentical (.off l) (.off r))
  | k, k' => Chk.error (.clkNotIdentical k k')

/-- clockcheck.rs 486-517 `refine`; the result is the new value of `self`. -/
def Clk.refine {σ : Type} : Clk → Clk → Chk Diag σ Clk
  | .adaptative, other => pure other
  | k, .adaptative => pure k
  | .implicit, .implicit => pure .implicit
  | .implicit, .on r => Chk.error (.clkTooSlow (.on r))
  | .implicit, .off r => Chk.error (.clkTooSlow (.off r))
  | .on l, .implicit => Chk.error (.clkTooSlow (.on l))
  | .off l, .implicit => Chk.error (.clkTooSlow (.off l))
  | .on l, .on r => if l = r then pure (.on l) else Chk.error (.clkNotComparable (.on l) (.on r))
  | .off l, .off r =>
    if l = r then pure (.off l) else Chk.error (.clkNotComparable (.off l) (.off r))
  | .on l, .off r => Chk.error (.clkNotComparable (.on l) (.off r))
  | .off l, .on r => Chk.error (.clkNotComparable (.off l) (.on r))

/-- clockcheck.rs 525-564 `forge_as_expr`. -/
def Clk.forge : Clk → Expr
  | .implicit => .lit (.bool true)
  | .adaptative => .lit (.bool true)
  | .off x => .un .not (.var x 0)
  | .on x => .var x 0

/-- clockcheck.rs 408-434 `as_clock`. -/
def Expr.asClock {σ : Type} (op : ClockOp) : Expr → Chk Diag σ Clk
  | .var x _ =>
    match op with
    | .when => pure (.on x)
    | .whenot => pure (.off x)
  | e => Chk.error (.notAClock e)

/-- clockcheck.rs 396-397: save the clock of a register. -/
def saveClock (id : Nat) (k : Clk) : Chk Diag ClkCtx Unit :=
  Chk.modify fun c =>
    { c with clockOfRegister := fun i => if i = id then some k.forge else c.clockOfRegister i }

mutual
/-- clockcheck.rs 264-401 (`Expr`), with 174-186 (`Lit`, `Global`) and 208-216 (`Reference`). -/
def Expr.clockcheck : Expr → Chk Diag ClkCtx Clk
  | .lit _ => pure .adaptative
  | .global _ => pure .adaptative
  | .var x _ => clockOf x
  | .dummyParen e => e.clockcheck
  | .dummyPre e => do
    let k ← e.clockcheck
    k.isImplicit
    pure k
  | .bin _ lhs rhs => do
    let (l, r) ← Chk.both lhs.clockcheck rhs.clockcheck
    l.refine r
  | .cmp _ lhs rhs => do
    let (l, r) ← Chk.both lhs.clockcheck rhs.clockcheck
    l.refine r
  | .un _ inner => inner.clockcheck
  -- 292-313: the results of `is_implicit` are dropped
  | .later _ before after => do
    let (b, a) ← Chk.both before.clockcheck after.clockcheck
    let _ ← Chk.opt b.isImplicit
    let _ ← Chk.opt a.isImplicit
    pure b
  | .flip _ initial continued => do
    let (l, r) ← Chk.both initial.clockcheck continued.clockcheck
    r.identical l
    pure r
  | .clock op inner activate => do
    let k ← inner.clockcheck
    let kk ← activate.clockcheck
    let new ← activate.asClock op
    let _ ← k.refine kk
    pure new
  | .substep _ _ args => args.clockcheck
  | .tuple [] => pure .adaptative
  -- 572-583: the first element is checked again in the loop
  | .tuple (e :: es) => do
    let k ← e.clockcheck
    let k' ← e.clockcheck
    k.identical k'
    Expr.clockcheckList k es
    pure k
  | .ifx cond yes no => do
    let c ← Chk.opt cond.clockcheck
    let y ← Chk.opt yes.clockcheck
    let n ← Chk.opt no.clockcheck
    let c ← Chk.ofOption c
    let y ← Chk.ofOption y
    let n ← Chk.ofOption n
    let c ← c.refine y
    c.refine n
  | .merge switch on off => do
    let expectOn ← Chk.opt (switch.asClock .when)
    let expectOff ← Chk.opt (switch.asClock .whenot)
    let s ← Chk.opt switch.clockcheck
    let y ← Chk.opt on.clockcheck
    let n ← Chk.opt off.clockcheck
    let s ← Chk.ofOption s
    let y ← Chk.ofOption y
    let n ← Chk.ofOption n
    let expectOn ← Chk.ofOption expectOn
    let _ ← y.refine expectOn
    let expectOff ← Chk.ofOption expectOff
    let _ ← n.refine expectOff
    pure s
  | .fetchPre id followedBy => do
    let k ← followedBy.clockcheck
    saveClock id k
    pure k
  | .fetchFby id init followedBy => do
    let k ← followedBy.clockcheck
    let i ← init.clockcheck
    k.identical i
    saveClock id k
    pure k
/-- The loop of clockcheck.rs 578-581, after the first element. -/
def Expr.clockcheckList (k : Clk) : List Expr → Chk Diag ClkCtx Unit
  | [] => pure ()
  | e :: es => do
    let k' ← e.clockcheck
    k.identical k'
    Expr.clockcheckList k es
end

mutual
/-- clockcheck.rs 588-593 (`VarTuple`), with 572-583 (`Tuple`). -/
def VarTuple.clockcheck : VarTuple → Chk Diag ClkCtx Clk
  | .single x => clockOf x
  | .multiple [] => pure .adaptative
  | .multiple (v :: vs) => do
    let k ← v.clockcheck
    let k' ← v.clockcheck
    k.identical k'
    VarTuple.clockcheckList k vs
    pure k
/-- The loop of clockcheck.rs 578-581, after the first element. -/
def VarTuple.clockcheckList (k : Clk) : List VarTuple → Chk Diag ClkCtx Unit
  | [] => pure ()
  | v :: vs => do
    let k' ← v.clockcheck
    k.identical k'
    VarTuple.clockcheckList k vs
end

/-- clockcheck.rs 598-622 (`Statement`). -/
def Stmt.clockcheck : Stmt → Chk Diag ClkCtx Unit
  | .assert e => do
    let k ← e.clockcheck
    k.isImplicit
  | .let_ target source => do
    let k ← target.clockcheck
    let k' ← source.clockcheck
    if target.isEmpty then pure () else k.identical k'
  | .updateRegister _ _ => pure ()
  | .initRegister _ _ _ => pure ()

/-- clockcheck.rs 629-636 and 677-684: stop at the first variable of the interface that is not on
the implicit clock. -/
def checkInterface {σ : Type} : List TyVar → Chk Diag σ Unit
  | [] => pure ()
  | v :: vs => do
    v.clk.intoClk.isImplicit
    checkInterface vs

/-- clockcheck.rs 643-650: `insert` in order, so that the last declaration wins. -/
def clocksOf : List TyVar → (String → Option Clock)
  | [] => fun _ => none
  | v :: vs => fun x =>
    match clocksOf vs x with
    | some k => some k
    | none => if v.name = x then some v.clk else none

/-- clockcheck.rs 660-669: give the registers their clocks; `none` is the `abort!`. -/
def fillClocks (clk : Nat → Option Expr) : List Stmt → Option (List Stmt)
  | [] => some []
  | .initRegister id val _ :: sts => do
    let k ← clk id
    let sts ← fillClocks clk sts
    return .initRegister id val (some k) :: sts
  | st :: sts => do
    let sts ← fillClocks clk sts
    return st :: sts

/-- clockcheck.rs 627-672 (`Node`). -/
def Node.clockcheck {σ : Type} (n : Node) : Chk Diag σ Node := do
  checkInterface (n.inputs ++ n.outputs)
  let (_, c) ← Chk.local_ ⟨clocksOf (n.inputs ++ n.outputs ++ n.locals), fun _ => none⟩
    (Chk.inScope (n.stmts.map Stmt.clockcheck))
  match fillClocks c.clockOfRegister n.stmts with
  | some stmts => pure { n with stmts }
  | none => Chk.abort

/-- clockcheck.rs 676-687 (`ExtNode`). -/
def ExtNode.clockcheck {σ : Type} (n : ExtNode) : Chk Diag σ Unit :=
  checkInterface (n.inputs ++ n.outputs)

/-- clockcheck.rs 690-704 (`Prog`): stop at the first bad declaration. -/
def progClockcheck {σ : Type} : List Decl → Chk Diag σ (List Decl)
  | [] => pure []
  | .node n :: ds => do
    let n ← n.clockcheck
    let ds ← progClockcheck ds
    pure (.node n :: ds)
  | .extNode n :: ds => do
    n.clockcheck
    let ds ← progClockcheck ds
    pure (.extNode n :: ds)
  | .const c :: ds => do
    let ds ← progClockcheck ds
    pure (.const c :: ds)
  | .extConst c :: ds => do
    let ds ← progClockcheck ds
    pure (.extConst c :: ds)

end Chandeliers.San
