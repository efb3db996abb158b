import Verif.San.Diag
import Verif.San.Causality

/-!
# Positivity

Models `chandeliers-san/src/positivity.rs`.
-/

namespace Chandeliers.San
open Chandeliers.Err

/-- positivity.rs 16-21 `DepthCtx::max_known` (a `HashMap`).  The other field, `current`, is an
argument of the functions below. -/
abbrev Depths := String → Option Nat

/-- positivity.rs 49-56 `DepthCtx::update`. -/
def Depths.update (m : Depths) (x : String) (depth : Nat) : Depths :=
  match m x with
  | some old => if old ≥ depth then m else fun y => if y = x then some depth else m y
  | none => fun y => if y = x then some depth else m y

/-- positivity.rs 43-45 `DepthCtx::allows`. -/
def allows (current req : Nat) : Bool := req ≤ current

mutual
/-- positivity.rs 149-233 (`Expr`) and 244-270 (`Reference`). -/
def Expr.checkPositive : Expr → Nat → Chk Diag Depths Unit
  | .lit _, _ => pure ()
  | .global _, _ => pure ()
  | .var x dt, current =>
    if allows current dt then Chk.modify (·.update x dt)
    else Chk.error (.notPositive x current dt)
  | .tuple es, current => Expr.checkPositiveList es current
  | .dummyPre e, current => e.checkPositive current
  | .dummyParen e, current => e.checkPositive current
  | .un _ e, current => e.checkPositive current
  | .bin _ lhs rhs, current => do
    lhs.checkPositive current
    rhs.checkPositive current
  | .cmp _ lhs rhs, current => do
    lhs.checkPositive current
    rhs.checkPositive current
  | .ifx cond yes no, current => do
    cond.checkPositive current
    yes.checkPositive current
    no.checkPositive current
  | .later delay before after, current => do
    before.checkPositive current
    after.checkPositive (delay + 1)
  | .flip _ initial continued, current => do
    initial.checkPositive current
    continued.checkPositive (current + 1)
  | .substep _ _ args, current => args.checkPositive current
  | .clock _ inner activate, current => do
    activate.checkPositive current
    inner.checkPositive current
  | .merge switch on off, current => do
    switch.checkPositive current
    on.checkPositive current
    off.checkPositive current
  | .fetchFby _ init followedBy, current => do
    init.checkPositive current
    followedBy.checkPositive current
  | .fetchPre _ followedBy, current =>
    if current > 0 then followedBy.checkPositive (current - 1)
    else Chk.error (.shallowPre followedBy)
/-- positivity.rs 235-242 (`Tuple`). -/
def Expr.checkPositiveList : List Expr → Nat → Chk Diag Depths Unit
  | [], _ => pure ()
  | e :: es, current => do
    e.checkPositive current
    Expr.checkPositiveList es current
end

/-- positivity.rs 135-147.  The assertion on the depth (137) holds by construction. -/
def Stmt.checkPositive : Stmt → Chk Diag Depths Unit
  | .let_ _ source => source.checkPositive 0
  | .assert e => e.checkPositive 0
  | .updateRegister _ _ => pure ()
  | .initRegister _ _ _ => pure ()

/-- The loop of positivity.rs 123-125. -/
def checkPositiveAll : List Stmt → Chk Diag Depths Unit
  | [] => pure ()
  | st :: sts => do
    st.checkPositive
    checkPositiveAll sts

/-- positivity.rs 126-130. -/
def setDepths (depths : Depths) (vs : List TyVar) : List TyVar :=
  vs.map fun v => { v with depth := (depths v.name).getD 0 }

/-- A local `mut` context: run with a fresh context, forget it afterwards, return its final
value. positivity.rs 118-125. -/
def Chk.local_ {E σ τ α : Type} (init : τ) (m : Chk E τ α) : Chk E σ (α × τ) := fun (a, s) =>
  match m (a, init) with
  | (.some x, (a, t)) => (.some (x, t), (a, s))
  | (.none, (a, _)) => (.none, (a, s))
  | (.abort, (a, _)) => (.abort, (a, s))

/-- positivity.rs 116-133 `impl MakePositive for Node`. -/
def Node.makePositive {σ : Type} (n : Node) : Chk Diag σ Node := do
  let (_, depths) ← Chk.local_ (fun _ => none) (checkPositiveAll n.stmts)
  pure { n with
    inputs := setDepths depths n.inputs
    outputs := setDepths depths n.outputs
    locals := setDepths depths n.locals }

/-- positivity.rs 107-114. -/
def Decl.makePositive {σ : Type} : Decl → Chk Diag σ Decl
  | .node n => do return .node (← n.makePositive)
  | d => pure d

/-- positivity.rs 98-105: stop at the first bad declaration. -/
def progMakePositive {σ : Type} : List Decl → Chk Diag σ (List Decl)
  | [] => pure []
  | d :: ds => do
    let d ← d.makePositive
    let ds ← progMakePositive ds
    pure (d :: ds)

end Chandeliers.San
