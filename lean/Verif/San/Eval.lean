import Verif.San.Value
import Verif.Sem.Registers
import Verif.Sem.TimeTravel

/-!
# Meaning of the emitted Rust code

Model of the code emitted by `chandeliers-san/src/codegen/mod.rs`, using the macros of
`chandeliers-sem/src/candle.rs`.
-/

namespace Chandeliers.San

/-- A Lustre node as its callers see it: the trait `Step` (stepping.rs 146-153).
`outTy` is the output tuple type, which fixes the size of `AllNil::auto_size()`. -/
structure Machine where
  σ : Type
  init : σ
  outTy : Tup Unit
  step : σ → Value → R (Value × σ)

/-- The field `__nodes` (codegen/mod.rs 508): one state per subnode. -/
def States : List Machine → Type
  | [] => Unit
  | m :: ms => m.σ × States ms

/-- `__nodes: Default::default()` (codegen/mod.rs 571). -/
def States.init : (ms : List Machine) → States ms
  | [] => ()
  | m :: ms => (m.init, States.init ms)

/-- `self.__nodes.$id.step(…)` (candle.rs 330, 335). -/
def States.stepAt : (ms : List Machine) → States ms → Nat → Value → R (Value × States ms)
  | [], _, _, _ => .error .rejected
  | m :: _, (s, ss), 0, v =>
    match m.step s v with
    | .ok (o, s') => .ok (o, (s', ss))
    | .error p => .error p
  | _ :: ms, (s, ss), i + 1, v =>
    match States.stepAt ms ss i v with
    | .ok (o, ss') => .ok (o, (s, ss'))
    | .error p => .error p

/-- A history of any capacity. The fields emitted by codegen/mod.rs 791-800. -/
abbrev AnyHist := Σ n, Hist Scalar n

/-- Local variables bound so far in the body of `step`.
The `let`s emitted by codegen/mod.rs 518-617. -/
abbrev Env := String → Option (Nillable Scalar)

/-- `let x = v` (shadowing an earlier `x`, as in Rust).
The `let`s emitted by codegen/mod.rs 518-617. -/
def Env.set (env : Env) (x : String) (v : Nillable Scalar) : Env :=
  fun y => if y = x then some v else env y

/-- The struct emitted for a node (codegen/mod.rs 489-512).  `__clock` is a `usize`; its
overflow is not modelled.  `hist` are the fields of strictly positive variables. -/
structure NodeState (ms : List Machine) where
  clock : Nat
  hist : String → Option AnyHist
  nodes : States ms
  flips : List Flip
  regs : List (Register Scalar)

/-- Global constants in scope: `lit!(NAME)` (codegen/mod.rs 927-932). -/
abbrev Globals := String → Option Scalar

section
variable (A : Arith) (glob : Globals) (ms : List Machine)

/-- `var!(self <~ dt; x)` (candle.rs 236-244). -/
def readVar (env : Env) (s : NodeState ms) (x : String) : Nat → R Value
  | 0 =>
    match env x with
    | some v => .ok (.leaf v)
    | none => .error .rejected
  | dt + 1 =>
    match s.hist x with
    | some h => (h.2.ago (dt + 1)).map .leaf
    | none => .error .rejected

mutual
/-- Evaluation of an emitted expression (codegen/mod.rs 1076-1165).  Subnode calls and flips
mutate `self`, so the state is threaded in Rust's evaluation order. -/
def eval (env : Env) : Expr → NodeState ms → R (Value × NodeState ms)
  | .lit l, s => .ok (.leaf (.defined l.scalar), s)
  | .global x, s =>
    match glob x with
    | some v => .ok (.leaf (.defined v), s)
    | none => .error .rejected
  | .var x dt, s => do
    let v ← readVar ms env s x dt
    .ok (v, s)
  | .tuple es, s => do
    let (vs, s) ← evalList env es s
    .ok (tupleValue vs, s)
  | .dummyPre e, s => eval env e s
  | .dummyParen e, s => eval env e s
  | .bin op lhs rhs, s => do
    let (l, s) ← eval env lhs s
    let (r, s) ← eval env rhs s
    let l ← asLeaf l
    let r ← asLeaf r
    let v ← l.binop (scalarBin A op) r
    .ok (.leaf v, s)
  | .un op inner, s => do
    let (v, s) ← eval env inner s
    let v ← asLeaf v
    let v ← v.unop (scalarUn A op)
    .ok (.leaf v, s)
  | .cmp op lhs rhs, s => do
    let (l, s) ← eval env lhs s
    let (r, s) ← eval env rhs s
    let l ← asLeaf l
    let r ← asLeaf r
    let v ← scalarCmp A op l r
    .ok (.leaf v, s)
  | .clock op inner activate, s => do
    -- candle.rs 466-492: the guard is evaluated first
    let (b, s) ← eval env activate s
    let b ← asBool b
    let (e, s) ← eval env inner s
    match op with
    | .when => .ok (Candle.when b e, s)
    | .whenot => .ok (Candle.whenot b e, s)
  | .later dt before after, s => do
    -- candle.rs 305-314: the right-hand side is always evaluated, the left one only if needed
    let (r, s) ← eval env after s
    if s.clock > dt then .ok (r, s) else eval env before s
  | .fetchPre id _, s =>
    match s.regs[id]? with
    | some r => .ok (r.get, s)
    | none => .error .rejected
  | .fetchFby id _ _, s =>
    match s.regs[id]? with
    | some r => .ok (r.get, s)
    | none => .error .rejected
  | .flip id initial continued, s => do
    -- codegen/mod.rs 1136-1158
    let (i, s) ← eval env initial s
    let (c, s) ← eval env continued s
    if i.firstIsNil then .ok (i.nilLike, s)
    else
      match s.flips[id]? with
      | some f => .ok (if f.tas.1 then i else c, { s with flips := s.flips.set id f.tas.2 })
      | none => .error .rejected
  | .ifx cond yes no, s => do
    -- candle.rs 350-361: both branches, then the condition
    let (y, s) ← eval env yes s
    let (n, s) ← eval env no s
    let (b, s) ← eval env cond s
    let b ← asBool b
    .ok (Candle.ifx b y n, s)
  | .merge switch on off, s => do
    -- candle.rs 499-511; the macro evaluates the switch again at the end, which makes no difference
    -- to accepted programs, see `San/Twice` and `Props/Twice`
    let (b, s) ← eval env switch s
    let b ← asBool b
    let (on, s) ← eval env on s
    let (off, s) ← eval env off s
    .ok (Candle.merge b on off, s)
  | .substep dt id args, s => do
    -- candle.rs 328-340: with `dt = 0` the test is always true
    if s.clock ≥ dt then
      let (a, s) ← eval env args s
      let (o, nodes) ← States.stepAt ms s.nodes id a
      .ok (o, { s with nodes := nodes })
    else
      match ms[id]? with
      | some m => .ok (Tup.allNil Scalar m.outTy, s)
      | none => .error .rejected
/-- Left-to-right evaluation of tuple components. codegen/mod.rs 1077-1164. -/
def evalList (env : Env) : List Expr → NodeState ms → R (List Value × NodeState ms)
  | [], s => .ok ([], s)
  | e :: es, s => do
    let (v, s) ← eval env e s
    let (vs, s) ← evalList env es s
    .ok (v :: vs, s)
end

mutual
/-- `let #target = …;` (codegen/mod.rs 1047-1073): `_` for an empty tuple, a plain name or a
destructuring tuple otherwise (a one-element pattern `( p )` is just `p`). -/
def bindTarget : VarTuple → Value → Env → R Env
  | .single x, .leaf v, env => .ok (env.set x v)
  | .single _, .tup _ _, _ => .error .rejected
  | .multiple [], _, env => .ok env
  | .multiple [p], v, env => bindTarget p v env
  | .multiple (p :: p' :: ps), .tup h t, env => do
    let env ← bindTarget p h env
    bindTargets (p' :: ps) t env
  | .multiple (_ :: _ :: _), .leaf _, _ => .error .rejected
/-- Component-wise binding. codegen/mod.rs 1047-1074. -/
def bindTargets : List VarTuple → List Value → Env → R Env
  | [], [], env => .ok env
  | p :: ps, v :: vs, env => do
    let env ← bindTarget p v env
    bindTargets ps vs env
  | _, _, _ => .error .rejected
end

/-- `self.__regs.$id.method(…)`. The methods of sem/src/registers.rs. -/
def updReg (s : NodeState ms) (id : Nat) (f : Register Scalar → Register Scalar) :
    R (NodeState ms) :=
  match s.regs[id]? with
  | some r => .ok { s with regs := s.regs.set id (f r) }
  | none => .error .rejected

/-- One emitted statement (codegen/mod.rs 1009-1045). -/
def exec : Stmt → Env × NodeState ms → R (Env × NodeState ms)
  | .let_ target source, (env, s) => do
    let (v, s) ← eval A glob ms env source s
    let env ← bindTarget target v env
    .ok (env, s)
  | .assert e, (env, s) => do
    let (v, s) ← eval A glob ms env e s
    let b ← asBool v
    Candle.truth b
    .ok (env, s)
  | .updateRegister id val, (env, s) => do
    let (v, s) ← eval A glob ms env val s
    let s ← updReg ms s id (·.schedule v)
    .ok (env, s)
  | .initRegister id val clk, (env, s) => do
    match clk with
    | none => .error .rejected -- codegen aborts (1032-1034)
    | some clk =>
      let (c, s) ← eval A glob ms env clk s
      let c ← asBool c
      let s ← updReg ms s id (·.withClock c)
      match val with
      | none => .ok (env, s)
      | some val =>
        let (v, s) ← eval A glob ms env val s
        let s ← updReg ms s id (·.tryInitialize v)
        .ok (env, s)

/-- The body: statements in order (codegen/mod.rs 601). -/
def execAll : List Stmt → Env × NodeState ms → R (Env × NodeState ms)
  | [], x => .ok x
  | st :: sts, x => do
    let x ← exec A glob ms st x
    execAll sts x

/-- `update!(self, x)` for one strictly positive variable (candle.rs 218-223). -/
def updHist (env : Env) (x : String) (s : NodeState ms) : R (NodeState ms) :=
  match s.hist x, env x with
  | some h, some v =>
    .ok { s with hist := fun y => if y = x then some ⟨h.1, h.2.update v⟩ else s.hist y }
  | _, _ => .error .rejected

/-- `update!` for a list of variables, in order. codegen/mod.rs 606-608. -/
def updHists (env : Env) : List String → NodeState ms → R (NodeState ms)
  | [], s => .ok s
  | x :: xs, s => do
    let s ← updHist ms env x s
    updHists env xs s

/-- Names of the strictly positive variables (codegen/mod.rs 786-797). -/
def posNames (vs : List TyVar) : List String := (vs.filter (·.depth > 0)).map (·.name)

/-- Read the outputs (`#outputs_vs.embed()`, codegen/mod.rs 611). -/
def readOutputs (env : Env) : List TyVar → R (List Value)
  | [] => .ok []
  | x :: xs =>
    match env x.name with
    | some v => do
      let vs ← readOutputs env xs
      .ok (.leaf v :: vs)
    | none => .error .rejected

/-- Pattern for the inputs (`as_assignment_target`, codegen/mod.rs 744-784). -/
def inputPattern (vs : List TyVar) : VarTuple := .multiple (vs.map (fun v => .single v.name))

/-- Initial fields (codegen/mod.rs 560-575): one default history of capacity `depth` per
strictly positive variable. -/
def initHist (n : Node) : String → Option AnyHist := fun x =>
  match (n.inputs ++ n.outputs ++ n.locals).find? (fun v => v.name = x ∧ v.depth > 0) with
  | some v => some ⟨v.depth - 1, Hist.default (v.depth - 1)⟩
  | none => none

/-- `Default` for the emitted struct (codegen/mod.rs 560-575). -/
def Node.initState (n : Node) : NodeState ms where
  clock := 0
  hist := initHist n
  nodes := States.init ms
  flips := List.replicate n.flips Flip.default
  regs := n.registers.map fun t =>
    Register.default Scalar (match t with | some t => t.shape | none => .leaf ())

/-- The part of `step` after the implicit clock test (codegen/mod.rs 598-611). -/
def Node.body (n : Node) (s : NodeState ms) (inputs : Value) : R (Value × NodeState ms) := do
  let env ← bindTarget (inputPattern n.inputs) inputs (fun _ => none)
  let (env, s) ← execAll A glob ms n.stmts (env, s)
  let s := { s with clock := s.clock + 1 }
  let s ← updHists ms env (posNames n.inputs) s
  let s ← updHists ms env (posNames n.outputs) s
  let s ← updHists ms env (posNames n.locals) s
  let s := { s with regs := s.regs.map Register.commit }
  let outs ← readOutputs env n.outputs
  .ok (tupleValue outs, s)

/-- Output tuple type of a node. codegen/mod.rs 548 (`expected_output_tys_impl`). -/
def Node.outTy (n : Node) : Tup Unit := flatShape n.outputs.length

/-- The internal `step` (codegen/mod.rs 589-614). -/
def Node.step (n : Node) (s : NodeState ms) (inputs : Value) : R (Value × NodeState ms) :=
  Candle.implicitClock inputs n.outTy s (n.body A glob ms s inputs)

/-- The internal struct of a node, as a machine. codegen/mod.rs 462-617. -/
def Node.machine (n : Node) : Machine where
  σ := NodeState ms
  init := n.initState ms
  outTy := n.outTy
  step := n.step A glob ms

end

/-- The exported wrapper struct (codegen/mod.rs 688-704): an implicit clock test, then the inner
`step`. -/
def wrapExport (m : Machine) : Machine where
  σ := m.σ
  init := m.init
  outTy := m.outTy
  step := fun s inputs => Candle.implicitClock inputs m.outTy s (m.step s inputs)

/-- The wrapper struct emitted for an `extern node` (codegen/mod.rs 829-882): implicit clock
test, inner `step`, then `tick!`.  The destructuring of inputs and outputs (876, 878, 882) is the
identity on values of the declared types, other than `nil` for no output; it is modelled in
`externQuote`. -/
def wrapExtern (m : Machine) : Machine where
  σ := m.σ × Nat
  init := (m.init, 0)
  outTy := m.outTy
  step := fun s inputs => Candle.implicitClock inputs m.outTy s
    (match m.step s.1 inputs with
     | .ok (o, s') => .ok (o, (s', s.2 + 1))
     | .error p => .error p)

/-- Outputs of a machine over an input history (oldest first), from a given state.
Successive calls to `step`, stepping.rs 146-153. -/
def Machine.runFrom (m : Machine) : m.σ → List Value → R (List Value × m.σ)
  | s, [] => .ok ([], s)
  | s, i :: is => do
    let (o, s) ← m.step s i
    let (os, s) ← m.runFrom s is
    .ok (o :: os, s)

/-- Outputs of a fresh machine over an input history.
`Default::default()` and successive calls to `step`, stepping.rs 146-153. -/
def Machine.run (m : Machine) (is : List Value) : R (List Value) := do
  let (os, _) ← m.runFrom m.init is
  .ok os

end Chandeliers.San
