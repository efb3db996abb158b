import Verif.Syn.Prog

/-!
# The emitted code, with the macro `merge!` to the letter

`merge!` (`chandeliers-sem/src/candle.rs` 499-511) evaluates its first argument twice.  `San/Eval`
evaluates it once.  This file repeats the definitions of `San/Eval` that depend on it, with two
evaluations; that it makes no difference for accepted programs is proved in `Props/Twice`.
-/

namespace Chandeliers.San

section
variable (A : Arith) (glob : Globals) (ms : List Machine)

mutual
/-- `eval` (codegen/mod.rs 1076-1165) with the macro `merge!` as it is written. -/
def evalTwice (env : Env) : Expr → NodeState ms → R (Value × NodeState ms)
  | .lit l, s => .ok (.leaf (.defined l.scalar), s)
  | .global x, s =>
    match glob x with
    | some v => .ok (.leaf (.defined v), s)
    | none => .error .rejected
  | .var x dt, s => do
    let v ← readVar ms env s x dt
    .ok (v, s)
  | .tuple es, s => do
    let (vs, s) ← evalListTwice env es s
    .ok (tupleValue vs, s)
  | .dummyPre e, s => evalTwice env e s
  | .dummyParen e, s => evalTwice env e s
  | .bin op lhs rhs, s => do
    let (l, s) ← evalTwice env lhs s
    let (r, s) ← evalTwice env rhs s
    let l ← asLeaf l
    let r ← asLeaf r
    let v ← l.binop (scalarBin A op) r
    .ok (.leaf v, s)
  | .un op inner, s => do
    let (v, s) ← evalTwice env inner s
    let v ← asLeaf v
    let v ← v.unop (scalarUn A op)
    .ok (.leaf v, s)
  | .cmp op lhs rhs, s => do
    let (l, s) ← evalTwice env lhs s
    let (r, s) ← evalTwice env rhs s
    let l ← asLeaf l
    let r ← asLeaf r
    let v ← scalarCmp A op l r
    .ok (.leaf v, s)
  | .clock op inner activate, s => do
    -- candle.rs 466-492: the guard is evaluated first
    let (b, s) ← evalTwice env activate s
    let b ← asBool b
    let (e, s) ← evalTwice env inner s
    match op with
    | .when => .ok (Candle.when b e, s)
    | .whenot => .ok (Candle.whenot b e, s)
  | .later dt before after, s => do
    -- candle.rs 305-314: the right-hand side is always evaluated, the left one only if needed
    let (r, s) ← evalTwice env after s
    if s.clock > dt then .ok (r, s) else evalTwice env before s
  | .fetchPre id _, s =>
    match s.regs[id]? with
    | some r => .ok (r.get, s)
    | none => .error .rejected
  | .fetchFby id _ _, s =>
    match s.regs[id]? with
    | some r => .ok (r.get, s)
    | none => .error .rejected
  | .flip id initial continued, s => do
    -- codegen/mod.rs 1136-1158
    let (i, s) ← evalTwice env initial s
    let (c, s) ← evalTwice env continued s
    if i.firstIsNil then .ok (i.nilLike, s)
    else
      match s.flips[id]? with
      | some f => .ok (if f.tas.1 then i else c, { s with flips := s.flips.set id f.tas.2 })
      | none => .error .rejected
  | .ifx cond yes no, s => do
    -- candle.rs 350-361: both branches, then the condition
    let (y, s) ← evalTwice env yes s
    let (n, s) ← evalTwice env no s
    let (b, s) ← evalTwice env cond s
    let b ← asBool b
    .ok (Candle.ifx b y n, s)
  | .merge switch on off, s => do
    -- candle.rs 499-511: `let b: Nillable<bool> = $b`, then the branches, then `match $b`
    let (b, s) ← evalTwice env switch s
    let _ ← asBool b
    let (on, s) ← evalTwice env on s
    let (off, s) ← evalTwice env off s
    let (b, s) ← evalTwice env switch s
    let b ← asBool b
    .ok (Candle.merge b on off, s)
  | .substep dt id args, s => do
    -- candle.rs 328-340: with `dt = 0` the test is always true
    if s.clock ≥ dt then
      let (a, s) ← evalTwice env args s
      let (o, nodes) ← States.stepAt ms s.nodes id a
      .ok (o, { s with nodes := nodes })
    else
      match ms[id]? with
      | some m => .ok (Tup.allNil Scalar m.outTy, s)
      | none => .error .rejected
/-- Left-to-right evaluation of tuple components. codegen/mod.rs 1077-1164. -/
def evalListTwice (env : Env) : List Expr → NodeState ms → R (List Value × NodeState ms)
  | [], s => .ok ([], s)
  | e :: es, s => do
    let (v, s) ← evalTwice env e s
    let (vs, s) ← evalListTwice env es s
    .ok (v :: vs, s)
end

/-- One emitted statement (codegen/mod.rs 1009-1045). -/
def execTwice : Stmt → Env × NodeState ms → R (Env × NodeState ms)
  | .let_ target source, (env, s) => do
    let (v, s) ← evalTwice A glob ms env source s
    let env ← bindTarget target v env
    .ok (env, s)
  | .assert e, (env, s) => do
    let (v, s) ← evalTwice A glob ms env e s
    let b ← asBool v
    Candle.truth b
    .ok (env, s)
  | .updateRegister id val, (env, s) => do
    let (v, s) ← evalTwice A glob ms env val s
    let s ← updReg ms s id (·.schedule v)
    .ok (env, s)
  | .initRegister id val clk, (env, s) => do
    match clk with
    | none => .error .rejected -- codegen aborts (1032-1034)
    | some clk =>
      let (c, s) ← evalTwice A glob ms env clk s
      let c ← asBool c
      let s ← updReg ms s id (·.withClock c)
      match val with
      | none => .ok (env, s)
      | some val =>
        let (v, s) ← evalTwice A glob ms env val s
        let s ← updReg ms s id (·.tryInitialize v)
        .ok (env, s)

/-- The body: statements in order (codegen/mod.rs 601). -/
def execAllTwice : List Stmt → Env × NodeState ms → R (Env × NodeState ms)
  | [], x => .ok x
  | st :: sts, x => do
    let x ← execTwice A glob ms st x
    execAllTwice sts x

/-- The part of `step` after the implicit clock test (codegen/mod.rs 598-611). -/
def Node.bodyTwice (n : Node) (s : NodeState ms) (inputs : Value) : R (Value × NodeState ms) := do
  let env ← bindTarget (inputPattern n.inputs) inputs (fun _ => none)
  let (env, s) ← execAllTwice A glob ms n.stmts (env, s)
  let s := { s with clock := s.clock + 1 }
  let s ← updHists ms env (posNames n.inputs) s
  let s ← updHists ms env (posNames n.outputs) s
  let s ← updHists ms env (posNames n.locals) s
  let s := { s with regs := s.regs.map Register.commit }
  let outs ← readOutputs env n.outputs
  .ok (tupleValue outs, s)

/-- The internal `step` (codegen/mod.rs 589-614). -/
def Node.stepTwice (n : Node) (s : NodeState ms) (inputs : Value) : R (Value × NodeState ms) :=
  Candle.implicitClock inputs n.outTy s (n.bodyTwice A glob ms s inputs)

/-- The internal struct of a node, as a machine. codegen/mod.rs 462-617. -/
def Node.machineTwice (n : Node) : Machine where
  σ := NodeState ms
  init := n.initState ms
  outTy := n.outTy
  step := n.stepTwice A glob ms

end

/-- The nodes (codegen/mod.rs 378-434, and 811-889 for external ones), which can use all the
constants. -/
def linkNodesTwice (A : Arith) (X : Extern) (g : Globals) :
    (String → Option Machine) → List Decl → Except Panic (String → Option Machine)
  | N, [] => .ok N
  | N, .node n :: ds =>
    match subnodes N n.blocks with
    | some ms => linkNodesTwice A X g
        (fun f => if f = n.name then some (n.machineTwice A g ms) else N f) ds
    | none => .error .rejected
  | N, .extNode n :: ds =>
    match X.nodes n.name with
    | some m => linkNodesTwice A X g (fun f => if f = n.name then some (wrapExtern m) else N f) ds
    | none => .error .rejected
  | N, .const _ :: ds => linkNodesTwice A X g N ds
  | N, .extConst _ :: ds => linkNodesTwice A X g N ds

/-- The items of a program. pipeline.rs 110-115. -/
def linkTwice (A : Arith) (X : Extern) (ds : List Decl) : Except Panic Items :=
  match linkConsts A X (fun _ => none) ds with
  | .error p => .error p
  | .ok g =>
    match linkNodesTwice A X g (fun _ => none) ds with
    | .error p => .error p
    | .ok N => .ok ⟨g, N⟩

end Chandeliers.San
