import Verif.San.Eval

/-!
# The fragment of Rust that the emitted code is written in

Syntax and meaning of the Rust expressions and statements that appear in the methods `step` emitted
by `chandeliers-san/src/codegen/mod.rs`, after the expansion of the macros of
`chandeliers-sem/src/candle.rs`.  Nothing here knows about Lustre: a path is looked up among the
local variables and then among the constants, `let` shadows, operands are evaluated from left to
right, the first arm of a `match` that fits is taken.  Type errors are `Panic.rejected`.  Moves and
borrows are not modelled: all values are `Copy`.
-/

set_option autoImplicit false

namespace Chandeliers.San

/-- The place that fixes the type of a call to `AllNil::auto_size()` by inference (nillable.rs
214-249): it is the other arm of the same `match` or `if`. -/
inductive Like where
  /-- The arm is this local variable (candle.rs 350-361, 466-511, codegen/mod.rs 1143-1156). -/
  | var (x : String)
  /-- The arm is a call to the method `step` of this subnode (candle.rs 332-339). -/
  | out (id : Nat)
  /-- The arm is `Defined(…)` of a Boolean (candle.rs 390-411). -/
  | scalar

/-- Patterns of `match` (candle.rs 350-511). -/
inductive RPat where
  /-- `Defined(true)`, `Defined(false)` -/
  | definedBool (b : Bool)
  /-- `Nil` -/
  | nil
  /-- `_` -/
  | wild
  /-- `Some(Ordering::Less)`, … -/
  | someOrd (o : Ordering)
  /-- `Some(true)`, `Some(false)` -/
  | someBool (b : Bool)
  /-- `Some(_)` -/
  | someAny
  /-- `None` -/
  | none

mutual
/-- Rust expressions. The code emitted by codegen/mod.rs 1077-1164, with macros expanded. -/
inductive RExpr where
  /-- a variable or a constant -/
  | path (x : String)
  /-- a literal -/
  | lit (l : Lit)
  /-- `Defined(e)` -/
  | defined (e : RExpr)
  /-- `AllNil::auto_size()` -/
  | autoSize (like : Like)
  /-- `( e, … )`; `( e )` is `e` -/
  | tuple (es : RExprs)
  /-- `e.embed()` -/
  | embed (e : RExpr)
  /-- `l + r`, … -/
  | bin (op : BinOp) (l r : RExpr)
  /-- `-e`, `!e` -/
  | un (op : UnOp) (e : RExpr)
  /-- `l.cmp(r)` -/
  | cmp (l r : RExpr)
  /-- `l.eq(r)` -/
  | eq (l r : RExpr)
  /-- `e.first_is_nil()` -/
  | firstIsNil (e : RExpr)
  /-- `{ … }` -/
  | block (b : RBlock)
  /-- `if c { a } else { b }` -/
  | ite (c a b : RExpr)
  /-- `match e { … }` -/
  | mtch (e : RExpr) (arms : RArms)
  /-- `panic!(…)`, with the reason -/
  | panic (p : Panic)
  /-- `self.__clock > dt` -/
  | clockGt (dt : Nat)
  /-- `self.__clock >= dt` -/
  | clockGe (dt : Nat)
  /-- `*self.field.ago(dt)` -/
  | ago (field : String) (dt : Nat)
  /-- `self.__nodes.id.step(e)` -/
  | step (id : Nat) (e : RExpr)
  /-- `self.__regs.id.get()` -/
  | regGet (id : Nat)
  /-- `self.__flips.id.tas()` -/
  | flipTas (id : Nat)
/-- The components of a tuple. Of the code emitted by codegen/mod.rs 1092-1095. -/
inductive RExprs where
  | nil
  | cons (e : RExpr) (es : RExprs)
/-- The inside of a block: `let`s, then a value. Of the macros of candle.rs 305-511. -/
inductive RBlock where
  | value (e : RExpr)
  /-- `let x = e;` -/
  | bind (x : String) (e : RExpr) (rest : RBlock)
  /-- `let x: Nillable<bool> = e;` -/
  | bindBool (x : String) (e : RExpr) (rest : RBlock)
/-- The arms of a `match`. Of the macros of candle.rs 350-511. -/
inductive RArms where
  | nil
  | arm (p : RPat) (e : RExpr) (rest : RArms)
end

/-- Patterns of the `let` of statements (codegen/mod.rs 1047-1074 and 744-784). -/
inductive RBind where
  | ident (x : String)
  /-- `_` -/
  | wild
  /-- `( p, … )`; `( p )` is `p` -/
  | tuple (ps : List RBind)

/-- Rust statements. The code emitted by codegen/mod.rs 596-611 and 1009-1044. -/
inductive RStmt where
  /-- `let p = e;` -/
  | bind (p : RBind) (e : RExpr)
  /-- `e;` -/
  | expr (e : RExpr)
  /-- `if e { return AllNil::auto_size(); }`, of the type that the method returns -/
  | returnNilIf (e : RExpr)
  /-- `self.__clock += 1` -/
  | incrClock
  /-- `self.field.update_mut(e)` -/
  | updateMut (field : String) (e : RExpr)
  /-- `self.__regs.id.schedule(e);` -/
  | schedule (id : Nat) (e : RExpr)
  /-- `self.__regs.id.with_clock(e);` -/
  | withClock (id : Nat) (e : RExpr)
  /-- `self.__regs.id.try_initialize(e);` -/
  | tryInitialize (id : Nat) (e : RExpr)
  /-- `self.__regs.id.commit();` -/
  | commit (id : Nat)

/-- A method `fn step(&mut self, inputs: …) -> … { stmts value }`. codegen/mod.rs 589-612. -/
structure RFn where
  stmts : List RStmt
  value : RExpr

/-- What a Rust expression of the fragment evaluates to: `i64`, `f64`, `bool`, `()`; a nillable
scalar or a tuple of them; `Option<Ordering>`; `Option<bool>`. The types of nillable.rs 20-30,
154-162, 199-208. -/
inductive RVal where
  | raw (v : Scalar)
  | val (v : Value)
  | optOrd (o : Option Ordering)
  | optBool (b : Option Bool)

/-- The local variables in scope. The `let`s emitted by codegen/mod.rs 589-612. -/
abbrev REnv := String → Option RVal

/-- `let x = v`, which hides an earlier `x`. The `let`s emitted by codegen/mod.rs 589-612. -/
def REnv.set (env : REnv) (x : String) (v : RVal) : REnv := fun y => if y = x then some v else env y

/-- The value is a nillable scalar or a tuple of them. Types of stepping.rs 12-120. -/
def RVal.asVal : RVal → R Value
  | .val v => .ok v
  | _ => .error .rejected

/-- The value is a nillable scalar. Types of candle.rs 371-443. -/
def RVal.asNillable : RVal → R (Nillable Scalar)
  | .val (.leaf v) => .ok v
  | _ => .error .rejected

/-- The value is a `bool`. Types of candle.rs 305-340. -/
def RVal.asBool : RVal → R Bool
  | .raw (.bool b) => .ok b
  | _ => .error .rejected

/-- The value is a `Nillable<bool>`. Types of candle.rs 450-505. -/
def RVal.asNillableBool : RVal → R (Nillable Bool)
  | .val v => San.asBool v
  | _ => .error .rejected

/-- `v.embed()`: stepping.rs 34-85.  Nillable scalars, and tuples of them, embed as themselves. -/
def RVal.embed : RVal → R RVal
  | .raw v => .ok (.val (.leaf (.defined v)))
  | .val v => .ok (.val v)
  | _ => .error .rejected

/-- A tuple of evaluated components (codegen/mod.rs 1092-1095). -/
def rtuple : List RVal → R RVal
  | [] => .ok (.raw .unit)
  | [v] => .ok v
  | v :: v' :: vs => do
    let v ← v.asVal
    let vs ← (v' :: vs).mapM RVal.asVal
    .ok (.val (.tup v vs))

/-- The value fits the pattern. Of the `match`es of candle.rs 350-511. -/
def RPat.fits : RPat → RVal → R Bool
  | .definedBool b, .val (.leaf (.defined (.bool c))) => .ok (b == c)
  | .definedBool _, .val (.leaf .nil) => .ok false
  | .nil, .val (.leaf .nil) => .ok true
  | .nil, .val (.leaf (.defined _)) => .ok false
  | .wild, _ => .ok true
  | .someOrd o, .optOrd o' => .ok (some o == o')
  | .someBool b, .optBool b' => .ok (some b == b')
  | .someAny, .optOrd o => .ok o.isSome
  | .someAny, .optBool b => .ok b.isSome
  | .none, .optOrd o => .ok o.isNone
  | .none, .optBool b => .ok b.isNone
  | _, _ => .error .rejected

section
variable (A : Arith) (consts : String → Option Scalar) (ms : List Machine)

mutual
/-- Evaluation of a Rust expression. `s.hist` are the fields of `self`, by their Rust names.
The code emitted by codegen/mod.rs 1077-1164. -/
def reval (env : REnv) : RExpr → NodeState ms → R (RVal × NodeState ms)
  | .path x, s =>
    match env x with
    | some v => .ok (v, s)
    | none =>
      match consts x with
      | some v => .ok (.raw v, s)
      | none => .error .rejected
  | .lit l, s => .ok (.raw l.scalar, s)
  | .defined e, s => do
    let (v, s) ← reval env e s
    match v with
    | .raw v => .ok (.val (.leaf (.defined v)), s)
    | _ => .error .rejected
  | .autoSize (.var x), s =>
    match env x with
    | some (.val v) => .ok (.val v.nilLike, s)
    | _ => .error .rejected
  | .autoSize (.out id), s =>
    match ms[id]? with
    | some m => .ok (.val (Tup.allNil Scalar m.outTy), s)
    | none => .error .rejected
  | .autoSize .scalar, s => .ok (.val (.leaf .nil), s)
  | .tuple es, s => do
    let (vs, s) ← revalList env es s
    let v ← rtuple vs
    .ok (v, s)
  | .embed e, s => do
    let (v, s) ← reval env e s
    let v ← v.embed
    .ok (v, s)
  | .bin op l r, s => do
    let (x, s) ← reval env l s
    let (y, s) ← reval env r s
    let x ← x.asNillable
    let y ← y.asNillable
    let v ← x.binop (scalarBin A op) y
    .ok (.val (.leaf v), s)
  | .un op e, s => do
    let (v, s) ← reval env e s
    match v with
    | .raw v => do
      let v ← scalarUn A op v
      .ok (.raw v, s)
    | v => do
      let v ← v.asNillable
      let v ← v.unop (scalarUn A op)
      .ok (.val (.leaf v), s)
  | .cmp l r, s => do
    let (x, s) ← reval env l s
    let (y, s) ← reval env r s
    let x ← x.asNillable
    let y ← y.asNillable
    if comparable x y then .ok (.optOrd (x.cmp (scalarPcmp A) y), s) else .error .rejected
  | .eq l r, s => do
    let (x, s) ← reval env l s
    let (y, s) ← reval env r s
    let x ← x.asNillable
    let y ← y.asNillable
    if comparable x y then .ok (.optBool (x.eq (scalarEq A) y), s) else .error .rejected
  | .firstIsNil e, s => do
    let (v, s) ← reval env e s
    let v ← v.asVal
    .ok (.raw (.bool v.firstIsNil), s)
  | .block b, s => revalBlock env b s
  | .ite c a b, s => do
    let (v, s) ← reval env c s
    let v ← v.asBool
    if v then reval env a s else reval env b s
  | .mtch e arms, s => do
    let (v, s) ← reval env e s
    revalArms env v arms s
  | .panic p, _ => .error p
  | .clockGt dt, s => .ok (.raw (.bool (decide (s.clock > dt))), s)
  | .clockGe dt, s => .ok (.raw (.bool (decide (s.clock ≥ dt))), s)
  | .ago f dt, s =>
    match s.hist f with
    | some h => do
      let v ← h.2.ago dt
      .ok (.val (.leaf v), s)
    | none => .error .rejected
  | .step id e, s => do
    let (v, s) ← reval env e s
    let v ← v.asVal
    let (o, nodes) ← States.stepAt ms s.nodes id v
    .ok (.val o, { s with nodes := nodes })
  | .regGet id, s =>
    match s.regs[id]? with
    | some r => .ok (.val r.get, s)
    | none => .error .rejected
  | .flipTas id, s =>
    match s.flips[id]? with
    | some f => .ok (.raw (.bool f.tas.1), { s with flips := s.flips.set id f.tas.2 })
    | none => .error .rejected
/-- The components of a tuple, from left to right. codegen/mod.rs 1092-1095. -/
def revalList (env : REnv) : RExprs → NodeState ms → R (List RVal × NodeState ms)
  | .nil, s => .ok ([], s)
  | .cons e es, s => do
    let (v, s) ← reval env e s
    let (vs, s) ← revalList env es s
    .ok (v :: vs, s)
/-- The inside of a block. Of the macros of candle.rs 305-511. -/
def revalBlock (env : REnv) : RBlock → NodeState ms → R (RVal × NodeState ms)
  | .value e, s => reval env e s
  | .bind x e rest, s => do
    let (v, s) ← reval env e s
    revalBlock (env.set x v) rest s
  | .bindBool x e rest, s => do
    let (v, s) ← reval env e s
    let _ ← v.asNillableBool
    revalBlock (env.set x v) rest s
/-- The first arm that fits. Of the macros of candle.rs 350-511. -/
def revalArms (env : REnv) (v : RVal) : RArms → NodeState ms → R (RVal × NodeState ms)
  | .nil, _ => .error .rejected
  | .arm p e rest, s => do
    let b ← p.fits v
    if b then reval env e s else revalArms env v rest s
end

mutual
/-- `let p = v;` (codegen/mod.rs 1047-1074 and 744-784). -/
def rbind : RBind → RVal → REnv → R REnv
  | .ident x, v, env => .ok (env.set x v)
  | .wild, _, env => .ok env
  | .tuple [], .raw .unit, env => .ok env
  | .tuple [p], v, env => rbind p v env
  | .tuple (p :: p' :: ps), .val (.tup h t), env => do
    let env ← rbind p (.val h) env
    rbinds (p' :: ps) t env
  | .tuple _, _, _ => .error .rejected
/-- The components of a pattern, from left to right. codegen/mod.rs 1047-1074. -/
def rbinds : List RBind → List Value → REnv → R REnv
  | [], [], env => .ok env
  | p :: ps, v :: vs, env => do
    let env ← rbind p (.val v) env
    rbinds ps vs env
  | _, _, _ => .error .rejected
end

/-- `self.field.update_mut(v)` (candle.rs 218-223). -/
def updField (s : NodeState ms) (field : String) (v : Nillable Scalar) : R (NodeState ms) :=
  match s.hist field with
  | some h => .ok { s with
      hist := fun y => if y = field then some ⟨h.1, h.2.update v⟩ else s.hist y }
  | none => .error .rejected

/-- The body of a method of return type `outTy`: statements in order, until a `return`, then the
value. codegen/mod.rs 595-612. -/
def rexec (outTy : Tup Unit) (value : RExpr) :
    List RStmt → REnv → NodeState ms → R (RVal × NodeState ms)
  | [], env, s => reval A consts ms env value s
  | .bind p e :: sts, env, s => do
    let (v, s) ← reval A consts ms env e s
    let env ← rbind p v env
    rexec outTy value sts env s
  | .expr e :: sts, env, s => do
    let (_, s) ← reval A consts ms env e s
    rexec outTy value sts env s
  | .returnNilIf e :: sts, env, s => do
    let (v, s) ← reval A consts ms env e s
    let v ← v.asBool
    if v then .ok (.val (Tup.allNil Scalar outTy), s) else rexec outTy value sts env s
  | .incrClock :: sts, env, s => rexec outTy value sts env { s with clock := s.clock + 1 }
  | .updateMut f e :: sts, env, s => do
    let (v, s) ← reval A consts ms env e s
    let v ← v.asNillable
    let s ← updField ms s f v
    rexec outTy value sts env s
  | .schedule id e :: sts, env, s => do
    let (v, s) ← reval A consts ms env e s
    let v ← v.asVal
    let s ← updReg ms s id (·.schedule v)
    rexec outTy value sts env s
  | .withClock id e :: sts, env, s => do
    let (v, s) ← reval A consts ms env e s
    let v ← v.asNillableBool
    let s ← updReg ms s id (·.withClock v)
    rexec outTy value sts env s
  | .tryInitialize id e :: sts, env, s => do
    let (v, s) ← reval A consts ms env e s
    let v ← v.asVal
    let s ← updReg ms s id (·.tryInitialize v)
    rexec outTy value sts env s
  | .commit id :: sts, env, s => do
    let s ← updReg ms s id Register.commit
    rexec outTy value sts env s

/-- A call to the method `step` with the argument `inputs`. codegen/mod.rs 589-612. -/
def RFn.call (f : RFn) (outTy : Tup Unit) (s : NodeState ms) (inputs : Value) :
    R (Value × NodeState ms) := do
  let (v, s) ← rexec A consts ms outTy f.value f.stmts
    (REnv.set (fun _ => none) "inputs" (.val inputs)) s
  let v ← v.asVal
  .ok (v, s)

end

end Chandeliers.San
