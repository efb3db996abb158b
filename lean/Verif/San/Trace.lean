import Verif.Syn.Prog

/-!
# Printing

Model of the code emitted for `#[trace]` (`chandeliers-san/src/codegen/options.rs` 76-137), and of
what a program prints.  `San/Eval` gives the meaning of the emitted code without its prints; here
they are added.
-/

set_option autoImplicit false

namespace Chandeliers.San
open Chandeliers.Syn

/-- The argument of `#[trace]` (ast/options.rs 286-304). -/
abbrev TraceOpt := TraceFile × TraceFormat × TraceFormat

/-- Something that was printed. `print!` and `eprint!`, codegen/options.rs 83-139. -/
structure Out where
  file : TraceFile
  text : String
  deriving DecidableEq

/-- A computation that prints.  What was printed before a panic stays.
Auxiliary, for codegen/options.rs 83-139. -/
structure W (α : Type) where
  res : R α
  out : List Out

/-- One computation after the other. Auxiliary, for codegen/options.rs 83-139. -/
def W.bind {α β : Type} (m : W α) (f : α → W β) : W β :=
  match m.res with
  | .ok a => ⟨(f a).res, m.out ++ (f a).out⟩
  | .error p => ⟨.error p, m.out⟩

/-- Sequencing of `W` (auxiliary, for codegen/options.rs 83-139). -/
instance : Monad W where
  pure a := ⟨.ok a, []⟩
  bind := W.bind

/-- A computation that does not print. Auxiliary, for codegen/mod.rs 518-617. -/
instance : MonadLift (Except Panic) W where
  monadLift r := ⟨r, []⟩

/-! ## Formats -/

/-- A piece of a format string: a character, or the value of a variable.
Of the strings built by codegen/options.rs 83-139. -/
inductive Piece where
  | char (c : Char)
  | arg (x : String)
  deriving DecidableEq

/-- `format_args!` on a literal with no other argument: `{x}` is the variable `x`, `{{` and `}}` are
braces.  The first argument is the name that is being read, backwards.  Format parameters
(`{x:>8}`) are not modelled: the model takes them for names.
Of the strings built by codegen/options.rs 83-139. -/
def scan : Option (List Char) → List Char → Option (List Piece)
  | none, [] => some []
  | none, '{' :: '{' :: cs => (scan none cs).map (.char '{' :: ·)
  | none, '}' :: '}' :: cs => (scan none cs).map (.char '}' :: ·)
  | none, c :: cs =>
    if c = '{' then scan (some []) cs
    else if c = '}' then none
    else (scan none cs).map (.char c :: ·)
  | some _, [] => none
  | some x, c :: cs =>
    if c = '}' then (scan none cs).map (.arg (String.ofList x.reverse) :: ·)
    else if c = '{' then none
    else scan (some (c :: x)) cs

/-- The text, given the values of the variables; `none` if one of them does not exist.
Of the strings built by codegen/options.rs 83-139. -/
def render (look : String → Option String) : List Piece → Option String
  | [] => some ""
  | .char c :: ps => (render look ps).map (String.singleton c ++ ·)
  | .arg x :: ps =>
    match look x, render look ps with
    | some v, some t => some (v ++ t)
    | _, _ => none

/-- `Display` of the types of Rust; that of `f64` and of foreign types is left open.
Used by nillable.rs 39-46. -/
structure Shows where
  float : F64 → String
  other : String → Nat → String

/-- `Display` of a scalar.  No variable has the type `()`, which has no `Display`.
Used by nillable.rs 39-46. -/
def Shows.scalar (D : Shows) : Scalar → String
  | .int i => toString i.toInt
  | .float f => D.float f
  | .bool b => if b then "true" else "false"
  | .unit => ""
  | .other t n => D.other t n

/-- `Display` of nillables (nillable.rs 39-47). -/
def Shows.nillable (D : Shows) : Nillable Scalar → String
  | .nil => "nil"
  | .defined v => D.scalar v

/-- codegen/mod.rs 770-776 `fmt_strings`: `(a={a}, b={b})`. -/
def fmtStrings (vs : List TyVar) : String :=
  "(" ++ ", ".intercalate (vs.map fun v => v.name ++ "={" ++ v.name ++ "}") ++ ")"

/-- options.rs 96-100: the format of the inputs. -/
def inputFmt (f : TraceFormat) (vs : List TyVar) : String :=
  match f with
  | .default => "{_ext}{_this} <- " ++ fmtStrings vs ++ "\n"
  | .empty => ""
  | .str s => s

/-- options.rs 101-105: the format of the outputs. -/
def outputFmt (f : TraceFormat) (vs : List TyVar) : String :=
  match f with
  | .default => "{_ext}{_this} -> " ++ fmtStrings vs ++ "\n"
  | .empty => ""
  | .str s => s

/-- The variables that a printing block may mention: `_ext`, `_this`, `_clk` (options.rs 114-116,
125-127), hidden by the variables of the node with the same name (117, 128-130). -/
def traceVars (D : Shows) (ext this : String) (clk : Nat) (vs : List TyVar) (env : Env) (x : String) :
    Option String :=
  if x ∈ vs.map (·.name) then (env x).map D.nillable
  else if x = "_ext" then some ext
  else if x = "_this" then some this
  else if x = "_clk" then some (toString clk)
  else none

/-- `print!(fmt)` or `eprint!(fmt)`. codegen/options.rs 83-139. -/
def printFmt (file : TraceFile) (fmt : String) (look : String → Option String) : W Unit :=
  match (scan none fmt.toList).bind (render look) with
  | some t => ⟨.ok (), if t = "" then [] else [⟨file, t⟩]⟩
  | none => ⟨.error .rejected, []⟩

/-- A printing block (options.rs 110-133): each variable is renamed (`self_assigned`, codegen/mod.rs
750-759), so it must be bound. -/
def printBlock (D : Shows) (file : TraceFile) (fmt ext this : String) (clk : Nat) (vs : List TyVar)
    (env : Env) : W Unit :=
  if vs.all fun v => (env v.name).isSome then
    printFmt file fmt (traceVars D ext this clk vs env)
  else ⟨.error .rejected, []⟩

/-! ## Machines that print -/

/-- A node that may print when it is stepped. codegen/mod.rs 518-617. -/
structure TMachine where
  σ : Type
  init : σ
  outTy : Tup Unit
  step : σ → Value → W (Value × σ)

/-- The same without its prints. Auxiliary, for codegen/mod.rs 518-617. -/
def TMachine.quiet (m : TMachine) : Machine where
  σ := m.σ
  init := m.init
  outTy := m.outTy
  step := fun s v => (m.step s v).res

/-- `self.__nodes.$id.step(…)` (candle.rs 330, 335), with its prints. -/
def stepAtW : (ms : List TMachine) → States (ms.map TMachine.quiet) → Nat → Value →
    W (Value × States (ms.map TMachine.quiet))
  | [], _, _, _ => ⟨.error .rejected, []⟩
  | m :: _, (s, ss), 0, v => do
    let (o, s') ← m.step s v
    pure (o, (s', ss))
  | _ :: ms, (s, ss), i + 1, v => do
    let (o, ss') ← stepAtW ms ss i v
    pure (o, (s, ss'))

section
variable (A : Arith) (D : Shows) (glob : Globals) (ms : List TMachine)

/-- The state of a node with these subnodes. codegen/mod.rs 462-511. -/
abbrev WState := NodeState (ms.map TMachine.quiet)

mutual
/-- `eval` with what it prints: only calls do. codegen/mod.rs 1077-1164. -/
def evalW (env : Env) : Expr → WState ms → W (Value × WState ms)
  | .lit l, s => pure (.leaf (.defined l.scalar), s)
  | .global x, s =>
    match glob x with
    | some v => pure (.leaf (.defined v), s)
    | none => ⟨.error .rejected, []⟩
  | .var x dt, s => do
    let v ← readVar (ms.map TMachine.quiet) env s x dt
    pure (v, s)
  | .tuple es, s => do
    let (vs, s) ← evalListW env es s
    pure (tupleValue vs, s)
  | .dummyPre e, s => evalW env e s
  | .dummyParen e, s => evalW env e s
  | .bin op lhs rhs, s => do
    let (l, s) ← evalW env lhs s
    let (r, s) ← evalW env rhs s
    let l ← asLeaf l
    let r ← asLeaf r
    let v ← l.binop (scalarBin A op) r
    pure (.leaf v, s)
  | .un op inner, s => do
    let (v, s) ← evalW env inner s
    let v ← asLeaf v
    let v ← v.unop (scalarUn A op)
    pure (.leaf v, s)
  | .cmp op lhs rhs, s => do
    let (l, s) ← evalW env lhs s
    let (r, s) ← evalW env rhs s
    let l ← asLeaf l
    let r ← asLeaf r
    let v ← scalarCmp A op l r
    pure (.leaf v, s)
  | .clock op inner activate, s => do
    let (b, s) ← evalW env activate s
    let b ← asBool b
    let (e, s) ← evalW env inner s
    match op with
    | .when => pure (Candle.when b e, s)
    | .whenot => pure (Candle.whenot b e, s)
  | .later dt before after, s => do
    let (r, s) ← evalW env after s
    if s.clock > dt then pure (r, s) else evalW env before s
  | .fetchPre id _, s =>
    match s.regs[id]? with
    | some r => pure (r.get, s)
    | none => ⟨.error .rejected, []⟩
  | .fetchFby id _ _, s =>
    match s.regs[id]? with
    | some r => pure (r.get, s)
    | none => ⟨.error .rejected, []⟩
  | .flip id initial continued, s => do
    let (i, s) ← evalW env initial s
    let (c, s) ← evalW env continued s
    if i.firstIsNil then pure (i.nilLike, s)
    else
      match s.flips[id]? with
      | some f => pure (if f.tas.1 then i else c, { s with flips := s.flips.set id f.tas.2 })
      | none => ⟨.error .rejected, []⟩
  | .ifx cond yes no, s => do
    let (y, s) ← evalW env yes s
    let (n, s) ← evalW env no s
    let (b, s) ← evalW env cond s
    let b ← asBool b
    pure (Candle.ifx b y n, s)
  | .merge switch on off, s => do
    let (b, s) ← evalW env switch s
    let b ← asBool b
    let (on, s) ← evalW env on s
    let (off, s) ← evalW env off s
    pure (Candle.merge b on off, s)
  | .substep dt id args, s => do
    if s.clock ≥ dt then
      let (a, s) ← evalW env args s
      let (o, nodes) ← stepAtW ms s.nodes id a
      pure (o, { s with nodes := nodes })
    else
      match (ms.map TMachine.quiet)[id]? with
      | some m => pure (Tup.allNil Scalar m.outTy, s)
      | none => ⟨.error .rejected, []⟩
/-- `evalList` with what it prints. codegen/mod.rs 1077-1164. -/
def evalListW (env : Env) : List Expr → WState ms → W (List Value × WState ms)
  | [], s => pure ([], s)
  | e :: es, s => do
    let (v, s) ← evalW env e s
    let (vs, s) ← evalListW env es s
    pure (v :: vs, s)
end

/-- `exec` with what it prints. codegen/mod.rs 1009-1044. -/
def execW : Stmt → Env × WState ms → W (Env × WState ms)
  | .let_ target source, (env, s) => do
    let (v, s) ← evalW A glob ms env source s
    let env ← bindTarget target v env
    pure (env, s)
  | .assert e, (env, s) => do
    let (v, s) ← evalW A glob ms env e s
    let b ← asBool v
    Candle.truth b
    pure (env, s)
  | .updateRegister id val, (env, s) => do
    let (v, s) ← evalW A glob ms env val s
    let s ← updReg (ms.map TMachine.quiet) s id (·.schedule v)
    pure (env, s)
  | .initRegister id val clk, (env, s) => do
    match clk with
    | none => ⟨.error .rejected, []⟩
    | some clk =>
      let (c, s) ← evalW A glob ms env clk s
      let c ← asBool c
      let s ← updReg (ms.map TMachine.quiet) s id (·.withClock c)
      match val with
      | none => pure (env, s)
      | some val =>
        let (v, s) ← evalW A glob ms env val s
        let s ← updReg (ms.map TMachine.quiet) s id (·.tryInitialize v)
        pure (env, s)

/-- `execAll` with what it prints. codegen/mod.rs 601. -/
def execAllW : List Stmt → Env × WState ms → W (Env × WState ms)
  | [], x => pure x
  | st :: sts, x => do
    let x ← execW A glob ms st x
    execAllW sts x

/-- The first block of `#[trace]` (options.rs 111-120). -/
def tracePre (trace : Option TraceOpt) (ext this : String) (clk : Nat) (inputs : List TyVar)
    (env : Env) : W Unit :=
  match trace with
  | some (file, ifmt, _) => printBlock D file (inputFmt ifmt inputs) ext this clk inputs env
  | none => pure ()

/-- The second block of `#[trace]` (options.rs 121-133). -/
def tracePost (trace : Option TraceOpt) (ext this : String) (clk : Nat)
    (inputs locals outputs : List TyVar) (env : Env) : W Unit :=
  match trace with
  | some (file, _, ofmt) =>
    printBlock D file (outputFmt ofmt outputs) ext this clk (inputs ++ locals ++ outputs) env
  | none => pure ()

/-- The part of `step` after the implicit clock test (codegen/mod.rs 597-611), with the printing
blocks (598, 602).  The prefix of nodes is on line 549. -/
def Node.bodyW (trace : Option TraceOpt) (n : Node) (s : WState ms) (inputs : Value) :
    W (Value × WState ms) := do
  let env ← bindTarget (inputPattern n.inputs) inputs (fun _ => none)
  tracePre D trace "      " n.name s.clock n.inputs env
  let (env, s) ← execAllW A glob ms n.stmts (env, s)
  tracePost D trace "      " n.name s.clock n.inputs n.locals n.outputs env
  let s := { s with clock := s.clock + 1 }
  let s ← updHists (ms.map TMachine.quiet) env (posNames n.inputs) s
  let s ← updHists (ms.map TMachine.quiet) env (posNames n.outputs) s
  let s ← updHists (ms.map TMachine.quiet) env (posNames n.locals) s
  let s := { s with regs := s.regs.map Register.commit }
  let outs ← readOutputs env n.outputs
  pure (tupleValue outs, s)

/-- `implicit_clock!` (see `Candle.implicitClock`). candle.rs 522-530. -/
def implicitClockW {σ : Type} (inputs : Value) (outTy : Tup Unit) (s : σ) (body : W (Value × σ)) :
    W (Value × σ) :=
  if inputs.firstIsNil then pure (Tup.allNil Scalar outTy, s) else body

/-- The internal struct of a node (codegen/mod.rs 589-614). -/
def Node.machineW (trace : Option TraceOpt) (n : Node) : TMachine where
  σ := WState ms
  init := n.initState (ms.map TMachine.quiet)
  outTy := n.outTy
  step := fun s inputs => implicitClockW inputs n.outTy s (n.bodyW A D glob ms trace s inputs)

end

/-- The wrapper struct emitted for an `extern node` (codegen/mod.rs 829-889), with the printing blocks
(877, 879).  The prefix is on line 825.  Values that are not of the declared types do not occur, since
rustc refuses them; nothing is printed for them here (`wrapExtern` does not look at them either). -/
def wrapExternW (D : Shows) (trace : Option TraceOpt) (n : ExtNode) (m : TMachine) : TMachine where
  σ := m.σ × Nat
  init := (m.init, 0)
  outTy := m.outTy
  step := fun s inputs => implicitClockW inputs m.outTy s (do
    let env := bindTarget (inputPattern n.inputs) inputs (fun _ => none)
    match env with
    | .ok env => tracePre D trace "[ext] " n.name s.2 n.inputs env
    | .error _ => pure ()
    let (o, s') ← m.step s.1 inputs
    match env.bind (bindTarget (inputPattern n.outputs) o) with
    | .ok env => tracePost D trace "[ext] " n.name s.2 n.inputs [] n.outputs env
    | .error _ => pure ()
    pure (o, (s', s.2 + 1)))

/-- Run a machine on an input history. Successive calls to `step`, stepping.rs 146-153. -/
def TMachine.runFrom (m : TMachine) : m.σ → List Value → W (List Value × m.σ)
  | s, [] => pure ([], s)
  | s, i :: is => do
    let (o, s) ← m.step s i
    let (os, s) ← m.runFrom s is
    pure (o :: os, s)

/-! ## Programs -/

/-- The Rust items that `extern` declarations refer to. codegen/mod.rs 811-889. -/
structure ExternW where
  consts : String → Option Scalar
  nodes : String → Option TMachine

/-- The same without their prints. Auxiliary, for codegen/mod.rs 811-889. -/
def ExternW.quiet (X : ExternW) : Extern := ⟨X.consts, fun f => (X.nodes f).map TMachine.quiet⟩

/-- The Rust items emitted for a program. codegen/mod.rs 286-890. -/
structure ItemsW where
  consts : Globals
  nodes : String → Option TMachine

/-- The same without their prints. Auxiliary, for codegen/mod.rs 286-890. -/
def ItemsW.quiet (I : ItemsW) : Items := ⟨I.consts, fun f => (I.nodes f).map TMachine.quiet⟩

/-- The subnodes of a node. codegen/mod.rs 436-455. -/
def subnodesW (N : String → Option TMachine) : List NodeInstance → Option (List TMachine)
  | [] => some []
  | b :: bs =>
    match N b.name, subnodesW N bs with
    | some m, some ms => some (m :: ms)
    | _, _ => none

/-- `linkNodes` with the argument of `#[trace]` of each node. codegen/mod.rs 378-711. -/
def linkNodesW (A : Arith) (D : Shows) (X : ExternW) (trace : String → Option TraceOpt) (g : Globals) :
    (String → Option TMachine) → List Decl → Except Panic (String → Option TMachine)
  | N, [] => .ok N
  | N, .node n :: ds =>
    match subnodesW N n.blocks with
    | some ms => linkNodesW A D X trace g
        (fun f => if f = n.name then some (n.machineW A D g ms (trace n.name)) else N f) ds
    | none => .error .rejected
  | N, .extNode n :: ds =>
    match X.nodes n.name with
    | some m => linkNodesW A D X trace g
        (fun f => if f = n.name then some (wrapExternW D (trace n.name) n m) else N f) ds
    | none => .error .rejected
  | N, .const _ :: ds => linkNodesW A D X trace g N ds
  | N, .extConst _ :: ds => linkNodesW A D X trace g N ds

/-- The items of a program. pipeline.rs 110-115. -/
def linkW (A : Arith) (D : Shows) (X : ExternW) (trace : String → Option TraceOpt) (ds : List Decl) :
    Except Panic ItemsW :=
  match linkConsts A X.quiet (fun _ => none) ds with
  | .error p => .error p
  | .ok g =>
    match linkNodesW A D X trace g (fun _ => none) ds with
    | .error p => .error p
    | .ok N => .ok ⟨g, N⟩

end Chandeliers.San
