import Verif.San.Positivity

/-!
# Type checking

Models `chandeliers-san/src/typecheck.rs`.  The joins of spans in `accepts` (628-633, 705-710) are
left out (see C41).
-/

namespace Chandeliers.San
open Chandeliers.Err

/-! ## Unification -/

/-- typecheck.rs 769-786 `TyUnifier`.  `idx` is the `HashMap` from type variables to positions. -/
inductive TyUnifier where
  | identity
  | null
  | mapping (idx : String → Option Nat) (subst : List (Option TyBase))

/-- typecheck.rs 806-809: insert the generics, stop on a duplicate. -/
def insertGenerics : Nat → List String → (String → Option Nat) → Option (String → Option Nat)
  | _, [], idx => some idx
  | i, g :: gs, idx =>
    match idx g with
    | some _ => none
    | none => insertGenerics (i + 1) gs (fun x => if x = g then some i else idx x)

/-- typecheck.rs 797-812 `from_generics`; `none` is the `abort!`. -/
def TyUnifier.fromGenerics (generics : List String) : Option TyUnifier :=
  (insertGenerics 0 generics (fun _ => none)).map fun idx =>
    .mapping idx (generics.map fun _ => none)

/-- typecheck.rs 821-840 `image`; `none` is an `abort!`. -/
def TyUnifier.image : TyUnifier → String → Option TyBase
  | .mapping idx subst, s =>
    match idx s with
    | some i => (subst[i]?).join
    | none => some (.other s)
  | .identity, s => some (.other s)
  | .null, _ => none

/-- typecheck.rs 847-914 `require_identical`. -/
def requireIdentical : TyBase → TyBase → Chk Diag TyUnifier Unit
  | .other l, right => do
    match ← Chk.get with
    | .mapping idx subst =>
      match idx l with
      | none => Chk.abort -- `unimplemented!()`
      | some i =>
        match subst[i]? with
        | none => Chk.abort
        | some none => Chk.modify fun _ => .mapping idx (subst.set i (some right))
        | some (some v) => if v = right then pure () else Chk.error (.unsatGeneric l v right)
    | _ =>
      if TyBase.other l = right then pure ()
      else Chk.error (.typeMismatch (.single (.other l)) (.single right))
  | left, right =>
    if left = right then pure () else Chk.error (.typeMismatch (.single left) (.single right))

mutual
/-- typecheck.rs 962-1014 `identical`. -/
def TyTuple.identical : TyTuple → TyTuple → Chk Diag TyUnifier Unit
  | .single left, .single right => requireIdentical left right
  | .multiple ts, .multiple us =>
    if ts.length ≠ us.length then Chk.error (.typeMismatch (.multiple ts) (.multiple us))
    else Chk.inScope (TyTuple.identicals ts us)
  | .multiple ts, .single right => Chk.error (.typeMismatch (.multiple ts) (.single right))
  | .single left, .multiple us => Chk.error (.typeMismatch (.single left) (.multiple us))
/-- The loop of 986-988: `zip`. typecheck.rs 962-1014. -/
def TyTuple.identicals : List TyTuple → List TyTuple → List (Chk Diag TyUnifier Unit)
  | t :: ts, u :: us => t.identical u :: TyTuple.identicals ts us
  | _, _ => []
end

/-- typecheck.rs 925-930 `substitute` for base types. -/
def TyBase.substitute (u : TyUnifier) : TyBase → Option TyBase
  | .other s => u.image s
  | t => some t

mutual
/-- typecheck.rs 946-951 `substitute` for tuples. -/
def TyTuple.substitute (u : TyUnifier) : TyTuple → Option TyTuple
  | .single t => (t.substitute u).map .single
  | .multiple ts => (TyTuple.substitutes u ts).map .multiple
/-- typecheck.rs 937-941. -/
def TyTuple.substitutes (u : TyUnifier) : List TyTuple → Option (List TyTuple)
  | [] => some []
  | t :: ts => do
    let t ← t.substitute u
    let ts ← TyTuple.substitutes u ts
    return t :: ts
end

/-- typecheck.rs 1020-1027 `is_primitive`. -/
def TyTuple.isPrimitive {σ : Type} : TyTuple → Chk Diag σ TyBase
  | .single t => pure t
  | .multiple ts => Chk.error (.scalarNotTuple (.multiple ts))

/-- typecheck.rs 742-751 `is_bool`. -/
def TyBase.isBool {σ : Type} (what : String) : TyBase → Chk Diag σ Unit
  | .bool => pure ()
  | t => Chk.error (.boolRequired what t)

/-- typecheck.rs 1032-1053 `as_flat_tytuple`. -/
def asFlatTyTuple : List TyBase → TyTuple
  | [t] => .single t
  | ts => .multiple (ts.map .single)

/-! ## Operators -/

/-- typecheck.rs 615-667 `Bin::accepts`. -/
def BinOp.accepts {σ : Type} (op : BinOp) (left right : TyBase) : Chk Diag σ Unit :=
  if left ≠ right then Chk.error (.binopMismatch op .same left right)
  else
    match op, left with
    | .rem, .bool => Chk.error (.binopMismatch op (.among [.int]) left right)
    | .rem, .float => Chk.error (.binopMismatch op (.among [.int]) left right)
    | .bitAnd, .float => Chk.error (.binopMismatch op (.among [.int, .bool]) left right)
    | .bitOr, .float => Chk.error (.binopMismatch op (.among [.int, .bool]) left right)
    | .bitXor, .float => Chk.error (.binopMismatch op (.among [.int, .bool]) left right)
    | .add, .int => pure ()
    | .add, .float => pure ()
    | .mul, .int => pure ()
    | .mul, .float => pure ()
    | .sub, .int => pure ()
    | .sub, .float => pure ()
    | .div, .int => pure ()
    | .div, .float => pure ()
    | .rem, .int => pure ()
    | .bitAnd, .int => pure ()
    | .bitAnd, .bool => pure ()
    | .bitOr, .int => pure ()
    | .bitOr, .bool => pure ()
    | .bitXor, .int => pure ()
    | .bitXor, .bool => pure ()
    | _, .other _ => Chk.error (.binopMismatch op .concrete left right)
    | _, .bool => Chk.error (.binopMismatch op (.among [.int, .float]) left right)

/-- typecheck.rs 672-696 `Un::accepts`. -/
def UnOp.accepts {σ : Type} (op : UnOp) (inner : TyBase) : Chk Diag σ Unit :=
  match op, inner with
  | .neg, .bool => Chk.error (.unopMismatch op (.among [.int, .float]) inner)
  | .not, .float => Chk.error (.unopMismatch op (.among [.bool, .int]) inner)
  | .neg, .int => pure ()
  | .neg, .float => pure ()
  | .not, .int => pure ()
  | .not, .bool => pure ()
  | _, .other _ => Chk.error (.unopMismatch op .concrete inner)

/-- typecheck.rs 701-737 `Cmp::accepts`. -/
def _root_.Chandeliers.CmpOp.accepts {σ : Type} (op : CmpOp) (left right : TyBase) :
    Chk Diag σ Unit :=
  if left ≠ right then Chk.error (.cmpMismatch op .same left right)
  else
    match left with
    | .int => pure ()
    | .bool => pure ()
    | .float =>
      match op with
      | .eq => Chk.error (.cmpMismatch op (.among [.int, .bool]) left right)
      | .ne => Chk.error (.cmpMismatch op (.among [.int, .bool]) left right)
      | _ => pure ()
    | .other _ => Chk.error (.cmpMismatch op .concrete left right)

/-! ## Expressions -/

/-- typecheck.rs 54-71 `TyCtx`, hash maps as functions. -/
structure TyCtx where
  global : String → Option TyBase
  vars : String → Option TyBase
  registers : Nat → Option TyTuple
  nodesIn : Nat → Option (List TyBase)
  nodesOut : Nat → Option (List TyBase)
  nodesGenerics : Nat → Option (List String × Option (List TyBase))

/-- typecheck.rs 76-85 `from_ext`. -/
def TyCtx.fromExt (global : String → Option TyBase) : TyCtx :=
  ⟨global, fun _ => none, fun _ => none, fun _ => none, fun _ => none, fun _ => none⟩

/-- typecheck.rs 90-111 `get_var`. -/
def getVar (x : String) : Chk Diag TyCtx TyTuple := do
  match (← Chk.get).vars x with
  | some t => pure (.single t)
  | none => Chk.error (.varNotFound x)

/-- typecheck.rs 137-158 `get_global`. -/
def getGlobal (x : String) : Chk Diag TyCtx TyTuple := do
  match (← Chk.get).global x with
  | some t => pure (.single t)
  | none => Chk.error (.varNotFound x)

/-- typecheck.rs 160-190 `get_node_in`, `get_node_out`, `get_node_generics`: an `abort!` when the
block is unknown. -/
def getOrAbort {α : Type} (f : TyCtx → Option α) : Chk Diag TyCtx α := do
  match f (← Chk.get) with
  | some a => pure a
  | none => Chk.abort

/-- typecheck.rs 204-212: all the choices, if they were all made. -/
def allSome : List (Option TyBase) → Option (List TyBase)
  | [] => some []
  | none :: _ => none
  | some t :: ts => (allSome ts).map (t :: ·)

/-- Update of `nodes_generics`. typecheck.rs 193-216. -/
def setGenerics (id : Nat) (gens : List String) (ts : List TyBase) : Chk Diag TyCtx Unit :=
  Chk.modify fun c =>
    { c with nodesGenerics := fun i => if i = id then some (gens, some ts) else c.nodesGenerics i }

/-- typecheck.rs 193-216 `instantiate`. -/
def instantiate (id : Nat) (u : TyUnifier) : Chk Diag TyCtx Unit := do
  let gens ← getOrAbort (·.nodesGenerics id)
  match u with
  | .mapping _ subst =>
    match allSome subst with
    | none => Chk.abort
    | some ts => setGenerics id gens.1 ts
  | _ => setGenerics id gens.1 []

/-- Compare two types with no substitution.
typecheck.rs 962-1014 with the empty `TyUnifier`, 769-786. -/
def sameType (t u : TyTuple) : Chk Diag TyCtx Unit := do
  let _ ← Chk.local_ .identity (t.identical u)

mutual
/-- typecheck.rs 335-469 (`Expr`), with 548-562 (`Lit`) and 572-578 (`Reference`). -/
def Expr.typecheck : Expr → Chk Diag TyCtx TyTuple
  | .lit (.int _) => pure (.single .int)
  | .lit (.float _) => pure (.single .float)
  | .lit (.bool _) => pure (.single .bool)
  | .global x => getGlobal x
  | .var x _ => getVar x
  | .dummyPre e => e.typecheck
  | .dummyParen e => e.typecheck
  | .tuple es => do
    let ts ← Expr.typecheckList es
    pure (.multiple ts)
  | .bin op lhs rhs => do
    let (l, r) ← Chk.both (do let t ← lhs.typecheck; t.isPrimitive)
      (do let t ← rhs.typecheck; t.isPrimitive)
    op.accepts l r
    pure (.single l)
  | .un op inner => do
    let t ← inner.typecheck
    let t ← t.isPrimitive
    op.accepts t
    pure (.single t)
  | .cmp op lhs rhs => do
    let (l, r) ← Chk.both (do let t ← lhs.typecheck; t.isPrimitive)
      (do let t ← rhs.typecheck; t.isPrimitive)
    op.accepts l r
    pure (.single .bool)
  | .later _ before after => do
    let (l, r) ← Chk.both before.typecheck after.typecheck
    sameType l r
    pure l
  | .flip _ initial continued => do
    let (l, r) ← Chk.both initial.typecheck continued.typecheck
    sameType l r
    pure l
  | .ifx cond yes no => do
    let c ← Chk.opt (do let t ← cond.typecheck; t.isPrimitive)
    let y ← Chk.opt yes.typecheck
    let n ← Chk.opt no.typecheck
    let c ← Chk.ofOption c
    c.isBool "The condition of if"
    let y ← Chk.ofOption y
    let n ← Chk.ofOption n
    sameType y n
    pure y
  | .substep _ id args => do
    let expected ← getOrAbort (·.nodesIn id)
    let gens ← getOrAbort (·.nodesGenerics id)
    let actual ← args.typecheck
    match TyUnifier.fromGenerics gens.1 with
    | none => Chk.abort
    | some u => do
      let (_, u) ← Chk.local_ u ((asFlatTyTuple expected).identical actual)
      instantiate id u
      let out ← getOrAbort (·.nodesOut id)
      match (asFlatTyTuple out).substitute u with
      | none => Chk.abort
      | some t => pure t
  | .clock _ inner activate => do
    let a ← Chk.opt (do let t ← activate.typecheck; t.isPrimitive)
    let t ← inner.typecheck
    let a ← Chk.ofOption a
    a.isBool "A clock"
    pure t
  | .merge switch on off => do
    let s ← switch.typecheck
    let on ← on.typecheck
    let off ← off.typecheck
    let s ← s.isPrimitive
    s.isBool "A clock"
    sameType on off
    pure on
  | .fetchPre id followedBy => do
    let t ← followedBy.typecheck
    Chk.modify fun c => { c with registers := fun i => if i = id then some t else c.registers i }
    pure t
  | .fetchFby id init followedBy => do
    let t ← followedBy.typecheck
    let i ← init.typecheck
    sameType t i
    Chk.modify fun c => { c with registers := fun i => if i = id then some t else c.registers i }
    pure t
/-- `try_map` (ast/mod.rs, `Tuple::try_map`): stops at the first failure. -/
def Expr.typecheckList : List Expr → Chk Diag TyCtx (List TyTuple)
  | [] => pure []
  | e :: es => do
    let t ← e.typecheck
    let ts ← Expr.typecheckList es
    pure (t :: ts)
end

/-- typecheck.rs 471-545 `is_const`. -/
def Expr.isConst {σ : Type} : Expr → Chk Diag σ Unit
  | .lit _ => pure ()
  | .global _ => pure ()
  | .var _ _ => pure ()
  | .bin _ lhs rhs => do let _ ← Chk.both lhs.isConst rhs.isConst
  | .dummyParen e => e.isConst
  | .un _ e => e.isConst
  | .cmp _ lhs rhs => do let _ ← Chk.both lhs.isConst rhs.isConst
  | .ifx cond yes no => do
    let c ← Chk.opt cond.isConst
    let y ← Chk.opt yes.isConst
    let n ← Chk.opt no.isConst
    Chk.ofOption c
    Chk.ofOption y
    Chk.ofOption n
  | .tuple _ => Chk.error (.notConst "tuple")
  | .dummyPre _ => Chk.error (.notConst "pre")
  | .later _ _ _ => Chk.error (.notConst "delay")
  | .fetchPre _ _ => Chk.error (.notConst "delay")
  | .fetchFby _ _ _ => Chk.error (.notConst "delay")
  | .flip _ _ _ => Chk.error (.notConst "delay")
  | .substep _ _ _ => Chk.error (.notConst "call")
  | .merge _ _ _ => Chk.error (.notConst "merge")
  | .clock _ _ _ => Chk.error (.notConst "clock")

/-! ## Statements and declarations -/

mutual
/-- typecheck.rs 585-611 (`VarTuple`). -/
def VarTuple.typecheck : VarTuple → Chk Diag TyCtx TyTuple
  | .single x => getVar x
  | .multiple vs => do
    let ts ← VarTuple.typecheckList vs
    pure (.multiple ts)
/-- `try_map`. ast/mod.rs 60-70 in typecheck.rs. -/
def VarTuple.typecheckList : List VarTuple → Chk Diag TyCtx (List TyTuple)
  | [] => pure []
  | v :: vs => do
    let t ← v.typecheck
    let ts ← VarTuple.typecheckList vs
    pure (t :: ts)
end

/-- typecheck.rs 305-331. -/
def Stmt.typecheck : Stmt → Chk Diag TyCtx Unit
  | .let_ target source => do
    let (t, s) ← Chk.both target.typecheck source.typecheck
    sameType t s
  | .assert e => do
    let t ← e.typecheck
    let t ← t.isPrimitive
    t.isBool "The argument of assert"
  | .updateRegister _ _ => pure ()
  | .initRegister _ _ _ => pure ()

/-- The options that matter here (see `Verif.San.Options` for the records).
ast/options.rs 419-430. -/
structure TyOpts where
  main : Bool
  test : Bool
  generics : List String

/-- Signature of a node: type variables, inputs, outputs (typecheck.rs 1246-1273). -/
abbrev FunSig := List String × List TyBase × List TyBase

/-- typecheck.rs 1164-1166 and 1175-1178: a type variable must be declared. -/
def checkDeclared {σ : Type} (generics : List String) : List TyVar → Chk Diag σ Unit
  | [] => pure ()
  | v :: vs => do
    match v.ty with
    | .other t => if t ∈ generics then pure () else Chk.error (.undeclaredGeneric t)
    | _ => pure ()
    checkDeclared generics vs

/-- typecheck.rs 1183-1188: the first generic (in some order) that no input mentions is an
error.  The `HashSet` iteration order only decides which one is reported. -/
def checkUsed {σ : Type} (inputs : List TyVar) : List String → Chk Diag σ Unit
  | [] => pure ()
  | g :: gs => do
    if TyBase.other g ∈ inputs.map (·.ty) then pure () else Chk.error (.unusedGeneric g)
    checkUsed inputs gs

/-- typecheck.rs 1395-1417 (`ty::Clock`), with 115-133 `get_var_during_ty`. -/
def Clock.typecheck : Clock → Chk Diag TyCtx Unit
  | .implicit => pure ()
  | .adaptative => pure ()
  | .explicit _ x => do
    match (← Chk.get).vars x with
    | some t => t.isBool "Clock"
    | none => Chk.error (.tyVarNotFound x)

/-- typecheck.rs 1194-1213: one declaration, as three computations for the scope. -/
def declareVar (v : TyVar) : List (Chk Diag TyCtx Unit) :=
  [ do
      match (← Chk.get).vars v.name with
      | some _ => Chk.error (.declTwice v.name)
      | none => pure (),
    v.clk.typecheck,
    Chk.modify fun c => { c with vars := fun x => if x = v.name then some v.ty else c.vars x } ]

/-- typecheck.rs 1216-1229: the signatures of the blocks. -/
def declareBlocks (extfun : String → Option FunSig) : Nat → List NodeInstance → Chk Diag TyCtx Unit
  | _, [] => pure ()
  | id, blk :: blks =>
    match extfun blk.name with
    | none => Chk.error (.funNotFound blk.name)
    | some (gen, i, o) => do
      Chk.modify fun c =>
        { c with
            nodesIn := fun k => if k = id then some i else c.nodesIn k
            nodesOut := fun k => if k = id then some o else c.nodesOut k
            nodesGenerics := fun k => if k = id then some (gen, none) else c.nodesGenerics k }
      declareBlocks extfun (id + 1) blks

/-- typecheck.rs 1120-1188 and 1290-1354: the checks on a signature. -/
def checkSignature {σ : Type} (executable : Bool) (generics : List String)
    (inputs outputs locals : List TyVar) : Chk Diag σ Unit := do
  if executable && !(inputs.isEmpty && outputs.isEmpty) then
    Chk.error (.executableSig (!inputs.isEmpty) (!outputs.isEmpty))
  else pure ()
  checkDeclared generics inputs
  checkDeclared generics (outputs ++ locals)
  checkUsed inputs generics

/-- Fill in what was learned (typecheck.rs 1237-1243). -/
def Node.fill (n : Node) (c : TyCtx) : Node :=
  { n with
      blocks := n.blocks.mapIdx fun i b =>
        { b with generics := match c.nodesGenerics i with | some g => g.2 | none => b.generics }
      registers := n.registers.mapIdx fun i _ => c.registers i }

/-- typecheck.rs 1110-1244 (`Node`). -/
def Node.typecheck {σ : Type} (o : TyOpts) (extfun : String → Option FunSig)
    (extvar : String → Option TyBase) (n : Node) : Chk Diag σ Node := do
  checkSignature (o.main || o.test) o.generics n.inputs n.outputs n.locals
  let (_, c) ← Chk.local_ (TyCtx.fromExt extvar) (do
    Chk.inScope ((n.inputs ++ n.outputs ++ n.locals).flatMap declareVar)
    declareBlocks extfun 0 n.blocks
    Chk.inScope (n.stmts.map Stmt.typecheck))
  pure (n.fill c)

/-- typecheck.rs 1276-1372 (`ExtNode`). -/
def ExtNode.typecheck {σ : Type} (o : TyOpts) (n : ExtNode) : Chk Diag σ Unit := do
  checkSignature o.main o.generics n.inputs n.outputs []
  let _ ← Chk.local_ (TyCtx.fromExt fun _ => none)
    (Chk.inScope ((n.inputs ++ n.outputs).flatMap declareVar))

/-- typecheck.rs 1424-1440 (`Const`). -/
def Const.typecheck {σ : Type} (extvar : String → Option TyBase) (c : Const) : Chk Diag σ Unit := do
  c.value.isConst
  let (t, _) ← Chk.local_ (TyCtx.fromExt extvar) c.value.typecheck
  let _ ← Chk.local_ .null ((TyTuple.single c.ty).identical t)

/-- The two maps of typecheck.rs 1478-1479. -/
structure ProgCtx where
  vars : String → Option TyBase
  funs : String → Option FunSig

/-- Insertion of a constant; a duplicate is an `abort!` (typecheck.rs 1485-1499, 1511-1525). -/
def ProgCtx.addVar {σ : Type} (p : ProgCtx) (x : String) (t : TyBase) : Chk Diag σ ProgCtx :=
  match p.vars x with
  | some _ => Chk.abort
  | none => pure { p with vars := fun y => if y = x then some t else p.vars y }

/-- Insertion of a node; a duplicate is an `abort!` (typecheck.rs 1502-1508, 1528-1534). -/
def ProgCtx.addFun {σ : Type} (p : ProgCtx) (x : String) (t : FunSig) : Chk Diag σ ProgCtx :=
  match p.funs x with
  | some _ => Chk.abort
  | none => pure { p with funs := fun y => if y = x then some t else p.funs y }

/-- typecheck.rs 1477-1537, the loop: `fatal` is the state of the scope. -/
def progTypecheckLoop {σ : Type} (opts : String → TyOpts) :
    Bool → ProgCtx → List Decl → Chk Diag σ (Bool × List Decl)
  | fatal, _, [] => pure (fatal, [])
  | fatal, p, .const c :: ds => do
    let r ← Chk.opt (c.typecheck p.vars)
    let p ← p.addVar c.name c.ty
    let (fatal, ds) ← progTypecheckLoop opts (fatal || r.isNone) p ds
    pure (fatal, .const c :: ds)
  | fatal, p, .node n :: ds => do
    let r ← Chk.opt (n.typecheck (opts n.name) p.funs p.vars)
    let p ← p.addFun n.name ((opts n.name).generics, n.inputs.map (·.ty), n.outputs.map (·.ty))
    let (fatal, ds) ← progTypecheckLoop opts (fatal || r.isNone) p ds
    pure (fatal, .node (r.getD n) :: ds)
  | fatal, p, .extConst c :: ds => do
    let p ← p.addVar c.name c.ty
    let (fatal, ds) ← progTypecheckLoop opts fatal p ds
    pure (fatal, .extConst c :: ds)
  | fatal, p, .extNode n :: ds => do
    let r ← Chk.opt (n.typecheck (opts n.name))
    let p ← p.addFun n.name ((opts n.name).generics, n.inputs.map (·.ty), n.outputs.map (·.ty))
    let (fatal, ds) ← progTypecheckLoop opts (fatal || r.isNone) p ds
    pure (fatal, .extNode n :: ds)

/-- typecheck.rs 1467-1539 (`Prog`).  `opts` gives the options of each node by name. -/
def progTypecheck {σ : Type} (opts : String → TyOpts) (ds : List Decl) :
    Chk Diag σ (List Decl) := do
  let (fatal, ds) ← progTypecheckLoop opts false ⟨fun _ => none, fun _ => none⟩ ds
  Chk.scopeClose fatal
  pure ds

end Chandeliers.San
