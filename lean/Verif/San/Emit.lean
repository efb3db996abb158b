import Verif.San.Names
import Verif.San.ConstExpr
import Verif.Syn.Prog

/-!
# What is emitted for a declaration

Models the shape of the code that `chandeliers-san/src/codegen/mod.rs` 286-890 and
`codegen/options.rs` 78-276 emit: the items with their names and visibility, the methods called
`step`, and the identifiers that Rust has to resolve.  What the bodies compute is in
`Verif.San.Eval` and `Verif.San.Run`.
-/

set_option autoImplicit false

namespace Chandeliers.San
open Chandeliers.Syn

/-- The two namespaces of Rust that are of concern. For the items of codegen/mod.rs 286-890. -/
inductive Space where
  | types | values
  deriving DecidableEq, Repr

/-- A name in its namespace. For the items of codegen/mod.rs 286-890. -/
abbrev RustName := Space × String

/-- The items that are emitted: a `struct` with named fields is only a type.
codegen/mod.rs 286-375 (`const`), 462-511 (`struct`), codegen/options.rs 148-215 (`fn`). -/
inductive ItemKind where
  | struct_ | const | fn
  deriving DecidableEq, Repr

/-- The namespace of an item. For the items of codegen/mod.rs 286-890. -/
def ItemKind.space : ItemKind → Space
  | .struct_ => .types
  | .const => .values
  | .fn => .values

/-- An item: `hidden` if it has `#[doc(hidden)]`, `testOnly` if it has `#[test]`.
codegen/mod.rs 286-890, codegen/options.rs 148-215. -/
structure Item where
  kind : ItemKind
  name : String
  isPub : Bool
  hidden : Bool
  testOnly : Bool
  deriving DecidableEq, Repr

/-- The name of an item. For the items of codegen/mod.rs 286-890. -/
def Item.rust (i : Item) : RustName := (i.kind.space, i.name)

/-- A method `step` of a `struct`: whether it is that of the trait `Step` or an inherent one, its
visibility, and whether it is under `#[cfg(test)]`. codegen/mod.rs 518-617 and 620-711. -/
structure StepFn where
  owner : String
  ofTrait : Bool
  isPub : Bool
  testOnly : Bool
  deriving DecidableEq, Repr

/-- A call to the method `step` of an emitted `struct`; `testOnly` if the caller is.
codegen/mod.rs 620-711, codegen/options.rs 148-215. -/
structure StepCall where
  owner : String
  testOnly : Bool
  deriving DecidableEq, Repr

/-- A name that the code uses, and what it is meant to be.
For the items of codegen/mod.rs 286-890. -/
inductive Use where
  /-- a type or a trait of the prelude of Rust -/
  | prelude (name : String)
  /-- a type variable of the declaration -/
  | param (name : String)
  /-- an emitted item -/
  | item (name : RustName)
  /-- an item that the user supplies -/
  | user (name : RustName)
  deriving DecidableEq, Repr

/-- What is emitted for one declaration. codegen/mod.rs 286-890. -/
structure Code where
  items : List Item := []
  steps : List StepFn := []
  calls : List StepCall := []
  /-- identifiers in the patterns of `let` and of parameters -/
  binds : List String := []
  /-- type parameters -/
  params : List String := []
  /-- items that are local to a body -/
  inner : List RustName := []
  uses : List Use := []

/-- codegen/mod.rs 87-99: the Rust name of a type. -/
def TyBase.use : TyBase → Use
  | .int => .prelude "i64"
  | .float => .prelude "f64"
  | .bool => .prelude "bool"
  | .other t => .param t

mutual
/-- codegen/mod.rs 110-122: the types in the type of a tuple. -/
def TyTuple.bases : TyTuple → List TyBase
  | .single t => [t]
  | .multiple ts => TyTuple.basesList ts
/-- The same for a list. Auxiliary, for codegen/mod.rs 518-711. -/
def TyTuple.basesList : List TyTuple → List TyBase
  | [] => []
  | t :: ts => t.bases ++ TyTuple.basesList ts
end

/-- codegen/options.rs 224-230 `pub_qualifier`. -/
def pubQualifier (isPub implementingTrait : Bool) : Bool := isPub && !implementingTrait

/-- codegen/options.rs 148-176 `fn_main`. -/
def fnMain (uidName : String) (main : Option Nat) : Code :=
  match main with
  | some _ =>
    { items := [⟨.fn, "main", true, false, false⟩], calls := [⟨uidName, false⟩], binds := ["sys"],
      uses := [.item (.types, uidName)] }
  | none => {}

/-- codegen/options.rs 185-215 `fn_test`. -/
def fnTest (uidName rawName : String) (test : Option Nat) : Code :=
  match test with
  | some _ =>
    { items := [⟨.fn, rawName, true, false, true⟩], calls := [⟨uidName, true⟩], binds := ["sys"],
      uses := [.item (.types, uidName)] }
  | none => {}

/-- One piece of code after another, for the same declaration: its type parameters are given with
the first. Auxiliary, for codegen/mod.rs 378-434. -/
def Code.append (a b : Code) : Code :=
  { items := a.items ++ b.items, steps := a.steps ++ b.steps, calls := a.calls ++ b.calls
    binds := a.binds ++ b.binds, params := a.params, inner := a.inner ++ b.inner
    uses := a.uses ++ b.uses }

/-- codegen/options.rs 83-139 `traces` and codegen/mod.rs 757-766 `self_assigned`: what is bound
around the messages. -/
def traceBinds (trace : Option (TraceFile × TraceFormat × TraceFormat)) (vars : List TyVar) :
    List String :=
  match trace with
  | some _ => ["_ext", "_this", "_clk"] ++ vars.map fun v => (Entity.loc v.name).raw
  | none => []

mutual
/-- The constants that an expression mentions (codegen/mod.rs 1084-1086).  Operands of `pre` and
`fby` that are dummies are not emitted there. -/
def globalsIn : Expr → List String
  | .lit _ => []
  | .global x => [x]
  | .var _ _ => []
  | .tuple es => globalsInList es
  | .dummyPre e => globalsIn e
  | .dummyParen e => globalsIn e
  | .bin _ l r => globalsIn l ++ globalsIn r
  | .un _ e => globalsIn e
  | .cmp _ l r => globalsIn l ++ globalsIn r
  | .clock _ e c => globalsIn e ++ globalsIn c
  | .later _ b a => globalsIn b ++ globalsIn a
  | .fetchPre _ _ => []
  | .fetchFby _ _ _ => []
  | .flip _ i c => globalsIn i ++ globalsIn c
  | .ifx c y n => globalsIn c ++ globalsIn y ++ globalsIn n
  | .merge c y n => globalsIn c ++ globalsIn y ++ globalsIn n
  | .substep _ _ e => globalsIn e
/-- The same for a list. Auxiliary, for codegen/mod.rs 286-375 and 1077-1164. -/
def globalsInList : List Expr → List String
  | [] => []
  | e :: es => globalsIn e ++ globalsInList es
end

mutual
/-- An expression has a `flip` in it, whose code binds `initial` and `continued`
(codegen/mod.rs 1137-1162). -/
def flipsIn : Expr → List String
  | .lit _ => []
  | .global _ => []
  | .var _ _ => []
  | .tuple es => flipsInList es
  | .dummyPre e => flipsIn e
  | .dummyParen e => flipsIn e
  | .bin _ l r => flipsIn l ++ flipsIn r
  | .un _ e => flipsIn e
  | .cmp _ l r => flipsIn l ++ flipsIn r
  | .clock _ e c => flipsIn e ++ flipsIn c
  | .later _ b a => flipsIn b ++ flipsIn a
  | .fetchPre _ _ => []
  | .fetchFby _ _ _ => []
  | .flip _ i c => ["initial", "continued"] ++ flipsIn i ++ flipsIn c
  | .ifx c y n => flipsIn c ++ flipsIn y ++ flipsIn n
  | .merge c y n => flipsIn c ++ flipsIn y ++ flipsIn n
  | .substep _ _ e => flipsIn e
/-- The same for a list. Auxiliary, for codegen/mod.rs 286-375 and 1077-1164. -/
def flipsInList : List Expr → List String
  | [] => []
  | e :: es => flipsIn e ++ flipsInList es
end

/-- The expressions of a statement (codegen/mod.rs 1009-1045). -/
def Stmt.emitted : Stmt → List Expr
  | .let_ _ e => [e]
  | .assert e => [e]
  | .initRegister _ val clk => clk.toList ++ val.toList
  | .updateRegister _ val => [val]

/-- The identifiers that a statement binds (codegen/mod.rs 1012-1018, 1047-1070). -/
def Stmt.binds : Stmt → List String
  | .let_ target _ => target.vars.map fun v => (Entity.loc v).sanitized
  | _ => []

/-- codegen/mod.rs 462-512 `internal_decl` and 518-617 `internal_impl`, with 436-455 for subnodes
and 722-736 for registers (that the types are known is the business of `emittable`). -/
def Node.internal (uid : Nat) (o : NodeOptions) (n : Node) : Code :=
  let uidName := (Entity.node n.name uid).sanitized
  let exprs := n.stmts.flatMap Stmt.emitted
  { items := [⟨.struct_, uidName, pubQualifier o.isPub false, true, false⟩]
    steps := [⟨uidName, false, false, o.test.isSome⟩]
    calls := n.blocks.map fun b => ⟨(Entity.node b.name uid).sanitized, o.test.isSome⟩
    binds := ["inputs"] ++ (n.inputs.map fun v => (Entity.loc v.name).sanitized) ++
      traceBinds o.trace (n.inputs ++ n.locals ++ n.outputs) ++ n.stmts.flatMap Stmt.binds ++
      exprs.flatMap flipsIn
    params := o.generics
    uses := [.prelude "usize", .prelude "Default", .item (.types, uidName)] ++
      (n.blocks.map fun b => .item (.types, (Entity.node b.name uid).sanitized)) ++
      (n.blocks.flatMap fun b => (b.generics.getD []).map TyBase.use) ++
      ((n.inputs ++ n.outputs ++ n.locals.filter fun v => 0 < v.depth).map fun v => v.ty.use) ++
      (n.registers.flatMap fun r => (r.toList.flatMap TyTuple.bases).map TyBase.use) ++
      (exprs.flatMap globalsIn).map fun x => .item (.values, (Entity.glob x uid).sanitized) }

/-- codegen/mod.rs 620-711 `external_decl`. -/
def Node.external (uid : Nat) (o : NodeOptions) (n : Node) : Code :=
  let rawName := (Entity.node n.name uid).raw
  let uidName := (Entity.node n.name uid).sanitized
  let isPub := pubQualifier o.isPub o.implTrait
  if o.export_ then
    { items := [⟨.struct_, rawName, isPub, false, false⟩]
      steps := [⟨rawName, o.implTrait, isPub, false⟩]
      calls := [⟨uidName, false⟩]
      binds := ["inputs"]
      uses := [.prelude "Default", .item (.types, rawName), .item (.types, uidName)] ++
        (n.inputs ++ n.outputs).map fun v => v.ty.use }
  else {}

/-- codegen/mod.rs 415-434: the code of a node. -/
def Node.emit (uid : Nat) (o : NodeOptions) (n : Node) : Code :=
  let rawName := (Entity.node n.name uid).raw
  let uidName := (Entity.node n.name uid).sanitized
  (((n.internal uid o).append (n.external uid o)).append (fnMain uidName o.main)).append
    (fnTest uidName rawName o.test)

/-- codegen/mod.rs 811-889: the code of an `extern node`. -/
def ExtNode.emit (uid : Nat) (o : ExtNodeOptions) (n : ExtNode) : Code :=
  let rawName := (Entity.node n.name uid).raw
  let uidName := (Entity.node n.name uid).sanitized
  Code.append
    { items := [⟨.struct_, uidName, false, true, false⟩]
      steps := [⟨uidName, false, true, false⟩]
      binds := ["inputs"] ++
        ((n.inputs ++ n.outputs).map fun v => (Entity.loc v.name).sanitized) ++
        traceBinds o.trace (n.inputs ++ n.outputs)
      params := o.generics
      uses := [.prelude "usize", .prelude "Default", .item (.types, uidName),
        .user (.types, rawName)] ++ (n.inputs ++ n.outputs).map fun v => v.ty.use }
    (fnMain uidName o.main)

/-- codegen/mod.rs 286-333: the code of a constant. -/
def Const.emit (uid : Nat) (o : ConstOptions) (c : Const) : Code :=
  let rawName := (Entity.glob c.name uid).raw
  let uidName := (Entity.glob c.name uid).sanitized
  Code.append
    { items := [⟨.const, uidName, false, true, false⟩]
      uses := c.ty.use ::
        (globalsIn c.value).map fun x => .item (.values, (Entity.glob x uid).sanitized) }
    (if o.export_ then
      { items := [⟨.const, rawName, pubQualifier o.isPub false, false, false⟩]
        uses := [c.ty.use, .item (.values, uidName)] }
    else {})

/-- codegen/mod.rs 354-376: the code of an `extern const`, with a `struct Type<T>(T)` in it. -/
def ExtConst.emit (uid : Nat) (c : ExtConst) : Code :=
  { items := [⟨.const, (Entity.glob c.name uid).sanitized, false, true, false⟩]
    binds := ["real", "expected"]
    inner := [(.types, "Type"), (.values, "Type")]
    uses := [c.ty.use, .user (.values, (Entity.glob c.name uid).raw)] }

/-- The options that a declaration carries.
ast/options.rs 419-430, the field `options` of ast/mod.rs 822-885. -/
inductive DeclOptions where
  | node (o : NodeOptions)
  | extNode (o : ExtNodeOptions)
  | const (o : ConstOptions)
  | extConst (o : ExtConstOptions)

/-- ast.rs `ToTokens for decl::Decl`: a declaration is emitted with its own options. -/
def Decl.emit (uid : Nat) : DeclOptions → Decl → Code
  | .node o, .node n => n.emit uid o
  | .extNode o, .extNode n => n.emit uid o
  | .const o, .const c => c.emit uid o
  | .extConst _, .extConst c => c.emit uid
  | _, _ => {}

end Chandeliers.San

namespace Chandeliers.Syn
open San Err

/-- translate/mod.rs 325-445 with 529-612: the options read from the attributes of a declaration. -/
def SrcDecl.options (d : SrcDecl) : Option DeclOptions :=
  let read : Chk AttrDiag Unit DeclOptions := do
    let options ← Decl.default.withAll d.attrs
    match d.item with
    | .const _ => do pure (.const (← options.forConst))
    | .node _ => do pure (.node (← options.forNode))
    | .extConst _ _ => do pure (.extConst (← options.forExtConst))
    | .extNode _ _ _ => do pure (.extNode (← options.forExtNode))
  match read (EAccum.default, ()) with
  | (.some o, _) => some o
  | _ => none

/-- A declaration comes from this one. Auxiliary, for codegen/mod.rs 286-890. -/
def comesFrom : San.Decl → SrcDecl → Bool
  | .node n, ⟨_, .node src⟩ => n.name = src.name
  | .extNode n, ⟨_, .extNode f _ _⟩ => n.name = f
  | .const c, ⟨_, .const s⟩ => c.name = s.name
  | .extConst c, ⟨_, .extConst x _⟩ => c.name = x
  | _, _ => false

/-- The code emitted for a program.  In the code each declaration carries its own options; here they
are looked up by name, which is the same because the compiler accepts no program that defines a name
twice. pipeline.rs 110-115. -/
def emit (uid : Nat) (p : SrcProg) (p' : Prog) : List Code :=
  p'.decls.map fun d =>
    match (p.find? (comesFrom d)).bind SrcDecl.options with
    | some o => d.emit uid o
    | none => {}

end Chandeliers.Syn
