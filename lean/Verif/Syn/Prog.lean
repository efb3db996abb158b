import Verif.Syn.Translate
import Verif.Syn.Options
import Verif.Err.Pipeline
import Verif.San.Clockcheck
import Verif.San.Positivity
import Verif.San.ConstExpr

/-!
# Whole programs

Models the translation of programs (`chandeliers-syn/src/translate/mod.rs` 307-445), the sequence
of the compiler passes (`chandeliers-lus/src/pipeline.rs`, `chandeliers-lus/src/lib.rs`), and the
meaning of the code emitted for the declarations of a program.
-/

set_option autoImplicit false

namespace Chandeliers.Syn
open San Err

/-- ast.rs 1225-1231 `Decl`, with 1054-1101 (`ExtNode`, `ExtConst`, `Extern`).  The clock that may
follow the type of an `extern const` is dropped by translate/mod.rs 410. -/
inductive SrcItem where
  | const (c : SrcConst)
  | node (n : SrcNode)
  | extConst (name : String) (ty : TyBase)
  | extNode (name : String) (inputs outputs : List ArgsTy)

/-- ast.rs 1240-1244 `AttrDecl`: attributes from the outermost to the innermost. -/
structure SrcDecl where
  attrs : List Attribute
  item : SrcItem

/-- ast.rs 1253-1256 `Prog`. -/
abbrev SrcProg := List SrcDecl

/-- Everything that the compiler may report.
The messages of san/src and syn/src that reach `EAccum`, err/src/lib.rs 90-95. -/
inductive Report where
  | attribute (d : AttrDiag)
  | translation (e : TrErr)
  | causality (e : GErr Reference)
  | check (d : Diag)

/-- `ast/mod.rs` `decl::Prog`.  In the code each declaration carries its own options; here those of
nodes are looked up by name, which is the same because programs that define a node twice do not
get past the first pass. -/
structure Prog where
  decls : List San.Decl
  opts : String → TyOpts

/-- A function that reports through one kind of messages, in a pipeline that has several.  Messages
are only ever added to the accumulator. Auxiliary, for pipeline.rs 118-200. -/
def mapErr {E F σ α : Type} (f : E → F) (m : Chk E σ α) : Chk F σ α := fun (a, s) =>
  match m (EAccum.default, s) with
  | (r, (b, s')) => (r, (⟨a.err ++ b.err.map f, a.warn ++ b.warn.map f⟩, s'))

/-- The one error of a translation is added to the accumulator (`eaccum.error(…)?`).
translate/mod.rs 307-323. -/
def ofTranslation {σ α : Type} : Except TrErr α → Chk Report σ α
  | .ok a => pure a
  | .error .abort => Chk.abort
  | .error e => Chk.error (.translation e)

/-- The one error of the causality check; `fuel` does not happen (C24). pipeline.rs 129-140. -/
def ofCausality {σ α : Type} : Except (GErr Reference) α → Chk Report σ α
  | .ok a => pure a
  | .error .abort => Chk.abort
  | .error .fuel => Chk.abort
  | .error e => Chk.error (.causality e)

/-- The options that matter to the type checker. ast/options.rs 419-430. -/
def tyOpts (o : NodeOptions) : TyOpts := ⟨o.main.isSome, o.test.isSome, o.generics⟩

/-- The same for `extern node`. ast/options.rs 419-430. -/
def extTyOpts (o : ExtNodeOptions) : TyOpts := ⟨o.main.isSome, false, o.generics⟩

/-- A translated declaration and the options of nodes. ast/mod.rs 888-895. -/
abbrev OptDecl := San.Decl × TyOpts

/-- translate/mod.rs 325-445 (`AttrDecl`, `Decl`, `Extern`, `ExtConst`, `ExtNode`) with 529-612. -/
def SrcDecl.translate {σ : Type} (d : SrcDecl) : Chk Report σ OptDecl := do
  let options ← mapErr .attribute (Decl.default.withAll d.attrs)
  match d.item with
  | .const c => do
    let _ ← mapErr .attribute options.forConst
    let c ← ofTranslation c.translate
    pure (.const c, ⟨false, false, []⟩)
  | .node n => do
    let o ← mapErr .attribute options.forNode
    let n ← ofTranslation (n.translate o.universalPre)
    pure (.node n, tyOpts o)
  | .extConst name ty => do
    let _ ← mapErr .attribute options.forExtConst
    pure (.extConst ⟨name, ty⟩, ⟨false, false, []⟩)
  | .extNode name inputs outputs => do
    let o ← mapErr .attribute options.forExtNode
    pure (.extNode ⟨name, translateArgs inputs, translateArgs outputs⟩, extTyOpts o)

/-- The loop of translate/mod.rs 317-320. -/
def translateDecls {σ : Type} : List SrcDecl → Chk Report σ (List OptDecl)
  | [] => pure []
  | d :: ds => do
    let d ← d.translate
    let ds ← translateDecls ds
    pure (d :: ds)

/-- The node that a declaration defines, if it does. Auxiliary, for ast/mod.rs 822-885. -/
def isFun (f : String) : San.Decl → Bool
  | .node n => n.name = f
  | .extNode n => n.name = f
  | _ => false

/-- The options of the node called `f`. Auxiliary, for ast/mod.rs 822-885. -/
def optsOf (ds : List OptDecl) (f : String) : TyOpts :=
  match ds.find? (fun d => isFun f d.1) with
  | some d => d.2
  | none => ⟨false, false, []⟩

/-- translate/mod.rs 307-323 (`Prog`). -/
def translateProg {σ : Type} (p : SrcProg) : Chk Report σ Prog := do
  let ds ← translateDecls p
  pure ⟨ds.map (·.1), optsOf ds⟩

/-- Apply a pass to the declarations. pipeline.rs 118-200. -/
def Prog.pass {σ : Type} (f : List San.Decl → Chk Report σ (List San.Decl)) (p : Prog) :
    Chk Report σ Prog := do
  let ds ← f p.decls
  pure { p with decls := ds }

/-- The clock of a register is known (codegen/mod.rs 1032). -/
def clockKnown : Stmt → Bool
  | .initRegister _ _ none => false
  | _ => true

/-- Neither infinite nor a NaN. What `syn::LitFloat::new` can read back, constexpr.rs 115-117. -/
def finite (f : F64) : Bool := (f.bits >>> 52) &&& 0x7ff#64 != 0x7ff#64

/-- constexpr.rs 111-123 (called by codegen/mod.rs 1080 inside nodes): `LitFloat::new` panics on
`inff64`. -/
def printable : San.Lit → Bool
  | .float f => finite f
  | _ => true

mutual
/-- All the literals of an expression are printable.  Those of `dummyInit` and `dummyFollowedBy`
are not printed there, but with the statements of the register. codegen/mod.rs 1077-1164. -/
def printableExpr : Expr → Bool
  | .lit l => printable l
  | .global _ => true
  | .var _ _ => true
  | .tuple es => printableExprs es
  | .dummyPre e => printableExpr e
  | .dummyParen e => printableExpr e
  | .bin _ l r => printableExpr l && printableExpr r
  | .un _ e => printableExpr e
  | .cmp _ l r => printableExpr l && printableExpr r
  | .clock _ e b => printableExpr e && printableExpr b
  | .later _ e e' => printableExpr e && printableExpr e'
  | .fetchPre _ _ => true
  | .fetchFby _ _ _ => true
  | .flip _ e e' => printableExpr e && printableExpr e'
  | .ifx b y n => printableExpr b && (printableExpr y && printableExpr n)
  | .merge b y n => printableExpr b && (printableExpr y && printableExpr n)
  | .substep _ _ e => printableExpr e
/-- Of a list. codegen/mod.rs 1077-1164. -/
def printableExprs : List Expr → Bool
  | [] => true
  | e :: es => printableExpr e && printableExprs es
end

/-- The literals of a statement are printable. codegen/mod.rs 1009-1044. -/
def printableStmt : Stmt → Bool
  | .let_ _ e => printableExpr e
  | .assert e => printableExpr e
  | .initRegister _ v c => (v.map printableExpr).getD true && (c.map printableExpr).getD true
  | .updateRegister _ e => printableExpr e

/-- What code generation insists on: constants that can be printed (constexpr.rs 52-135), type
parameters and types of registers that are known (codegen/mod.rs 442 and 726), clocks of registers
that are known (1032), literals that can be printed. -/
def emittable : San.Decl → Bool
  | .const c => c.value.constTokens.isSome && printableExpr c.value
  | .node n => n.blocks.all (·.generics.isSome) && n.registers.all (·.isSome) &&
      n.stmts.all clockKnown && n.stmts.all printableStmt
  | _ => true

/-- pipeline.rs 112-122 `codegen`.  The tokens stand for the declarations, whose meaning is given
by `link`. -/
def codegen (p : Prog) : Res Prog := if p.decls.all emittable then .some p else .abort

/-- lib.rs 89-102 `prog_pipeline` with its passes. -/
def compile : SrcProg → Chk Report Unit Prog :=
  progPipeline translateProg
    (Prog.pass fun ds => ofCausality (progCausality ds))
    (fun p => p.pass fun ds => mapErr .check (progTypecheck p.opts ds))
    (Prog.pass fun ds => mapErr .check (progClockcheck ds))
    (Prog.pass fun ds => mapErr .check (progMakePositive ds))
    codegen

end Chandeliers.Syn

namespace Chandeliers.San

/-- The Rust items that `extern` declarations refer to. codegen/mod.rs 811-889. -/
structure Extern where
  consts : String → Option Scalar
  nodes : String → Option Machine

/-- The Rust items emitted for a program. codegen/mod.rs 286-890. -/
structure Items where
  consts : Globals
  nodes : String → Option Machine

/-- The constants (codegen/mod.rs 286-345, and 354-376 for external ones).  Rust does not care about
the order of items; the order of the declarations is one in which each only uses those before it
(C22).  `rejected` is a program that rustc refuses; rustc also refuses a constant whose value cannot
be computed. -/
def linkConsts (A : Arith) (X : Extern) : Globals → List Decl → Except Panic Globals
  | g, [] => .ok g
  | g, .const c :: ds =>
    match c.eval A g with
    | .ok v => linkConsts A X (fun y => if y = c.name then some v else g y) ds
    | .error p => .error p
  | g, .extConst c :: ds =>
    match X.consts c.name with
    | some v => linkConsts A X (fun y => if y = c.name then some v else g y) ds
    | none => .error .rejected
  | g, .node _ :: ds => linkConsts A X g ds
  | g, .extNode _ :: ds => linkConsts A X g ds

/-- The subnodes of a node, in order (codegen/mod.rs 436-460 and the field `__nodes`, 508).  The
type parameters of an instance do not change what it does. -/
def subnodes (N : String → Option Machine) : List NodeInstance → Option (List Machine)
  | [] => some []
  | b :: bs =>
    match N b.name, subnodes N bs with
    | some m, some ms => some (m :: ms)
    | _, _ => none

/-- The nodes (codegen/mod.rs 378-434, and 811-889 for external ones), which can use all the
constants. -/
def linkNodes (A : Arith) (X : Extern) (g : Globals) :
    (String → Option Machine) → List Decl → Except Panic (String → Option Machine)
  | N, [] => .ok N
  | N, .node n :: ds =>
    match subnodes N n.blocks with
    | some ms => linkNodes A X g (fun f => if f = n.name then some (n.machine A g ms) else N f) ds
    | none => .error .rejected
  | N, .extNode n :: ds =>
    match X.nodes n.name with
    | some m => linkNodes A X g (fun f => if f = n.name then some (wrapExtern m) else N f) ds
    | none => .error .rejected
  | N, .const _ :: ds => linkNodes A X g N ds
  | N, .extConst _ :: ds => linkNodes A X g N ds

/-- The items of a program. pipeline.rs 110-115. -/
def link (A : Arith) (X : Extern) (ds : List Decl) : Except Panic Items :=
  match linkConsts A X (fun _ => none) ds with
  | .error p => .error p
  | .ok g =>
    match linkNodes A X g (fun _ => none) ds with
    | .error p => .error p
    | .ok N => .ok ⟨g, N⟩

end Chandeliers.San
