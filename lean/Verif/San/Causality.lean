import Verif.San.Ast
import Verif.San.Graph

/-!
# Dependencies and causality

Models `chandeliers-san/src/causality/depends.rs` (what each construct provides and requires)
and `chandeliers-san/src/causality/mod.rs` (how nodes and programs are sorted).
-/

namespace Chandeliers.San

/-- depends.rs:53-64 `Reference`. -/
inductive Reference where
  | funName (f : String)
  | localVarName (x : String)
  | globalVarName (x : String)
  | updateRegister (id : Nat)
  | initRegister (id : Nat)
  deriving DecidableEq, Repr

mutual
/-- depends.rs:345-361 `impl Depends for expr::Expr`, `requires`, together with
378-386 (`Reference`) and 392-400 (`Past`: only reads at depth zero count). -/
def Expr.requires : Expr → List Reference
  | .lit _ => []
  | .global x => [.globalVarName x]
  | .var x 0 => [.localVarName x]
  | .var _ (_ + 1) => []
  | .tuple es => Expr.requiresList es
  | .dummyPre e => e.requires
  | .dummyParen e => e.requires
  | .bin _ lhs rhs => lhs.requires ++ rhs.requires
  | .cmp _ lhs rhs => lhs.requires ++ rhs.requires
  | .un _ inner => inner.requires
  | .later _ before after => before.requires ++ after.requires
  | .ifx cond yes no => cond.requires ++ (yes.requires ++ no.requires)
  | .substep _ _ args => args.requires
  | .clock _ inner activate => inner.requires ++ activate.requires
  | .merge switch on off => switch.requires ++ (on.requires ++ off.requires)
  | .flip _ initial continued => initial.requires ++ continued.requires
  | .fetchPre id _ => [.initRegister id]
  | .fetchFby id _ _ => [.initRegister id]
/-- depends.rs:200-204: a vector requires what its elements require. -/
def Expr.requiresList : List Expr → List Reference
  | [] => []
  | e :: es => e.requires ++ Expr.requiresList es
end

/-- depends.rs:314-322 `impl Depends for stmt::Statement`, `provides`, with 403-408 for the
targets. -/
def Stmt.provides : Stmt → List Reference
  | .let_ target _ => target.vars.map .localVarName
  | .assert _ => []
  | .updateRegister _ _ => []
  | .initRegister id _ _ => [.initRegister id]

/-- depends.rs:323-331 `requires`.  The clock of an `InitRegister` is not looked at. -/
def Stmt.requires : Stmt → List Reference
  | .let_ _ source => source.requires
  | .assert e => e.requires
  | .updateRegister id val => .updateRegister id :: val.requires
  | .initRegister _ none _ => []
  | .initRegister _ (some val) _ => val.requires

/-- causality/depends.rs 312-334, `Depends` for `stmt::Statement`. -/
instance : Depends Stmt Reference := ⟨Stmt.provides, Stmt.requires⟩

/-- causality/mod.rs:59-109 `impl Causality for Node`. -/
def Node.causality (n : Node) : Except (GErr Reference) Node := do
  let stmts ← schedule (n.inputs.map (fun v => .localVarName v.name)) n.stmts
    (n.locals.map (fun v => Reference.localVarName v.name) ++
      n.outputs.map (fun v => Reference.localVarName v.name))
  return { n with stmts }

/-- ast/mod.rs, `decl::Const`, without its options. -/
structure Const where
  name : String
  ty : TyBase
  value : Expr

/-- ast/mod.rs, `decl::ExtConst`, without its options. -/
structure ExtConst where
  name : String
  ty : TyBase

/-- ast/mod.rs, `decl::ExtNode`, without its options. -/
structure ExtNode where
  name : String
  inputs : List TyVar
  outputs : List TyVar

/-- ast/mod.rs, `decl::Decl`. -/
inductive Decl where
  | const (c : Const)
  | node (n : Node)
  | extConst (c : ExtConst)
  | extNode (n : ExtNode)

/-- depends.rs:208-216, with 227, 236, 258, 276. -/
def Decl.provides : Decl → List Reference
  | .const c => [.globalVarName c.name]
  | .node n => [.funName n.name]
  | .extConst c => [.globalVarName c.name]
  | .extNode n => [.funName n.name]

/-- depends.rs:216-221, with 228, 237, 259 (`blocks` then `stmts`), 277. -/
def Decl.requires : Decl → List Reference
  | .const c => c.value.requires
  | .node n => n.blocks.map (fun b => .funName b.name) ++ n.stmts.flatMap Stmt.requires
  | .extConst _ => []
  | .extNode _ => []

/-- causality/depends.rs 208-222, `Depends` for `decl::Decl`. -/
instance : Depends Decl Reference := ⟨Decl.provides, Decl.requires⟩

/-- causality/mod.rs:49-57. -/
def Decl.causality : Decl → Except (GErr Reference) Decl
  | .node n => do return .node (← n.causality)
  | d => .ok d

/-- causality/mod.rs:29-40 `impl Causality for Prog`: first the inside of every declaration, in
order, then the declarations among themselves. -/
def progCausality (decls : List Decl) : Except (GErr Reference) (List Decl) := do
  let decls ← decls.mapM Decl.causality
  schedule [] decls []

end Chandeliers.San
