import Verif.San.Read
import Verif.Spec.Typing

/-!
# Vocabulary for the text of the emitted code

What it means for a text to be read as something, and the literals that Rust has a text for.
-/

set_option autoImplicit false

namespace Chandeliers.Spec
open San

/-- The text of a constant is read as the expression `e`, and as nothing else: so it is for every
bound on the depth of the reader, from some bound on. -/
def ReadsConst (ts : List RTok) (e : CExpr) : Prop := ∃ k, ∀ n, n ≥ k → rdConst n ts = some e

/-- The text of the body of a method is read as `f`, and as nothing else. -/
def ReadsFn (ts : List RTok) (f : RFn) : Prop := ∃ k, ∀ n, n ≥ k → rdFn n ts = some f

mutual
/-- The same expression with other names. -/
def renameConst (f : String → String) : CExpr → CExpr
  | .lit l => .lit l
  | .ident x => .ident (f x)
  | .bin op l r => .bin op (renameConst f l) (renameConst f r)
  | .un op e => .un op (renameConst f e)
  | .cmp op l r => .cmp op (renameConst f l) (renameConst f r)
  | .tuple es => .tuple (renameConsts f es)
  | .ite c y n => .ite (renameConst f c) (renameConst f y) (renameConst f n)
/-- The same expressions with other names. -/
def renameConsts (f : String → String) : List CExpr → List CExpr
  | [] => []
  | e :: es => renameConst f e :: renameConsts f es
end

/-- The literal is not an infinite float (nor a NaN, that no token denotes). -/
def FiniteLit : Lit → Prop
  | .float f => f.finite = true
  | _ => True

mutual
/-- All literals of the expression are finite. -/
def FiniteExpr : Expr → Prop
  | .lit l => FiniteLit l
  | .global _ => True
  | .var _ _ => True
  | .dummyPre e => FiniteExpr e
  | .dummyParen e => FiniteExpr e
  | .tuple es => FiniteExprs es
  | .bin _ l r => FiniteExpr l ∧ FiniteExpr r
  | .un _ e => FiniteExpr e
  | .cmp _ l r => FiniteExpr l ∧ FiniteExpr r
  | .later _ b a => FiniteExpr b ∧ FiniteExpr a
  | .ifx c y n => FiniteExpr c ∧ FiniteExpr y ∧ FiniteExpr n
  | .substep _ _ e => FiniteExpr e
  | .merge b l r => FiniteExpr b ∧ FiniteExpr l ∧ FiniteExpr r
  | .clock _ e b => FiniteExpr e ∧ FiniteExpr b
  | .fetchPre _ _ => True
  | .fetchFby _ _ _ => True
  | .flip _ i c => FiniteExpr i ∧ FiniteExpr c
/-- All literals of the expressions are finite. -/
def FiniteExprs : List Expr → Prop
  | [] => True
  | e :: es => FiniteExpr e ∧ FiniteExprs es
end

/-- All literals of the statement are finite. -/
def FiniteStmt : Stmt → Prop
  | .let_ _ e => FiniteExpr e
  | .assert e => FiniteExpr e
  | .updateRegister _ e => FiniteExpr e
  | .initRegister _ v c => (∀ e, v = some e → FiniteExpr e) ∧ ∀ e, c = some e → FiniteExpr e

/-- All literals of the declaration are finite. -/
def FiniteDecl : San.Decl → Prop
  | .const c => FiniteExpr c.value
  | .node n => ∀ s ∈ n.stmts, FiniteStmt s
  | _ => True

mutual
/-- The text was written without a panic of the compiler. -/
def spelt : RTok → Bool
  | .panics => false
  | .group _ ts => speltAll ts
  | _ => true
/-- The text was written without a panic of the compiler. -/
def speltAll : List RTok → Bool
  | [] => true
  | t :: ts => spelt t && speltAll ts
end

/-- The text of the value of a constant, or of the method `step` of a node. -/
def textOf (uid : Nat) : San.Decl → List RTok
  | .const c => c.value.constText uid
  | .extConst _ => []
  | .node n => n.text uid
  | .extNode n => externText n.inputs n.outputs

/-- The types that the declaration of the struct of a node needs are known. -/
def TypesKnown : San.Decl → Prop
  | .node n => (∀ b ∈ n.blocks, b.generics.isSome = true) ∧ ∀ t ∈ n.registers, t.isSome = true
  | _ => True

end Chandeliers.Spec
