import Mathlib.Logic.Relation
import Verif.San.Causality

/-!
# What a statement reads and writes

Defined from the syntax alone, independently of the functions `provides` and `requires` of the
compiler.
-/

namespace Chandeliers.Spec
open San

/-- `c` is a direct operand of the second expression, evaluated at the same instant.  The
expressions kept inside a register read for later passes are not operands: reading a register
does not evaluate them. -/
inductive Operand : Expr → Expr → Prop
  | tuple {e es} : e ∈ es → Operand e (.tuple es)
  | dummyPre {e} : Operand e (.dummyPre e)
  | dummyParen {e} : Operand e (.dummyParen e)
  | binL {op l r} : Operand l (.bin op l r)
  | binR {op l r} : Operand r (.bin op l r)
  | un {op e} : Operand e (.un op e)
  | cmpL {op l r} : Operand l (.cmp op l r)
  | cmpR {op l r} : Operand r (.cmp op l r)
  | clockInner {op e a} : Operand e (.clock op e a)
  | clockGuard {op e a} : Operand a (.clock op e a)
  | laterBefore {d b a} : Operand b (.later d b a)
  | laterAfter {d b a} : Operand a (.later d b a)
  | flipInitial {id i c} : Operand i (.flip id i c)
  | flipContinued {id i c} : Operand c (.flip id i c)
  | ifCond {c y n} : Operand c (.ifx c y n)
  | ifYes {c y n} : Operand y (.ifx c y n)
  | ifNo {c y n} : Operand n (.ifx c y n)
  | mergeSwitch {c y n} : Operand c (.merge c y n)
  | mergeOn {c y n} : Operand y (.merge c y n)
  | mergeOff {c y n} : Operand n (.merge c y n)
  | arg {d id a} : Operand a (.substep d id a)

/-- `c` is part of `e` (possibly all of it). -/
abbrev Part (c e : Expr) : Prop := Relation.ReflTransGen Operand c e

/-- The expressions whose value a statement needs.  The activation clock of a register
initialisation is not among them (see DESIGN.md, F4). -/
def values : Stmt → List Expr
  | .let_ _ e => [e]
  | .assert e => [e]
  | .updateRegister _ v => [v]
  | .initRegister _ none _ => []
  | .initRegister _ (some v) _ => [v]

/-- The statement reads, at the current instant, a local variable, a global constant, or a
register. -/
inductive Reads (st : Stmt) : Reference → Prop
  | local_ {x e} : e ∈ values st → Part (.var x 0) e → Reads st (.localVarName x)
  | global {x e} : e ∈ values st → Part (.global x) e → Reads st (.globalVarName x)
  | fetchPre {id f e} : e ∈ values st → Part (.fetchPre id f) e → Reads st (.initRegister id)
  | fetchFby {id i f e} : e ∈ values st → Part (.fetchFby id i f) e → Reads st (.initRegister id)

/-- The statement defines a local variable or sets up a register. -/
inductive Writes : Stmt → Reference → Prop
  | local_ {t e x} : x ∈ t.vars → Writes (.let_ t e) (.localVarName x)
  | register {id v c} : Writes (.initRegister id v c) (.initRegister id)

/-- `u` is defined from `w` at the same instant by one of the statements. -/
def Uses (sts : List Stmt) (u w : Reference) : Prop := ∃ st ∈ sts, Writes st u ∧ Reads st w

/-- Variables assigned by a list of statements. -/
def assigned : List Stmt → List String
  | [] => []
  | .let_ t _ :: sts => t.vars ++ assigned sts
  | _ :: sts => assigned sts

/-- Registers set up by a list of statements. -/
def initialised : List Stmt → List Nat
  | [] => []
  | .initRegister id _ _ :: sts => id :: initialised sts
  | _ :: sts => initialised sts

/-- The declaration mentions a node or a constant. -/
inductive Mentions : Decl → Reference → Prop
  | const {c x} : Part (.global x) c.value → Mentions (.const c) (.globalVarName x)
  | call {n b} : b ∈ n.blocks → Mentions (.node n) (.funName b.name)
  | global {n st x} : st ∈ n.stmts → Reads st (.globalVarName x) → Mentions (.node n) (.globalVarName x)

/-- The declaration introduces a node or a constant. -/
inductive Introduces : Decl → Reference → Prop
  | const {c} : Introduces (.const c) (.globalVarName c.name)
  | node {n} : Introduces (.node n) (.funName n.name)
  | extConst {c} : Introduces (.extConst c) (.globalVarName c.name)
  | extNode {n} : Introduces (.extNode n) (.funName n.name)

end Chandeliers.Spec
