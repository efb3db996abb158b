import Verif.Spec.Program

/-!
# Programs on which the compiler is expected not to crash
-/

set_option autoImplicit false

namespace Chandeliers.Spec
open Chandeliers.San Chandeliers.Syn

mutual
/-- The literals of an expression. -/
def literals : Src → List Syn.Lit
  | .lit l => [l]
  | .var _ => []
  | .paren es _ => literalsList es
  | .left first rest => literals first ++ literalsLeft rest
  | .cmp first rest => literals first ++ literalsCmp rest
  | .fby first rest => literals first ++ literalsList rest
  | .arrow first rest => literals first ++ literalsList rest
  | .ifx c y n => literals c ++ (literals y ++ literals n)
  | .merge c y n => literals c ++ (literals y ++ literals n)
  | .call _ args _ => literalsList args
  | .pre e => literals e
  | .neg e => literals e
  | .not e => literals e
/-- Of a list. -/
def literalsList : List Src → List Syn.Lit
  | [] => []
  | e :: es => literals e ++ literalsList es
/-- Of the operands of binary operators. -/
def literalsLeft : List (LOp × Src) → List Syn.Lit
  | [] => []
  | (_, e) :: es => literals e ++ literalsLeft es
/-- Of the operands of comparisons. -/
def literalsCmp : List (CmpOp × Src) → List Syn.Lit
  | [] => []
  | (_, e) :: es => literals e ++ literalsCmp es
end

mutual
/-- The nodes that an expression calls. -/
def callees : Src → List String
  | .lit _ => []
  | .var _ => []
  | .paren es _ => calleesList es
  | .left first rest => callees first ++ calleesLeft rest
  | .cmp first rest => callees first ++ calleesCmp rest
  | .fby first rest => callees first ++ calleesList rest
  | .arrow first rest => callees first ++ calleesList rest
  | .ifx c y n => callees c ++ (callees y ++ callees n)
  | .merge c y n => callees c ++ (callees y ++ callees n)
  | .call f args _ => f :: calleesList args
  | .pre e => callees e
  | .neg e => callees e
  | .not e => callees e
/-- Of a list. -/
def calleesList : List Src → List String
  | [] => []
  | e :: es => callees e ++ calleesList es
/-- Of the operands of binary operators. -/
def calleesLeft : List (LOp × Src) → List String
  | [] => []
  | (_, e) :: es => callees e ++ calleesLeft es
/-- Of the operands of comparisons. -/
def calleesCmp : List (CmpOp × Src) → List String
  | [] => []
  | (_, e) :: es => callees e ++ calleesCmp es
end

/-- The expression of an equation or of an assertion. -/
def SrcStmt.expr : SrcStmt → Src
  | .def_ _ e => e
  | .assert e => e

/-- The expressions of a declaration. -/
def expressions : SrcItem → List Src
  | .const c => [c.value]
  | .node n => n.defs.map SrcStmt.expr
  | .extConst _ _ => []
  | .extNode _ _ _ => []

/-- The literal denotes a value: an integer of 64 bits, a finite float. -/
def Denotes : Syn.Lit → Prop
  | .bool _ => True
  | .int n => -2 ^ 63 ≤ n ∧ n < 2 ^ 63
  | .float (some f) => finite f = true
  | .float none => False
  | .other => True

/-- The type variables of a signature are declared, once, and each of them is the type of an
input. -/
structure GenericsFit (generics : List String) (ins outs : List TyBase) : Prop where
  once : generics.Nodup
  declared : ∀ g, TyBase.other g ∈ ins ++ outs → g ∈ generics
  used : ∀ g ∈ generics, TyBase.other g ∈ ins

/-- The name and the signature of a node. -/
def signature : SrcItem → Option (String × List TyBase × List TyBase)
  | .const _ => none
  | .node n => some (n.name, argTypes n.inputs, argTypes n.outputs)
  | .extConst _ _ => none
  | .extNode f ins outs => some (f, argTypes ins, argTypes outs)

/-- The conditions under which the compiler may not crash (see F6, F15 and F18 in DESIGN.md for why
they are there): numbers in attributes fit in a machine word, literals denote values, and the type
variables of the nodes that are called are in order. -/
structure Tame (p : SrcProg) : Prop where
  attributes : ∀ d ∈ p, ∀ a ∈ d.attrs, smallNumbers a
  literals : ∀ d ∈ p, ∀ e ∈ expressions d.item, ∀ l ∈ literals e, Denotes l
  generics : ∀ d ∈ p, ∀ f ins outs, signature d.item = some (f, ins, outs) →
    (∃ d' ∈ p, ∃ e ∈ expressions d'.item, f ∈ callees e) →
      GenericsFit (meaning d.attrs).generics ins outs

end Chandeliers.Spec
