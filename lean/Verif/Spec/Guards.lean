import Verif.Spec.Reference
import Verif.Spec.Lustre
import Verif.Spec.Attributes
import Verif.Spec.Panics

/-!
# Conditions on the source of a node that concern its registers

With `#[universal_pre]` the code of a node is put in an order that ignores the clocks of registers
(see DESIGN.md, F4), and registers cannot hold a tuple of one element (F10).
-/

set_option autoImplicit false

namespace Chandeliers.Spec
open San Syn

/-- The variable that an expression consists of.  A chain of one element is this element. -/
def justVar : Src → Option String
  | .var x => some x
  | .left e [] => justVar e
  | .cmp e [] => justVar e
  | .fby e [] => justVar e
  | .arrow e [] => justVar e
  | _ => none

mutual
/-- The variables on the right of `when` and `whenot`. -/
def guards : Src → List String
  | .lit _ => []
  | .var _ => []
  | .paren es _ => guardsList es
  | .left first rest => guards first ++ guardsLeft rest
  | .cmp first rest => guards first ++ guardsCmp rest
  | .fby first rest => guards first ++ guardsList rest
  | .arrow first rest => guards first ++ guardsList rest
  | .ifx b y n => guards b ++ (guards y ++ guards n)
  | .merge b y n => guards b ++ (guards y ++ guards n)
  | .call _ args _ => guardsList args
  | .pre e => guards e
  | .neg e => guards e
  | .not e => guards e
/-- Of a list. -/
def guardsList : List Src → List String
  | [] => []
  | e :: es => guards e ++ guardsList es
/-- Of a chain of operators. -/
def guardsLeft : List (LOp × Src) → List String
  | [] => []
  | (op, e) :: rest =>
    (if op = .when ∨ op = .whenot then (justVar e).toList else []) ++ (guards e ++ guardsLeft rest)
/-- Of comparisons. -/
def guardsCmp : List (CmpOp × Src) → List String
  | [] => []
  | (_, e) :: rest => guards e ++ guardsCmp rest
end

/-- All the variables that a node uses as clocks are inputs. -/
structure InputGuards (n : SrcNode) : Prop where
  declared : ∀ a ∈ n.inputs ++ n.outputs ++ n.locals, ∀ b x, a.clk = .explicit b x →
    x ∈ argNames n.inputs
  used : ∀ st ∈ n.defs, ∀ x ∈ guards (SrcStmt.expr st), x ∈ argNames n.inputs

mutual
/-- Nowhere is there a tuple of one element, `(e,)`, nor a call `f(e,)`. -/
def noOneTuple : Src → Bool
  | .lit _ => true
  | .var _ => true
  | .paren es trailing => !(trailing && es.length == 1) && noOneTuples es
  | .left first rest => noOneTuple first && noOneTupleLeft rest
  | .cmp first rest => noOneTuple first && noOneTupleCmp rest
  | .fby first rest => noOneTuple first && noOneTuples rest
  | .arrow first rest => noOneTuple first && noOneTuples rest
  | .ifx b y n => noOneTuple b && noOneTuple y && noOneTuple n
  | .merge b y n => noOneTuple b && noOneTuple y && noOneTuple n
  | .call _ args trailing => !(trailing && args.length == 1) && noOneTuples args
  | .pre e => noOneTuple e
  | .neg e => noOneTuple e
  | .not e => noOneTuple e
/-- In a list. -/
def noOneTuples : List Src → Bool
  | [] => true
  | e :: es => noOneTuple e && noOneTuples es
/-- In a chain of operators. -/
def noOneTupleLeft : List (LOp × Src) → Bool
  | [] => true
  | (_, e) :: rest => noOneTuple e && noOneTupleLeft rest
/-- In comparisons. -/
def noOneTupleCmp : List (CmpOp × Src) → Bool
  | [] => true
  | (_, e) :: rest => noOneTuple e && noOneTupleCmp rest
end

/-- The conditions, for a node that has registers. -/
structure Tidy (n : SrcNode) : Prop where
  clocks : InputGuards n
  flat : ∀ st ∈ n.defs, noOneTuple (SrcStmt.expr st) = true

/-- For a program. -/
def TidyProg (p : SrcProg) : Prop :=
  ∀ attrs src, ⟨attrs, .node src⟩ ∈ p → hasAny attrs ["universal_pre"] = true → Tidy src

end Chandeliers.Spec
