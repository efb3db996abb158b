import Verif.Spec.Legal
import Verif.Spec.Blame

/-!
# When a message about names or definitions is true of the source
-/

set_option autoImplicit false

namespace Chandeliers.Spec.Static
open Chandeliers.San Chandeliers.Syn

/-- A constant is defined from another. -/
def ConstUses (p : SrcProg) (x y : String) : Prop :=
  ∃ attrs c, ⟨attrs, .const c⟩ ∈ p ∧ c.name = x ∧ y ∈ names c.value

/-- A node calls another. -/
def NodeCalls (p : SrcProg) (f g : String) : Prop :=
  ∃ attrs n, ⟨attrs, .node n⟩ ∈ p ∧ n.name = f ∧ ∃ st ∈ n.defs, g ∈ callees (SrcStmt.expr st)

/-- A message about what is defined in a program, and from what. -/
inductive SrcCausal (p : SrcProg) : GErr Reference → Prop
  /-- An output or a local variable has no equation. -/
  | undefined {attrs : List Attribute} {n : SrcNode} {v : Var} (hn : ⟨attrs, .node n⟩ ∈ p)
    (hv : v ∈ varsOf (n.outputs ++ n.locals)) (h : v.name ∉ defined n.defs) :
    SrcCausal p (.undeclared (.localVarName v.name))
  /-- An input has one. -/
  | input {attrs : List Attribute} {n : SrcNode} {v : Var} (hn : ⟨attrs, .node n⟩ ∈ p)
    (hv : v ∈ varsOf n.inputs) (h : v.name ∈ defined n.defs) :
    SrcCausal p (.providedByContext (.localVarName v.name))
  /-- A variable has two equations. -/
  | twice {attrs : List Attribute} {n : SrcNode} {x : String} (hn : ⟨attrs, .node n⟩ ∈ p)
    (h : List.Duplicate x (defined n.defs)) : SrcCausal p (.declTwice (.localVarName x))
  /-- Two constants have the same name. -/
  | constTwice {x : String} (h : List.Duplicate x ((p.filterMap constant).map (·.1))) :
    SrcCausal p (.declTwice (.globalVarName x))
  /-- Two nodes have the same name. -/
  | nodeTwice {f : String} (h : List.Duplicate f ((p.filterMap nodeSig).map (·.1))) :
    SrcCausal p (.declTwice (.funName f))
  /-- A variable is defined from itself, at the same instant. -/
  | itself {attrs : List Attribute} {n : SrcNode} {x : String} (hn : ⟨attrs, .node n⟩ ∈ p)
    (h : DefinedFrom n.defs x x) : SrcCausal p (.dependsOnItself (.localVarName x))
  /-- A constant is defined from itself. -/
  | constItself {x : String} (h : ConstUses p x x) : SrcCausal p (.dependsOnItself (.globalVarName x))
  /-- A node calls itself. -/
  | nodeItself {f : String} (h : NodeCalls p f f) : SrcCausal p (.dependsOnItself (.funName f))
  /-- Variables are defined from each other, at the same instant.  The message may also list
  registers, which have no name in the source. -/
  | cycle {attrs : List Attribute} {n : SrcNode} {rs : List Reference} {x : String}
    (hn : ⟨attrs, .node n⟩ ∈ p) (hx : .localVarName x ∈ rs)
    (hr : ∀ r ∈ rs, (∃ x, r = .localVarName x) ∨ ∃ id, r = .initRegister id)
    (h : ∀ x y, .localVarName x ∈ rs → .localVarName y ∈ rs →
      Relation.TransGen (DefinedFrom n.defs) x y) : SrcCausal p (.cycle rs)
  /-- Constants are defined from each other. -/
  | constCycle {xs : List String} (hl : 2 ≤ xs.length) (hn : xs.Nodup)
    (h : ∀ x ∈ xs, ∀ y ∈ xs, Relation.TransGen (ConstUses p) x y) :
    SrcCausal p (.cycle (xs.map .globalVarName))
  /-- Nodes call each other. -/
  | nodeCycle {fs : List String} (hl : 2 ≤ fs.length) (hn : fs.Nodup)
    (h : ∀ f ∈ fs, ∀ g ∈ fs, Relation.TransGen (NodeCalls p) f g) :
    SrcCausal p (.cycle (fs.map .funName))

/-- The variables of a node. -/
def variablesOf (n : SrcNode) : List String :=
  (varsOf (n.inputs ++ n.outputs ++ n.locals)).map (·.name)

/-- A name is used in a program, as a constant or a variable, and is not one that may be used
there. -/
inductive UnknownName (p : SrcProg) (x : String) : Prop
  /-- In the definition of a constant. -/
  | inConst {attrs : List Attribute} {c : SrcConst} (hc : ⟨attrs, .const c⟩ ∈ p)
    (hx : x ∈ names c.value) (h : x ∉ (p.filterMap constant).map (·.1)) : UnknownName p x
  /-- In a node. -/
  | inNode {attrs : List Attribute} {n : SrcNode} {st : SrcStmt} (hn : ⟨attrs, .node n⟩ ∈ p)
    (hst : st ∈ n.defs) (hx : x ∈ names (SrcStmt.expr st)) (hv : x ∉ variablesOf n)
    (h : x ∉ (p.filterMap constant).map (·.1)) : UnknownName p x
  /-- An equation defines something that is not a variable of the node. -/
  | target {attrs : List Attribute} {n : SrcNode} (hn : ⟨attrs, .node n⟩ ∈ p)
    (hx : x ∈ defined n.defs) (hv : x ∉ variablesOf n) : UnknownName p x

/-- The two types or clocks that a message opposes are not the same. -/
def Disagree : Diag → Prop
  | .typeMismatch t u => t ≠ u
  | .binopMismatch _ .same t u => t ≠ u
  | .cmpMismatch _ .same t u => t ≠ u
  | .unopMismatch _ .same _ => False
  | .unsatGeneric _ t u => t ≠ u
  | .clkNotComparable k l => k ≠ l
  | .clkNotIdentical k l => k ≠ l
  | .boolRequired _ t => t ≠ .bool
  | _ => True

end Chandeliers.Spec.Static
