import Mathlib.Data.List.Forall2
import Verif.Spec.Universal
import Verif.Spec.Guards
import Verif.Spec.Replace

/-!
# Programs that say the same thing

Ways to rewrite the source of a program that should not change what it does.
-/

set_option autoImplicit false

namespace Chandeliers.Spec
open San Syn

/-! ## Exchanging expressions -/

mutual
/-- The second expression is the first one where some subexpressions are exchanged for others: `B`
says which.  The flag tells whether the place is delayed: under a `pre`, or on the right of a `fby`.
What must be a variable is left as it is: guards of `when` and `whenot`, and what `merge` chooses by. -/
inductive Exchanged (B : Bool → Src → Src → Prop) : Bool → Src → Src → Prop
  | here {late : Bool} {e e' : Src} (h : B late e e') : Exchanged B late e e'
  | lit {late : Bool} {l : Syn.Lit} : Exchanged B late (.lit l) (.lit l)
  | var {late : Bool} {x : String} : Exchanged B late (.var x) (.var x)
  | paren {late : Bool} {es es' : List Src} {tr : Bool} (h : ExchangedList B late es es') :
    Exchanged B late (.paren es tr) (.paren es' tr)
  | left {late : Bool} {a a' : Src} {r r' : List (LOp × Src)} (h : Exchanged B late a a')
    (hr : ExchangedOps B late r r') : Exchanged B late (.left a r) (.left a' r')
  | cmp {late : Bool} {a a' : Src} {r r' : List (CmpOp × Src)} (h : Exchanged B late a a')
    (hr : ExchangedCmp B late r r') : Exchanged B late (.cmp a r) (.cmp a' r')
  | fby {late : Bool} {a a' : Src} {r r' : List Src} (h : Exchanged B late a a')
    (hr : ExchangedList B true r r') : Exchanged B late (.fby a r) (.fby a' r')
  | arrow {late : Bool} {a a' : Src} {r r' : List Src} (h : Exchanged B late a a')
    (hr : ExchangedList B late r r') : Exchanged B late (.arrow a r) (.arrow a' r')
  | ifx {late : Bool} {b b' y y' n n' : Src} (hb : Exchanged B late b b')
    (hy : Exchanged B late y y') (hn : Exchanged B late n n') :
    Exchanged B late (.ifx b y n) (.ifx b' y' n')
  | merge {late : Bool} {b y y' n n' : Src} (hy : Exchanged B late y y')
    (hn : Exchanged B late n n') : Exchanged B late (.merge b y n) (.merge b y' n')
  | call {late : Bool} {f : String} {es es' : List Src} {tr : Bool}
    (h : ExchangedList B late es es') : Exchanged B late (.call f es tr) (.call f es' tr)
  | pre {late : Bool} {e e' : Src} (h : Exchanged B true e e') : Exchanged B late (.pre e) (.pre e')
  | neg {late : Bool} {e e' : Src} (h : Exchanged B late e e') : Exchanged B late (.neg e) (.neg e')
  | not {late : Bool} {e e' : Src} (h : Exchanged B late e e') : Exchanged B late (.not e) (.not e')
/-- In a list. -/
inductive ExchangedList (B : Bool → Src → Src → Prop) : Bool → List Src → List Src → Prop
  | nil {late : Bool} : ExchangedList B late [] []
  | cons {late : Bool} {e e' : Src} {es es' : List Src} (h : Exchanged B late e e')
    (hs : ExchangedList B late es es') : ExchangedList B late (e :: es) (e' :: es')
/-- In the operands of left associative operators. -/
inductive ExchangedOps (B : Bool → Src → Src → Prop) :
    Bool → List (LOp × Src) → List (LOp × Src) → Prop
  | nil {late : Bool} : ExchangedOps B late [] []
  | op {late : Bool} {o : LOp} {e e' : Src} {r r' : List (LOp × Src)} (h : Exchanged B late e e')
    (hw : o ≠ .when) (hn : o ≠ .whenot) (hs : ExchangedOps B late r r') :
    ExchangedOps B late ((o, e) :: r) ((o, e') :: r')
  | guard {late : Bool} {o : LOp} {e : Src} {r r' : List (LOp × Src)}
    (hs : ExchangedOps B late r r') : ExchangedOps B late ((o, e) :: r) ((o, e) :: r')
/-- In the operands of comparisons. -/
inductive ExchangedCmp (B : Bool → Src → Src → Prop) :
    Bool → List (CmpOp × Src) → List (CmpOp × Src) → Prop
  | nil {late : Bool} : ExchangedCmp B late [] []
  | cons {late : Bool} {o : CmpOp} {e e' : Src} {r r' : List (CmpOp × Src)}
    (h : Exchanged B late e e') (hs : ExchangedCmp B late r r') :
    ExchangedCmp B late ((o, e) :: r) ((o, e') :: r')
end

/-- In an equation or an assertion. -/
inductive ExchangedStmt (B : Bool → Src → Src → Prop) : SrcStmt → SrcStmt → Prop
  | def_ {p : Target} {e e' : Src} (h : Exchanged B false e e') :
    ExchangedStmt B (.def_ p e) (.def_ p e')
  | assert {e e' : Src} (h : Exchanged B false e e') : ExchangedStmt B (.assert e) (.assert e')

/-- In the equations and assertions of a node. -/
structure ExchangedNode (B : Bool → Src → Src → Prop) (n n' : SrcNode) : Prop where
  name : n'.name = n.name
  inputs : n'.inputs = n.inputs
  outputs : n'.outputs = n.outputs
  locals : n'.locals = n.locals
  defs : List.Forall₂ (ExchangedStmt B) n.defs n'.defs

/-- Two expressions have the same value at all instants, whatever the streams of the variables, the
constants and the nodes of the program are.  With registers, they are also present at the same instants
and they have the same shape. -/
structure SameValue (universal : Bool) (A : Arith) (vars : List String) (clocks : String → Clock)
    (e e' : Src) : Prop where
  default : universal = false → ∀ S glob nodes t,
    ref ⟨A, vars, S, glob, nodes⟩ e t = ref ⟨A, vars, S, glob, nodes⟩ e' t
  universal : universal = true → ∀ S glob nodes t,
    uni ⟨A, vars, S, glob, nodes⟩ clocks e t = uni ⟨A, vars, S, glob, nodes⟩ clocks e' t ∧
    uniOn ⟨A, vars, S, glob, nodes⟩ clocks e t = uniOn ⟨A, vars, S, glob, nodes⟩ clocks e' t ∧
    uniShape ⟨A, vars, S, glob, nodes⟩ e = uniShape ⟨A, vars, S, glob, nodes⟩ e'

/-- In a program, nodes are rewritten as `R` says (which may depend on whether the node has registers).
The attributes stay, and so does everything else. -/
inductive Rewritten (R : Bool → SrcNode → SrcNode → Prop) : SrcDecl → SrcDecl → Prop
  | same {d : SrcDecl} : Rewritten R d d
  | node {attrs : List Attribute} {n n' : SrcNode} (h : R (hasAny attrs ["universal_pre"]) n n') :
    Rewritten R ⟨attrs, .node n⟩ ⟨attrs, .node n'⟩

/-! ## Parentheses -/

/-- Parentheses are added. -/
def Wraps (_ : Bool) (e e' : Src) : Prop := e' = .paren [e] false

/-! ## Variables and their definitions -/

/-- Operators are nil as soon as one operand is; otherwise they may fail. -/
def eitherNil : Option Bool → Option Bool → Option Bool
  | some true, some _ => some true
  | some _, some true => some true
  | _, _ => none

/-- Sampling is nil if the guard is. -/
def beforeOp : LOp → Option Bool → Option Bool → Option Bool
  | .when, some _, some true => some true
  | .when, _, _ => none
  | .whenot, some _, some true => some true
  | .whenot, _, _ => none
  | _, a, b => eitherNil a b

mutual
/-- What an expression without calls is before the first instant, without registers, if it is clear
that it can be computed: nil (`true`), or possibly something else. -/
def before (vars : List String) : Src → Option Bool
  | .lit _ => some false
  | .var x => some (decide (x ∈ vars))
  | .paren [e] _ => before vars e
  | .paren _ _ => none
  | .left first rest => beforeLeft vars (before vars first) rest
  | .cmp first [] => before vars first
  | .cmp first [(_, e)] => eitherNil (before vars first) (before vars e)
  | .cmp _ (_ :: _ :: _) => none
  | .fby first _ => before vars first
  | .arrow first rest => if beforeAll vars rest then before vars first else none
  | .ifx b y n => match before vars b, before vars y, before vars n with
    | some true, some _, some _ => some true
    | _, _, _ => none
  | .merge _ _ _ => none
  | .call _ _ _ => none
  | .pre e => before vars e
  | .neg e => match before vars e with
    | some true => some true
    | _ => none
  | .not e => match before vars e with
    | some true => some true
    | _ => none
/-- Left associative operators. -/
def beforeLeft (vars : List String) : Option Bool → List (LOp × Src) → Option Bool
  | b, [] => b
  | b, (op, e) :: rest => beforeLeft vars (beforeOp op b (before vars e)) rest
/-- All of them can be computed. -/
def beforeAll (vars : List String) : List Src → Bool
  | [] => true
  | e :: es => (before vars e).isSome && beforeAll vars es
end

/-- A variable is replaced by its definition.  Without registers, under a delay, the definition must be
nil before the first instant, as variables are. -/
def Unfolds (universal : Bool) (vars : List String) (x : String) (d : Src) (late : Bool)
    (e e' : Src) : Prop :=
  e = .var x ∧ e' = .paren [d] false ∧
    (universal = false → late = true → before vars d = some true)

/-- The clocks of the variables are those that can be written: none, `when` or `whenot`. -/
def WrittenClocks (n : SrcNode) : Prop :=
  ∀ a ∈ n.inputs ++ n.outputs ++ n.locals, a.clk ≠ .adaptative

/-- In one node some uses of a variable are replaced by its definition.  The definition is kept. -/
def UnfoldedNode (universal : Bool) (n n' : SrcNode) : Prop :=
  WrittenClocks n ∧ ∃ x d, x ∈ SrcNode.vars n ∧ .def_ (.var x) d ∈ n.defs ∧ .def_ (.var x) d ∈ n'.defs ∧
    ExchangedNode (Unfolds universal (SrcNode.vars n) x d) n n'

end Chandeliers.Spec
