import Verif.Spec.Refactor

/-!
# Laws of the language

Ways to write the same stream.
-/

set_option autoImplicit false

namespace Chandeliers.Spec
open San Syn

/-- The operator does not sample. -/
def Pointwise (op : LOp) : Prop := op ≠ .when ∧ op ≠ .whenot

/-- Laws that can be used from left to right and from right to left.  The flag tells whether the node
has `#[universal_pre]`, and `vars` are its variables. -/
inductive Equation (vars : List String) : Bool → Src → Src → Prop
  /-- `(e) = e` -/
  | paren {u : Bool} {e : Src} : Equation vars u (.paren [e] false) e
  /-- An expression is a chain of one element at any level. -/
  | left {u : Bool} {e : Src} : Equation vars u (.left e []) e
  | cmp {u : Bool} {e : Src} : Equation vars u (.cmp e []) e
  | fby {u : Bool} {e : Src} : Equation vars u (.fby e []) e
  | arrow {u : Bool} {e : Src} : Equation vars u (.arrow e []) e
  /-- `e ∘ … ∘ e' ∘ … = (e ∘ … ∘ e') ∘ …` -/
  | leftAssoc {u : Bool} {e : Src} {r r' : List (LOp × Src)} :
    Equation vars u (.left e (r ++ r')) (.left (.left e r) r')
  /-- `a fby b fby … = a fby (b fby …)` -/
  | fbyAssoc {u : Bool} {a b : Src} {r : List Src} :
    Equation vars u (.fby a (b :: r)) (.fby a [.fby b r])
  /-- `a -> b -> … = a -> (b -> …)`, with registers -/
  | arrowAssoc {a b : Src} {r : List Src} :
    Equation vars true (.arrow a (b :: r)) (.arrow a [.arrow b r])
  /-- `pre 1 = 1`, without registers -/
  | preLit {l : Syn.Lit} : Equation vars false (.pre (.lit l)) (.lit l)
  /-- `pre (a, b) = (pre a, pre b)` -/
  | preTuple {es : List Src} {tr : Bool} :
    Equation vars false (.pre (.paren es tr)) (.paren (es.map .pre) tr)
  /-- `pre (a ∘ b) = pre a ∘ pre b` -/
  | preLeft {a : Src} {r : List (LOp × Src)} (h : ∀ o ∈ r, Pointwise o.1) :
    Equation vars false (.pre (.left a r)) (.left (.pre a) (r.map fun o => (o.1, .pre o.2)))
  | preCmp {a : Src} {r : List (CmpOp × Src)} :
    Equation vars false (.pre (.cmp a r)) (.cmp (.pre a) (r.map fun o => (o.1, .pre o.2)))
  /-- `pre (if b then y else n) = if pre b then pre y else pre n` -/
  | preIf {b y n : Src} :
    Equation vars false (.pre (.ifx b y n)) (.ifx (.pre b) (.pre y) (.pre n))
  | preNeg {e : Src} : Equation vars false (.pre (.neg e)) (.neg (.pre e))
  | preNot {e : Src} : Equation vars false (.pre (.not e)) (.not (.pre e))

/-- All laws, from left to right. -/
inductive Law (vars : List String) : Bool → Src → Src → Prop
  | equation {u : Bool} {e e' : Src} (h : Equation vars u e e') : Law vars u e e'
  | reverse {u : Bool} {e e' : Src} (h : Equation vars u e e') : Law vars u e' e
  /-- `a -> pre b` is `a fby b`. -/
  | arrowPre {a b : Src} : Law vars false (.arrow a [.pre b]) (.fby a [b])
  /-- A constant `K` is `pre K`. -/
  | constPre {x : String} (h : x ∉ vars) : Law vars false (.var x) (.pre (.var x))
  /-- `e -> e` is `e`. -/
  | arrowSelf {e : Src} : Law vars false (.arrow e [e]) e
  /-- `(a, b) -> (c, d)` is `(a -> c, b -> d)`. -/
  | arrowTuple {as bs : List Src} {tr : Bool} (h : as.length = bs.length) :
    Law vars false (.arrow (.paren as tr) [.paren bs tr])
      (.paren (List.zipWith (fun a b => .arrow a [b]) as bs) tr)
  /-- `(a, b) fby (c, d)` is `(a fby c, b fby d)`. -/
  | fbyTuple {as bs : List Src} {tr : Bool} (h : as.length = bs.length) :
    Law vars false (.fby (.paren as tr) [.paren bs tr])
      (.paren (List.zipWith (fun a b => .fby a [b]) as bs) tr)

/-- In some nodes of a program, laws are applied to some expressions. -/
def ByLaws (p r : SrcProg) : Prop :=
  List.Forall₂ (Rewritten fun universal n n' =>
    ExchangedNode (fun _ => Law (SrcNode.vars n) universal) n n') p r

end Chandeliers.Spec
