import Verif.Spec.Reference
import Verif.Spec.Lustre

/-!
# Reference semantics of expressions with `#[universal_pre]`

What the code of a node with `#[universal_pre]` computes at each instant, whatever the inputs, by
recursion on the source.  It is the usual semantics with clocks wherever that one says something,
and this is exact everywhere else: operands that are not initialised, values that are nil, clocks
that do not match.

- `pre e` is the last value of `e` before now whose first component was not nil.
- `a fby b` is the last value of `b` before now whose first component was not nil, and if there was
  none it is `a`.
- Both are nil at the instants at which the clock of the expression is off.
- `a -> b` is nil when the first component of `a` is nil, and otherwise it is `a` the first time and
  `b` afterwards.

`none` means that the value cannot be computed: an operation fails.
-/

set_option autoImplicit false

namespace Chandeliers.Spec
open San Syn

/-- The first component is nil. -/
def lacks (v : Value) : Bool :=
  match v.leaves with
  | .nil :: _ => true
  | _ => false

/-- A variable used as a clock: it must be Boolean, and it is off when it is nil. -/
def isOn (b : Bool) : Nillable Scalar → Option Bool
  | .nil => some false
  | .defined (.bool c) => some (c == b)
  | .defined _ => none

/-- Whether a variable declared with this clock should have a value. -/
def uniDue (X : String → Nat → Nillable Scalar) : Clock → Nat → Option Bool
  | .implicit, _ => some true
  | .adaptative, _ => some true
  | .explicit b x, t => isOn b (X x t)

/-- On both clocks. -/
def both (a b : Option Bool) : Option Bool := do return (← a) && (← b)

/-- Whether a guard is open: it must be a variable of the node.  A chain of one element is this
element. -/
def uniOpened (W : World) (b : Bool) : Src → Nat → Option Bool
  | .var x, t => if x ∈ W.locals then isOn b (W.X x t) else some false
  | .left e [], t => uniOpened W b e t
  | .cmp e [], t => uniOpened W b e t
  | .fby e [], t => uniOpened W b e t
  | .arrow e [], t => uniOpened W b e t
  | _, _ => some false

mutual
/-- Whether the clock of an expression is on; `D` gives the clocks with which variables are
declared. -/
def uniOn (W : World) (D : String → Clock) : Src → Nat → Option Bool
  | .lit _, _ => some true
  | .var x, t => if x ∈ W.locals then uniDue W.X (D x) t else some true
  | .paren es _, t => uniOnAll W D es t
  | .left first rest, t => uniOnLeft W D (uniOn W D first t) rest t
  | .cmp first rest, t => both (uniOn W D first t) (uniOnCmp W D rest t)
  | .fby first _, t => uniOn W D first t
  | .arrow first _, t => uniOn W D first t
  | .ifx b y n, t => both (uniOn W D b t) (both (uniOn W D y t) (uniOn W D n t))
  | .merge b _ _, t => uniOn W D b t
  | .call _ args _, t => uniOnAll W D args t
  | .pre e, t => uniOn W D e t
  | .neg e, t => uniOn W D e t
  | .not e, t => uniOn W D e t
/-- All of them. -/
def uniOnAll (W : World) (D : String → Clock) : List Src → Nat → Option Bool
  | [], _ => some true
  | e :: es, t => both (uniOn W D e t) (uniOnAll W D es t)
/-- Operators need both their operands; `when` and `whenot` decide by themselves. -/
def uniOnLeft (W : World) (D : String → Clock) (acc : Option Bool) :
    List (LOp × Src) → Nat → Option Bool
  | [], _ => acc
  | (op, e) :: rest, t =>
    uniOnLeft W D
      (match op with
        | .when => uniOpened W true e t
        | .whenot => uniOpened W false e t
        | _ => both acc (uniOn W D e t)) rest t
/-- The operands of comparisons. -/
def uniOnCmp (W : World) (D : String → Clock) : List (CmpOp × Src) → Nat → Option Bool
  | [], _ => some true
  | (_, e) :: rest, t => both (uniOn W D e t) (uniOnCmp W D rest t)
end

/-- The components of a tuple. -/
def shapeTuple : List (Tup Unit) → Tup Unit
  | [] => .leaf ()
  | s :: ss => .tup s ss

/-- What is left of the components after operators: `when` and `whenot` keep them. -/
def shapeLeft (s : Tup Unit) : List (LOp × Src) → Tup Unit
  | [] => s
  | (.when, _) :: rest => shapeLeft s rest
  | (.whenot, _) :: rest => shapeLeft s rest
  | _ :: rest => shapeLeft (.leaf ()) rest

mutual
/-- The components of the values of an expression.  `(e,)` counts as a tuple (see DESIGN.md, F10). -/
def uniShape (W : World) : Src → Tup Unit
  | .lit _ => .leaf ()
  | .var _ => .leaf ()
  | .paren [e] false => uniShape W e
  | .paren es _ => shapeTuple (uniShapes W es)
  | .left first rest => shapeLeft (uniShape W first) rest
  | .cmp first rest => if rest.isEmpty then uniShape W first else .leaf ()
  | .fby first _ => uniShape W first
  | .arrow first _ => uniShape W first
  | .ifx _ y _ => uniShape W y
  | .merge _ y _ => uniShape W y
  | .call f _ _ => match W.nodes f with
    | some m => m.outTy
    | none => .leaf ()
  | .pre e => uniShape W e
  | .neg _ => .leaf ()
  | .not _ => .leaf ()
/-- Of a list. -/
def uniShapes (W : World) : List Src → List (Tup Unit)
  | [] => []
  | e :: es => uniShape W e :: uniShapes W es
end

/-- The last value before instant `t` whose first component was not nil, if there was one.  It must
have been possible to compute them all. -/
def lastKept (value : Nat → Option Value) : Nat → Option (Option Value)
  | 0 => some none
  | t + 1 => do
    let old ← lastKept value t
    let v ← value t
    return if lacks v then old else some v

/-- A value that is seen at the instants of a clock only. -/
def seen (on : Bool) (v : Value) : Value := if on then v else v.nilLike

/-- `pre`, at instant `t`: on or off its clock, and nil for want of a value. -/
def uniPre (on : Option Bool) (none_ : Value) (value : Nat → Option Value) (t : Nat) :
    Option Value := do
  let on ← on
  let _ ← value t
  return seen on ((← lastKept value t).getD none_)

/-- `fby`, at instant `t`. -/
def uniBefore (on : Option Bool) (first second : Nat → Option Value) (t : Nat) : Option Value := do
  let on ← on
  let v ← first t
  let _ ← second t
  return seen on ((← lastKept second t).getD v)

/-- `->`, at instant `t`. -/
def uniThen (first second : Nat → Option Value) (t : Nat) : Option Value := do
  let v ← first t
  let w ← second t
  if lacks v then return v.nilLike
  else match ← lastKept first t with
    | none => return v
    | some _ => return w

mutual
/-- The value of an expression. -/
def uni (W : World) (D : String → Clock) : Src → Nat → Option Value
  | .lit l, _ => litValue l
  | .var x, t =>
    if x ∈ W.locals then some (.leaf (W.X x t)) else (W.glob x).map fun v => .leaf (.defined v)
  | .paren es _, t => do return tupleValue (← uniList W D es t)
  | .left first rest, t => do uniLeft W D (← uni W D first t) rest t
  | .cmp first rest, t => do uniCmp W D (← uni W D first t) rest t
  | .fby first rest, t =>
    if rest.isEmpty then uni W D first t
    else uniBefore (uniOn W D first t) (uni W D first) (uniFby W D rest) t
  | .arrow first rest, t =>
    if rest.isEmpty then uni W D first t else uniThen (uni W D first) (uniArrow W D rest) t
  | .ifx b y n, t => do
    return Candle.ifx (← condition (← uni W D b t)) (← uni W D y t) (← uni W D n t)
  | .merge b y n, t => do
    return Candle.merge (← condition (← uni W D b t)) (← uni W D y t) (← uni W D n t)
  | .call f args _, t =>
    match W.nodes f with
    | none => none
    | some m => callAt m (fun u => do return tupleValue (← uniList W D args u)) t
  | .pre e, t =>
    uniPre (uniOn W D e t) (Tup.allNil Scalar (uniShape W e)) (uni W D e) t
  | .neg e, t => do applyUn W.arith .neg (← uni W D e t)
  | .not e, t => do applyUn W.arith .not (← uni W D e t)
/-- The values of a list. -/
def uniList (W : World) (D : String → Clock) : List Src → Nat → Option (List Value)
  | [], _ => some []
  | e :: es, t => do return (← uni W D e t) :: (← uniList W D es t)
/-- Left to right. -/
def uniLeft (W : World) (D : String → Clock) (acc : Value) : List (LOp × Src) → Nat → Option Value
  | [], _ => some acc
  | (op, e) :: rest, t => do uniLeft W D (← applyLOp W.arith op acc (← uni W D e t)) rest t
/-- At most one comparison. -/
def uniCmp (W : World) (D : String → Clock) (lhs : Value) : List (CmpOp × Src) → Nat → Option Value
  | [], _ => some lhs
  | [(op, e)], t => do applyCmp W.arith op lhs (← uni W D e t)
  | _ :: _ :: _, _ => none
/-- `e₀ fby (e₁ fby …)`. -/
def uniFby (W : World) (D : String → Clock) : List Src → Nat → Option Value
  | [], _ => none
  | e :: es, t =>
    if es.isEmpty then uni W D e t
    else uniBefore (uniOn W D e t) (uni W D e) (uniFby W D es) t
/-- `e₀ -> (e₁ -> …)`. -/
def uniArrow (W : World) (D : String → Clock) : List Src → Nat → Option Value
  | [], _ => none
  | e :: es, t =>
    if es.isEmpty then uni W D e t else uniThen (uni W D e) (uniArrow W D es) t
end

/-- The variables of a node satisfy an equation or an assertion at an instant. -/
def UniHolds (W : World) (D : String → Clock) (t : Nat) : SrcStmt → Prop
  | .def_ p e => ∃ v, uni W D e t = some v ∧ Target.Gets (W.X · t) p v
  | .assert e => uni W D e t = some (.leaf (.defined (.bool true)))

/-- The streams `W.X` are a solution of the equations of a node with `#[universal_pre]` over a
sequence of inputs, all present. -/
structure UniSolution (W : World) (D : String → Clock) (n : SrcNode) (is : List Value) : Prop where
  inputs : ∀ t i, is[t]? = some i → argNames n.inputs ≠ [] → i = together (W.X · t) (argNames n.inputs)
  defs : ∀ t, t < is.length → ∀ st ∈ n.defs, UniHolds W D t st

end Chandeliers.Spec
