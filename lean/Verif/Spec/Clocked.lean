import Verif.Spec.Reference
import Verif.Spec.Lustre
import Verif.Spec.Presence
import Verif.Spec.Solutions

/-!
# Reference semantics of expressions with clocks

The usual semantics of Lustre with clocks.  An expression has instants at which it is present, and
`pre`, `fby` and `->` only count those.

Presence is read off the declared clocks and the values of the variables that are used as clocks;
it does not depend on any other value.
-/

set_option autoImplicit false

namespace Chandeliers.Spec
open San Syn

/-- Present and equal to a Boolean. -/
def Nillable.isBool (b : Bool) : Nillable Scalar → Bool
  | .defined (.bool c) => c == b
  | _ => false

/-- Present. -/
def Nillable.has : Nillable Scalar → Bool
  | .nil => false
  | .defined _ => true

/-- Whether a variable declared with this clock should have a value: `Due`, as a Boolean. -/
def due (X : String → Nat → Nillable Scalar) : Clock → Nat → Bool
  | .implicit, _ => true
  | .adaptative, _ => true
  | .explicit b x, t => Nillable.isBool b (X x t)

/-- Whether a guard is open: it must be a variable of the node, that is true for `when` and false
for `whenot`.  A chain of one element is this element. -/
def opened (W : World) (b : Bool) : Src → Nat → Bool
  | .var x, t => if x ∈ W.locals then Nillable.isBool b (W.X x t) else false
  | .left e [], t => opened W b e t
  | .cmp e [], t => opened W b e t
  | .fby e [], t => opened W b e t
  | .arrow e [], t => opened W b e t
  | _, _ => false

mutual
/-- Whether an expression is present at an instant; `D` gives the clocks with which variables are
declared.  The operands of `fby`, `->` and tuples are meant to be present together. -/
def clockedOn (W : World) (D : String → Clock) : Src → Nat → Bool
  | .lit _, _ => true
  | .var x, t => if x ∈ W.locals then due W.X (D x) t else true
  | .paren es _, t => clockedOnAll W D es t
  | .left first rest, t => clockedOnLeft W D (clockedOn W D first t) rest t
  | .cmp first rest, t => clockedOn W D first t && clockedOnCmp W D rest t
  | .fby first _, t => clockedOn W D first t
  | .arrow first _, t => clockedOn W D first t
  | .ifx b y n, t => clockedOn W D b t && (clockedOn W D y t && clockedOn W D n t)
  | .merge b _ _, t => clockedOn W D b t
  | .call _ args _, t => clockedOnAll W D args t
  | .pre e, t => clockedOn W D e t
  | .neg e, t => clockedOn W D e t
  | .not e, t => clockedOn W D e t
/-- All of them. -/
def clockedOnAll (W : World) (D : String → Clock) : List Src → Nat → Bool
  | [], _ => true
  | e :: es, t => clockedOn W D e t && clockedOnAll W D es t
/-- Operators need both their operands; `when` and `whenot` decide by themselves. -/
def clockedOnLeft (W : World) (D : String → Clock) (acc : Bool) : List (LOp × Src) → Nat → Bool
  | [], _ => acc
  | (op, e) :: rest, t =>
    clockedOnLeft W D
      (match op with
        | .when => opened W true e t
        | .whenot => opened W false e t
        | _ => acc && clockedOn W D e t) rest t
/-- The operands of comparisons. -/
def clockedOnCmp (W : World) (D : String → Clock) : List (CmpOp × Src) → Nat → Bool
  | [], _ => true
  | (_, e) :: rest, t => clockedOn W D e t && clockedOnCmp W D rest t
end

/-- The last instant before `t` at which something is present. -/
def lastBefore (on : Nat → Bool) : Nat → Option Nat
  | 0 => none
  | t + 1 => if on t then some t else lastBefore on t

/-- The values before instant `t`, at the instants of presence. -/
def pastValues (on : Nat → Bool) (value : Nat → Option Value) : Nat → Option (List Value)
  | 0 => some []
  | t + 1 => do
    let vs ← pastValues on value t
    if on t then return vs ++ [← value t] else return vs

/-- A value without uninitialised components. -/
def whole (v : Value) : Option Value :=
  if v.leaves.all Nillable.has then some v else none

/-- What a node answers to arguments that are given at some instants only. -/
def clockedCall (m : Machine) (on : Nat → Bool) (args : Nat → Option Value) (t : Nat) :
    Option Value := do
  let as ← pastValues on args (t + 1)
  let os ← (m.run as).toOption
  whole (← os.getLast?)

/-- Operators between values that are present. -/
def clockedOp (A : Arith) (op : LOp) (open_ : Bool) (acc : Option Value) (value : Option Value) :
    Option Value :=
  match op with
  | .when => if open_ then acc else none
  | .whenot => if open_ then acc else none
  | op => do applyLOp A op (← acc) (← value)

mutual
/-- The value of an expression at an instant at which it is present.  `none` means that it is not
initialised, or that an operation fails. -/
def clocked (W : World) (D : String → Clock) : Src → Nat → Option Value
  | .lit l, _ => litValue l
  | .var x, t =>
    if x ∈ W.locals then whole (.leaf (W.X x t)) else (W.glob x).map fun v => .leaf (.defined v)
  | .paren es _, t => do return tupleValue (← clockedList W D es t)
  | .left first rest, t => clockedLeft W D (clocked W D first t) rest t
  | .cmp first rest, t => clockedCmp W D (clocked W D first t) rest t
  | .fby first rest, t =>
    if rest.isEmpty then clocked W D first t
    else match lastBefore (clockedOn W D first) t with
      | none => clocked W D first t
      | some u => clockedFby W D rest u
  | .arrow first rest, t =>
    if rest.isEmpty then clocked W D first t
    else match lastBefore (clockedOn W D first) t with
      | none => clocked W D first t
      | some _ => clockedArrow W D rest t
  | .ifx b y n, t => do
    match ← condition (← clocked W D b t) with
    | .defined true => clocked W D y t
    | .defined false => clocked W D n t
    | .nil => none
  | .merge b y n, t => do
    match ← condition (← clocked W D b t) with
    | .defined true => clocked W D y t
    | .defined false => clocked W D n t
    | .nil => none
  | .call f args _, t =>
    match W.nodes f with
    | none => none
    | some m => clockedCall m (clockedOnAll W D args)
        (fun u => do return tupleValue (← clockedList W D args u)) t
  | .pre e, t =>
    match lastBefore (clockedOn W D e) t with
    | none => none
    | some u => clocked W D e u
  | .neg e, t => do applyUn W.arith .neg (← clocked W D e t)
  | .not e, t => do applyUn W.arith .not (← clocked W D e t)
/-- The values of a list. -/
def clockedList (W : World) (D : String → Clock) : List Src → Nat → Option (List Value)
  | [], _ => some []
  | e :: es, t => do return (← clocked W D e t) :: (← clockedList W D es t)
/-- Left to right. -/
def clockedLeft (W : World) (D : String → Clock) (acc : Option Value) :
    List (LOp × Src) → Nat → Option Value
  | [], _ => acc
  | (op, e) :: rest, t =>
    clockedLeft W D (clockedOp W.arith op (opened W (op == .when) e t) acc (clocked W D e t)) rest t
/-- At most one comparison; those that have no result are undefined. -/
def clockedCmp (W : World) (D : String → Clock) (lhs : Option Value) :
    List (CmpOp × Src) → Nat → Option Value
  | [], _ => lhs
  | [(op, e)], t => do whole (← applyCmp W.arith op (← lhs) (← clocked W D e t))
  | _ :: _ :: _, _ => none
/-- `e₀ fby (e₁ fby …)`: the first value of the first operand, then the second one, delayed by one
instant of presence. -/
def clockedFby (W : World) (D : String → Clock) : List Src → Nat → Option Value
  | [], _ => none
  | e :: es, t =>
    if es.isEmpty then clocked W D e t
    else match lastBefore (clockedOn W D e) t with
      | none => clocked W D e t
      | some u => clockedFby W D es u
/-- `e₀ -> (e₁ -> …)`: the first value of the first operand, then the second one. -/
def clockedArrow (W : World) (D : String → Clock) : List Src → Nat → Option Value
  | [], _ => none
  | e :: es, t =>
    if es.isEmpty then clocked W D e t
    else match lastBefore (clockedOn W D e) t with
      | none => clocked W D e t
      | some _ => clockedArrow W D es t
end

/-- Every operand of a `->` chain but the last one is initialised, up to instant `t`, whenever it is
present. -/
def Started (W : World) (D : String → Clock) (t : Nat) : List Src → Prop
  | [] => True
  | [_] => True
  | e :: e' :: es =>
    (∀ u, u ≤ t → clockedOn W D e u = true → (clocked W D e u).isSome) ∧ Started W D t (e' :: es)

mutual
/-- What is asked of the expressions up to instant `t`: the left-hand sides of `->` are initialised
(see DESIGN.md, F9) and the two branches of an `if` are present together (see F12). -/
def Proper (W : World) (D : String → Clock) (t : Nat) : Src → Prop
  | .lit _ => True
  | .var _ => True
  | .paren es _ => ProperAll W D t es
  | .left first rest => Proper W D t first ∧ ProperLeft W D t rest
  | .cmp first rest => Proper W D t first ∧ ProperCmp W D t rest
  | .fby first rest => Proper W D t first ∧ ProperAll W D t rest
  | .arrow first rest =>
    Proper W D t first ∧ ProperAll W D t rest ∧ Started W D t (first :: rest)
  | .ifx b y n => Proper W D t b ∧ Proper W D t y ∧ Proper W D t n ∧
      ∀ u, u ≤ t → clockedOn W D b u = true → clockedOn W D y u = clockedOn W D n u
  | .merge b y n => Proper W D t b ∧ Proper W D t y ∧ Proper W D t n
  | .call _ args _ => ProperAll W D t args
  | .pre e => Proper W D t e
  | .neg e => Proper W D t e
  | .not e => Proper W D t e
/-- All of them. -/
def ProperAll (W : World) (D : String → Clock) (t : Nat) : List Src → Prop
  | [] => True
  | e :: es => Proper W D t e ∧ ProperAll W D t es
/-- All of them. -/
def ProperLeft (W : World) (D : String → Clock) (t : Nat) : List (LOp × Src) → Prop
  | [] => True
  | (_, e) :: rest => Proper W D t e ∧ ProperLeft W D t rest
/-- All of them. -/
def ProperCmp (W : World) (D : String → Clock) (t : Nat) : List (CmpOp × Src) → Prop
  | [] => True
  | (_, e) :: rest => Proper W D t e ∧ ProperCmp W D t rest
end

/-- Of an equation or of an assertion. -/
def ProperStmt (W : World) (D : String → Clock) (t : Nat) : SrcStmt → Prop
  | .def_ _ e => Proper W D t e
  | .assert e => Proper W D t e

/-- The clocks with which the variables of a node are declared. -/
def SrcNode.clocks (n : SrcNode) (x : String) : Clock :=
  match (n.inputs ++ n.outputs ++ n.locals).find? fun a => decide (x ∈ a.ids) with
  | some a => a.clk
  | none => .implicit

/-- In the emitted code every variable is bound and every register is set up before it is used: this
is what rustc asks (see DESIGN.md, F4). -/
def BoundBeforeUse (n : Node) : Prop := Sorted (n.inputs.map (·.name)) [] n.stmts

/-- The streams agree with the clocked reference at an instant: what the left-hand side of an
equation gets has no value when its right-hand side is absent, and it is the value of the right-hand
side when there is one.  Assertions hold. -/
def ClockedHolds (W : World) (D : String → Clock) (t : Nat) : SrcStmt → Prop
  | .def_ p e => ∃ v, Target.Gets (W.X · t) p v ∧ (clockedOn W D e t = false → Blank v) ∧
    (clockedOn W D e t = true → ∀ w, clocked W D e t = some w → v = w)
  | .assert e => clockedOn W D e t = true →
    ∀ w, clocked W D e t = some w → w = .leaf (.defined (.bool true))

/-- The streams solve an equation at an instant in the clocked reference, and its right-hand side is
initialised.  Assertions are left aside: the node panics when one does not hold. -/
def ClockedDefines (W : World) (D : String → Clock) (t : Nat) : SrcStmt → Prop
  | .def_ p e => clockedOn W D e t = true →
    ∃ w, clocked W D e t = some w ∧ Target.Gets (W.X · t) p w
  | .assert _ => True

/-- The streams `W.X` are a solution of the equations of a node in the clocked reference, over a
sequence of inputs that are present.  Everything that is present is initialised. -/
structure ClockedSolution (W : World) (n : SrcNode) (is : List Value) : Prop where
  inputs : ∀ t i, is[t]? = some i → argNames n.inputs ≠ [] →
    i = together (W.X · t) (argNames n.inputs)
  absent : ∀ t, t < is.length → ∀ x, due W.X (SrcNode.clocks n x) t = false → W.X x t = .nil
  defs : ∀ t, t < is.length → ∀ st ∈ n.defs, ClockedDefines W (SrcNode.clocks n) t st

mutual
/-- No `when`, `whenot` or `merge`, and no chain of three or more operands of `->` without
parentheses. -/
def Unclocked : Src → Bool
  | .lit _ => true
  | .var _ => true
  | .paren es _ => UnclockedAll es
  | .left first rest => Unclocked first && UnclockedLeft rest
  | .cmp first rest => Unclocked first && UnclockedCmp rest
  | .fby first rest => Unclocked first && UnclockedAll rest
  | .arrow first rest => Unclocked first && UnclockedAll rest && decide (rest.length ≤ 1)
  | .ifx b y n => Unclocked b && Unclocked y && Unclocked n
  | .merge _ _ _ => false
  | .call _ args _ => UnclockedAll args
  | .pre e => Unclocked e
  | .neg e => Unclocked e
  | .not e => Unclocked e
/-- All of them. -/
def UnclockedAll : List Src → Bool
  | [] => true
  | e :: es => Unclocked e && UnclockedAll es
/-- All of them, and no clock operator. -/
def UnclockedLeft : List (LOp × Src) → Bool
  | [] => true
  | (op, e) :: rest => op != .when && op != .whenot && Unclocked e && UnclockedLeft rest
/-- All of them. -/
def UnclockedCmp : List (CmpOp × Src) → Bool
  | [] => true
  | (_, e) :: rest => Unclocked e && UnclockedCmp rest
end

/-- A node without clocks. -/
def UnclockedNode (n : SrcNode) : Prop :=
  (∀ a ∈ n.inputs ++ n.outputs ++ n.locals, a.clk = .implicit) ∧
    ∀ st ∈ n.defs, match st with
      | .def_ _ e => Unclocked e = true
      | .assert e => Unclocked e = true

end Chandeliers.Spec
