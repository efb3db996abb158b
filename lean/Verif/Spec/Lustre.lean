import Verif.Spec.Reference
import Verif.Spec.Solutions

/-!
# Lustre

The usual semantics of the expressions of the language, by recursion on the expression and on
time.  `none` means that the expression has no value at that instant: `pre` at the first instant,
or an operation that fails.
-/

set_option autoImplicit false

namespace Chandeliers.Spec
open San Syn

mutual
/-- The value of an expression. -/
def lustre (W : World) : Src → Nat → Option Value
  | .lit l, _ => litValue l
  | .var x, t =>
    if x ∈ W.locals then some (.leaf (W.X x t)) else (W.glob x).map fun v => .leaf (.defined v)
  | .paren es _, t => do return tupleValue (← lustreList W es t)
  | .left first rest, t => do lustreLeft W (← lustre W first t) rest t
  | .cmp first rest, t => do lustreCmp W (← lustre W first t) rest t
  | .fby first rest, t => if rest.isEmpty ∨ t = 0 then lustre W first t else lustreFby W rest (t - 1)
  | .arrow first rest, t =>
    if rest.isEmpty ∨ t = 0 then lustre W first t else lustreArrow W 1 rest t
  | .ifx b y n, t => do
    match ← condition (← lustre W b t) with
    | .defined true => lustre W y t
    | .defined false => lustre W n t
    | .nil => return (← lustre W y t).nilLike
  | .merge b y n, t => do
    match ← condition (← lustre W b t) with
    | .defined true => lustre W y t
    | .defined false => lustre W n t
    | .nil => return (← lustre W y t).nilLike
  | .call f args _, t =>
    match W.nodes f with
    | none => none
    | some m => callAt m (fun u => do return tupleValue (← lustreList W args u)) t
  | .pre _, 0 => none
  | .pre e, t + 1 => lustre W e t
  | .neg e, t => do applyUn W.arith .neg (← lustre W e t)
  | .not e, t => do applyUn W.arith .not (← lustre W e t)
/-- The values of a list. -/
def lustreList (W : World) : List Src → Nat → Option (List Value)
  | [], _ => some []
  | e :: es, t => do return (← lustre W e t) :: (← lustreList W es t)
/-- Left to right. -/
def lustreLeft (W : World) (acc : Value) : List (LOp × Src) → Nat → Option Value
  | [], _ => some acc
  | (op, e) :: rest, t => do lustreLeft W (← applyLOp W.arith op acc (← lustre W e t)) rest t
/-- At most one comparison. -/
def lustreCmp (W : World) (lhs : Value) : List (CmpOp × Src) → Nat → Option Value
  | [], _ => some lhs
  | [(op, e)], t => do applyCmp W.arith op lhs (← lustre W e t)
  | _ :: _ :: _, _ => none
/-- `e₀ fby (e₁ fby …)`: the first value of the first operand, then the second one from its
beginning. -/
def lustreFby (W : World) : List Src → Nat → Option Value
  | [], _ => none
  | e :: es, t => if es.isEmpty ∨ t = 0 then lustre W e t else lustreFby W es (t - 1)
/-- `… eᵢ -> eᵢ₊₁ …`: the operand number `i` until instant `i`. -/
def lustreArrow (W : World) (i : Nat) : List Src → Nat → Option Value
  | [], _ => none
  | e :: es, t => if es.isEmpty ∨ t ≤ i then lustre W e t else lustreArrow W (i + 1) es t
end

mutual
/-- The variables of the left-hand side of an equation have the components of a value. -/
def Target.Gets (X : String → Nillable Scalar) : Target → Value → Prop
  | .var x, .leaf v => X x = v
  | .var _, .tup _ _ => False
  | .tuple [] _, _ => True
  | .tuple [p] _, v => Target.Gets X p v
  | .tuple (p :: p' :: ps) _, .tup h t => Target.Gets X p h ∧ Target.GetList X (p' :: ps) t
  | .tuple (_ :: _ :: _) _, .leaf _ => False
/-- Component-wise. -/
def Target.GetList (X : String → Nillable Scalar) : List Target → List Value → Prop
  | [], [] => True
  | p :: ps, v :: vs => Target.Gets X p v ∧ Target.GetList X ps vs
  | _, _ => False
end

/-- The variables of a node satisfy an equation or an assertion at an instant. -/
def SrcHolds (W : World) (t : Nat) : SrcStmt → Prop
  | .def_ p e => ∃ v, ref W e t = some v ∧ Target.Gets (W.X · t) p v
  | .assert e => ref W e t = some (.leaf (.defined (.bool true)))

/-- The names of a list of declarations. -/
def argNames (as : List ArgsTy) : List String := as.flatMap (·.ids)

/-- The variables of a node. -/
def SrcNode.vars (n : SrcNode) : List String :=
  argNames n.inputs ++ argNames n.outputs ++ argNames n.locals

/-- What variables look like together. -/
def together (X : String → Nillable Scalar) (xs : List String) : Value :=
  tupleValue (xs.map fun x => .leaf (X x))

/-- The streams `W.X` are a solution of the equations of a node over a sequence of inputs, all
present. -/
structure SrcSolution (W : World) (n : SrcNode) (is : List Value) : Prop where
  inputs : ∀ t i, is[t]? = some i → argNames n.inputs ≠ [] → i = together (W.X · t) (argNames n.inputs)
  defs : ∀ t, t < is.length → ∀ st ∈ n.defs, SrcHolds W t st

/-- The streams satisfy an equation at an instant, in the usual semantics.  Assertions are left aside:
the node panics when one does not hold. -/
def LustreDefines (W : World) (t : Nat) : SrcStmt → Prop
  | .def_ p e => ∃ v, lustre W e t = some v ∧ Target.Gets (W.X · t) p v
  | .assert _ => True

/-- The streams `W.X` are a solution of the equations of a node in the usual semantics, over a
sequence of inputs, all present. -/
structure LustreSolution (W : World) (n : SrcNode) (is : List Value) : Prop where
  inputs : ∀ t i, is[t]? = some i → argNames n.inputs ≠ [] → i = together (W.X · t) (argNames n.inputs)
  defs : ∀ t, t < is.length → ∀ st ∈ n.defs, LustreDefines W t st

end Chandeliers.Spec
