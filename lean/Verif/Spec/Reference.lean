import Verif.Syn.Ast
import Verif.San.Eval

/-!
# Reference semantics of expressions without `#[universal_pre]`

The meaning of a source expression at an instant, from the streams of the variables of its node.
There is no translation, no state and no depth here.

Time is extended to the past: before instant 0, variables are nil and calls return nil, and
everything else is as usual.  `none` means that the value cannot be computed: an operation fails.
-/

set_option autoImplicit false

namespace Chandeliers.Spec
open San Syn

/-- What surrounds an expression. -/
structure World where
  /-- the arithmetic of the target -/
  arith : Arith
  /-- the variables of the node -/
  locals : List String
  /-- their values -/
  X : String → Nat → Nillable Scalar
  /-- the global constants -/
  glob : Globals
  /-- the nodes -/
  nodes : String → Option Machine

/-- A literal: integers must fit in 64 bits, strings, characters... have no meaning. -/
def litValue : Syn.Lit → Option Value
  | .bool b => some (.leaf (.defined (.bool b)))
  | .int n => 
    if -2 ^ 63 ≤ n ∧ n < 2 ^ 63 then some (.leaf (.defined (.int (Int64.ofInt n)))) else none
  | .float f => f.map fun f => .leaf (.defined (.float f))
  | .other => none

/-- Operators between scalars. -/
def applyBin (A : Arith) (op : BinOp) : Value → Value → Option Value
  | .leaf a, .leaf b => (a.binop (scalarBin A op) b).toOption.map .leaf
  | _, _ => none

/-- Unary operators. -/
def applyUn (A : Arith) (op : UnOp) : Value → Option Value
  | .leaf a => (a.unop (scalarUn A op)).toOption.map .leaf
  | _ => none

/-- Comparisons. -/
def applyCmp (A : Arith) (op : CmpOp) : Value → Value → Option Value
  | .leaf a, .leaf b => (scalarCmp A op a b).toOption.map .leaf
  | _, _ => none

/-- A condition. -/
def condition : Value → Option (Nillable Bool)
  | .leaf .nil => some .nil
  | .leaf (.defined (.bool b)) => some (.defined b)
  | _ => none

/-- Left associative operators. -/
def applyLOp (A : Arith) : LOp → Value → Value → Option Value
  | .or, a, b => applyBin A .bitOr a b
  | .and, a, b => applyBin A .bitAnd a b
  | .add, a, b => applyBin A .add a b
  | .sub, a, b => applyBin A .sub a b
  | .mul, a, b => applyBin A .mul a b
  | .div, a, b => applyBin A .div a b
  | .rem, a, b => applyBin A .rem a b
  | .when, a, b => do return Candle.when (← condition b) a
  | .whenot, a, b => do return Candle.whenot (← condition b) a

/-- What a node answers at an instant to the arguments it is given since instant 0. -/
def callAt (m : Machine) (args : Nat → Option Value) (t : Nat) : Option Value := do
  let as ← (List.range (t + 1)).mapM args
  let os ← (m.run as).toOption
  os.getLast?

mutual
/-- The value of an expression. -/
def ref (W : World) : Src → Int → Option Value
  | .lit l, _ => litValue l
  | .var x, t =>
    if x ∈ W.locals then some (.leaf (if t < 0 then .nil else W.X x t.toNat))
    else (W.glob x).map fun v => .leaf (.defined v)
  | .paren es _, t => do return tupleValue (← refList W es t)
  | .left first rest, t => do refLeft W (← ref W first t) rest t
  | .cmp first rest, t => do refCmp W (← ref W first t) rest t
  | .fby first rest, t => do
    let later ← refFby W 1 rest t
    if later ≠ [] ∧ t > 0 then later.head? else ref W first t
  | .arrow first rest, t => do
    let later ← refThen W 1 rest t
    if later ≠ [] ∧ t > 0 then later.head? else ref W first t
  | .ifx b y n, t => do
    return Candle.ifx (← condition (← ref W b t)) (← ref W y t) (← ref W n t)
  | .merge b y n, t => do
    return Candle.merge (← condition (← ref W b t)) (← ref W y t) (← ref W n t)
  | .call f args _, t =>
    match W.nodes f with
    | none => none
    | some m =>
      if t < 0 then some (Tup.allNil Scalar m.outTy)
      else callAt m (fun u : Nat => do return tupleValue (← refList W args u)) t.toNat
  | .pre e, t => ref W e (t - 1)
  | .neg e, t => do applyUn W.arith .neg (← ref W e t)
  | .not e, t => do applyUn W.arith .not (← ref W e t)
/-- The values of a list. -/
def refList (W : World) : List Src → Int → Option (List Value)
  | [], _ => some []
  | e :: es, t => do return (← ref W e t) :: (← refList W es t)
/-- Left to right. -/
def refLeft (W : World) (acc : Value) : List (LOp × Src) → Int → Option Value
  | [], _ => some acc
  | (op, e) :: rest, t => do refLeft W (← applyLOp W.arith op acc (← ref W e t)) rest t
/-- At most one comparison. -/
def refCmp (W : World) (lhs : Value) : List (CmpOp × Src) → Int → Option Value
  | [], _ => some lhs
  | [(op, e)], t => do applyCmp W.arith op lhs (← ref W e t)
  | _ :: _ :: _, _ => none
/-- The arms of `e₀ fby e₁ fby …` from the `i`-th on that are not over at instant `t`, the current
one first: arm `i` is used at instant `i` only, and from instant `i` on if it is the last one.  It
starts at instant `i`. -/
def refFby (W : World) (i : Nat) : List Src → Int → Option (List Value)
  | [], _ => some []
  | e :: es, t => do
    let later ← refFby W (i + 1) es t
    if later ≠ [] ∧ t > i then return later else return (← ref W e (t - i)) :: later
/-- The arms of `e₀ -> e₁ -> …` from the `i`-th on that are not over at instant `t`.  All the arms
start at instant 0. -/
def refThen (W : World) (i : Nat) : List Src → Int → Option (List Value)
  | [], _ => some []
  | e :: es, t => do
    let later ← refThen W (i + 1) es t
    if later ≠ [] ∧ t > i then return later else return (← ref W e t) :: later
end

/-- The subnodes of a node are the nodes that its calls name. -/
def Linked (ms : List Machine) (nodes : String → Option Machine) (blocks : List NodeInstance) :
    Prop :=
  ∀ (i : Nat) (b : NodeInstance), blocks[i]? = some b → ms[i]? = nodes b.name

end Chandeliers.Spec
