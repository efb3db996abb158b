import Verif.San.Eval
import Verif.Spec.Typing

/-!
# Compiled expressions as streams

What a compiled expression means at each instant, given the streams of the variables it mentions:
no machine state, no order of evaluation.
-/

set_option autoImplicit false

namespace Chandeliers.Spec
open San

/-- The streams that expressions refer to. -/
structure Flow where
  /-- The value of each variable at each instant. -/
  X : String → Nat → Nillable Scalar
  /-- Whether each register is on clock at each instant. -/
  C : Nat → Nat → Bool
  /-- The shape of the values of each register. -/
  shape : Nat → Tup Unit

/-- `f lo`, then `f (lo + 1)`, ... up to but not including `t`. -/
def iter {σ : Type} (f : Nat → σ → R σ) (s : σ) (lo : Nat) : Nat → R σ
  | 0 => .ok s
  | t + 1 => if t < lo then .ok s else do f t (← iter f s lo t)

/-- A register told whether it is on clock. -/
def Register.clocked (c : Bool) (r : Register Scalar) : Register Scalar := { r with onClock := c }

/-- What a register with clock `c` does at an instant where it is given `n` (`pre`). -/
def Register.preStep (c : Bool) (n : Value) (r : Register Scalar) : Register Scalar :=
  ((Register.clocked c r).schedule n).commit

/-- What a register with clock `c` does at an instant where it is given `i` and `n` (`fby`). -/
def Register.fbyStep (c : Bool) (i n : Value) (r : Register Scalar) : Register Scalar :=
  (((Register.clocked c r).tryInitialize i).schedule n).commit

section
variable (A : Arith) (glob : Globals) (ms : List Machine) (F : Flow)

/-- The register of a `pre` at the beginning of instant `t`. -/
def preReg (id : Nat) (next : Nat → R Value) : Nat → R (Register Scalar) :=
  iter (fun u r => do return Register.preStep (F.C id u) (← next u) r)
    (Register.default Scalar (F.shape id)) 0

/-- The register of an `fby` at the beginning of instant `t`. -/
def fbyReg (id : Nat) (init next : Nat → R Value) : Nat → R (Register Scalar) :=
  iter (fun u r => do return Register.fbyStep (F.C id u) (← init u) (← next u) r)
    (Register.default Scalar (F.shape id)) 0

/-- Whether the left-hand side of a flip was never present since `lo`. -/
def flipFresh (initial : Nat → R Value) (lo : Nat) : Nat → R Bool :=
  iter (fun u b => do return b && (← initial u).firstIsNil) true lo

/-- The state of a subnode that has been given `args` since `lo`. -/
def subState (m : Machine) (args : Nat → R Value) (lo : Nat) : Nat → R m.σ :=
  iter (fun u s => do return (← m.step s (← args u)).2) m.init lo

mutual
/-- The value at instant `t` of an expression in use since instant `lo`. -/
def den (lo : Nat) : Expr → Nat → R Value
  | .lit l, _ => .ok (.leaf (.defined l.scalar))
  | .global x, _ =>
    match glob x with
    | some v => .ok (.leaf (.defined v))
    | none => .error .rejected
  | .var x d, t => .ok (.leaf (if t < d then .nil else F.X x (t - d)))
  | .tuple es, t => do return tupleValue (← denList lo es t)
  | .dummyPre e, t => den lo e t
  | .dummyParen e, t => den lo e t
  | .bin op l r, t => do
    let l ← den lo l t
    let r ← den lo r t
    return .leaf (← (← asLeaf l).binop (scalarBin A op) (← asLeaf r))
  | .un op e, t => do
    let v ← den lo e t
    return .leaf (← (← asLeaf v).unop (scalarUn A op))
  | .cmp op l r, t => do
    let l ← den lo l t
    let r ← den lo r t
    return .leaf (← scalarCmp A op (← asLeaf l) (← asLeaf r))
  | .clock op e b, t => do
    let b ← asBool (← den lo b t)
    let v ← den lo e t
    match op with
    | .when => return Candle.when b v
    | .whenot => return Candle.whenot b v
  | .later d before after, t => do
    let v ← den lo after t
    if d < t then return v else den lo before t
  | .fetchPre id f, t => do
    let r ← preReg F id (den 0 f) t
    return (Register.clocked (F.C id t) r).get
  | .fetchFby id i f, t => do
    let r ← fbyReg F id (den 0 i) (den 0 f) t
    return ((Register.clocked (F.C id t) r).tryInitialize (← den 0 i t)).get
  | .flip _ i c, t => do
    let v ← den lo i t
    let w ← den lo c t
    if v.firstIsNil then return v.nilLike
    else return if ← flipFresh (den lo i) lo t then v else w
  | .ifx b y n, t => do
    let y ← den lo y t
    let n ← den lo n t
    return Candle.ifx (← asBool (← den lo b t)) y n
  | .merge b y n, t => do
    let b ← asBool (← den lo b t)
    let y ← den lo y t
    let n ← den lo n t
    return Candle.merge b y n
  | .substep d i args, t =>
    if d ≤ t then do
      let a ← den (max lo d) args t
      match ms[i]? with
      | none => .error .rejected
      | some m => do
        let s ← subState m (den (max lo d) args) (max lo d) t
        return (← m.step s a).1
    else
      match ms[i]? with
      | none => .error .rejected
      | some m => .ok (Tup.allNil Scalar m.outTy)
/-- Component-wise. -/
def denList (lo : Nat) : List Expr → Nat → R (List Value)
  | [], _ => .ok []
  | e :: es, t => do return (← den lo e t) :: (← denList lo es t)
end

end

mutual
/-- The slots whose state an expression uses when it is evaluated: all its slots, except those of
the expressions kept inside a register read, which are evaluated elsewhere. -/
def live : Expr → List Slot
  | .lit _ => []
  | .global _ => []
  | .var _ _ => []
  | .tuple es => liveList es
  | .dummyPre e => live e
  | .dummyParen e => live e
  | .bin _ l r => live l ++ live r
  | .un _ e => live e
  | .cmp _ l r => live l ++ live r
  | .clock _ e b => live e ++ live b
  | .later _ e e' => live e ++ live e'
  | .fetchPre _ _ => []
  | .fetchFby _ _ _ => []
  | .flip i e e' => .flip i :: (live e ++ live e')
  | .ifx b y n => live b ++ (live y ++ live n)
  | .merge b y n => live b ++ (live y ++ live n)
  | .substep _ i e => .sub i :: live e
/-- Of a list of expressions. -/
def liveList : List Expr → List Slot
  | [] => []
  | e :: es => live e ++ liveList es
end

end Chandeliers.Spec
