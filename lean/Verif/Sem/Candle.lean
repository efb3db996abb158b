import Verif.Sem.Nillable

/-!
# Expression macros on scalars

Model of the comparison macros of `chandeliers-sem/src/candle.rs`.  The macros that act on
whole tuples (`ifx!`, `when!`, …) are in `Verif.Sem.Stepping`, those that need the node state
(`var!`, `later!`, `substep!`, `tick!`) are in `Verif.San.Eval`.
-/

namespace Chandeliers

/-- The six comparison tokens accepted by `cmp!` (candle.rs 424-443). -/
inductive CmpOp where
  | eq | ne | lt | gt | le | ge
  deriving DecidableEq, Repr

namespace Candle

variable {α : Type}

/-- candle.rs 390-398, `nillable_cmp_ord!`. -/
def nillableCmpOrd (ord : Ordering) (res : Bool) (pcmp : α → α → Option Ordering)
    (lhs rhs : Nillable α) : Nillable Bool :=
  match lhs.cmp pcmp rhs with
  | some o => if o = ord then .defined res else .defined (!res)
  | none => .nil

/-- candle.rs 403-411, `nillable_cmp_eq!`. -/
def nillableCmpEq (equal : Bool) (beq : α → α → Bool) (lhs rhs : Nillable α) : Nillable Bool :=
  match lhs.eq beq rhs with
  | some true => .defined equal
  | some false => .defined (!equal)
  | none => .nil

/-- candle.rs 424-443, `cmp!`. -/
def cmp (beq : α → α → Bool) (pcmp : α → α → Option Ordering) :
    CmpOp → Nillable α → Nillable α → Nillable Bool
  | .eq, l, r => nillableCmpEq true beq l r
  | .ne, l, r => nillableCmpEq false beq l r
  | .lt, l, r => nillableCmpOrd .lt true pcmp l r
  | .gt, l, r => nillableCmpOrd .gt true pcmp l r
  | .le, l, r => nillableCmpOrd .gt false pcmp l r
  | .ge, l, r => nillableCmpOrd .lt false pcmp l r

/-- candle.rs 450-460, `truth!`. -/
def truth : Nillable Bool → R Unit
  | .defined true => .ok ()
  | .defined false => .error .assertFalse
  | .nil => .error .assertNil

/-- candle.rs 290-294, `float!` (the conversion is a parameter). -/
def float {β : Type} (conv : α → β) (v : Nillable α) : Nillable β := v.map conv

end Candle
end Chandeliers
