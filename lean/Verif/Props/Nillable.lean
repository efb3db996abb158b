import Verif.Sem.Candle

/-!
# C01, C02, C03, C14 (scalar part): nillable scalars
-/

namespace Chandeliers.Props

variable {α : Type}

/-! ## C01 -/

/-- A binary operator yields nil exactly when an operand is nil. -/
theorem C01_binop_nil_iff (op : α → α → R α) (a b : Nillable α) :
    a.binop op b = .ok .nil ↔ (a = .nil ∨ b = .nil) := by
  cases a <;> cases b <;> simp [Nillable.binop]
  rename_i x y
  cases op x y <;> simp [Except.map]

/-- On defined operands a binary operator is the scalar operation, panics included. -/
theorem C01_binop_defined (op : α → α → R α) (x y : α) :
    (Nillable.defined x).binop op (.defined y) =
      match op x y with
      | .ok z => .ok (.defined z)
      | .error p => .error p := by
  simp only [Nillable.binop]
  cases op x y <;> rfl

/-- A binary operator panics exactly when both operands are defined and the scalar operation
panics on them. -/
theorem C01_binop_panic_iff (op : α → α → R α) (a b : Nillable α) (p : Panic) :
    a.binop op b = .error p ↔ ∃ x y, a = .defined x ∧ b = .defined y ∧ op x y = .error p := by
  cases a <;> cases b <;> simp [Nillable.binop]
  rename_i x y
  cases op x y <;> simp [Except.map]

/-- A unary operator yields nil exactly when its operand is nil. -/
theorem C01_unop_nil_iff (op : α → R α) (a : Nillable α) :
    a.unop op = .ok .nil ↔ a = .nil := by
  cases a <;> simp [Nillable.unop]
  rename_i x
  cases op x <;> simp [Except.map]

/-- On a defined operand a unary operator is the scalar operation. -/
theorem C01_unop_defined (op : α → R α) (x : α) :
    (Nillable.defined x).unop op =
      match op x with
      | .ok z => .ok (.defined z)
      | .error p => .error p := by
  simp only [Nillable.unop]
  cases op x <;> rfl

example : (Nillable.defined 5).binop (fun x y => .ok (x + y)) (.defined 6) = .ok (.defined 11) := rfl
example : (Nillable.defined 5).binop (fun x y => .ok (x + y)) .nil = .ok .nil := rfl

/-! ## C02 -/

/-- Truth of a comparison token for two scalars, as a user reads it: equality through
`PartialEq`, ordering through `PartialOrd`. -/
def CmpHolds (beq : α → α → Bool) (pcmp : α → α → Option Ordering) : CmpOp → α → α → Prop
  | .eq, x, y => beq x y = true
  | .ne, x, y => beq x y = false
  | .lt, x, y => pcmp x y = some .lt
  | .gt, x, y => pcmp x y = some .gt
  | .le, x, y => pcmp x y = some .lt ∨ pcmp x y = some .eq
  | .ge, x, y => pcmp x y = some .gt ∨ pcmp x y = some .eq

/-- An ordering token, as opposed to `==` and `!=`. -/
def IsOrder : CmpOp → Prop
  | .eq | .ne => False
  | _ => True

/-- A comparison is nil exactly when an operand is nil or, for the ordering tokens, the
operands are incomparable. -/
theorem C02_cmp_nil_iff (beq : α → α → Bool) (pcmp : α → α → Option Ordering) (op : CmpOp)
    (a b : Nillable α) :
    Candle.cmp beq pcmp op a b = .nil ↔
      (a = .nil ∨ b = .nil ∨
        ∃ x y, a = .defined x ∧ b = .defined y ∧ IsOrder op ∧ pcmp x y = none) := by
  cases a <;> cases b <;> cases op <;>
    simp [Candle.cmp, Candle.nillableCmpOrd, Candle.nillableCmpEq, Nillable.cmp, Nillable.eq, IsOrder]
  all_goals (rename_i x y; first | (cases pcmp x y <;> simp; split <;> simp) | cases beq x y <;> simp)

/-- A comparison is true exactly when the relation named by the token holds. -/
theorem C02_cmp_true_iff (beq : α → α → Bool) (pcmp : α → α → Option Ordering) (op : CmpOp)
    (x y : α) :
    Candle.cmp beq pcmp op (.defined x) (.defined y) = .defined true ↔ CmpHolds beq pcmp op x y := by
  cases op <;>
    simp [Candle.cmp, Candle.nillableCmpOrd, Candle.nillableCmpEq, Nillable.cmp, Nillable.eq, CmpHolds]
  case eq => cases beq x y <;> simp
  case ne => cases beq x y <;> simp
  all_goals (cases h : pcmp x y <;> simp <;> rename_i o <;> cases o <;> simp)

/-- Each token is the negation of its opposite, including on nil and incomparable operands
(where both are nil). -/
theorem C02_negation (beq : α → α → Bool) (pcmp : α → α → Option Ordering) (a b : Nillable α) :
    Candle.cmp beq pcmp .ge a b = (Candle.cmp beq pcmp .lt a b).map not ∧
    Candle.cmp beq pcmp .le a b = (Candle.cmp beq pcmp .gt a b).map not ∧
    Candle.cmp beq pcmp .ne a b = (Candle.cmp beq pcmp .eq a b).map not := by
  refine ⟨?_, ?_, ?_⟩ <;>
    simp only [Candle.cmp, Candle.nillableCmpOrd, Candle.nillableCmpEq]
  · cases a.cmp pcmp b <;> simp [Nillable.map]; split <;> simp
  · cases a.cmp pcmp b <;> simp [Nillable.map]; split <;> simp
  · cases a.eq beq b <;> simp [Nillable.map]; rename_i b; cases b <;> simp

/-- Swapping the operands mirrors the token, when the scalar comparison is antisymmetric
(`partial_cmp(y, x)` is the reverse of `partial_cmp(x, y)`) and equality symmetric. -/
theorem C02_swap (beq : α → α → Bool) (pcmp : α → α → Option Ordering)
    (hp : ∀ x y, pcmp y x = (pcmp x y).map Ordering.swap) (he : ∀ x y, beq y x = beq x y)
    (a b : Nillable α) :
    Candle.cmp beq pcmp .lt a b = Candle.cmp beq pcmp .gt b a ∧
    Candle.cmp beq pcmp .le a b = Candle.cmp beq pcmp .ge b a ∧
    Candle.cmp beq pcmp .eq a b = Candle.cmp beq pcmp .eq b a ∧
    Candle.cmp beq pcmp .ne a b = Candle.cmp beq pcmp .ne b a := by
  cases a <;> cases b <;>
    simp [Candle.cmp, Candle.nillableCmpOrd, Candle.nillableCmpEq, Nillable.cmp, Nillable.eq]
  rename_i x y
  rw [hp x y, he x y]
  rcases pcmp x y with _ | o
  · simp
  · cases o <;> simp

/-- When equality agrees with the ordering, `<=` is `<` or `==`, and on comparable operands
exactly one of `<`, `==`, `>` holds. -/
theorem C02_total (beq : α → α → Bool) (pcmp : α → α → Option Ordering)
    (hc : ∀ x y, beq x y = true ↔ pcmp x y = some .eq) (x y : α) (o : Ordering)
    (ho : pcmp x y = some o) :
    (CmpHolds beq pcmp .le x y ↔ (CmpHolds beq pcmp .lt x y ∨ CmpHolds beq pcmp .eq x y)) ∧
    (Candle.cmp beq pcmp .lt (.defined x) (.defined y) = .defined (o == .lt)) ∧
    (Candle.cmp beq pcmp .eq (.defined x) (.defined y) = .defined (o == .eq)) ∧
    (Candle.cmp beq pcmp .gt (.defined x) (.defined y) = .defined (o == .gt)) := by
  have e : beq x y = (o == .eq) := by
    have := hc x y
    rw [ho] at this
    rcases h : beq x y <;> cases o <;> simp_all
  cases o <;>
    simp [CmpHolds, Candle.cmp, Candle.nillableCmpOrd, Candle.nillableCmpEq, Nillable.cmp,
      Nillable.eq, ho, e]

/-- The integers meet the hypotheses of `C02_swap` and `C02_total`. -/
example : (∀ x y : Int, (some (compare y x)) = (some (compare x y)).map Ordering.swap) ∧
    (∀ x y : Int, (x == y) = true ↔ some (compare x y) = some .eq) := by
  constructor
  · intro x y; simp [Int.compare_swap]
  · intro x y; simp [compare, compareOfLessAndEq]; split <;> (try split) <;> simp_all <;> omega

/-- An incomparable pair (NaN) is nil for the ordering tokens though `==` answers. -/
example : Candle.cmp (fun _ _ : Unit => false) (fun _ _ => none) .lt (.defined ()) (.defined ()) = .nil ∧
    Candle.cmp (fun _ _ : Unit => false) (fun _ _ => none) .eq (.defined ()) (.defined ()) =
      .defined false := by decide

/-! ## C03 -/

/-- `is` is an equivalence whenever the scalar equality is one. -/
theorem C03_is_equivalence (beq : α → α → Bool)
    (hr : ∀ x, beq x x = true) (hs : ∀ x y, beq x y = true → beq y x = true)
    (ht : ∀ x y z, beq x y = true → beq y z = true → beq x z = true) :
    (∀ a : Nillable α, a.is beq a = true) ∧
    (∀ a b : Nillable α, a.is beq b = true → b.is beq a = true) ∧
    (∀ a b c : Nillable α, a.is beq b = true → b.is beq c = true → a.is beq c = true) := by
  refine ⟨?_, ?_, ?_⟩
  · rintro (_ | _) <;> simp [Nillable.is, hr]
  · rintro (_ | _) (_ | _) <;> simp [Nillable.is]; exact hs _ _
  · rintro (_ | _) (_ | _) (_ | _) <;> simp [Nillable.is]; exact ht _ _ _

/-- nil is identical to nil only. -/
theorem C03_is_nil_iff (beq : α → α → Bool) (a : Nillable α) :
    (a.is beq .nil = true ↔ a = .nil) ∧ (Nillable.is beq .nil a = true ↔ a = .nil) := by
  cases a <;> simp [Nillable.is]

/-- `eq` answers exactly on defined pairs, and there it agrees with `is`. -/
theorem C03_eq_iff (beq : α → α → Bool) (a b : Nillable α) (r : Bool) :
    a.eq beq b = some r ↔ (a ≠ .nil ∧ b ≠ .nil ∧ a.is beq b = r) := by
  cases a <;> cases b <;> simp [Nillable.eq, Nillable.is]

/-- `assert_is!` panics exactly when the operands are not identical. -/
theorem C03_assertIs_iff (beq : α → α → Bool) (a b : Nillable α) :
    (a.assertIs beq b = .ok () ↔ a.is beq b = true) ∧
    (a.assertIs beq b = .error .notIdentical ↔ a.is beq b = false) := by
  cases h : a.is beq b <;> simp [Nillable.assertIs, h]

example : (∀ x : Int, (x == x) = true) ∧ (∀ x y : Int, (x == y) = true → (y == x) = true) ∧
    (∀ x y z : Int, (x == y) = true → (y == z) = true → (x == z) = true) := by
  refine ⟨by simp, ?_, ?_⟩ <;> simp <;> omega

/-! ## C14, scalar part -/

/-- `truth!` passes exactly on `true`, and distinguishes false from nil. -/
theorem C14_truth_iff (b : Nillable Bool) :
    (Candle.truth b = .ok () ↔ b = .defined true) ∧
    (Candle.truth b = .error .assertFalse ↔ b = .defined false) ∧
    (Candle.truth b = .error .assertNil ↔ b = .nil) := by
  rcases b with (_ | _) | _ <;> simp [Candle.truth]

end Chandeliers.Props
