import Verif.Sem.TimeTravel

/-! Helper lemmas on histories: abstraction to the list of remembered values. -/

namespace Chandeliers.Hist

variable {T : Type}

/-- Remembered values, most recent first. -/
def toList : {n : Nat} → Hist T n → List (Nillable T)
  | _, .o c => [c]
  | _, .s c p => c :: p.toList

theorem length_toList : ∀ {n : Nat} (h : Hist T n), h.toList.length = n + 1
  | _, .o _ => rfl
  | _, .s _ p => by simp [toList, length_toList p]

theorem toList_inj : ∀ {n : Nat} (h h' : Hist T n), h.toList = h'.toList → h = h'
  | _, .o _, .o _, e => by simp_all [toList]
  | _, .s _ p, .s _ p', e => by
    simp only [toList, List.cons.injEq] at e
    rw [e.1, toList_inj p p' e.2]

theorem toList_default : ∀ n, (default n : Hist T n).toList = List.replicate (n + 1) .nil
  | 0 => rfl
  | n + 1 => by simp [default, toList, toList_default n, List.replicate_succ]

theorem ago_eq : ∀ {n : Nat} (h : Hist T n) (d : Nat),
    h.ago (d + 1) = match h.toList[d]? with
      | some v => .ok v
      | none => .error .agoTooFar
  | _, .o c, 0 => rfl
  | _, .o c, d + 1 => by simp [ago, toList]
  | _, .s c p, 0 => rfl
  | _, .s c p, d + 1 => by simp [ago, toList, ago_eq p d]

theorem ago_zero : ∀ {n : Nat} (h : Hist T n), h.ago 0 = .error .agoZero
  | _, .o _ => rfl
  | _, .s _ _ => rfl

theorem toList_downcast : ∀ {n : Nat} (h : Hist T (n + 1)), h.downcast.toList = h.toList.dropLast
  | _, .s c (.o _) => by simp [downcast, toList]
  | _, .s c (.s c' p) => by
    have := toList_downcast (.s c' p)
    simp only [downcast, toList] at this ⊢
    rw [this]; rfl

theorem toList_update : ∀ {n : Nat} (h : Hist T n) (v : Nillable T),
    (h.update v).toList = v :: h.toList.dropLast
  | _, .o c, v => rfl
  | _, .s c p, v => by simp [update, toList, toList_downcast]

theorem toList_extend : ∀ {n : Nat} (h : Hist T n) (v : Nillable T),
    (h.extend v).toList = v :: h.toList
  | _, .o c, v => rfl
  | _, .s c p, v => by simp [extend, toList, toList_extend p]

theorem dropLast_take_succ {β : Type} (l : List β) (n : Nat) (h : l.length ≥ n + 1) :
    (l.take (n + 1)).dropLast = l.take n := by
  rw [List.dropLast_eq_take, List.length_take, Nat.min_eq_left h, List.take_take]
  congr 1
  omega

theorem toList_updates {n : Nat} (h : Hist T n) (vs : List (Nillable T)) :
    (h.updates vs).toList = (vs.reverse ++ h.toList).take (n + 1) := by
  induction vs generalizing h with
  | nil => simp [updates, List.take_of_length_le (Nat.le_of_eq (length_toList h))]
  | cons v vs ih =>
    simp only [updates, ih, toList_update, List.reverse_cons, List.append_assoc, List.singleton_append]
    have hl := length_toList h
    have : h.toList.dropLast = h.toList.take n := by
      rw [List.dropLast_eq_take, hl]; rfl
    rw [this, List.take_append, List.take_append]
    congr 1
    cases hk : n + 1 - vs.reverse.length with
    | zero => simp
    | succ k =>
      simp only [List.take_succ_cons, List.take_take]
      congr 2
      omega

end Chandeliers.Hist
