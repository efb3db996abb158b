import Verif.Lemmas.TimeTravel
import Verif.Spec.Basic

/-!
# C04, C05: histories
-/

namespace Chandeliers.Props

variable {T : Type}

/-- C04.  After any updates of a fresh history of capacity `k + 1`, reading `d` instants ago
gives the `d`-th most recently pushed value. -/
theorem C04_ago_most_recent (k : Nat) (pushed : List (Nillable T)) (d : Nat)
    (h1 : 1 ≤ d) (h2 : d ≤ k + 1) :
    ((Hist.default k).updates pushed).ago d = .ok (Spec.dthMostRecent pushed d) := by
  obtain ⟨d, rfl⟩ : ∃ d', d = d' + 1 := ⟨d - 1, by omega⟩
  rw [Hist.ago_eq, Hist.toList_updates, Hist.toList_default]
  simp only [Spec.dthMostRecent, Nat.add_sub_cancel]
  rw [List.getElem?_take_of_lt (by omega)]
  by_cases hd : d < pushed.length
  · rw [List.getElem?_append_left (by simpa using hd)]
    have : pushed.reverse[d]? = some (pushed.reverse[d]'(by simpa using hd)) := by simp [hd]
    rw [this]
  · have : pushed.reverse[d]? = none := by simp; omega
    rw [List.getElem?_append_right (by simp; omega), this]
    simp only [List.length_reverse, List.getElem?_replicate]
    rw [if_pos (by omega)]

example : Spec.dthMostRecent [.defined 1, .defined 2, .defined 3] 2 = Nillable.defined 2 := rfl
example : ((Hist.default 1).updates [.defined 1, .defined 2, .defined 3]).ago 2
    = .ok (Nillable.defined 2) := rfl
example : ((Hist.default 1).updates [.defined 3]).ago 2 = .ok (Nillable.nil : Nillable Nat) := rfl

/-- C05.  A read panics exactly at distance 0 or beyond the capacity, whatever was stored. -/
theorem C05_ago_panics_iff {k : Nat} (h : Hist T k) (d : Nat) :
    (∃ p, h.ago d = .error p) ↔ (d = 0 ∨ d > k + 1) := by
  cases d with
  | zero => simp [Hist.ago_zero]
  | succ d =>
    rw [Hist.ago_eq]
    by_cases hd : d < k + 1
    · have : h.toList[d]? = some (h.toList[d]'(by rw [Hist.length_toList]; exact hd)) :=
        List.getElem?_eq_getElem _
      rw [this]; simp; omega
    · have : h.toList[d]? = none := by
        rw [List.getElem?_eq_none_iff, Hist.length_toList]; omega
      rw [this]; simp; omega

/-- C05.  The two panic messages tell the two causes apart. -/
theorem C05_ago_panic_kind {k : Nat} (h : Hist T k) (d : Nat) :
    (h.ago d = .error .agoZero ↔ d = 0) ∧ (h.ago d = .error .agoTooFar ↔ d > k + 1) := by
  cases d with
  | zero => simp [Hist.ago_zero]
  | succ d =>
    rw [Hist.ago_eq]
    by_cases hd : d < k + 1
    · have : h.toList[d]? = some (h.toList[d]'(by rw [Hist.length_toList]; exact hd)) :=
        List.getElem?_eq_getElem _
      rw [this]; simp; omega
    · have : h.toList[d]? = none := by
        rw [List.getElem?_eq_none_iff, Hist.length_toList]; omega
      rw [this]; simp; omega

/-- C05.  One update: distance 1 reads the new value, distance `d + 1` reads what was at
distance `d`; the oldest value is forgotten and the capacity is unchanged. -/
theorem C05_update_shifts {k : Nat} (h : Hist T k) (v : Nillable T) :
    (h.update v).ago 1 = .ok v ∧
    (∀ d, 1 ≤ d → d ≤ k → (h.update v).ago (d + 1) = h.ago d) ∧
    (∀ d, d > k + 1 → (h.update v).ago d = .error .agoTooFar) := by
  refine ⟨?_, ?_, ?_⟩
  · rw [Hist.ago_eq, Hist.toList_update]; rfl
  · intro d h1 h2
    obtain ⟨d, rfl⟩ : ∃ d', d = d' + 1 := ⟨d - 1, by omega⟩
    rw [Hist.ago_eq, Hist.ago_eq, Hist.toList_update]
    simp only [List.getElem?_cons_succ, List.dropLast_eq_take, Hist.length_toList]
    rw [List.getElem?_take_of_lt (by omega)]
  · intro d hd
    exact ((C05_ago_panic_kind _ d).2).2 hd

/-- C05.  Extending: distance 1 reads the new value and nothing is forgotten. -/
theorem C05_extend_shifts {k : Nat} (h : Hist T k) (v : Nillable T) :
    (h.extend v).ago 1 = .ok v ∧ (∀ d, 1 ≤ d → (h.extend v).ago (d + 1) = h.ago d) := by
  refine ⟨?_, ?_⟩
  · rw [Hist.ago_eq, Hist.toList_extend]; rfl
  · intro d h1
    obtain ⟨d, rfl⟩ : ∃ d', d = d' + 1 := ⟨d - 1, by omega⟩
    rw [Hist.ago_eq, Hist.ago_eq, Hist.toList_extend]
    simp

/-- C05.  A history is determined by what can be read from it. -/
theorem C05_observational {k : Nat} (h h' : Hist T k)
    (heq : ∀ d, 1 ≤ d → d ≤ k + 1 → h.ago d = h'.ago d) : h = h' := by
  apply Hist.toList_inj
  apply List.ext_getElem?
  intro d
  by_cases hd : d < k + 1
  · have e := heq (d + 1) (by omega) (by omega)
    rw [Hist.ago_eq, Hist.ago_eq] at e
    have e1 : h.toList[d]? = some (h.toList[d]'(by rw [Hist.length_toList]; exact hd)) :=
      List.getElem?_eq_getElem _
    have e2 : h'.toList[d]? = some (h'.toList[d]'(by rw [Hist.length_toList]; exact hd)) :=
      List.getElem?_eq_getElem _
    rw [e1, e2] at e ⊢
    simpa using e
  · rw [List.getElem?_eq_none, List.getElem?_eq_none] <;> (rw [Hist.length_toList]; omega)

example : (Hist.s (.defined 7) (.o .nil) : Hist Nat 1).ago 0 = .error .agoZero ∧
    (Hist.s (.defined 7) (.o .nil) : Hist Nat 1).ago 3 = .error .agoTooFar ∧
    (Hist.s (.defined 7) (.o .nil) : Hist Nat 1).ago 1 = .ok (.defined 7) := ⟨rfl, rfl, rfl⟩

end Chandeliers.Props
