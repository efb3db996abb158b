import Mathlib.Data.Nat.Count
import Verif.Spec.Steady
import Verif.Lemmas.PresenceNode
import Verif.Lemmas.UniversalDen

/-! # Values that are late by some instants of a clock -/

set_option autoImplicit false
set_option linter.unusedSectionVars false

namespace Chandeliers.Std
open Chandeliers.San Chandeliers.Spec Chandeliers.Syn Chandeliers.Den Chandeliers.Pres Chandeliers.Uni
open Chandeliers.Spec.Static

section
variable {X : String → Nat → Nillable Scalar}

open Classical in
/-- The instants of a clock before now. -/
noncomputable def ticks (X : String → Nat → Nillable Scalar) (k : Clk) (t : Nat) : Nat :=
  Nat.count (Active X k) t

/-- An instant of the clock that comes after at least `r` others. -/
def Ripe (X : String → Nat → Nillable Scalar) (k : Clk) (r t : Nat) : Prop :=
  Active X k t ∧ r ≤ ticks X k t

theorem ticks_list {k : Clk} {r t : Nat} : r ≤ ticks X k t ↔
    ∃ us : List Nat, us.Nodup ∧ us.length = r ∧ ∀ u ∈ us, u < t ∧ Active X k u := by
  classical
  unfold ticks
  rw [Nat.count_eq_card_filter_range]
  constructor
  · intro h
    obtain ⟨s, h1, h2⟩ := Finset.exists_subset_card_eq h
    refine ⟨s.toList, s.nodup_toList, by simp [h2], fun u hu => ?_⟩
    have := h1 (Finset.mem_toList.1 hu)
    simpa using this
  · rintro ⟨us, h1, rfl, h2⟩
    rw [← List.toFinset_card_of_nodup h1]
    refine Finset.card_le_card fun u hu => ?_
    have := h2 u (List.mem_toFinset.1 hu)
    simpa using this

theorem ticks_on {k : Clk} {t : Nat} (h : Active X k t) : ticks X k (t + 1) = ticks X k t + 1 := by
  classical
  simp [ticks, Nat.count_succ, h]

theorem ticks_off {k : Clk} {t : Nat} (h : ¬Active X k t) : ticks X k (t + 1) = ticks X k t := by
  classical
  simp [ticks, Nat.count_succ, h]

theorem ripe_zero {k : Clk} {t : Nat} : Ripe X k 0 t ↔ Active X k t := by simp [Ripe]

theorem active_same {k k' : Clk} (h : SameClk k k') : Active X k = Active X k' := by
  rcases h with rfl | ⟨h, h'⟩
  · rfl
  · funext t
    exact propext ⟨fun _ => active_always h', fun _ => active_always h⟩

theorem ticks_same {k k' : Clk} (h : SameClk k k') : ticks X k = ticks X k' := by
  funext t; unfold ticks; rw [active_same h]

theorem ripe_same {k k' : Clk} (h : SameClk k k') (r t : Nat) : Ripe X k r t ↔ Ripe X k' r t := by
  simp only [Ripe, ticks_same h, active_same h]

theorem ripe_meet {k k' : Clk} {s s' t : Nat} (h : Compatible k k') (h1 : s = 0 ∨ k ≠ .adaptative)
    (h2 : s' = 0 ∨ k' ≠ .adaptative) :
    Ripe X (Clk.meet k k') (max s s') t ↔ Ripe X k s t ∧ Ripe X k' s' t := by
  have ha : Ripe X .adaptative 0 t := ⟨trivial, Nat.zero_le _⟩
  rcases h with rfl | rfl | rfl
  · have : s = 0 := h1.resolve_right (by simp)
    subst this
    simp [Clk.meet, ha]
  · have : s' = 0 := h2.resolve_right (by simp)
    subst this
    have e : Clk.meet k .adaptative = k := by cases k <;> rfl
    simp [e, ha]
  · have e : Clk.meet k k = k := by cases k <;> rfl
    rw [e]
    simp only [Ripe]
    constructor
    · rintro ⟨a, b⟩; exact ⟨⟨a, by omega⟩, a, by omega⟩
    · rintro ⟨⟨a, b⟩, -, c⟩; exact ⟨a, by omega⟩

theorem mixes_meet {k k' : Clk} {s s' : Nat} (h1 : s = 0 ∨ k ≠ .adaptative)
    (h2 : s' = 0 ∨ k' ≠ .adaptative) : max s s' = 0 ∨ Clk.meet k k' ≠ .adaptative := by
  by_cases h : k = .adaptative
  · subst h
    have : s = 0 := h1.resolve_right (by simp)
    subst this
    simpa [Clk.meet] using h2
  · right
    cases k <;> simp_all [Clk.meet]

theorem clkOn_active {k : Clk} {t : Nat} {b : Bool} (h : clkOn X k t = some b) :
    b = true ↔ Active X k t := by
  cases k with
  | implicit => cases h; simp [Active]
  | adaptative => cases h; simp [Active]
  | on x =>
    simp only [clkOn, Active] at h ⊢
    cases hx : X x t with
    | nil => rw [hx] at h; cases h; simp
    | defined v => rw [hx] at h; cases v <;> simp_all [isOn]
  | off x =>
    simp only [clkOn, Active] at h ⊢
    cases hx : X x t with
    | nil => rw [hx] at h; cases h; simp
    | defined v => rw [hx] at h; cases v <;> simp_all [isOn]

/-! ## One value -/

/-- Nil or complete as it should be. -/
def Timely (X : String → Nat → Nillable Scalar) (k : Clk) (r t : Nat) (v : Value) : Prop :=
  (Ripe X k r t → Full v) ∧ (¬Ripe X k r t → Blank v)

theorem Timely.same {k k' : Clk} {r t : Nat} {v : Value} (h : SameClk k k') (hv : Timely X k r t v) :
    Timely X k' r t v := by
  unfold Timely at *
  rw [← ripe_same h]
  exact hv

theorem timely_zero {k : Clk} {t : Nat} {v : Value} : Timely X k 0 t v ↔ PresentOn X k t v := by
  simp [Timely, PresentOn, ripe_zero]

theorem timely_always {k : Clk} {t : Nat} {v : Value} (hk : Always k) (h : Full v) :
    Timely X k 0 t v :=
  ⟨fun _ => h, fun hn => absurd (ripe_zero.2 (active_always hk)) hn⟩

/-! ## Streams -/

variable {f g : Nat → Option Value} {k : Clk} {r s : Nat} {P : Value → Prop}

theorem kept : ∀ {t : Nat}, (∀ u, u < t → ∀ v, f u = some v → P v ∧ Timely X k r u v) →
    ∀ {o : Option Value}, lastKept f t = some o →
    (r + 1 ≤ ticks X k t → ∃ v, o = some v ∧ P v ∧ Full v) ∧ (ticks X k t ≤ r → o = none)
  | 0, _, o, h => by
    cases h
    simp [ticks]
  | t + 1, hf, o, h => by
    simp only [lastKept] at h
    obtain ⟨old, h1, h⟩ := some_bind.1 h
    obtain ⟨v, h2, h⟩ := some_bind.1 h
    simp only [Option.pure_def, Option.some.injEq] at h
    obtain ⟨i1, i2⟩ := kept (t := t) (fun u hu => hf u (by omega)) h1
    obtain ⟨p, f1, f2⟩ := hf t (by omega) v h2
    rw [lacks_first] at h
    by_cases hr : Ripe X k r t
    · rw [full_present (f1 hr)] at h
      have e := ticks_on hr.1
      have := hr.2
      refine ⟨fun _ => ⟨v, by simpa using h.symm, p, f1 hr⟩, fun h => by omega⟩
    · rw [blank_absent (f2 hr)] at h
      simp only [if_true] at h
      subst h
      by_cases ha : Active X k t
      · have e := ticks_on ha
        have : ¬ r ≤ ticks X k t := fun h => hr ⟨ha, h⟩
        exact ⟨fun h => by omega, fun _ => i2 (by omega)⟩
      · rw [ticks_off ha]
        exact ⟨i1, i2⟩

/-- `pre`. -/
theorem timely_pre {t : Nat} (hf : ∀ u, u < t → ∀ v, f u = some v → P v ∧ Timely X k r u v)
    (hP : ∀ v, P v → P v.nilLike) {n : Value} (hn : P n) (hb : Blank n) {v : Value}
    (h : uniPre (clkOn X k t) n f t = some v) : P v ∧ Timely X k (r + 1) t v := by
  unfold uniPre at h
  obtain ⟨on, h1, h⟩ := some_bind.1 h
  obtain ⟨_, -, h⟩ := some_bind.1 h
  obtain ⟨o, h2, h⟩ := some_bind.1 h
  simp only [Option.pure_def, Option.some.injEq] at h
  have ha := clkOn_active h1
  obtain ⟨k1, k2⟩ := kept hf h2
  subst h
  cases on with
  | false =>
    have hna : ¬Active X k t := fun h => by simpa using ha.2 h
    refine ⟨?_, fun h => absurd h.1 hna, fun _ => blank_nilLike _⟩
    simp only [seen]
    by_cases hr : r + 1 ≤ ticks X k t
    · obtain ⟨v, rfl, h3, -⟩ := k1 hr
      exact hP _ h3
    · rw [k2 (by omega)]; exact hP _ hn
  | true =>
    have ha := ha.1 rfl
    simp only [seen, if_true]
    by_cases hr : r + 1 ≤ ticks X k t
    · obtain ⟨v, rfl, h3, h4⟩ := k1 hr
      exact ⟨h3, fun _ => h4, fun h => absurd ⟨ha, hr⟩ h⟩
    · rw [k2 (by omega)]
      exact ⟨hn, fun h => absurd h.2 hr, fun _ => hb⟩

/-- `fby`. -/
theorem timely_before {t : Nat} (hf : ∀ v, f t = some v → P v ∧ Timely X k s t v)
    (hg : ∀ u, u < t → ∀ v, g u = some v → P v ∧ Timely X k r u v)
    (hP : ∀ v, P v → P v.nilLike) {v : Value}
    (h : uniBefore (clkOn X k t) f g t = some v) : P v ∧ Timely X k (min s (r + 1)) t v := by
  unfold uniBefore at h
  obtain ⟨on, h1, h⟩ := some_bind.1 h
  obtain ⟨w, h3, h⟩ := some_bind.1 h
  obtain ⟨_, -, h⟩ := some_bind.1 h
  obtain ⟨o, h2, h⟩ := some_bind.1 h
  simp only [Option.pure_def, Option.some.injEq] at h
  have ha := clkOn_active h1
  obtain ⟨k1, k2⟩ := kept hg h2
  obtain ⟨p, f1, f2⟩ := hf w h3
  subst h
  cases on with
  | false =>
    have hna : ¬Active X k t := fun h => by simpa using ha.2 h
    refine ⟨?_, fun h => absurd h.1 hna, fun _ => blank_nilLike _⟩
    simp only [seen]
    by_cases hr : r + 1 ≤ ticks X k t
    · obtain ⟨v, rfl, h3, -⟩ := k1 hr
      exact hP _ h3
    · rw [k2 (by omega)]; exact hP _ p
  | true =>
    have ha := ha.1 rfl
    simp only [seen, if_true]
    by_cases hr : r + 1 ≤ ticks X k t
    · obtain ⟨v, rfl, h3, h4⟩ := k1 hr
      exact ⟨h3, fun _ => h4, fun h => absurd ⟨ha, by omega⟩ h⟩
    · rw [k2 (by omega)]
      refine ⟨p, fun h => f1 ⟨ha, ?_⟩, fun h => f2 fun h' => h ⟨ha, ?_⟩⟩
      · have := h.2; omega
      · have := h'.2; omega

/-- `->`. -/
theorem timely_then {t : Nat} (hf : ∀ u, u ≤ t → ∀ v, f u = some v → P v ∧ Timely X k s u v)
    (hg : ∀ v, g t = some v → P v ∧ Timely X k r t v) (hr : r ≤ s + 1)
    (hP : ∀ v, P v → P v.nilLike) {v : Value} (h : uniThen f g t = some v) :
    P v ∧ Timely X k s t v := by
  unfold uniThen at h
  obtain ⟨v1, h1, h⟩ := some_bind.1 h
  obtain ⟨w, h2, h⟩ := some_bind.1 h
  obtain ⟨p, f1, f2⟩ := hf t (Nat.le_refl _) v1 h1
  obtain ⟨q, g1, g2⟩ := hg w h2
  rw [lacks_first] at h
  by_cases hR : Ripe X k s t
  · rw [full_present (f1 hR)] at h
    simp only [Bool.false_eq_true, if_false] at h
    obtain ⟨o, h3, h⟩ := some_bind.1 h
    obtain ⟨k1, k2⟩ := kept (fun u hu => hf u (by omega)) h3
    by_cases hs : s + 1 ≤ ticks X k t
    · obtain ⟨_, rfl, -⟩ := k1 hs
      simp only [Option.pure_def, Option.some.injEq] at h
      subst h
      exact ⟨q, fun _ => g1 ⟨hR.1, by omega⟩, fun h => absurd hR h⟩
    · rw [k2 (by omega)] at h
      simp only [Option.pure_def, Option.some.injEq] at h
      subst h
      exact ⟨p, fun _ => f1 hR, fun h => absurd hR h⟩
  · rw [blank_absent (f2 hR)] at h
    simp only [if_true, Option.pure_def, Option.some.injEq] at h
    subst h
    exact ⟨hP _ p, fun h => absurd h hR, fun _ => blank_nilLike _⟩

end
end Chandeliers.Std
