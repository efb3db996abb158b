import Verif.Lemmas.Parse

/-!
# The parser follows the grammar: operators
-/

set_option autoImplicit false

namespace Chandeliers.Grm
open Chandeliers.San Chandeliers.Syn Chandeliers.Spec.Grammar

theorem keyword_some {k : String} {ts : List Tok} {a : Unit} {r : List Tok}
    (h : keyword k ts = some (a, r)) : ts = .ident k :: r := by
  cases ts with
  | nil => simp [keyword] at h
  | cons x ts =>
    cases x with
    | ident s =>
      simp only [keyword] at h
      split at h
      · rename_i hs
        subst hs
        simp only [Option.some.injEq, Prod.mk.injEq, true_and] at h
        rw [h]
      · cases h
    | _ => simp [keyword] at h

theorem keyword_self (k : String) (r : List Tok) : keyword k (.ident k :: r) = some ((), r) := by
  simp [keyword]

theorem keyword_ne {k s : String} (h : s ≠ k) (r : List Tok) : keyword k (.ident s :: r) = none := by
  simp [keyword, h]

theorem sign_some {c : Char} {ts : List Tok} {a : Unit} {r : List Tok}
    (h : sign c ts = some (a, r)) : ∃ j, ts = .punct c j :: r := by
  cases ts with
  | nil => simp [sign] at h
  | cons x ts =>
    cases x with
    | punct s j =>
      simp only [sign] at h
      split at h
      · rename_i hs
        subst hs
        simp only [Option.some.injEq, Prod.mk.injEq, true_and] at h
        exact ⟨j, by rw [h]⟩
      · cases h
    | _ => simp [sign] at h

theorem sign_self (c : Char) (j : Bool) (r : List Tok) : sign c (.punct c j :: r) = some ((), r) := by
  simp [sign]

theorem sign2_some {c d : Char} {ts : List Tok} {a : Unit} {r : List Tok}
    (h : sign2 c d ts = some (a, r)) : ∃ j, ts = .punct c true :: .punct d j :: r := by
  match ts, h with
  | [], h => simp [sign2] at h
  | [.ident _], h | [.lit _], h | [.group _ _], h | [.punct _ _], h => simp [sign2] at h
  | .ident _ :: _ :: _, h | .lit _ :: _ :: _, h | .group _ _ :: _ :: _, h => simp [sign2] at h
  | .punct c' false :: _ :: _, h => simp [sign2] at h
  | .punct c' true :: .ident _ :: _, h | .punct c' true :: .lit _ :: _, h
  | .punct c' true :: .group _ _ :: _, h => simp [sign2] at h
  | .punct c' true :: .punct d' j :: r', h =>
    by_cases hs : c' = c ∧ d' = d
    · obtain ⟨rfl, rfl⟩ := hs
      simp only [sign2, and_self, if_true, Option.some.injEq, Prod.mk.injEq, true_and] at h
      exact ⟨j, by rw [h]⟩
    · simp [sign2, hs] at h

theorem sign2_self (c d : Char) (j : Bool) (r : List Tok) :
    sign2 c d (.punct c true :: .punct d j :: r) = some ((), r) := by
  simp [sign2]

/-! ## What the operators accept -/

theorem orOp_fits (o : LOp) (w x : List Tok) (h : Among [.or] o w) (_ : Starts x) :
    orOp (w ++ x) = some (o, x) := by
  obtain ⟨ho, hw⟩ := h
  simp only [List.mem_cons, List.not_mem_nil, or_false] at ho
  subst ho
  subst hw
  simp [orOp, keyword]

theorem andOp_fits (o : LOp) (w x : List Tok) (h : Among [.and] o w) (_ : Starts x) :
    andOp (w ++ x) = some (o, x) := by
  obtain ⟨ho, hw⟩ := h
  simp only [List.mem_cons, List.not_mem_nil, or_false] at ho
  subst ho
  subst hw
  simp [andOp, keyword]

theorem fbyOp_fits (o : Unit) (w x : List Tok) (h : FbyWord o w) (_ : Starts x) :
    fbyOp (w ++ x) = some (o, x) := by
  cases h
  simp [fbyOp, keyword]

theorem arrowOp_fits (o : Unit) (w x : List Tok) (h : ArrowWord o w) (_ : Starts x) :
    arrowOp (w ++ x) = some (o, x) := by
  obtain ⟨j, rfl⟩ := h
  simp [arrowOp, sign2]

theorem clockOp_fits (o : LOp) (w x : List Tok) (h : Among [.when, .whenot] o w) (_ : Starts x) :
    clockOp (w ++ x) = some (o, x) := by
  obtain ⟨ho, hw⟩ := h
  simp only [List.mem_cons, List.not_mem_nil, or_false] at ho
  rcases ho with rfl | rfl <;> subst hw <;> simp [clockOp, keyword]

theorem mulOp_fits (o : LOp) (w x : List Tok) (h : Among [.mul, .div, .rem] o w) (_ : Starts x) :
    mulOp (w ++ x) = some (o, x) := by
  obtain ⟨ho, hw⟩ := h
  simp only [List.mem_cons, List.not_mem_nil, or_false] at ho
  rcases ho with rfl | rfl | rfl <;> obtain ⟨j, rfl⟩ := hw <;> simp [mulOp]

theorem addOp_fits (o : LOp) (w x : List Tok) (h : Among [.add, .sub] o w) (hx : Starts x) :
    addOp (w ++ x) = some (o, x) := by
  obtain ⟨ho, hw⟩ := h
  simp only [List.mem_cons, List.not_mem_nil, or_false] at ho
  rcases ho with rfl | rfl <;> obtain ⟨j, rfl⟩ := hw
  · simp [addOp]
  · obtain ⟨a, t, rfl, ha⟩ := hx
    cases a with
    | punct c i => cases ha c i rfl; simp [addOp]
    | _ => simp [addOp]

theorem cmpOp_fits (o : CmpOp) (w x : List Tok) (h : CmpWord o w) (hx : Starts x) :
    cmpOp (w ++ x) = some (o, x) := by
  obtain ⟨a, t, rfl, ha⟩ := hx
  cases o <;> obtain ⟨j, rfl⟩ := h <;> cases a <;>
    first
    | (rename_i c i; cases ha c i rfl; cases j <;> simp [cmpOp, sign, sign2])
    | (cases j <;> simp [cmpOp, sign, sign2])

/-! ## What they stop -/

theorem clock_word (o : LOp) (w x : List Tok) (h : Among [.when, .whenot] o w) (_ : Starts x) :
    True ∧ NoGroup (w ++ x) ∧ w ≠ [] := by
  obtain ⟨ho, hw⟩ := h
  simp only [List.mem_cons, List.not_mem_nil, or_false] at ho
  rcases ho with rfl | rfl <;> subst hw <;> simp [NoGroup]

theorem mul_word (o : LOp) (w x : List Tok) (h : Among [.mul, .div, .rem] o w) (_ : Starts x) :
    StopClock (w ++ x) ∧ NoGroup (w ++ x) ∧ w ≠ [] := by
  obtain ⟨ho, hw⟩ := h
  simp only [List.mem_cons, List.not_mem_nil, or_false] at ho
  rcases ho with rfl | rfl | rfl <;> obtain ⟨j, rfl⟩ := hw <;>
    simp [NoGroup, StopClock, clockOp, keyword]

theorem add_word (o : LOp) (w x : List Tok) (h : Among [.add, .sub] o w) (_ : Starts x) :
    StopMul (w ++ x) ∧ NoGroup (w ++ x) ∧ w ≠ [] := by
  obtain ⟨ho, hw⟩ := h
  simp only [List.mem_cons, List.not_mem_nil, or_false] at ho
  rcases ho with rfl | rfl <;> obtain ⟨j, rfl⟩ := hw <;>
    simp [NoGroup, StopMul, StopClock, clockOp, keyword, mulOp]

theorem arrow_word (o : Unit) (w x : List Tok) (h : ArrowWord o w) (_ : Starts x) :
    StopAdd (w ++ x) ∧ NoGroup (w ++ x) ∧ w ≠ [] := by
  obtain ⟨j, rfl⟩ := h
  simp [NoGroup, StopAdd, StopMul, StopClock, clockOp, keyword, mulOp, addOp]

theorem fby_word (o : Unit) (w x : List Tok) (h : FbyWord o w) (_ : Starts x) :
    StopArrow (w ++ x) ∧ NoGroup (w ++ x) ∧ w ≠ [] := by
  cases h
  simp [NoGroup, StopArrow, StopAdd, StopMul, StopClock, clockOp, keyword, mulOp, addOp, arrowOp,
    sign2]

theorem cmp_word (o : CmpOp) (w x : List Tok) (h : CmpWord o w) (_ : Starts x) :
    StopFby (w ++ x) ∧ NoGroup (w ++ x) ∧ w ≠ [] := by
  cases o <;> obtain ⟨j, rfl⟩ := h <;>
    simp [NoGroup, StopFby, StopArrow, StopAdd, StopMul, StopClock, clockOp, keyword, mulOp, addOp,
      arrowOp, fbyOp] <;>
    (cases x with
      | nil => cases j <;> simp [sign2]
      | cons a x => cases a <;> cases j <;> simp [sign2])

theorem and_word (o : LOp) (w x : List Tok) (h : Among [.and] o w) (_ : Starts x) :
    StopCmp (w ++ x) ∧ NoGroup (w ++ x) ∧ w ≠ [] := by
  obtain ⟨ho, hw⟩ := h
  simp only [List.mem_cons, List.not_mem_nil, or_false] at ho
  subst ho
  subst hw
  simp [NoGroup, StopCmp, StopFby, StopArrow, StopAdd, StopMul, StopClock, clockOp, keyword, mulOp,
    addOp, arrowOp, fbyOp, cmpOp, sign, sign2]

theorem or_word (o : LOp) (w x : List Tok) (h : Among [.or] o w) (_ : Starts x) :
    StopAnd (w ++ x) ∧ NoGroup (w ++ x) ∧ w ≠ [] := by
  obtain ⟨ho, hw⟩ := h
  simp only [List.mem_cons, List.not_mem_nil, or_false] at ho
  subst ho
  subst hw
  simp [NoGroup, StopAnd, StopCmp, StopFby, StopArrow, StopAdd, StopMul, StopClock, clockOp, keyword,
    mulOp, addOp, arrowOp, fbyOp, cmpOp, sign, sign2, andOp]

/-! ## What they read -/

theorem orOp_sound (ts : List Tok) (o : LOp) (x : List Tok) (h : orOp ts = some (o, x)) :
    ∃ w, ts = w ++ x ∧ Among [.or] o w := by
  simp only [orOp, Option.map_eq_some_iff, Prod.mk.injEq] at h
  obtain ⟨⟨_, r⟩, h1, rfl, rfl⟩ := h
  exact ⟨[.ident _], keyword_some h1, by simp [Among, LeftWord]⟩

theorem andOp_sound (ts : List Tok) (o : LOp) (x : List Tok) (h : andOp ts = some (o, x)) :
    ∃ w, ts = w ++ x ∧ Among [.and] o w := by
  simp only [andOp, Option.map_eq_some_iff, Prod.mk.injEq] at h
  obtain ⟨⟨_, r⟩, h1, rfl, rfl⟩ := h
  exact ⟨[.ident _], keyword_some h1, by simp [Among, LeftWord]⟩

theorem fbyOp_sound (ts : List Tok) (o : Unit) (x : List Tok) (h : fbyOp ts = some (o, x)) :
    ∃ w, ts = w ++ x ∧ FbyWord o w := ⟨_, keyword_some h, rfl⟩

theorem arrowOp_sound (ts : List Tok) (o : Unit) (x : List Tok) (h : arrowOp ts = some (o, x)) :
    ∃ w, ts = w ++ x ∧ ArrowWord o w := by
  obtain ⟨j, rfl⟩ := sign2_some h
  exact ⟨_, rfl, j, rfl⟩

theorem clockOp_sound (ts : List Tok) (o : LOp) (x : List Tok) (h : clockOp ts = some (o, x)) :
    ∃ w, ts = w ++ x ∧ Among [.when, .whenot] o w := by
  simp only [clockOp] at h
  split at h
  · rename_i h1
    simp only [Option.some.injEq, Prod.mk.injEq] at h
    obtain ⟨rfl, rfl⟩ := h
    exact ⟨[.ident _], keyword_some h1, by simp [Among, LeftWord]⟩
  · rename_i h1 _
    simp only [Option.some.injEq, Prod.mk.injEq] at h
    obtain ⟨rfl, rfl⟩ := h
    exact ⟨[.ident _], keyword_some h1, by simp [Among, LeftWord]⟩
  · cases h

theorem mulOp_sound (ts : List Tok) (o : LOp) (x : List Tok) (h : mulOp ts = some (o, x)) :
    ∃ w, ts = w ++ x ∧ Among [.mul, .div, .rem] o w := by
  unfold mulOp at h
  split at h
  all_goals first
    | (rename_i j _
       simp only [Option.some.injEq, Prod.mk.injEq] at h
       obtain ⟨rfl, rfl⟩ := h
       exact ⟨[_], rfl, by simp, j, rfl⟩)
    | cases h

theorem addOp_sound (ts : List Tok) (o : LOp) (x : List Tok) (h : addOp ts = some (o, x)) :
    ∃ w, ts = w ++ x ∧ Among [.add, .sub] o w := by
  unfold addOp at h
  split at h
  · rename_i j _
    simp only [Option.some.injEq, Prod.mk.injEq] at h
    obtain ⟨rfl, rfl⟩ := h
    exact ⟨[_], rfl, by simp, j, rfl⟩
  · rename_i j _
    split at h
    · cases h
    · simp only [Option.some.injEq, Prod.mk.injEq] at h
      obtain ⟨rfl, rfl⟩ := h
      exact ⟨[_], rfl, by simp, j, rfl⟩
  · cases h

theorem cmpOp_sound (ts : List Tok) (o : CmpOp) (x : List Tok) (h : cmpOp ts = some (o, x)) :
    ∃ w, ts = w ++ x ∧ CmpWord o w := by
  simp only [cmpOp] at h
  split at h
  all_goals first
    | (simp only [Option.some.injEq, Prod.mk.injEq] at h
       obtain ⟨rfl, rfl⟩ := h
       first
         | (obtain ⟨j, rfl⟩ := sign2_some ‹sign2 _ _ ts = some _›
            exact ⟨[_, _], rfl, j, rfl⟩)
         | (obtain ⟨j, rfl⟩ := sign_some ‹sign _ ts = some _›
            exact ⟨[_], rfl, j, rfl⟩))
    | cases h

end Chandeliers.Grm
