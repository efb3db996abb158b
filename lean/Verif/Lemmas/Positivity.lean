import Verif.San.Positivity
import Verif.San.Eval
import Verif.Spec.Depth

/-! Lemmas on the positivity check. -/

set_option autoImplicit false
set_option linter.unusedSectionVars false

namespace Chandeliers.San
open Chandeliers.Err Chandeliers.Err.Chk Chandeliers.Spec

/-- `m'` is `m` raised to cover the occurrences `l`, and no higher. -/
def Tracks (m m' : Depths) (l : List (String × Nat)) : Prop :=
  ∀ x, (∀ d, (x, d) ∈ l → ∃ k, m' x = some k ∧ d ≤ k) ∧
    (m' x = m x ∨ ∃ d, (x, d) ∈ l ∧ m' x = some d) ∧
    (∀ k, m x = some k → ∃ k', m' x = some k' ∧ k ≤ k')

theorem Tracks.nil (m : Depths) : Tracks m m [] := fun _ =>
  ⟨by simp, .inl rfl, fun k h => ⟨k, h, Nat.le_refl _⟩⟩

theorem Tracks.append {m m1 m2 : Depths} {l1 l2 : List (String × Nat)} (h1 : Tracks m m1 l1)
    (h2 : Tracks m1 m2 l2) : Tracks m m2 (l1 ++ l2) := by
  intro x
  obtain ⟨a1, b1, c1⟩ := h1 x
  obtain ⟨a2, b2, c2⟩ := h2 x
  refine ⟨?_, ?_, ?_⟩
  · intro d hd
    rcases List.mem_append.1 hd with hd | hd
    · obtain ⟨k, hk, hdk⟩ := a1 d hd
      obtain ⟨k', hk', h⟩ := c2 k hk
      exact ⟨k', hk', Nat.le_trans hdk h⟩
    · exact a2 d hd
  · rcases b2 with b2 | ⟨d, hd, b2⟩
    · rcases b1 with b1 | ⟨d, hd, b1⟩
      · exact .inl (b2.trans b1)
      · exact .inr ⟨d, List.mem_append_left _ hd, b2.trans b1⟩
    · exact .inr ⟨d, List.mem_append_right _ hd, b2⟩
  · intro k hk
    obtain ⟨k1, hk1, h⟩ := c1 k hk
    obtain ⟨k2, hk2, h'⟩ := c2 k1 hk1
    exact ⟨k2, hk2, Nat.le_trans h h'⟩

theorem Tracks.update (m : Depths) (x : String) (d : Nat) : Tracks m (m.update x d) [(x, d)] := by
  intro y
  by_cases hy : y = x
  · subst hy
    unfold Depths.update
    cases hm : m y with
    | none => simp
    | some old =>
      simp only [List.mem_singleton, Prod.mk.injEq, true_and]
      by_cases ho : old ≥ d
      · simp only [ho, if_true]
        exact ⟨fun d' h => ⟨old, hm, by omega⟩, .inl hm, fun k hk => ⟨old, hm, by cases hk; omega⟩⟩
      · simp only [ho, if_false, if_true]
        exact ⟨fun d' h => ⟨d, rfl, by omega⟩, .inr ⟨d, rfl, rfl⟩,
          fun k hk => ⟨d, rfl, by cases hk; omega⟩⟩
  · have : m.update x d y = m y := by
      unfold Depths.update
      cases m x with
      | none => simp [hy]
      | some old =>
        by_cases ho : old ≥ d
        · simp [ho]
        · simp [ho, hy]
    rw [this]
    exact ⟨by simp [hy], .inl rfl, fun k hk => ⟨k, hk, Nat.le_refl _⟩⟩

/-- What a successful check does. -/
def Good (m : Chk Diag Depths Unit) (l : List (String × Nat)) : Prop :=
  ∀ a s s', m (a, s) = (.some (), s') → ∃ s1, s' = (a, s1) ∧ Tracks s s1 l

theorem Good.pure : Good (Pure.pure ()) [] := by
  intro a s s' h
  cases h
  exact ⟨s, rfl, Tracks.nil s⟩

theorem Good.bind {m n : Chk Diag Depths Unit} {l1 l2 : List (String × Nat)} (h1 : Good m l1)
    (h2 : Good n l2) : Good (do m; n) (l1 ++ l2) := by
  intro a s s' h
  obtain ⟨⟨⟩, s1, hm, hn⟩ := bind_some.1 h
  obtain ⟨t1, rfl, ht1⟩ := h1 _ _ _ hm
  obtain ⟨t2, rfl, ht2⟩ := h2 _ _ _ hn
  exact ⟨t2, rfl, ht1.append ht2⟩

theorem Good.error (e : Diag) (l : List (String × Nat)) : Good (Chk.error e) l := by
  intro a s s' h; cases h

mutual
theorem checkPositive_good : (e : Expr) → (c : Nat) → Good (e.checkPositive c) (occurrences e)
  | .lit _, _ => Good.pure
  | .global _, _ => Good.pure
  | .var x d, c => by
    intro a s s' h
    simp only [Expr.checkPositive] at h
    split at h
    · cases h; exact ⟨_, rfl, Tracks.update s x d⟩
    · cases h
  | .tuple es, c => checkPositiveList_good es c
  | .dummyPre e, c => checkPositive_good e c
  | .dummyParen e, c => checkPositive_good e c
  | .un _ e, c => checkPositive_good e c
  | .bin _ l r, c => (checkPositive_good l c).bind (checkPositive_good r c)
  | .cmp _ l r, c => (checkPositive_good l c).bind (checkPositive_good r c)
  | .ifx b y n, c => (checkPositive_good b c).bind ((checkPositive_good y c).bind
      (checkPositive_good n c))
  | .merge b y n, c => (checkPositive_good b c).bind ((checkPositive_good y c).bind
      (checkPositive_good n c))
  | .later d b a, c => (checkPositive_good b c).bind (checkPositive_good a (d + 1))
  | .flip _ i k, c => (checkPositive_good i c).bind (checkPositive_good k (c + 1))
  | .substep _ _ a, c => checkPositive_good a c
  | .clock _ e a, c => (checkPositive_good a c).bind (checkPositive_good e c)
  | .fetchFby _ i f, c => (checkPositive_good i c).bind (checkPositive_good f c)
  | .fetchPre _ f, c => by
    simp only [Expr.checkPositive, occurrences]
    split
    · exact checkPositive_good f (c - 1)
    · exact Good.error _ _
theorem checkPositiveList_good : (es : List Expr) → (c : Nat) →
    Good (Expr.checkPositiveList es c) (occurrencesList es)
  | [], _ => Good.pure
  | e :: es, c => (checkPositive_good e c).bind (checkPositiveList_good es c)
end

theorem checkPositiveAll_good : (sts : List Stmt) → Good (checkPositiveAll sts) (occurrencesIn sts)
  | [] => Good.pure
  | .let_ _ e :: sts => (checkPositive_good e 0).bind (checkPositiveAll_good sts)
  | .assert e :: sts => (checkPositive_good e 0).bind (checkPositiveAll_good sts)
  | .updateRegister _ _ :: sts => Good.pure.bind (checkPositiveAll_good sts)
  | .initRegister _ _ _ :: sts => Good.pure.bind (checkPositiveAll_good sts)

mutual
theorem checkPositive_honest : (e : Expr) → (c : Nat) → Honest (e.checkPositive c)
  | .lit _, _ => honest_pure _
  | .global _, _ => honest_pure _
  | .var x d, c => by
    simp only [Expr.checkPositive]
    split
    · exact honest_modify _
    · exact honest_error _
  | .tuple es, c => checkPositiveList_honest es c
  | .dummyPre e, c => checkPositive_honest e c
  | .dummyParen e, c => checkPositive_honest e c
  | .un _ e, c => checkPositive_honest e c
  | .bin _ l r, c => honest_bind (checkPositive_honest l c) fun _ => checkPositive_honest r c
  | .cmp _ l r, c => honest_bind (checkPositive_honest l c) fun _ => checkPositive_honest r c
  | .ifx b y n, c => honest_bind (checkPositive_honest b c) fun _ =>
      honest_bind (checkPositive_honest y c) fun _ => checkPositive_honest n c
  | .merge b y n, c => honest_bind (checkPositive_honest b c) fun _ =>
      honest_bind (checkPositive_honest y c) fun _ => checkPositive_honest n c
  | .later d b a, c => honest_bind (checkPositive_honest b c) fun _ =>
      checkPositive_honest a (d + 1)
  | .flip _ i k, c => honest_bind (checkPositive_honest i c) fun _ =>
      checkPositive_honest k (c + 1)
  | .substep _ _ a, c => checkPositive_honest a c
  | .clock _ e a, c => honest_bind (checkPositive_honest a c) fun _ => checkPositive_honest e c
  | .fetchFby _ i f, c => honest_bind (checkPositive_honest i c) fun _ => checkPositive_honest f c
  | .fetchPre _ f, c => by
    simp only [Expr.checkPositive]
    split
    · exact checkPositive_honest f (c - 1)
    · exact honest_error _
theorem checkPositiveList_honest : (es : List Expr) → (c : Nat) →
    Honest (Expr.checkPositiveList es c)
  | [], _ => honest_pure _
  | e :: es, c => honest_bind (checkPositive_honest e c) fun _ => checkPositiveList_honest es c
end

theorem checkPositiveAll_honest : (sts : List Stmt) → Honest (checkPositiveAll sts)
  | [] => honest_pure _
  | .let_ _ e :: sts => honest_bind (checkPositive_honest e 0) fun _ => checkPositiveAll_honest sts
  | .assert e :: sts => honest_bind (checkPositive_honest e 0) fun _ => checkPositiveAll_honest sts
  | .updateRegister _ _ :: sts => honest_bind (honest_pure _) fun _ => checkPositiveAll_honest sts
  | .initRegister _ _ _ :: sts => honest_bind (honest_pure _) fun _ => checkPositiveAll_honest sts

theorem honest_local {E σ τ α : Type} (init : τ) {m : Chk E τ α} (h : Honest m) :
    Honest (Chk.local_ init m : Chk E σ (α × τ)) := by
  have key : ∀ s : EAccum E × σ, (Chk.local_ init m s).2.1 = (m (s.1, init)).2.1 ∧
      ((Chk.local_ init m s).1 = .none ↔ (m (s.1, init)).1 = .none) ∧
      (∀ a, (Chk.local_ init m s).1 = .some a → (m (s.1, init)).1 = .some a.1) := by
    rintro ⟨a, s⟩
    unfold Chk.local_
    rcases hm : m (a, init) with ⟨r, a', t⟩
    simp only [hm]
    cases r <;> simp
  refine ⟨fun s => ?_, fun s hs => ?_, fun s a hs => ?_⟩
  · rw [(key s).1]; exact h.grows _
  · rw [(key s).1]; exact h.none_err _ ((key s).2.1.1 hs)
  · rw [(key s).1]; exact h.some_err _ _ ((key s).2.2 _ hs)

theorem makePositive_honest {σ : Type} (n : Node) : Honest (n.makePositive : Chk Diag σ Node) :=
  honest_bind (honest_local _ (checkPositiveAll_honest _)) fun _ => honest_pure _

theorem declMakePositive_honest {σ : Type} (d : Decl) : Honest (d.makePositive : Chk Diag σ Decl) := by
  cases d
  case node n => exact honest_bind (makePositive_honest n) fun _ => honest_pure _
  all_goals exact honest_pure _

theorem progMakePositive_honest {σ : Type} : (ds : List Decl) →
    Honest (progMakePositive ds : Chk Diag σ (List Decl))
  | [] => honest_pure _
  | d :: ds => honest_bind (declMakePositive_honest d) fun _ =>
      honest_bind (progMakePositive_honest ds) fun _ => honest_pure _

/-! ## Histories keep their size -/

section
variable (A : Arith) (glob : Globals) (ms : List Machine)

/-- Two states have the same history fields, with the same capacities. -/
def SameFields (s s' : NodeState ms) : Prop :=
  ∀ x, (s.hist x).map (·.1) = (s'.hist x).map (·.1)

theorem updHist_fields {env : Env} {x : String} {s s' : NodeState ms}
    (h : updHist ms env x s = .ok s') : SameFields ms s s' := by
  unfold updHist at h
  split at h
  · rename_i hh v h1 h2
    cases h
    intro y
    by_cases hy : y = x
    · subst hy; simp [h1]
    · simp [hy]
  · cases h

theorem updHists_fields {env : Env} : ∀ (xs : List String) {s s' : NodeState ms},
    updHists ms env xs s = .ok s' → SameFields ms s s'
  | [], s, s', h => by cases h; exact fun _ => rfl
  | x :: xs, s, s', h => by
    simp only [updHists] at h
    cases h1 : updHist ms env x s with
    | error p => rw [h1] at h; cases h
    | ok s1 =>
      rw [h1] at h
      intro y
      exact (updHist_fields ms h1 y).trans (updHists_fields xs h y)

end
end Chandeliers.San
