import Verif.Lemmas.Eval

/-! Reachable states of machines. -/

set_option autoImplicit false
set_option linter.unusedSectionVars false

namespace Chandeliers.San

/-- The state can be reached from the initial one by successful steps. -/
def Reach (m : Machine) (s : m.σ) : Prop := ∃ is os, m.runFrom m.init is = .ok (os, s)

theorem reach_init (m : Machine) : Reach m m.init := ⟨[], [], rfl⟩

theorem runFrom_append (m : Machine) : ∀ (is js : List Value) (s : m.σ),
    m.runFrom s (is ++ js) = (do
      let (os, s) ← m.runFrom s is
      let (ps, s) ← m.runFrom s js
      .ok (os ++ ps, s))
  | [], js, s => by
    simp only [List.nil_append, Machine.runFrom]
    change _ = (m.runFrom s js >>= _)
    cases m.runFrom s js <;> rfl
  | i :: is, js, s => by
    simp only [List.cons_append, Machine.runFrom]
    cases m.step s i with
    | error p => rfl
    | ok x =>
      obtain ⟨o, s1⟩ := x
      change (m.runFrom s1 (is ++ js) >>= _) = _
      rw [runFrom_append m is js s1]
      change _ = ((m.runFrom s1 is >>= _) >>= _)
      cases m.runFrom s1 is with
      | error p => rfl
      | ok y =>
        obtain ⟨os, s2⟩ := y
        change ((m.runFrom s2 js >>= _) >>= _) = (m.runFrom s2 js >>= _)
        cases m.runFrom s2 js <;> rfl

theorem runFrom_single (m : Machine) (s : m.σ) (v : Value) :
    m.runFrom s [v] = (do let (o, s) ← m.step s v; .ok ([o], s)) := by
  simp only [Machine.runFrom]
  cases m.step s v <;> rfl

theorem reach_step {m : Machine} {s s' : m.σ} {v o : Value} (h : Reach m s)
    (hs : m.step s v = .ok (o, s')) : Reach m s' := by
  obtain ⟨is, os, h⟩ := h
  refine ⟨is ++ [v], os ++ [o], ?_⟩
  rw [runFrom_append, h]
  change (m.runFrom s [v] >>= _) = _
  rw [runFrom_single, hs]
  rfl

/-- A panic in a reachable state is a panic of some run. -/
theorem reach_panic {m : Machine} {s : m.σ} {v : Value} {p : Panic} (h : Reach m s)
    (hs : m.step s v = .error p) : ∃ is, m.run is = .error p := by
  obtain ⟨is, os, h⟩ := h
  refine ⟨is ++ [v], ?_⟩
  unfold Machine.run
  rw [runFrom_append, h]
  change ((m.runFrom s [v] >>= _) >>= _) = _
  rw [runFrom_single, hs]
  rfl

/-- A predicate preserved by steps holds in all reachable states. -/
theorem reach_inv {m : Machine} (inv : m.σ → Prop) (h0 : inv m.init)
    (hstep : ∀ s v o s', inv s → m.step s v = .ok (o, s') → inv s') {s : m.σ} (h : Reach m s) :
    inv s := by
  obtain ⟨is, os, h⟩ := h
  have key : ∀ (is os : List Value) (s s' : m.σ), inv s → m.runFrom s is = .ok (os, s') →
      inv s' := by
    intro is
    induction is with
    | nil => intro os s s' hs h; cases h; exact hs
    | cons i is ih =>
      intro os s s' hs h
      simp only [Machine.runFrom] at h
      obtain ⟨⟨o, s1⟩, h1, h⟩ := ok_bind.1 h
      obtain ⟨⟨os1, s2⟩, h2, h⟩ := ok_bind.1 h
      cases h
      exact ih _ _ _ (hstep _ _ _ _ hs h1) h2
  exact key _ _ _ _ h0 h

/-- To exclude a panic it is enough to exclude it in reachable states. -/
theorem run_panic {m : Machine} {p : Panic} (inv : m.σ → Prop) (h0 : inv m.init)
    (hstep : ∀ s v, inv s → m.step s v ≠ .error p ∧ ∀ o s', m.step s v = .ok (o, s') → inv s')
    (is : List Value) : m.run is ≠ .error p := by
  have key : ∀ (is : List Value) (s : m.σ), inv s → m.runFrom s is ≠ .error p := by
    intro is
    induction is with
    | nil => intro s _ h; cases h
    | cons i is ih =>
      intro s hs h
      simp only [Machine.runFrom] at h
      cases h1 : m.step s i with
      | error q =>
        rw [h1] at h
        have : q = p := by cases h; rfl
        exact (hstep s i hs).1 (this ▸ h1)
      | ok x =>
        obtain ⟨o, s1⟩ := x
        rw [h1] at h
        have := ih s1 ((hstep s i hs).2 _ _ h1)
        change (m.runFrom s1 is >>= _) = _ at h
        cases h2 : m.runFrom s1 is with
        | error q => rw [h2] at h this; cases h; exact this rfl
        | ok y => rw [h2] at h; cases h
  intro h
  unfold Machine.run at h
  cases h1 : m.runFrom m.init is with
  | error q => rw [h1] at h; cases h; exact key is m.init h0 h1
  | ok y => rw [h1] at h; cases h

/-- Every subnode state satisfies a predicate. -/
def States.All (P : (m : Machine) → m.σ → Prop) : (ms : List Machine) → States ms → Prop
  | [], _ => True
  | m :: ms, (s, ss) => P m s ∧ States.All P ms ss

theorem States.all_init {P : (m : Machine) → m.σ → Prop} (h : ∀ m, P m m.init) :
    ∀ ms, States.All P ms (States.init ms)
  | [] => trivial
  | m :: ms => ⟨h m, States.all_init h ms⟩

theorem States.all_stepAt {P : (m : Machine) → m.σ → Prop}
    (h : ∀ (m : Machine) s v o s', P m s → m.step s v = .ok (o, s') → P m s') :
    ∀ (ms : List Machine) (ss : States ms) (i : Nat) (v o : Value) (ss' : States ms),
      States.All P ms ss → States.stepAt ms ss i v = .ok (o, ss') → States.All P ms ss'
  | [], _, _, _, _, _, _, hs => by simp [States.stepAt] at hs
  | m :: ms, (s, ss), 0, v, o, ss', ha, hs => by
    simp only [States.stepAt] at hs
    cases h1 : m.step s v with
    | error p => rw [h1] at hs; cases hs
    | ok x => obtain ⟨o1, s1⟩ := x; rw [h1] at hs; cases hs; exact ⟨h m s v _ _ ha.1 h1, ha.2⟩
  | m :: ms, (s, ss), i + 1, v, o, ss', ha, hs => by
    simp only [States.stepAt] at hs
    cases h1 : States.stepAt ms ss i v with
    | error p => rw [h1] at hs; cases hs
    | ok x =>
      obtain ⟨o1, s1⟩ := x
      rw [h1] at hs; cases hs
      exact ⟨ha.1, States.all_stepAt h ms ss i v _ _ ha.2 h1⟩

/-- A panic of a subnode call other than a missing subnode is a panic of that subnode. -/
theorem States.stepAt_panic {P : (m : Machine) → m.σ → Prop} {p : Panic} :
    ∀ (ms : List Machine) (ss : States ms) (i : Nat) (v : Value),
      States.All P ms ss → States.stepAt ms ss i v = .error p →
      (∃ m ∈ ms, ∃ s, P m s ∧ m.step s v = .error p) ∨ (p = .rejected ∧ ms.length ≤ i)
  | [], _, _, _, _, hs => by
    simp only [States.stepAt] at hs
    cases hs; exact .inr ⟨rfl, by simp⟩
  | m :: ms, (s, ss), 0, v, ha, hs => by
    simp only [States.stepAt] at hs
    cases h1 : m.step s v with
    | error q =>
      rw [h1] at hs; cases hs
      exact .inl ⟨m, List.mem_cons_self .., s, ha.1, h1⟩
    | ok x => obtain ⟨o1, s1⟩ := x; rw [h1] at hs; cases hs
  | m :: ms, (s, ss), i + 1, v, ha, hs => by
    simp only [States.stepAt] at hs
    cases h1 : States.stepAt ms ss i v with
    | error q =>
      rw [h1] at hs; cases hs
      rcases States.stepAt_panic ms ss i v ha.2 h1 with ⟨m', hm', s', hs'⟩ | ⟨h, h'⟩
      · exact .inl ⟨m', List.mem_cons_of_mem _ hm', s', hs'⟩
      · exact .inr ⟨h, by simp; omega⟩
    | ok x => obtain ⟨o1, s1⟩ := x; rw [h1] at hs; cases hs

end Chandeliers.San
