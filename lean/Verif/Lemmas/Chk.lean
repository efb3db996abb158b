import Verif.Err.Accum

/-! Laws of the error monad. -/

set_option autoImplicit false
set_option linter.unusedSectionVars false

namespace Chandeliers.Err.Chk

variable {E σ α β : Type}

@[simp] theorem run_pure (a : α) (s : EAccum E × σ) : (pure a : Chk E σ α) s = (.some a, s) := rfl
@[simp] theorem run_pure' (a : α) (s : EAccum E × σ) : (Chk.pure a : Chk E σ α) s = (.some a, s) := rfl

theorem run_bind (m : Chk E σ α) (f : α → Chk E σ β) (s : EAccum E × σ) :
    (m >>= f) s = (match m s with
      | (.some a, s) => f a s
      | (.none, s) => (.none, s)
      | (.abort, s) => (.abort, s)) := rfl

theorem bind_some {m : Chk E σ α} {f : α → Chk E σ β} {s s' : EAccum E × σ} {b : β} :
    (m >>= f) s = (.some b, s') ↔ ∃ a s1, m s = (.some a, s1) ∧ f a s1 = (.some b, s') := by
  rw [run_bind]
  rcases h : m s with ⟨r, s1⟩
  cases r with
  | some a =>
    constructor
    · intro h'; exact ⟨a, s1, rfl, h'⟩
    · rintro ⟨a', s1', h1, h2⟩; cases h1; exact h2
  | none => simp
  | abort => simp

theorem opt_bind (m : Chk E σ α) (f : Option α → Chk E σ β) (s : EAccum E × σ) :
    (opt m >>= f) s = (match m s with
      | (.some a, s) => f (.some a) s
      | (.none, s) => f .none s
      | (.abort, s) => (.abort, s)) := by
  rw [run_bind]
  unfold opt
  rcases h : m s with ⟨r, s1⟩
  cases r <;> simp

theorem both_run (m : Chk E σ α) (n : Chk E σ β) (s : EAccum E × σ) :
    both m n s = (match m s with
      | (.abort, s) => (.abort, s)
      | (.some a, s) => (match n s with
        | (.some b, s) => (.some (a, b), s)
        | (.none, s) => (.none, s)
        | (.abort, s) => (.abort, s))
      | (.none, s) => (match n s with
        | (.some _, s) => (.none, s)
        | (.none, s) => (.none, s)
        | (.abort, s) => (.abort, s))) := by
  unfold both
  rw [opt_bind]
  rcases h : m s with ⟨r, s1⟩
  cases r <;> simp only [opt_bind]
  all_goals
    rcases h' : n s1 with ⟨r', s2⟩
    cases r' <;> rfl

theorem both_some {m : Chk E σ α} {n : Chk E σ β} {s s' : EAccum E × σ} {p : α × β} :
    both m n s = (.some p, s') ↔
      ∃ s1, m s = (.some p.1, s1) ∧ n s1 = (.some p.2, s') := by
  rw [both_run]
  rcases p with ⟨a, b⟩
  constructor
  · intro h
    rcases hm : m s with ⟨r, s1⟩
    rw [hm] at h
    rcases hn : n s1 with ⟨r', s2⟩
    cases r <;> cases r' <;> simp [hn] at h
    obtain ⟨⟨rfl, rfl⟩, rfl⟩ := h
    exact ⟨s1, rfl, hn⟩
  · rintro ⟨s1, h1, h2⟩
    simp only [] at h1 h2
    simp [h1, h2]

/-- How a well-behaved pass uses the accumulator: it only ever appends; when it fails it has
reported an error; when it succeeds it has reported none. -/
structure Honest (m : Chk E σ α) : Prop where
  grows : ∀ s, ∃ es ws, (m s).2.1.err = s.1.err ++ es ∧ (m s).2.1.warn = s.1.warn ++ ws
  none_err : ∀ s, (m s).1 = .none → ∃ e es, (m s).2.1.err = s.1.err ++ e :: es
  some_err : ∀ s a, (m s).1 = .some a → (m s).2.1.err = s.1.err

/-- The part of `Honest` that a computation with discarded errors keeps. -/
structure Appends (m : Chk E σ α) : Prop where
  grows : ∀ s, ∃ es ws, (m s).2.1.err = s.1.err ++ es ∧ (m s).2.1.warn = s.1.warn ++ ws
  none_err : ∀ s, (m s).1 = .none → ∃ e es, (m s).2.1.err = s.1.err ++ e :: es

theorem Honest.appends {m : Chk E σ α} (h : Honest m) : Appends m := ⟨h.grows, h.none_err⟩

theorem honest_pure (a : α) : Honest (pure a : Chk E σ α) :=
  ⟨fun s => ⟨[], [], by simp⟩, fun s h => by simp at h, fun s b _ => by simp⟩

theorem honest_pure' (a : α) : Honest (Chk.pure a : Chk E σ α) := honest_pure a

theorem honest_error (e : E) : Honest (error e : Chk E σ α) :=
  ⟨fun s => ⟨[e], [], by simp [error]⟩, fun s _ => ⟨e, [], by simp [error]⟩,
    fun s a h => by simp [error] at h⟩

theorem honest_warning (e : E) : Honest (warning e : Chk E σ Unit) :=
  ⟨fun s => ⟨[], [e], by simp [warning]⟩, fun s h => by simp [warning] at h,
    fun s a h => by simp [warning]⟩

theorem honest_abort : Honest (abort : Chk E σ α) :=
  ⟨fun s => ⟨[], [], by simp [abort]⟩, fun s h => by simp [abort] at h,
    fun s a h => by simp [abort] at h⟩

theorem honest_get : Honest (get : Chk E σ σ) :=
  ⟨fun s => ⟨[], [], by simp [get]⟩, fun s h => by simp [get] at h, fun s a h => by simp [get]⟩

theorem honest_modify (f : σ → σ) : Honest (modify f : Chk E σ Unit) :=
  ⟨fun s => ⟨[], [], by simp [modify]⟩, fun s h => by simp [modify] at h,
    fun s a h => by simp [modify]⟩

theorem honest_bind {m : Chk E σ α} {f : α → Chk E σ β} (hm : Honest m) (hf : ∀ a, Honest (f a)) :
    Honest (m >>= f) := by
  refine ⟨fun s => ?_, fun s h => ?_, fun s b h => ?_⟩
  · rw [run_bind]
    obtain ⟨es, ws, h1, h2⟩ := hm.grows s
    rcases hs : m s with ⟨r, s1⟩
    rw [hs] at h1 h2
    cases r with
    | some a =>
      obtain ⟨es', ws', h3, h4⟩ := (hf a).grows s1
      exact ⟨es ++ es', ws ++ ws', by simp_all, by simp_all⟩
    | none => exact ⟨es, ws, h1, h2⟩
    | abort => exact ⟨es, ws, h1, h2⟩
  · rw [run_bind] at h ⊢
    have hn := hm.none_err s
    have hs' := hm.some_err s
    rcases hs : m s with ⟨r, s1⟩
    rw [hs] at h hn hs'
    cases r with
    | some a =>
      obtain ⟨e, es, h3⟩ := (hf a).none_err s1 h
      have := hs' a rfl
      exact ⟨e, es, by simp_all⟩
    | none => exact hn rfl
    | abort => simp at h
  · rw [run_bind] at h ⊢
    have hs' := hm.some_err s
    rcases hs : m s with ⟨r, s1⟩
    rw [hs] at h hs'
    cases r with
    | some a =>
      have := hs' a rfl
      have := (hf a).some_err s1 b h
      simp_all
    | none => simp at h
    | abort => simp at h

theorem appends_bind {m : Chk E σ α} {f : α → Chk E σ β} (hm : Appends m)
    (hf : ∀ a, Appends (f a)) : Appends (m >>= f) := by
  refine ⟨fun s => ?_, fun s h => ?_⟩
  · rw [run_bind]
    obtain ⟨es, ws, h1, h2⟩ := hm.grows s
    rcases hs : m s with ⟨r, s1⟩
    rw [hs] at h1 h2
    cases r with
    | some a =>
      obtain ⟨es', ws', h3, h4⟩ := (hf a).grows s1
      exact ⟨es ++ es', ws ++ ws', by simp_all, by simp_all⟩
    | none => exact ⟨es, ws, h1, h2⟩
    | abort => exact ⟨es, ws, h1, h2⟩
  · rw [run_bind] at h ⊢
    have hn := hm.none_err s
    obtain ⟨es, ws, h1, h2⟩ := hm.grows s
    rcases hs : m s with ⟨r, s1⟩
    rw [hs] at h hn h1
    cases r with
    | some a =>
      obtain ⟨e, es', h3⟩ := (hf a).none_err s1 h
      cases es with
      | nil => exact ⟨e, es', by simp_all⟩
      | cons e0 es0 => exact ⟨e0, es0 ++ e :: es', by simp_all⟩
    | none => exact hn rfl
    | abort => simp at h

theorem honest_both {m : Chk E σ α} {n : Chk E σ β} (hm : Honest m) (hn : Honest n) :
    Honest (both m n) := by
  refine ⟨fun s => ?_, fun s h => ?_, fun s b h => ?_⟩
  · rw [both_run]
    obtain ⟨es, ws, h1, h2⟩ := hm.grows s
    rcases hs : m s with ⟨r, s1⟩
    rw [hs] at h1 h2
    obtain ⟨es', ws', h3, h4⟩ := hn.grows s1
    rcases hs' : n s1 with ⟨r', s2⟩
    rw [hs'] at h3 h4
    cases r <;> cases r' <;> simp only [hs']
    all_goals first
      | exact ⟨es, ws, h1, h2⟩
      | exact ⟨es ++ es', ws ++ ws', by simp_all, by simp_all⟩
  · rw [both_run] at h ⊢
    have hm1 := hm.none_err s
    have hm2 := hm.some_err s
    rcases hs : m s with ⟨r, s1⟩
    rw [hs] at hm1 hm2
    have hn1 := hn.none_err s1
    obtain ⟨es', ws', h3, h4⟩ := hn.grows s1
    rcases hs' : n s1 with ⟨r', s2⟩
    rw [hs'] at hn1 h3
    cases r <;> cases r' <;> simp [hs, hs'] at h ⊢ <;> simp_all
    all_goals
      obtain ⟨e, es, he⟩ := hm1
      exact ⟨e, es ++ es', by simp_all⟩
  · rw [both_run] at h ⊢
    have hm2 := hm.some_err s
    rcases hs : m s with ⟨r, s1⟩
    rw [hs] at hm2
    have hn1 := hn.some_err s1
    rcases hs' : n s1 with ⟨r', s2⟩
    rw [hs'] at hn1
    cases r <;> cases r' <;> simp [hs, hs'] at h ⊢ <;> simp_all

/-- Looping over computations in a scope: each runs in the state left by the previous. -/
theorem scopeLoop_cons (b : Bool) (m : Chk E σ Unit) (ms : List (Chk E σ Unit))
    (s : EAccum E × σ) :
    scopeLoop b (m :: ms) s = (match m s with
      | (.some _, s) => scopeLoop b ms s
      | (.none, s) => scopeLoop true ms s
      | (.abort, s) => (.abort, s)) := by
  show (scopeCompute b m >>= fun fatal => scopeLoop fatal ms) s = _
  rw [run_bind]
  unfold scopeCompute
  rcases h : m s with ⟨r, s1⟩
  cases r <;> rfl

theorem scopeLoop_none (ms : List (Chk E σ Unit)) : ∀ (b : Bool) (s : EAccum E × σ),
    (scopeLoop b ms s).1 ≠ .none := by
  induction ms with
  | nil => intro b s; simp [scopeLoop]
  | cons m ms ih =>
    intro b s
    rw [scopeLoop_cons]
    rcases h : m s with ⟨r, s1⟩
    cases r <;> simp [ih]

theorem inScope_run (ms : List (Chk E σ Unit)) (s : EAccum E × σ) :
    inScope ms s = (match scopeLoop false ms s with
      | (.some b, s) => (if b then .none else .some (), s)
      | (.none, s) => (.none, s)
      | (.abort, s) => (.abort, s)) := by
  show (scopeLoop false ms >>= fun fatal => scopeClose fatal) s = _
  rw [run_bind]
  rcases h : scopeLoop false ms s with ⟨r, s1⟩
  cases r with
  | some b => cases b <;> simp [scopeClose]
  | none => rfl
  | abort => rfl

/-- The loop of a scope as one equation. -/
theorem inScope_cons (m : Chk E σ Unit) (ms : List (Chk E σ Unit)) (s : EAccum E × σ) :
    inScope (m :: ms) s = (match m s with
      | (.some _, s) => inScope ms s
      | (.none, s) => (match inScope ms s with
          | (.abort, s) => (.abort, s)
          | (_, s) => (.none, s))
      | (.abort, s) => (.abort, s)) := by
  rw [inScope_run, scopeLoop_cons]
  rcases h : m s with ⟨r, s1⟩
  cases r with
  | some a => simp only [inScope_run]
  | abort => rfl
  | none =>
    simp only [inScope_run]
    have key : ∀ (ms : List (Chk E σ Unit)) (b : Bool) (s : EAccum E × σ),
        scopeLoop true ms s = (match scopeLoop b ms s with
          | (.some _, s) => (.some true, s)
          | (.none, s) => (.none, s)
          | (.abort, s) => (.abort, s)) := by
      intro ms
      induction ms with
      | nil => intro b s; rfl
      | cons m ms ih =>
        intro b s
        rw [scopeLoop_cons, scopeLoop_cons]
        rcases h : m s with ⟨r, s1⟩
        cases r with
        | some a => exact ih b s1
        | none => exact ih true s1
        | abort => rfl
    rw [key ms false s1]
    rcases h : scopeLoop false ms s1 with ⟨r, s2⟩
    cases r with
    | some b => cases b <;> rfl
    | none => rfl
    | abort => rfl

theorem honest_inScope : ∀ (ms : List (Chk E σ Unit)), (∀ m ∈ ms, Honest m) → Honest (inScope ms)
  | [], _ => honest_pure ()
  | m :: ms, h => by
    have hm := h m (List.mem_cons_self ..)
    have hms := honest_inScope ms (fun m hm => h m (List.mem_cons_of_mem _ hm))
    refine ⟨fun s => ?_, fun s hr => ?_, fun s b hr => ?_⟩
    · rw [inScope_cons]
      obtain ⟨es, ws, h1, h2⟩ := hm.grows s
      rcases hs : m s with ⟨r, s1⟩
      rw [hs] at h1 h2
      obtain ⟨es', ws', h3, h4⟩ := hms.grows s1
      rcases hs' : inScope ms s1 with ⟨r', s2⟩
      rw [hs'] at h3 h4
      cases r <;> cases r' <;> simp only [hs']
      all_goals first
        | exact ⟨es, ws, h1, h2⟩
        | exact ⟨es ++ es', ws ++ ws', by simp_all, by simp_all⟩
    · rw [inScope_cons] at hr ⊢
      have hm1 := hm.none_err s
      have hm2 := hm.some_err s
      rcases hs : m s with ⟨r, s1⟩
      rw [hs] at hm1 hm2
      have hn1 := hms.none_err s1
      obtain ⟨es', ws', h3, h4⟩ := hms.grows s1
      rcases hs' : inScope ms s1 with ⟨r', s2⟩
      rw [hs'] at hn1 h3
      cases r <;> cases r' <;> simp [hs, hs'] at hr ⊢ <;> simp_all
      all_goals
        obtain ⟨e, es, he⟩ := hm1
        exact ⟨e, es ++ es', by simp_all⟩
    · rw [inScope_cons] at hr ⊢
      have hm2 := hm.some_err s
      rcases hs : m s with ⟨r, s1⟩
      rw [hs] at hm2
      have hn1 := hms.some_err s1
      rcases hs' : inScope ms s1 with ⟨r', s2⟩
      rw [hs'] at hn1
      cases r <;> cases r' <;> simp [hs, hs'] at hr ⊢ <;> simp_all

/-- A scope succeeds only if each computation does, from the state left by the previous. -/
theorem inScope_some_cons {m : Chk E σ Unit} {ms : List (Chk E σ Unit)} {s s' : EAccum E × σ} :
    inScope (m :: ms) s = (.some (), s') ↔
      ∃ s1, m s = (.some (), s1) ∧ inScope ms s1 = (.some (), s') := by
  rw [inScope_cons]
  rcases h : m s with ⟨r, s1⟩
  cases r with
  | some a => simp
  | none =>
    rcases h' : inScope ms s1 with ⟨r', s2⟩
    cases r' <;> simp [h']
  | abort => simp

theorem inScope_some_nil {s s' : EAccum E × σ} :
    inScope ([] : List (Chk E σ Unit)) s = (.some (), s') ↔ s = s' := by
  rw [inScope_run]; simp [scopeLoop]

/-- Continuation of a computation that has already failed: it may report more, it cannot succeed. -/
structure After (m : Chk E σ α) : Prop where
  grows : ∀ s, ∃ es ws, (m s).2.1.err = s.1.err ++ es ∧ (m s).2.1.warn = s.1.warn ++ ws
  fails : ∀ s a, (m s).1 ≠ .some a

theorem after_none {f : α → Chk E σ β} : After (ofOption .none >>= f : Chk E σ β) := by
  refine ⟨fun s => ⟨[], [], ?_⟩, fun s a h => ?_⟩
  · rw [run_bind]; simp [ofOption]
  · rw [run_bind] at h; simp [ofOption] at h

theorem after_some {f : α → Chk E σ β} {a : α} (h : After (f a)) :
    After (ofOption (.some a) >>= f : Chk E σ β) := h

theorem after_bind {m : Chk E σ α} {f : α → Chk E σ β} (hm : Appends m) (hf : ∀ a, After (f a)) :
    After (m >>= f) := by
  refine ⟨fun s => ?_, fun s b h => ?_⟩
  · rw [run_bind]
    obtain ⟨es, ws, h1, h2⟩ := hm.grows s
    rcases hs : m s with ⟨r, s1⟩
    rw [hs] at h1 h2
    cases r with
    | some a =>
      obtain ⟨es', ws', h3, h4⟩ := (hf a).grows s1
      exact ⟨es ++ es', ws ++ ws', by simp_all, by simp_all⟩
    | none => exact ⟨es, ws, h1, h2⟩
    | abort => exact ⟨es, ws, h1, h2⟩
  · rw [run_bind] at h
    rcases hs : m s with ⟨r, s1⟩
    rw [hs] at h
    cases r with
    | some a => exact (hf a).fails _ _ h
    | none => cases h
    | abort => cases h

theorem after_opt {m : Chk E σ α} {f : Option α → Chk E σ β} (hm : Appends m)
    (hf : ∀ o, After (f o)) : After (opt m >>= f) := by
  refine ⟨fun s => ?_, fun s b h => ?_⟩
  · rw [opt_bind]
    obtain ⟨es, ws, h1, h2⟩ := hm.grows s
    rcases hs : m s with ⟨r, s1⟩
    rw [hs] at h1 h2
    cases r with
    | some a =>
      obtain ⟨es', ws', h3, h4⟩ := (hf (.some a)).grows s1
      exact ⟨es ++ es', ws ++ ws', by simp_all, by simp_all⟩
    | none =>
      obtain ⟨es', ws', h3, h4⟩ := (hf .none).grows s1
      exact ⟨es ++ es', ws ++ ws', by simp_all, by simp_all⟩
    | abort => exact ⟨es, ws, h1, h2⟩
  · rw [opt_bind] at h
    rcases hs : m s with ⟨r, s1⟩
    rw [hs] at h
    cases r with
    | some a => exact (hf _).fails _ _ h
    | none => exact (hf _).fails _ _ h
    | abort => cases h

/-- A failure that is only looked at later. -/
theorem honest_opt {m : Chk E σ α} {f : Option α → Chk E σ β} (hm : Honest m)
    (hs : ∀ a, Honest (f (.some a))) (hn : After (f .none)) : Honest (opt m >>= f) := by
  refine ⟨fun s => ?_, fun s h => ?_, fun s b h => ?_⟩
  · rw [opt_bind]
    obtain ⟨es, ws, h1, h2⟩ := hm.grows s
    rcases hs' : m s with ⟨r, s1⟩
    rw [hs'] at h1 h2
    cases r with
    | some a =>
      obtain ⟨es', ws', h3, h4⟩ := (hs a).grows s1
      exact ⟨es ++ es', ws ++ ws', by simp_all, by simp_all⟩
    | none =>
      obtain ⟨es', ws', h3, h4⟩ := hn.grows s1
      exact ⟨es ++ es', ws ++ ws', by simp_all, by simp_all⟩
    | abort => exact ⟨es, ws, h1, h2⟩
  · rw [opt_bind] at h ⊢
    rcases hs' : m s with ⟨r, s1⟩
    rw [hs'] at h
    cases r with
    | some a =>
      obtain ⟨e, es, h1⟩ := (hs a).none_err _ h
      have := hm.some_err s a (by rw [hs'])
      rw [hs'] at this
      exact ⟨e, es, by simp only at this h1 ⊢; rw [h1, this]⟩
    | none =>
      obtain ⟨e, es, h1⟩ := hm.none_err s (by rw [hs'])
      obtain ⟨es', ws', h3, -⟩ := hn.grows s1
      rw [hs'] at h1
      exact ⟨e, es ++ es', by simp only at h1 h3 ⊢; rw [h3, h1]; simp⟩
    | abort => cases h
  · rw [opt_bind] at h ⊢
    rcases hs' : m s with ⟨r, s1⟩
    rw [hs'] at h
    cases r with
    | some a =>
      have := hm.some_err s a (by rw [hs'])
      rw [hs'] at this
      have h2 := (hs a).some_err _ _ h
      simp only at this h2 ⊢
      rw [h2, this]
    | none => exact absurd h (hn.fails _ _)
    | abort => cases h

theorem honest_some {f : α → Chk E σ β} {a : α} (h : Honest (f a)) :
    Honest (ofOption (.some a) >>= f : Chk E σ β) := h

theorem honest_ite {p : Prop} [Decidable p] {m n : Chk E σ α} (hm : Honest m) (hn : Honest n) :
    Honest (if p then m else n) := by split <;> assumption

end Chandeliers.Err.Chk
