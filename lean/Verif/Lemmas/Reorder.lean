import Verif.Lemmas.SolveRun
import Verif.Props.Schedule
import Verif.Props.Steps

/-! Changing the order of statements, removing an assertion. -/

set_option autoImplicit false

namespace Chandeliers.Den
open Chandeliers.San Chandeliers.Spec Chandeliers.Props

theorem mem_initialised' {id : Nat} {sts : List Stmt} :
    id ∈ initialised sts ↔ ∃ i c, .initRegister id i c ∈ sts := by
  induction sts with
  | nil => simp [initialised]
  | cons st sts ih => cases st <;> simp [initialised, ih]; grind

theorem initialised_perm {l l' : List Stmt} (h : l.Perm l') : (initialised l).Perm (initialised l') := by
  induction h with
  | nil => simp
  | cons a _ ih => cases a <;> simp [initialised, ih]
  | swap a b l => cases a <;> cases b <;> simp [initialised, List.Perm.swap]
  | trans _ _ h h' => exact h.trans h'

theorem updated_perm {l l' : List Stmt} (h : l.Perm l') : (updated l).Perm (updated l') := by
  induction h with
  | nil => simp
  | cons a _ ih => cases a <;> simp [updated, ih]
  | swap a b l => cases a <;> cases b <;> simp [updated, List.Perm.swap]
  | trans _ _ h h' => exact h.trans h'

theorem reordered_declared {n n' : Node} (h : Reordered n n') : declared n' = declared n := by
  rw [← h.2]; rfl

theorem reordered_symm {n n' : Node} (h : Reordered n n') : Reordered n' n := by
  refine ⟨h.1.symm, ?_⟩
  rw [← h.2]

theorem reordered_trans {n n' n'' : Node} (h : Reordered n n') (h' : Reordered n' n'') :
    Reordered n n'' := by
  refine ⟨h'.1.trans h.1, ?_⟩
  rw [← h.2, ← h'.2]

theorem wired_reorder {n n' : Node} (h : Reordered n n') (hw : Wired n) : Wired n' := by
  have hi : n'.inputs = n.inputs := by rw [← h.2]
  have ho : n'.outputs = n.outputs := by rw [← h.2]
  have hl : n'.locals = n.locals := by rw [← h.2]
  have hr : n'.registers = n.registers := by rw [← h.2]
  have hf : n'.flips = n.flips := by rw [← h.2]
  have hd := reordered_declared h
  have hm : ∀ {st}, st ∈ n'.stmts ↔ st ∈ n.stmts := fun {st} => h.1.mem_iff
  have hip := initialised_perm h.1
  have hup := updated_perm h.1
  refine ⟨by rw [hd]; exact hw.names, ?_, ?_, ?_, ?_, ?_, ?_, ?_, ?_, ?_, ?_, ?_⟩
  · rw [hi]; exact ((h.1.flatMap_right _).append_left _).nodup_iff.2 hw.once
  · rw [ho, hl]; intro v hv; obtain ⟨st, h1, h2⟩ := hw.defined v hv; exact ⟨st, hm.2 h1, h2⟩
  · rw [hd]; intro st hst; exact hw.deep st (hm.1 hst)
  · exact (h.1.flatMap_right _).nodup_iff.2 hw.slots
  · rw [hf]; intro st hst; exact hw.flips st (hm.1 hst)
  · exact hip.nodup_iff.2 hw.inits
  · exact hup.nodup_iff.2 hw.updates
  · intro id; rw [hip.mem_iff, hup.mem_iff]; exact hw.paired id
  · intro id; rw [hup.mem_iff, hr]; exact hw.registers id
  · intro st hst e he id f hp
    obtain ⟨h1, c, h2⟩ := hw.fetchPre st (hm.1 hst) e he id f hp
    exact ⟨hm.2 h1, c, hm.2 h2⟩
  · intro st hst e he id i f hp
    obtain ⟨h1, c, h2⟩ := hw.fetchFby st (hm.1 hst) e he id i f hp
    exact ⟨hm.2 h1, c, hm.2 h2⟩

theorem solution_reorder {A : Arith} {glob : Globals} {ms : List Machine} {F : Flow} {n n' : Node}
    (h : Reordered n n') {is : List Value} (hs : Solution A glob ms F n is) :
    Solution A glob ms F n' is := by
  refine ⟨?_, ?_, fun t ht st hst => hs.stmts t ht st (h.1.mem_iff.1 hst)⟩
  · have hr : n'.registers = n.registers := by rw [← h.2]
    rw [hr]; exact hs.shape
  · have hi : n'.inputs = n.inputs := by rw [← h.2]
    rw [hi]; exact hs.inputs

theorem outputs_reorder {F : Flow} {n n' : Node} (h : Reordered n n') (k : Nat) :
    outputs F n' k = outputs F n k := by
  have ho : n'.outputs = n.outputs := by rw [← h.2]
  simp [outputs, outputAt, ho]

theorem outTy_reorder {n n' : Node} (h : Reordered n n') : n'.outTy = n.outTy := by
  rw [← h.2]; rfl

/-- The runs of a node on any history. -/
theorem run_iff {A : Arith} {glob : Globals} {ms : List Machine} {n : Node} (hw : WiredInOrder n)
    {is os : List Value} :
    (n.machine A glob ms).run is = .ok os ↔
      ∃ F, Solution A glob ms F n (is.filter present) ∧
        os = spread n.outTy is (outputs F n (is.filter present).length) := by
  have hp : ∀ i ∈ is.filter present, i.firstIsNil = false := by
    intro i hi
    have := (List.mem_filter.1 hi).2
    simpa [present] using this
  rw [C09_stuttering]
  constructor
  · intro h
    cases hr : (n.machine A glob ms).run (is.filter present) with
    | error p => simp [hr] at h
    | ok os' =>
      simp only [hr, Except.ok.injEq] at h
      obtain ⟨F, h1, h2⟩ := (run_iff_solution hw hp).1 hr
      exact ⟨F, h1, by rw [← h, h2]⟩
  · rintro ⟨F, h1, rfl⟩
    rw [(run_iff_solution hw hp).2 ⟨F, h1, rfl⟩]

/-! ## From the scheduler -/

theorem values_evaluated {clk : Nat → Expr} {st : Stmt} {e : Expr}
    (h : e ∈ evaluated (Stmt.withClocks clk st)) :
    e ∈ values st ∨ ∃ id i c, st = .initRegister id i c ∧ e = clk id := by
  cases st with
  | let_ t e' => exact .inl h
  | assert e' => exact .inl h
  | updateRegister id e' => exact .inl h
  | initRegister id i c =>
    simp only [Stmt.withClocks, evaluated, Option.toList_some, List.cons_append, List.nil_append,
      List.mem_cons] at h
    rcases h with h | h
    · exact .inr ⟨_, _, _, rfl, h⟩
    · left; cases i <;> simp_all [values]

theorem evaluated_values {clk : Nat → Expr} {st : Stmt} {e : Expr} (h : e ∈ values st) :
    e ∈ evaluated (Stmt.withClocks clk st) := by
  cases st with
  | let_ t e' => exact h
  | assert e' => exact h
  | updateRegister id e' => exact h
  | initRegister id i c => cases i <;> simp_all [values, evaluated, Stmt.withClocks]

theorem initialised_withClocks (clk : Nat → Expr) (l : List Stmt) :
    initialised (l.map (Stmt.withClocks clk)) = initialised l := by
  induction l with
  | nil => rfl
  | cons st l ih => cases st <;> simp [initialised, Stmt.withClocks, ih]

theorem binds_withClocks (clk : Nat → Expr) (st : Stmt) :
    binds (Stmt.withClocks clk st) = binds st := by cases st <;> rfl

theorem mem_withClocks_init {clk : Nat → Expr} {l : List Stmt} {id : Nat} {i c : Option Expr}
    (h : .initRegister id i c ∈ l.map (Stmt.withClocks clk)) : ∃ c', .initRegister id i c' ∈ l := by
  obtain ⟨st, h1, h2⟩ := List.mem_map.1 h
  cases st <;> simp [Stmt.withClocks] at h2
  obtain ⟨rfl, rfl, rfl⟩ := h2
  exact ⟨_, h1⟩

theorem sorted_of_schedule {n n' : Node} (h : n.causality = .ok n') {clk : Nat → Expr}
    (hdef : ∀ v ∈ n.outputs ++ n.locals, ∃ st ∈ n.stmts, v.name ∈ binds st)
    (hpre : ∀ st ∈ n.stmts, ∀ e ∈ values st, ∀ id f, Part (.fetchPre id f) e →
      id ∈ initialised n.stmts)
    (hfby : ∀ st ∈ n.stmts, ∀ e ∈ values st, ∀ id i f, Part (.fetchFby id i f) e →
      id ∈ initialised n.stmts)
    (hdecl : ∀ st ∈ n.stmts, ∀ e ∈ values st, ∀ x, Part (.var x 0) e → Declares n x)
    (hclk : ∀ id ∈ initialised n.stmts,
      (∀ x, Part (.var x 0) (clk id) → x ∈ n.inputs.map (·.name)) ∧
      (∀ i f, ¬ Part (.fetchPre i f) (clk id)) ∧ ∀ i j f, ¬ Part (.fetchFby i j f) (clk id)) :
    Sorted (n.inputs.map (·.name)) [] (n'.stmts.map (Stmt.withClocks clk)) := by
  have hperm := (C22_node h).1
  have key : ∀ l₂ l₁, n'.stmts = l₁ ++ l₂ →
      Sorted (n.inputs.map (·.name) ++ l₁.flatMap binds) (initialised l₁)
        (l₂.map (Stmt.withClocks clk)) := by
    intro l₂
    induction l₂ with
    | nil => intros; trivial
    | cons st l₂ ih =>
      intro l₁ e
      have hst : st ∈ n.stmts := hperm.mem_iff.1 (by rw [e]; simp)
      refine ⟨fun x hx => ?_, ?_⟩
      · rcases values_evaluated hx with hv | ⟨id, i, c, rfl, rfl⟩
        · refine ⟨fun y hy => ?_, fun id f hf => ?_, fun id i f hf => ?_⟩
          · obtain ⟨v, hv1, rfl⟩ := hdecl st hst x hv y hy
            rw [List.mem_append]
            simp only [List.mem_append] at hv1
            rcases hv1 with (hv1 | hv1) | hv1
            · exact .inl (List.mem_map.2 ⟨v, hv1, rfl⟩)
            all_goals
              right
              obtain ⟨st'', h3, h2⟩ := hdef v (by
                simp only [List.mem_append]; first | exact .inl hv1 | exact .inr hv1)
              refine List.mem_flatMap.2 ⟨st'', ?_, h2⟩
              refine C23_writes_before_reads h e (.local_ hv hy) h3 ?_
              cases st'' <;> simp [binds] at h2
              exact .local_ h2
          · obtain ⟨i, c', h2⟩ := mem_initialised'.1 (hpre _ hst x hv id f hf)
            have := C23_writes_before_reads h e (.fetchPre hv hf) h2 .register
            exact mem_initialised'.2 ⟨_, _, this⟩
          · obtain ⟨_, c', h2⟩ := mem_initialised'.1 (hfby _ hst x hv id i f hf)
            have := C23_writes_before_reads h e (.fetchFby hv hf) h2 .register
            exact mem_initialised'.2 ⟨_, _, this⟩
        · obtain ⟨h1, h2, h3⟩ := hclk id (mem_initialised'.2 ⟨_, _, hst⟩)
          exact ⟨fun y hy => List.mem_append_left _ (h1 y hy), fun i f hf => absurd hf (h2 i f),
            fun i j f hf => absurd hf (h3 i j f)⟩
      · have := ih (l₁ ++ [st]) (by simp [e])
        rw [binds_withClocks]
        have e1 : initialised [Stmt.withClocks clk st] = initialised [st] :=
          initialised_withClocks clk [st]
        rw [e1, ← initialised_append]
        simpa using this
  simpa [initialised] using key n'.stmts [] rfl

theorem sorted_of_causality {n n' : Node} (h : n.causality = .ok n') {clk : Nat → Expr}
    (hw : Wired (Node.withClocks clk n))
    (hdecl : ∀ st ∈ n.stmts, ∀ e ∈ values st, ∀ x, Part (.var x 0) e → Declares n x)
    (hclk : ∀ id ∈ initialised n.stmts,
      (∀ x, Part (.var x 0) (clk id) → x ∈ n.inputs.map (·.name)) ∧
      (∀ i f, ¬ Part (.fetchPre i f) (clk id)) ∧ ∀ i j f, ¬ Part (.fetchFby i j f) (clk id)) :
    Sorted (n.inputs.map (·.name)) [] (n'.stmts.map (Stmt.withClocks clk)) := by
  refine sorted_of_schedule h ?_ ?_ ?_ hdecl hclk
  · intro v hv
    obtain ⟨st', h1, h2⟩ := hw.defined v hv
    obtain ⟨st'', h3, rfl⟩ := List.mem_map.1 h1
    rw [binds_withClocks] at h2
    exact ⟨st'', h3, h2⟩
  · intro st hst e he id f hf
    obtain ⟨_, c, h1⟩ := hw.fetchPre _ (List.mem_map.2 ⟨st, hst, rfl⟩) e (evaluated_values he) id f hf
    obtain ⟨c', h2⟩ := mem_withClocks_init h1
    exact mem_initialised'.2 ⟨_, _, h2⟩
  · intro st hst e he id i f hf
    obtain ⟨_, c, h1⟩ := hw.fetchFby _ (List.mem_map.2 ⟨st, hst, rfl⟩) e (evaluated_values he) id i f hf
    obtain ⟨c', h2⟩ := mem_withClocks_init h1
    exact mem_initialised'.2 ⟨_, _, h2⟩

theorem reordered_withClocks {n n' : Node} (h : Reordered n n') (clk : Nat → Expr) :
    Reordered (Node.withClocks clk n) (Node.withClocks clk n') := by
  refine ⟨h.1.map _, ?_⟩
  rw [← h.2]; rfl

/-! ## Without an assertion -/

theorem sorted_remove {e : Expr} : ∀ {l₁ l₂ : List Stmt} {vars : List String} {regs : List Nat},
    Sorted vars regs (l₁ ++ .assert e :: l₂) → Sorted vars regs (l₁ ++ l₂)
  | [], l₂, vars, regs, h => by
    have := h.2
    simpa [binds, initialised] using this
  | st :: l₁, l₂, vars, regs, h => ⟨h.1, sorted_remove h.2⟩

theorem wiredInOrder_remove {n : Node} (hw : WiredInOrder n) {e : Expr} {l₁ l₂ : List Stmt}
    (h : n.stmts = l₁ ++ .assert e :: l₂) : WiredInOrder { n with stmts := l₁ ++ l₂ } := by
  have hm : ∀ {st}, st ∈ l₁ ++ l₂ → st ∈ n.stmts := by
    intro st hst
    rw [h]
    simp only [List.mem_append, List.mem_cons] at hst ⊢
    grind
  have hm' : ∀ {st}, st ∈ n.stmts → st = .assert e ∨ st ∈ l₁ ++ l₂ := by
    intro st hst
    rw [h] at hst
    simp only [List.mem_append, List.mem_cons] at hst ⊢
    grind
  have hi : initialised n.stmts = initialised (l₁ ++ l₂) := by
    rw [h, initialised_append, initialised_append]; rfl
  have hu : updated n.stmts = updated (l₁ ++ l₂) := by
    rw [h]
    clear h hm hm' hi
    induction l₁ with
    | nil => rfl
    | cons st l ih => cases st <;> simp [updated, ih]
  have hb : n.stmts.flatMap binds = (l₁ ++ l₂).flatMap binds := by rw [h]; simp [binds]
  refine ⟨⟨hw.names, ?_, ?_, fun st hst => hw.deep st (hm hst), ?_,
    fun st hst => hw.flips st (hm hst), hi ▸ hw.inits, hu ▸ hw.updates, ?_, ?_, ?_, ?_⟩, ?_⟩
  · have := hw.once; rw [hb] at this; exact this
  · intro v hv
    obtain ⟨st, h1, h2⟩ := hw.defined v hv
    rcases hm' h1 with rfl | h1
    · simp [binds] at h2
    · exact ⟨st, h1, h2⟩
  · have h1 := hw.slots
    rw [h] at h1
    refine h1.sublist ?_
    simp only [List.flatMap_append, List.flatMap_cons]
    exact (List.Sublist.refl _).append (List.sublist_append_right _ _)
  · intro id
    have h1 := hw.paired id
    rw [hi, hu] at h1
    exact h1
  · intro id
    have h1 := hw.registers id
    rw [hu] at h1
    exact h1
  · intro st hst x hx id f hp
    obtain ⟨h1, c, h2⟩ := hw.fetchPre st (hm hst) x hx id f hp
    refine ⟨?_, c, ?_⟩
    · rcases hm' h1 with h1 | h1
      · cases h1
      · exact h1
    · rcases hm' h2 with h1 | h1
      · cases h1
      · exact h1
  · intro st hst x hx id i f hp
    obtain ⟨h1, c, h2⟩ := hw.fetchFby st (hm hst) x hx id i f hp
    refine ⟨?_, c, ?_⟩
    · rcases hm' h1 with h1 | h1
      · cases h1
      · exact h1
    · rcases hm' h2 with h1 | h1
      · cases h1
      · exact h1
  · have := hw.sorted
    rw [h] at this
    exact sorted_remove this

end Chandeliers.Den
