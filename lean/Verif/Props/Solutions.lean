import Verif.Lemmas.Reorder
import Verif.Lemmas.Parts
import Verif.Props.Safety

/-!
# C14, C26, C45: what a node computes
-/

set_option autoImplicit false

namespace Chandeliers.Props
open Chandeliers.San Chandeliers.Spec Chandeliers.Den

/-! ## C45 -/

/-- C45.  On any input history, a node runs without panic and returns `os` exactly when some
streams satisfy all its equations at all the instants where its inputs are present, and `os` lists
their outputs there (and is nil elsewhere). -/
theorem C45_runs_are_solutions (A : Arith) (glob : Globals) (ms : List Machine) {n : Node}
    (hw : WiredInOrder n) (is os : List Value) :
    (n.machine A glob ms).run is = .ok os ↔
      ∃ F, Solution A glob ms F n (is.filter present) ∧
        os = spread n.outTy is (outputs F n (is.filter present).length) :=
  run_iff hw

/-- C45.  The equations of a node have at most one solution. -/
theorem C45_unique_solution (A : Arith) (glob : Globals) (ms : List Machine) {n : Node}
    (hw : WiredInOrder n) {is : List Value} {F F' : Flow} (h : Solution A glob ms F n is)
    (h' : Solution A glob ms F' n is) :
    ∀ t, t < is.length → ∀ v ∈ declared n, F.X v.name t = F'.X v.name t :=
  fun _ ht _ hv => solution_unique hw h h' ht hv

/-! ## C26 -/

/-- C26.  Two nodes that differ only by the order of their statements, in both of which everything
is defined before it is used, return the same outputs on the same histories and panic on the
same histories. -/
theorem C26_order_irrelevant (A : Arith) (glob : Globals) (ms : List Machine) {n n' : Node}
    (hw : WiredInOrder n) (hr : Reordered n n')
    (hs : Sorted (n.inputs.map (·.name)) [] n'.stmts) (is os : List Value) :
    (n.machine A glob ms).run is = .ok os ↔ (n'.machine A glob ms).run is = .ok os := by
  have hi : n'.inputs = n.inputs := by rw [← hr.2]
  have hw' : WiredInOrder n' := ⟨wired_reorder hr hw.toWired, by rw [hi]; exact hs⟩
  rw [run_iff hw, run_iff hw', outTy_reorder hr]
  constructor
  · rintro ⟨F, h1, h2⟩
    exact ⟨F, solution_reorder hr h1, by rw [outputs_reorder hr]; exact h2⟩
  · rintro ⟨F, h1, h2⟩
    refine ⟨F, solution_reorder (reordered_symm hr) h1, ?_⟩
    rw [← outputs_reorder hr]; exact h2

/-- C26.  Through the compiler: whatever the order in which the equations are written, if one
order is accepted so is the other, and the scheduled nodes return the same outputs on the same
histories.  (`clk` are the activation clocks that the later clock check gives to registers; they
must be expressions of the inputs, see DESIGN.md, F4.) -/
theorem C26_source_order_irrelevant (A : Arith) (glob : Globals) (ms : List Machine)
    {n₁ n₂ n₁' : Node} {clk : Nat → Expr} (hr : Reordered n₁ n₂)
    (h₁ : n₁.causality = .ok n₁') (hw : Wired (Node.withClocks clk n₁))
    (hdecl : ∀ st ∈ n₁.stmts, ∀ e ∈ values st, ∀ x, Part (.var x 0) e → Declares n₁ x)
    (hclk : ∀ id ∈ initialised n₁.stmts,
      (∀ x, Part (.var x 0) (clk id) → x ∈ n₁.inputs.map (·.name)) ∧
      (∀ i f, ¬ Part (.fetchPre i f) (clk id)) ∧ ∀ i j f, ¬ Part (.fetchFby i j f) (clk id)) :
    ∃ n₂', n₂.causality = .ok n₂' ∧ ∀ is os,
      ((Node.withClocks clk n₁').machine A glob ms).run is = .ok os ↔
        ((Node.withClocks clk n₂').machine A glob ms).run is = .ok os := by
  have hi : n₂.inputs = n₁.inputs := by rw [← hr.2]
  have ho : n₂.outputs = n₁.outputs := by rw [← hr.2]
  have hl : n₂.locals = n₁.locals := by rw [← hr.2]
  have hacc : ∃ n₂', n₂.causality = .ok n₂' := by
    have h1 := C24_accepts_iff.1 ⟨_, causality_schedule h₁⟩
    have h2 : Schedulable (n₂.inputs.map (fun v => Reference.localVarName v.name)) n₂.stmts
        (n₂.locals.map (fun v => Reference.localVarName v.name) ++
          n₂.outputs.map (fun v => Reference.localVarName v.name)) := by
      have hm : ∀ {st}, st ∈ n₂.stmts ↔ st ∈ n₁.stmts := fun {st} => hr.1.mem_iff
      rw [hi, ho, hl]
      refine ⟨fun u hu o hmo => h1.context u hu o (hm.1 hmo),
        (hr.1.flatMap_right _).nodup_iff.2 h1.once, fun u hu => ?_, fun u hu => ?_⟩
      · obtain ⟨o, h3, h4⟩ := h1.declared u hu
        exact ⟨o, hm.2 h3, h4⟩
      · refine h1.acyclic u (Relation.TransGen.mono ?_ u u hu)
        rintro a b ⟨o, h3, h4⟩
        exact ⟨o, hm.1 h3, h4⟩
    obtain ⟨s, hs⟩ := C24_accepts_iff.2 h2
    exact ⟨{ n₂ with stmts := s },
      by simp [Node.causality, hs, bind, Except.bind, pure, Except.pure]⟩
  obtain ⟨n₂', h₂⟩ := hacc
  refine ⟨n₂', h₂, ?_⟩
  have hr1 : Reordered n₁ n₁' := C22_node h₁
  have hr2 : Reordered n₂ n₂' := C22_node h₂
  have hr12 := reordered_trans hr hr2
  have hii : n₁'.inputs = n₁.inputs := by rw [← hr1.2]
  have hm : ∀ {st}, st ∈ n₂.stmts ↔ st ∈ n₁.stmts := fun {st} => hr.1.mem_iff
  have s1 := sorted_of_causality h₁ hw hdecl hclk
  have s2 := sorted_of_causality h₂ (wired_reorder (reordered_withClocks hr clk) hw)
    (by
      intro st hst e he x hx
      have := hdecl st (hm.1 hst) e he x hx
      unfold Declares at this ⊢
      rw [hi, ho, hl]; exact this)
    (by
      intro id hid
      rw [hi]
      exact hclk id ((initialised_perm hr.1).mem_iff.1 hid))
  have w1 : WiredInOrder (Node.withClocks clk n₁') :=
    ⟨wired_reorder (reordered_withClocks hr1 clk) hw, by
      show Sorted (n₁'.inputs.map _) _ _
      rw [hii]; exact s1⟩
  refine C26_order_irrelevant A glob ms w1
    (reordered_withClocks (reordered_trans (reordered_symm hr1) hr12) clk) ?_
  show Sorted (n₁'.inputs.map _) _ _
  rw [hii, ← hi]
  exact s2

/-! ## C14 -/

/-- C14.  A node with an assertion runs like the node without it, as long as the assertion is true,
neither false nor nil, at every instant where the inputs are present; otherwise it panics. -/
theorem C14_node (A : Arith) (glob : Globals) (ms : List Machine) {n : Node}
    (hw : WiredInOrder n) {e : Expr} {l₁ l₂ : List Stmt} (h : n.stmts = l₁ ++ .assert e :: l₂)
    (is os : List Value) :
    (n.machine A glob ms).run is = .ok os ↔
      ∃ F, Solution A glob ms F { n with stmts := l₁ ++ l₂ } (is.filter present) ∧
        os = spread n.outTy is (outputs F n (is.filter present).length) ∧
        ∀ t, t < (is.filter present).length →
          den A glob ms F 0 e t = .ok (.leaf (.defined (.bool true))) := by
  rw [run_iff hw]
  constructor
  · rintro ⟨F, h1, h2⟩
    refine ⟨F, ⟨h1.shape, h1.inputs, fun t ht st hst => h1.stmts t ht st ?_⟩, h2,
      fun t ht => h1.stmts t ht (.assert e) (by simp [h])⟩
    rw [h]
    simp only [List.mem_append, List.mem_cons] at hst ⊢
    grind
  · rintro ⟨F, h1, h2, h3⟩
    refine ⟨F, ⟨h1.shape, h1.inputs, fun t ht st hst => ?_⟩, h2⟩
    rw [h] at hst
    simp only [List.mem_append, List.mem_cons] at hst
    by_cases hst' : st = .assert e
    · subst hst'; exact h3 t ht
    · refine h1.stmts t ht st ?_
      show st ∈ l₁ ++ l₂
      simp only [List.mem_append]
      grind

/-- C14.  Removing an assertion from a node changes no output of a run that succeeds. -/
theorem C14_no_effect (A : Arith) (glob : Globals) (ms : List Machine) {n : Node}
    (hw : WiredInOrder n) {e : Expr} {l₁ l₂ : List Stmt} (h : n.stmts = l₁ ++ .assert e :: l₂)
    {is os : List Value} (hr : (n.machine A glob ms).run is = .ok os) :
    ({ n with stmts := l₁ ++ l₂ : Node }.machine A glob ms).run is = .ok os := by
  obtain ⟨F, h1, h2, _⟩ := (C14_node A glob ms hw h is os).1 hr
  exact (run_iff (wiredInOrder_remove hw h)).2 ⟨F, h1, h2⟩

/-! ## Examples -/

/-- The node of C28, as the translation leaves it, with an assertion:
`n = i -> pre n + c; c = counter(true); assert n < 3;`. -/
def exSource : Node where
  name := "total"
  inputs := [⟨"i", .int, .implicit, 0⟩]
  outputs := [⟨"n", .int, .implicit, 0⟩]
  locals := [⟨"c", .int, .implicit, 0⟩]
  blocks := [⟨"counter", none⟩]
  stmts := [.updateRegister 0 (.var "n" 0), .initRegister 0 none none,
    .let_ (.single "n") (.flip 0 (.var "i" 0) (.bin .add (.fetchPre 0 (.var "n" 0)) (.var "c" 0))),
    .let_ (.single "c") (.substep 0 0 (.lit (.bool true))),
    .assert (.cmp .lt (.var "n" 0) (.lit (.int 3)))]
  registers := [some (.single .int)]
  flips := 1

/-- The same with the equations in another order. -/
def exSource' : Node :=
  { exSource with stmts := [.let_ (.single "c") (.substep 0 0 (.lit (.bool true))),
    .assert (.cmp .lt (.var "n" 0) (.lit (.int 3))),
    .updateRegister 0 (.var "n" 0), .initRegister 0 none none,
    .let_ (.single "n") (.flip 0 (.var "i" 0) (.bin .add (.fetchPre 0 (.var "n" 0)) (.var "c" 0)))] }

/-- All registers are on the implicit clock. -/
def exClk : Nat → Expr := fun _ => .lit (.bool true)

theorem exSource_reordered : Reordered exSource exSource' := by
  refine ⟨?_, rfl⟩
  simp only [exSource, exSource']
  generalize Stmt.let_ (.single "c") _ = a
  generalize Stmt.assert _ = b
  generalize Stmt.updateRegister _ _ = c
  generalize Stmt.initRegister _ _ _ = d
  generalize Stmt.let_ _ _ = e
  exact (List.perm_append_comm (l₁ := [a, b]) (l₂ := [c, d, e]))

theorem exSource_wired : Wired (Node.withClocks exClk exSource) where
  names := by decide
  once := by decide
  defined := by
    intro v hv
    simp only [exSource, Node.withClocks, List.cons_append, List.nil_append, List.mem_cons,
      List.not_mem_nil, or_false] at hv
    rcases hv with rfl | rfl <;> simp [exSource, Node.withClocks, Stmt.withClocks, binds, VarTuple.vars]
  deep := by
    intro st h e he x d hx
    have := mem_parts_of_part hx
    simp only [exSource, Node.withClocks, Stmt.withClocks, List.map_cons, List.map_nil,
      List.mem_cons, List.not_mem_nil, or_false] at h
    rcases h with rfl | rfl | rfl | rfl | rfl <;> simp [evaluated, exClk] at he <;> subst he <;>
      simp [parts] at this
  slots := by decide
  flips := by
    intro st h i hi
    simp only [exSource, Node.withClocks, Stmt.withClocks, List.map_cons, List.map_nil,
      List.mem_cons, List.not_mem_nil, or_false] at h
    rcases h with rfl | rfl | rfl | rfl | rfl <;> simp [liveIn, evaluated, live, exClk] at hi
    subst hi; simp [exSource, Node.withClocks]
  inits := by decide
  updates := by decide
  paired := by simp [exSource, Node.withClocks, Stmt.withClocks, initialised, updated]
  registers := by simp [exSource, Node.withClocks, Stmt.withClocks, updated]
  fetchPre := by
    intro st h e he id f hx
    have := mem_parts_of_part hx
    simp only [exSource, Node.withClocks, Stmt.withClocks, List.map_cons, List.map_nil,
      List.mem_cons, List.not_mem_nil, or_false] at h
    rcases h with rfl | rfl | rfl | rfl | rfl <;> simp [evaluated, exClk] at he <;> subst he <;>
      simp [parts] at this
    obtain ⟨rfl, rfl⟩ := this
    simp [exSource, Node.withClocks, Stmt.withClocks]
  fetchFby := by
    intro st h e he id i f hx
    have := mem_parts_of_part hx
    simp only [exSource, Node.withClocks, Stmt.withClocks, List.map_cons, List.map_nil,
      List.mem_cons, List.not_mem_nil, or_false] at h
    rcases h with rfl | rfl | rfl | rfl | rfl <;> simp [evaluated, exClk] at he <;> subst he <;>
      simp [parts] at this

/-- What the scheduler makes of the first one. -/
def exScheduled : Node :=
  { exSource with stmts := [.initRegister 0 none none,
    .let_ (.single "c") (.substep 0 0 (.lit (.bool true))),
    .let_ (.single "n") (.flip 0 (.var "i" 0) (.bin .add (.fetchPre 0 (.var "n" 0)) (.var "c" 0))),
    .updateRegister 0 (.var "n" 0),
    .assert (.cmp .lt (.var "n" 0) (.lit (.int 3)))] }

theorem exSource_causality : exSource.causality = .ok exScheduled := by rfl

theorem exSource_declared : ∀ st ∈ exSource.stmts, ∀ e ∈ values st, ∀ x, Part (.var x 0) e →
    Declares exSource x := by
  intro st h e he x hx
  have := mem_parts_of_part hx
  simp only [exSource, List.mem_cons, List.not_mem_nil, or_false] at h
  rcases h with rfl | rfl | rfl | rfl | rfl <;> simp [values] at he <;> subst he <;>
    simp [parts] at this <;> simp [Declares, exSource] <;> grind

theorem exSource_clocks : ∀ id ∈ initialised exSource.stmts,
    (∀ x, Part (.var x 0) (exClk id) → x ∈ exSource.inputs.map (·.name)) ∧
    (∀ i f, ¬ Part (.fetchPre i f) (exClk id)) ∧ ∀ i j f, ¬ Part (.fetchFby i j f) (exClk id) := by
  intro id _
  refine ⟨fun x h => ?_, fun i f h => ?_, fun i j f h => ?_⟩ <;>
    simpa [exClk, parts] using mem_parts_of_part h

/-- The instances of the counter that the example calls. -/
def exSubs : List Machine := [exCounter.machine exArith (fun _ => none) []]

/-- Non-vacuity of C26: the hypotheses are met by the example, whatever it is run on. -/
example : ∃ n', exSource'.causality = .ok n' ∧ ∀ is os,
    ((Node.withClocks exClk exScheduled).machine exArith (fun _ => none) exSubs).run is = .ok os ↔
      ((Node.withClocks exClk n').machine exArith (fun _ => none) exSubs).run is = .ok os :=
  C26_source_order_irrelevant exArith _ _ exSource_reordered exSource_causality exSource_wired
    exSource_declared exSource_clocks

theorem exScheduled_ready : WiredInOrder (Node.withClocks exClk exScheduled) :=
  ⟨wired_reorder (reordered_withClocks (C22_node exSource_causality) exClk) exSource_wired,
    sorted_of_causality exSource_causality exSource_wired exSource_declared exSource_clocks⟩

/-- A present integer. -/
def exInt (k : Int64) : Value := .leaf (.defined (.int k))

/-- Non-vacuity of C45 and C14: a run of the example, which fails at the third instant. -/
example :
    ((Node.withClocks exClk exScheduled).machine exArith (fun _ => none) exSubs).run
      [exInt 1, exInt 5] = .ok [exInt 1, exInt 2] ∧
    ((Node.withClocks exClk exScheduled).machine exArith (fun _ => none) exSubs).run
      [exInt 1, exInt 5, exInt 7] = .error .assertFalse := ⟨rfl, rfl⟩

example : ∃ F, Solution exArith (fun _ => none) exSubs F (Node.withClocks exClk exScheduled)
      [exInt 1, exInt 5] ∧ F.X "n" 1 = .defined (.int 2) := by
  obtain ⟨F, h1, h2⟩ := (C45_runs_are_solutions exArith (fun _ => none) exSubs exScheduled_ready
    [exInt 1, exInt 5] [exInt 1, exInt 2]).1 rfl
  refine ⟨F, h1, ?_⟩
  simp [outputs, outputAt, spread, present, exInt, Tup.firstIsNil, Nillable.firstIsNil, Tup.first,
    List.range_succ, Node.withClocks, exScheduled, exSource, tupleValue] at h2
  exact h2.2.symm

example : ∃ l₁ e l₂, (Node.withClocks exClk exScheduled).stmts = l₁ ++ .assert e :: l₂ :=
  ⟨[_, _, _, _], _, [], rfl⟩

end Chandeliers.Props
