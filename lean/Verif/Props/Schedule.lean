import Verif.Lemmas.Scheduling
import Verif.Lemmas.Requires
import Verif.Lemmas.Reads

/-!
# Scheduling and causality (C22-C25)

The scheduler of `graph.rs`, for any kind of object and any number of them; then its two uses,
the statements of a node and the declarations of a program.
-/

namespace Chandeliers.Props
open San Spec

set_option linter.unusedSectionVars false

section generic
variable {Obj U : Type} [DecidableEq U] [Depends Obj U]

/-- C22. A schedule contains every object exactly as often as it was inserted. -/
theorem C22_schedule_perm {ctx : List U} {objs s : List Obj} {iface : List U}
    (h : schedule ctx objs iface = .ok s) : s.Perm objs := by
  rcases Graph.schedule_spec ctx objs iface with ⟨s', h1, h2, _⟩ | ⟨e, h1, _⟩
  · rw [h] at h1; cases h1; exact h2
  · rw [h] at h1; cases h1

/-- C23. In a schedule every object comes after all the objects that define what it requires. -/
theorem C23_defined_before_use {ctx : List U} {objs s : List Obj} {iface : List U}
    (h : schedule ctx objs iface = .ok s) : DefinedBeforeUse s := by
  rcases Graph.schedule_spec ctx objs iface with ⟨s', h1, _, h3, _⟩ | ⟨e, h1, _⟩
  · rw [h] at h1; cases h1; exact h3
  · rw [h] at h1; cases h1

/-- What an error claims makes the input unschedulable. -/
theorem not_schedulable_of_truthful {ctx : List U} {objs : List Obj} {iface : List U} {e : GErr U}
    (h : Truthful ctx objs iface e) : ¬ Schedulable ctx objs iface := by
  intro hs
  cases e with
  | undeclared u =>
    obtain ⟨h1, h2⟩ := h
    obtain ⟨o, ho, hu⟩ := hs.declared u h1
    exact h2 o ho hu
  | providedByContext u =>
    obtain ⟨h1, o, ho, hu⟩ := h
    exact hs.context u h1 o ho hu
  | declTwice u =>
    have := List.nodup_iff_count_le_one.1 hs.once u
    simp only [Truthful] at h
    omega
  | dependsOnItself u =>
    obtain ⟨o, ho, h1, h2⟩ := h
    exact hs.acyclic u (.single ⟨o, ho, h1, h2⟩)
  | cycle us =>
    obtain ⟨h1, h2, h3, -⟩ := h
    match us, h1 with
    | a :: b :: us, _ =>
      have hab : a ≠ b := by
        intro e
        subst e
        simp at h2
      have h4 := h3 a (by simp) b (by simp)
      have h5 := h3 b (by simp) a (by simp)
      rcases Relation.reflTransGen_iff_eq_or_transGen.1 h4 with e | h4
      · exact hab e.symm
      · exact hs.acyclic a (Relation.TransGen.trans_left h4 h5)
  | abort => exact h
  | fuel => exact h

/-- C24. A set of objects is accepted exactly when it can be scheduled: nothing of the context is
redefined, nothing is defined twice, the interface is defined, and there is no cycle of any
length. -/
theorem C24_accepts_iff {ctx : List U} {objs : List Obj} {iface : List U} :
    (∃ s, schedule ctx objs iface = .ok s) ↔ Schedulable ctx objs iface := by
  rcases Graph.schedule_spec ctx objs iface with ⟨s', h1, _, _, h4⟩ | ⟨e, h1, h2⟩
  · exact ⟨fun _ => h4, fun _ => ⟨s', h1⟩⟩
  · constructor
    · rintro ⟨s, hs⟩; rw [hs] at h1; cases h1
    · intro hs; exact absurd hs (not_schedulable_of_truthful h2)

/-- C24. A reported error is true of the input (in particular the symbols listed by a cycle error
all depend on each other, and none of those that depend on each other with them is missing), and the scheduler never crashes nor runs forever. -/
theorem C24_error_truthful {ctx : List U} {objs : List Obj} {iface : List U} {e : GErr U}
    (h : schedule ctx objs iface = .error e) : Truthful ctx objs iface e := by
  rcases Graph.schedule_spec ctx objs iface with ⟨s', h1, _⟩ | ⟨e, h1, h2⟩
  · rw [h] at h1; cases h1
  · rw [h] at h1; cases h1; exact h2

/-- A valid order exists only for schedulable inputs without requirements on the context: the
specification is not stricter than what an order needs. -/
theorem C24_order_implies_acyclic {objs s : List Obj}
    (hp : s.Perm objs) (ho : DefinedBeforeUse s) (hn : (objs.flatMap Depends.provides : List U).Nodup) :
    ∀ u : U, ¬ OnCycle objs u := by
  have hn' : (s.flatMap Depends.provides : List U).Nodup :=
    ((hp.flatMap_right _).nodup_iff).2 hn
  -- position of the definition of a unit: everything reachable is defined strictly before
  have key : ∀ u w : U, Relation.TransGen (Needs objs) u w → ∀ l₁ o l₂, s = l₁ ++ o :: l₂ →
      u ∈ Depends.provides o → ∀ o' ∈ s, w ∈ Depends.provides o' → o' ∈ l₁ := by
    intro u w h
    induction h with
    | single h =>
      intro l₁ o l₂ e hu o' ho' hw
      obtain ⟨x, hx, hxu, hxw⟩ := h
      have hxs := hp.mem_iff.2 hx
      have : x = o := unique_provider hn' hxs (by rw [e]; simp) hxu hu
      subst this
      exact ho l₁ x l₂ e _ hxw o' ho' hw
    | @tail b c _ h ih =>
      intro l₁ o l₂ e hu o' ho' hw
      obtain ⟨x, hx, hxb, hxc⟩ := h
      have hxs := hp.mem_iff.2 hx
      have hx1 := ih l₁ o l₂ e hu x hxs hxb
      obtain ⟨a, b', hab⟩ := List.append_of_mem hx1
      have := ho a x (b' ++ o :: l₂) (by rw [e, hab]; simp) _ hxc o' ho' hw
      rw [hab]
      exact List.mem_append_left _ this
  intro u hu
  obtain ⟨v, ⟨o, hom, hou, _⟩, _⟩ := Relation.TransGen.head'_iff.1 hu
  have hos := hp.mem_iff.2 hom
  obtain ⟨l₁, l₂, e⟩ := List.append_of_mem hos
  have h1 := key u u hu l₁ o l₂ e hou o hos hou
  obtain ⟨a, b, hab⟩ := List.append_of_mem h1
  rw [e, hab] at hn'
  simp only [List.append_assoc, List.cons_append, List.flatMap_append, List.flatMap_cons] at hn'
  have h2 := (List.nodup_append.1 (List.nodup_append.1 hn').2.1).2.2 u hou u (by simp [hou])
  exact h2 rfl
where
  unique_provider {s : List Obj} (hn : (s.flatMap Depends.provides : List U).Nodup) {x o : Obj}
      (hx : x ∈ s) (ho : o ∈ s) {u : U} (hxu : u ∈ Depends.provides x)
      (hou : u ∈ Depends.provides o) : x = o := by
    induction s with
    | nil => cases hx
    | cons a s ih =>
      rw [List.flatMap_cons, List.nodup_append] at hn
      rcases List.mem_cons.1 hx with e | hx' <;> rcases List.mem_cons.1 ho with e' | ho'
      · rw [e, e']
      · exact absurd rfl (hn.2.2 u (e ▸ hxu) u (List.mem_flatMap.2 ⟨o, ho', hou⟩))
      · exact absurd rfl (hn.2.2 u (e' ▸ hou) u (List.mem_flatMap.2 ⟨x, hx', hxu⟩))
      · exact ih hn.2.1 hx' ho'

end generic

/-! ### Nodes -/

/-- C22. Causality only reorders the statements of a node. -/
theorem C22_node {n n' : Node} (h : n.causality = .ok n') :
    n'.stmts.Perm n.stmts ∧ { n' with stmts := n.stmts } = n := by
  unfold Node.causality at h
  cases hs : schedule (n.inputs.map (fun v => Reference.localVarName v.name)) n.stmts
    (n.locals.map (fun v => Reference.localVarName v.name) ++
      n.outputs.map (fun v => Reference.localVarName v.name)) with
  | error e => simp [hs, bind, Except.bind] at h
  | ok s =>
    simp only [hs, bind, Except.bind, pure, Except.pure, Except.ok.injEq] at h
    subst h
    exact ⟨C22_schedule_perm hs, rfl⟩

/-- The node has a variable of that name. -/
def Declares (n : Node) (x : String) : Prop :=
  ∃ v ∈ n.inputs ++ n.outputs ++ n.locals, v.name = x

theorem mem_assigned {x : String} {sts : List Stmt} :
    x ∈ assigned sts ↔ ∃ st ∈ sts, Reference.localVarName x ∈ (Depends.provides st : List Reference) := by
  induction sts with
  | nil => simp [assigned]
  | cons st sts ih =>
    cases st with
    | let_ t e => simp [assigned, ih, Depends.provides, Stmt.provides]
    | assert e => simp [assigned, ih, Depends.provides, Stmt.provides]
    | initRegister a b c => simp [assigned, ih, Depends.provides, Stmt.provides]
    | updateRegister a b => simp [assigned, ih, Depends.provides, Stmt.provides]

theorem causality_schedule {n n' : Node} (h : n.causality = .ok n') :
    schedule (n.inputs.map (fun v => Reference.localVarName v.name)) n.stmts
      (n.locals.map (fun v => Reference.localVarName v.name) ++
        n.outputs.map (fun v => Reference.localVarName v.name)) = .ok n'.stmts := by
  unfold Node.causality at h
  cases hs : schedule (n.inputs.map (fun v => Reference.localVarName v.name)) n.stmts
    (n.locals.map (fun v => Reference.localVarName v.name) ++
      n.outputs.map (fun v => Reference.localVarName v.name)) with
  | error e => simp [hs, bind, Except.bind] at h
  | ok s =>
    simp only [hs, bind, Except.bind, pure, Except.pure, Except.ok.injEq] at h
    subst h
    rfl

/-- C25. In an accepted node no variable is assigned twice, no input is assigned, and every
local and output is assigned. -/
theorem C25_exactly_one_definition {n n' : Node} (h : n.causality = .ok n') :
    (assigned n'.stmts).Nodup ∧
      (∀ v ∈ n.inputs, v.name ∉ assigned n'.stmts) ∧
      (∀ v ∈ n.locals ++ n.outputs, v.name ∈ assigned n'.stmts) := by
  have hs := causality_schedule h
  have hsch := C24_accepts_iff.1 ⟨_, hs⟩
  have hp := C22_schedule_perm hs
  have hperm : ∀ x, x ∈ assigned n'.stmts ↔ x ∈ assigned n.stmts := by
    intro x
    rw [mem_assigned, mem_assigned]
    constructor <;> rintro ⟨st, h1, h2⟩
    · exact ⟨st, hp.mem_iff.1 h1, h2⟩
    · exact ⟨st, hp.mem_iff.2 h1, h2⟩
  refine ⟨?_, ?_, ?_⟩
  · have h1 : (n'.stmts.flatMap Depends.provides : List Reference).Nodup :=
      ((hp.flatMap_right _).nodup_iff).2 hsch.once
    have h2 : ∀ sts : List Stmt, (sts.flatMap Depends.provides : List Reference).Nodup →
        (assigned sts).Nodup := by
      intro sts
      induction sts with
      | nil => intro _; simp [assigned]
      | cons st sts ih =>
        intro hn
        rw [List.flatMap_cons, List.nodup_append] at hn
        cases st with
        | let_ t e =>
          rw [assigned, List.nodup_append]
          refine ⟨List.Nodup.of_map _ hn.1, ih hn.2.1, ?_⟩
          intro a ha b hb e
          subst e
          obtain ⟨st, hst, hx⟩ := mem_assigned.1 hb
          exact hn.2.2 (.localVarName a) (by simp [Depends.provides, Stmt.provides, ha]) _
            (List.mem_flatMap.2 ⟨st, hst, hx⟩) rfl
        | assert e => exact ih hn.2.1
        | initRegister a b c => exact ih hn.2.1
        | updateRegister a b => exact ih hn.2.1
    exact h2 _ h1
  · intro v hv hx
    obtain ⟨st, h1, h2⟩ := mem_assigned.1 ((hperm _).1 hx)
    exact hsch.context _ (List.mem_map.2 ⟨v, hv, rfl⟩) st h1 h2
  · intro v hv
    rw [hperm, mem_assigned]
    refine hsch.declared _ ?_
    rcases List.mem_append.1 hv with hv | hv
    · exact List.mem_append_left _ (List.mem_map.2 ⟨v, hv, rfl⟩)
    · exact List.mem_append_right _ (List.mem_map.2 ⟨v, hv, rfl⟩)

/-- C23. In an accepted node, what a statement computes depends only on the inputs and on the
variables assigned by earlier statements: two environments that agree there give every value the
statement needs the same result.  (`hdecl`: type checking rejects undeclared variables.) -/
theorem C23_node {n n' : Node} (h : n.causality = .ok n') {l₁ l₂ : List Stmt} {st : Stmt}
    (hst : n'.stmts = l₁ ++ st :: l₂)
    (hdecl : ∀ x, Reads st (.localVarName x) → Declares n x)
    {env₁ env₂ : Env}
    (hin : ∀ v ∈ n.inputs, env₁ v.name = env₂ v.name)
    (hbefore : ∀ x ∈ assigned l₁, env₁ x = env₂ x)
    (A : Arith) (glob : Globals) (ms : List Machine) (s : NodeState ms) :
    ∀ e ∈ values st, eval A glob ms env₁ e s = eval A glob ms env₂ e s := by
  have hs := causality_schedule h
  have hsch := C24_accepts_iff.1 ⟨_, hs⟩
  have hp := C22_schedule_perm hs
  have ho := C23_defined_before_use hs l₁ st l₂ hst
  have hagree : AgreeOn env₁ env₂ st.requires := by
    intro x hx
    have hx' : Reads st (.localVarName x) := by
      rcases stmt_requires.1 hx with h | ⟨_, _, _, h⟩
      · exact h
      · cases h
    obtain ⟨v, hv, rfl⟩ := hdecl x hx'
    simp only [List.mem_append] at hv
    have hdef : v ∈ n.locals ++ n.outputs → env₁ v.name = env₂ v.name := by
      intro hv
      have h1 : Reference.localVarName v.name ∈
          (n.locals.map (fun v => Reference.localVarName v.name) ++
            n.outputs.map (fun v => Reference.localVarName v.name)) := by
        rcases List.mem_append.1 hv with hv | hv
        · exact List.mem_append_left _ (List.mem_map.2 ⟨v, hv, rfl⟩)
        · exact List.mem_append_right _ (List.mem_map.2 ⟨v, hv, rfl⟩)
      obtain ⟨o, ho1, ho2⟩ := hsch.declared _ h1
      have := ho _ hx o (hp.mem_iff.2 ho1) ho2
      exact hbefore _ (mem_assigned.2 ⟨o, this, ho2⟩)
    rcases hv with (hv | hv) | hv
    · exact hin v hv
    · exact hdef (List.mem_append_right _ hv)
    · exact hdef (List.mem_append_left _ hv)
  intro e he
  refine eval_congr A glob ms e s ?_
  intro x hx
  apply hagree
  cases st with
  | let_ t e' => simp only [values, List.mem_singleton] at he; subst he; exact hx
  | assert e' => simp only [values, List.mem_singleton] at he; subst he; exact hx
  | updateRegister id v =>
    simp only [values, List.mem_singleton] at he; subst he
    exact List.mem_cons_of_mem _ hx
  | initRegister id v c =>
    cases v with
    | none => simp [values] at he
    | some v => simp only [values, List.mem_singleton] at he; subst he; exact hx

/-- C23. In an accepted node, a variable or register is read at the current instant only by
statements that come after the one that defines it. -/
theorem C23_writes_before_reads {n n' : Node} (h : n.causality = .ok n') {l₁ l₂ : List Stmt}
    {st : Stmt} (hst : n'.stmts = l₁ ++ st :: l₂) {r : Reference} (hr : Reads st r)
    {st' : Stmt} (hm : st' ∈ n.stmts) (hw : Writes st' r) : st' ∈ l₁ := by
  have hs := causality_schedule h
  exact C23_defined_before_use hs l₁ st l₂ hst r (stmt_requires.2 (.inl hr)) st'
    ((C22_schedule_perm hs).mem_iff.2 hm) (stmt_provides.2 hw)

theorem needs_iff_uses {sts : List Stmt} {u w : Reference} :
    Needs sts u w ↔ Uses sts u w ∨
      ((∃ id, w = .updateRegister id) ∧ Needs sts u w) := by
  constructor
  · rintro ⟨st, h1, h2, h3⟩
    rcases stmt_requires.1 h3 with h | ⟨id, v, h4, h5⟩
    · exact .inl ⟨st, h1, stmt_provides.1 h2, h⟩
    · exact .inr ⟨⟨id, h5⟩, st, h1, h2, h3⟩
  · rintro (⟨st, h1, h2, h3⟩ | ⟨_, h⟩)
    · exact ⟨st, h1, stmt_provides.2 h2, stmt_requires.2 (.inl h3)⟩
    · exact h

theorem onCycle_iff_uses {sts : List Stmt} {u : Reference} :
    OnCycle sts u ↔ Relation.TransGen (Uses sts) u u := by
  have dead : ∀ {id w}, ¬ Needs sts (.updateRegister id) w := by
    rintro id w ⟨st, _, h, _⟩
    cases stmt_provides.1 h
  constructor
  · -- every unit of a cycle needs something, so it is not an `updateRegister`
    have key : ∀ {a b c}, Relation.TransGen (Needs sts) a b → Needs sts b c →
        Relation.TransGen (Uses sts) a b := by
      intro a b c h
      induction h generalizing c with
      | single h =>
        intro h'
        rcases needs_iff_uses.1 h with h | ⟨⟨id, rfl⟩, _⟩
        · exact .single h
        · exact absurd h' dead
      | tail _ h ih =>
        intro h'
        rcases needs_iff_uses.1 h with h2 | ⟨⟨id, rfl⟩, _⟩
        · exact (ih h).tail h2
        · exact absurd h' dead
    intro h
    obtain ⟨v, h1, _⟩ := Relation.TransGen.head'_iff.1 h
    exact key h h1
  · exact Relation.TransGen.mono (fun a b (h : Uses sts a b) => (needs_iff_uses.2 (.inl h) : Needs sts a b)) u u

theorem mem_initialised {id : Nat} {sts : List Stmt} :
    id ∈ initialised sts ↔ ∃ st ∈ sts, Writes st (.initRegister id) := by
  induction sts with
  | nil => simp [initialised]
  | cons st sts ih =>
    cases st with
    | initRegister id' v c =>
      simp only [initialised, List.mem_cons, exists_eq_or_imp, ih]
      refine or_congr ⟨?_, ?_⟩ Iff.rfl
      · rintro rfl; exact .register
      · intro h; cases h; rfl
    | _ =>
      simp only [initialised, List.mem_cons, exists_eq_or_imp, ih]
      exact ⟨.inr, fun h => h.resolve_left (fun h => nomatch h)⟩

theorem nodup_provides {sts : List Stmt} :
    (sts.flatMap Depends.provides : List Reference).Nodup ↔
      (assigned sts).Nodup ∧ (initialised sts).Nodup := by
  induction sts with
  | nil => simp [assigned, initialised]
  | cons st sts ih =>
    rw [List.flatMap_cons, List.nodup_append, ih]
    have hmem : ∀ r, r ∈ (sts.flatMap Depends.provides : List Reference) ↔
        ∃ st ∈ sts, Writes st r := by
      intro r
      rw [List.mem_flatMap]
      exact exists_congr fun st => and_congr_right fun _ => stmt_provides
    cases st with
    | let_ t e =>
      simp only [assigned, initialised]
      rw [List.nodup_append]
      constructor
      · rintro ⟨h1, ⟨h2, h3⟩, h4⟩
        refine ⟨⟨List.Nodup.of_map _ h1, h2, ?_⟩, h3⟩
        rintro a ha b hb rfl
        obtain ⟨st, hst, hx⟩ := mem_assigned.1 hb
        exact h4 (.localVarName a) (List.mem_map.2 ⟨a, ha, rfl⟩) _
          (List.mem_flatMap.2 ⟨st, hst, hx⟩) rfl
      · rintro ⟨⟨h1, h2, h3⟩, h4⟩
        refine ⟨h1.map (fun a b h => by cases h; rfl), ⟨h2, h4⟩, ?_⟩
        rintro a ha b hb rfl
        obtain ⟨x, hx, rfl⟩ := List.mem_map.1 ha
        obtain ⟨st, hst, hw⟩ := List.mem_flatMap.1 hb
        exact h3 x hx x (mem_assigned.2 ⟨st, hst, hw⟩) rfl
    | initRegister id v c =>
      simp only [assigned, initialised]
      rw [List.nodup_cons, mem_initialised]
      constructor
      · rintro ⟨_, ⟨h2, h3⟩, h4⟩
        refine ⟨h2, ?_, h3⟩
        rintro ⟨st, hst, hw⟩
        exact h4 (.initRegister id) (by simp [Depends.provides, Stmt.provides]) _
          ((hmem _).2 ⟨st, hst, hw⟩) rfl
      · rintro ⟨h1, h2, h3⟩
        refine ⟨by simp [Depends.provides, Stmt.provides], ⟨h1, h3⟩, ?_⟩
        rintro a ha b hb rfl
        simp only [Depends.provides, Stmt.provides, List.mem_singleton] at ha
        subst ha
        exact h2 ((hmem _).1 hb)
    | assert e => simp [assigned, initialised, Depends.provides, Stmt.provides]
    | updateRegister id v => simp [assigned, initialised, Depends.provides, Stmt.provides]

/-- C24. A node is accepted exactly when no input is assigned, no variable is assigned twice, no
register is set up twice, every local and output is assigned, and no variable or register is
defined from itself, directly or not, at the same instant. -/
theorem C24_node {n : Node} :
    (∃ n', n.causality = .ok n') ↔
      (∀ v ∈ n.inputs, v.name ∉ assigned n.stmts) ∧ (assigned n.stmts).Nodup ∧
      (initialised n.stmts).Nodup ∧ (∀ v ∈ n.locals ++ n.outputs, v.name ∈ assigned n.stmts) ∧
      ∀ r, ¬ Relation.TransGen (Uses n.stmts) r r := by
  have h0 : (∃ n', n.causality = .ok n') ↔
      Schedulable (n.inputs.map (fun v => Reference.localVarName v.name)) n.stmts
      (n.locals.map (fun v => Reference.localVarName v.name) ++
        n.outputs.map (fun v => Reference.localVarName v.name)) := by
    rw [← C24_accepts_iff]
    constructor
    · rintro ⟨n', h⟩; exact ⟨_, causality_schedule h⟩
    · rintro ⟨s, h⟩
      exact ⟨{ n with stmts := s }, by simp [Node.causality, h, bind, Except.bind, pure, Except.pure]⟩
  rw [h0]
  constructor
  · intro h
    have h1 := nodup_provides.1 h.once
    refine ⟨?_, h1.1, h1.2, ?_, ?_⟩
    · intro v hv hx
      obtain ⟨st, h3, h4⟩ := mem_assigned.1 hx
      exact h.context _ (List.mem_map.2 ⟨v, hv, rfl⟩) st h3 h4
    · intro v hv
      refine mem_assigned.2 (h.declared _ ?_)
      rcases List.mem_append.1 hv with hv | hv
      · exact List.mem_append_left _ (List.mem_map.2 ⟨v, hv, rfl⟩)
      · exact List.mem_append_right _ (List.mem_map.2 ⟨v, hv, rfl⟩)
    · intro r hr
      exact h.acyclic r (onCycle_iff_uses.2 hr)
  · rintro ⟨h1, h2, h3, h4, h5⟩
    refine ⟨?_, nodup_provides.2 ⟨h2, h3⟩, ?_, fun u hu => h5 u (onCycle_iff_uses.1 hu)⟩
    · intro u hu o ho ho'
      obtain ⟨v, hv, rfl⟩ := List.mem_map.1 hu
      exact h1 v hv (mem_assigned.2 ⟨o, ho, ho'⟩)
    · intro u hu
      rcases List.mem_append.1 hu with hu | hu <;> obtain ⟨v, hv, rfl⟩ := List.mem_map.1 hu
      · exact mem_assigned.1 (h4 v (List.mem_append_left _ hv))
      · exact mem_assigned.1 (h4 v (List.mem_append_right _ hv))

/-! ### Programs -/

theorem progCausality_split {decls s : List Decl} (h : progCausality decls = .ok s) :
    ∃ ds, decls.mapM Decl.causality = .ok ds ∧ schedule [] ds [] = .ok s := by
  simp only [progCausality, bind, Except.bind] at h
  cases hd : decls.mapM Decl.causality with
  | error e => simp [hd] at h
  | ok ds => simp only [hd] at h; exact ⟨ds, rfl, h⟩

/-- C22. Up to the order of declarations, an accepted program consists of the given declarations,
each with only the statements of its node reordered. -/
theorem C22_program {decls s : List Decl} (h : progCausality decls = .ok s) :
    ∃ ds, s.Perm ds ∧ List.Forall₂ (fun d d' => d.causality = .ok d') decls ds := by
  obtain ⟨ds, h1, h2⟩ := progCausality_split h
  refine ⟨ds, C22_schedule_perm h2, ?_⟩
  clear h2 h
  induction decls generalizing ds with
  | nil => simp [pure, Except.pure] at h1; subst h1; exact .nil
  | cons d decls ih =>
    rw [List.mapM_cons] at h1
    simp only [bind, Except.bind, pure, Except.pure] at h1
    cases hd : d.causality with
    | error e => simp [hd] at h1
    | ok d' =>
      simp only [hd] at h1
      cases hm : decls.mapM Decl.causality with
      | error e => simp [hm] at h1
      | ok ds' =>
        simp only [hm, Except.ok.injEq] at h1
        subst h1
        exact .cons hd (ih _ hm)

/-- C23. In an accepted program every declaration comes after the declarations of all the nodes
and constants that it mentions. -/
theorem C23_program {decls s : List Decl} (h : progCausality decls = .ok s) {l₁ l₂ : List Decl}
    {d : Decl} (hs : s = l₁ ++ d :: l₂) {r : Reference} (hr : Mentions d r)
    {d' : Decl} (hm : d' ∈ s) (hw : Introduces d' r) : d' ∈ l₁ := by
  obtain ⟨ds, h1, h2⟩ := progCausality_split h
  exact C23_defined_before_use h2 l₁ d l₂ hs r (decl_requires hr) d' hm (decl_provides.2 hw)

/-- C24. No accepted program has two declarations of one name, nodes that call each other in a
cycle, or constants defined from each other in a cycle. -/
theorem C24_program {decls s : List Decl} (h : progCausality decls = .ok s) :
    (∀ r, ¬ Relation.TransGen (fun u w => ∃ d ∈ s, Introduces d u ∧ Mentions d w) r r) ∧
      (∀ l₁ d l₂ r, s = l₁ ++ d :: l₂ → Introduces d r → ∀ d' ∈ l₁ ++ l₂, ¬ Introduces d' r) := by
  obtain ⟨ds, h1, h2⟩ := progCausality_split h
  have hsch := C24_accepts_iff.1 ⟨_, h2⟩
  have hp := C22_schedule_perm h2
  have hn : (s.flatMap Depends.provides : List Reference).Nodup :=
    ((hp.flatMap_right _).nodup_iff).2 hsch.once
  have hac := C24_order_implies_acyclic (List.Perm.refl _) (C23_defined_before_use h2) hn
  constructor
  · intro r hr
    refine hac r (Relation.TransGen.mono ?_ r r hr)
    rintro u w ⟨d, h3, h4, h5⟩
    exact ⟨d, h3, decl_provides.2 h4, decl_requires h5⟩
  · intro l₁ d l₂ r e hd d' hd' hd2
    rw [e, List.flatMap_append, List.flatMap_cons, List.nodup_append, List.nodup_append] at hn
    have h3 := decl_provides.2 hd
    have h4 := decl_provides.2 hd2
    rcases List.mem_append.1 hd' with h5 | h5
    · exact hn.2.2 r (List.mem_flatMap.2 ⟨d', h5, h4⟩) r (List.mem_append_left _ h3) rfl
    · exact hn.2.1.2.2 r h3 r (List.mem_flatMap.2 ⟨d', h5, h4⟩) rfl

/-! ### Concrete cases -/

/-- Three statements in the wrong order: `y = x + z`, `assert y = y`, `z = x`. -/
def exUnordered : Node where
  name := "f"
  inputs := [⟨"x", .int, .implicit, 0⟩]
  outputs := [⟨"y", .int, .implicit, 0⟩]
  locals := [⟨"z", .int, .implicit, 0⟩]
  blocks := []
  stmts := [.assert (.cmp .eq (.var "y" 0) (.var "y" 0)),
    .let_ (.single "y") (.bin .add (.var "x" 0) (.var "z" 0)), .let_ (.single "z") (.var "x" 0)]
  registers := []
  flips := 0

example : (match exUnordered.causality with
    | .ok n => assigned n.stmts
    | .error _ => []) = ["z", "y"] := by decide

/-- `y = z`, `z = y` is refused, naming both variables. -/
example : (match ({ exUnordered with
      stmts := [.let_ (.single "y") (.var "z" 0), .let_ (.single "z") (.var "y" 0)] } : Node).causality with
    | .error (.cycle us) => us
    | _ => []) = [.localVarName "z", .localVarName "y"] := by decide

/-- `y = x`, `z = z` is refused because `z` depends on itself. -/
example : (match ({ exUnordered with
      stmts := [.let_ (.single "y") (.var "x" 0), .let_ (.single "z") (.var "z" 0)] } : Node).causality with
    | .error (.dependsOnItself u) => some u
    | _ => none) = some (.localVarName "z") := by decide

/-- Assigning an input is refused; so is assigning a local twice, or not at all. -/
example : (match ({ exUnordered with
      stmts := [.let_ (.single "x") (.lit (.bool true))], locals := [], outputs := [] } : Node).causality with
    | .error (.providedByContext u) => some u
    | _ => none) = some (.localVarName "x") := by decide

example : (match ({ exUnordered with
      stmts := [.let_ (.multiple [.single "y", .single "z", .single "y"]) (.var "x" 0)] } : Node).causality with
    | .error (.declTwice u) => some u
    | _ => none) = some (.localVarName "y") := by decide

example : (match ({ exUnordered with
      stmts := [.let_ (.single "y") (.var "x" 0)] } : Node).causality with
    | .error (.undeclared u) => some u
    | _ => none) = some (.localVarName "z") := by decide

/-- The hypotheses of `C23_node` are met by the middle statement of the sorted node. -/
example : ∃ n' l₁ l₂ st, exUnordered.causality = .ok n' ∧ n'.stmts = l₁ ++ st :: l₂ ∧
    (∀ x, Reads st (.localVarName x) → Declares exUnordered x) ∧
    assigned l₁ = ["z"] ∧ values st ≠ [] := by
  refine ⟨_, [.let_ (.single "z") (.var "x" 0)],
    [.assert (.cmp .eq (.var "y" 0) (.var "y" 0))],
    .let_ (.single "y") (.bin .add (.var "x" 0) (.var "z" 0)), rfl, rfl, ?_, by decide, by simp [values]⟩
  intro x hx
  replace hx := stmt_requires.2 (.inl hx)
  simp only [Stmt.requires, Expr.requires, List.cons_append, List.nil_append, List.mem_cons,
    Reference.localVarName.injEq, List.not_mem_nil, or_false] at hx
  rcases hx with rfl | rfl
  · exact ⟨⟨"x", .int, .implicit, 0⟩, by simp [exUnordered], rfl⟩
  · exact ⟨⟨"z", .int, .implicit, 0⟩, by simp [exUnordered], rfl⟩

/-- The hypotheses of `C23_writes_before_reads` are met there as well. -/
example : Reads (.let_ (.single "y") (.bin .add (.var "x" 0) (.var "z" 0))) (.localVarName "z") ∧
    Writes (.let_ (.single "z") (.var "x" 0)) (.localVarName "z") :=
  ⟨.local_ (List.mem_singleton.2 rfl) (.single .binR), .local_ (by simp [VarTuple.vars])⟩

/-- A program whose constant is declared after its user is put in order. -/
example : (match progCausality [
      .const ⟨"A", .int, .bin .add (.global "B") (.lit (.int 1))⟩,
      .const ⟨"B", .int, .lit (.int 2)⟩] with
    | .ok ds => ds.map Decl.provides
    | .error _ => []) = [[.globalVarName "B"], [.globalVarName "A"]] := by decide

end Chandeliers.Props
