import Verif.Lemmas.SolveNode

/-! The runs of a node are the solutions of its equations. -/

set_option autoImplicit false
set_option linter.unusedSectionVars false

namespace Chandeliers.Den
open Chandeliers.San Chandeliers.Spec

section
variable {A : Arith} {glob : Globals} {ms : List Machine} {F : Flow} {n : Node}

/-! ## Between two instants -/

variable (A glob F n) in
/-- At the beginning of instant `t`. -/
structure Start (t hi : Nat) (s : NodeState ms) : Prop where
  clock : s.clock = t
  hist : HistOk n F t s.hist
  regs : ∀ id i f c, .updateRegister id f ∈ n.stmts → .initRegister id i c ∈ n.stmts →
    ∃ r, regAt A glob ms F id i f t = .ok r ∧ s.regs[id]? = some r
  ready : ∀ st ∈ n.stmts, ∀ e ∈ evaluated st, Ready A glob F s t 0 hi e

mutual
theorem ready_init {lo hi : Nat} : (e : Expr) → (∀ i, Slot.flip i ∈ live e → i < n.flips) →
    Ready A glob F (n.initState ms) 0 lo hi e
  | .lit _, _ => by simp [Ready]
  | .global _, _ => by simp [Ready]
  | .var _ _, _ => by simp [Ready]
  | .tuple es, h => by simp only [Ready, live] at h ⊢; exact readyList_init es h
  | .dummyPre e, h => by simp only [Ready, live] at h ⊢; exact ready_init e h
  | .dummyParen e, h => by simp only [Ready, live] at h ⊢; exact ready_init e h
  | .bin _ l r, h => by
    simp only [Ready, live, List.mem_append] at h ⊢
    exact ⟨ready_init l fun i hi => h i (.inl hi), ready_init r fun i hi => h i (.inr hi)⟩
  | .un _ e, h => by simp only [Ready, live] at h ⊢; exact ready_init e h
  | .cmp _ l r, h => by
    simp only [Ready, live, List.mem_append] at h ⊢
    exact ⟨ready_init l fun i hi => h i (.inl hi), ready_init r fun i hi => h i (.inr hi)⟩
  | .clock _ l r, h => by
    simp only [Ready, live, List.mem_append] at h ⊢
    exact ⟨ready_init l fun i hi => h i (.inl hi), ready_init r fun i hi => h i (.inr hi)⟩
  | .later _ l r, h => by
    simp only [Ready, live, List.mem_append] at h ⊢
    exact ⟨ready_init l fun i hi => h i (.inl hi), ready_init r fun i hi => h i (.inr hi)⟩
  | .fetchPre _ _, _ => by simp [Ready]
  | .fetchFby _ _ _, _ => by simp [Ready]
  | .flip id l r, h => by
    simp only [Ready, live, List.mem_append, List.mem_cons] at h ⊢
    refine ⟨ready_init l fun i hi => h i (.inr (.inl hi)), ready_init r fun i hi => h i (.inr (.inr hi)),
      fun _ => ⟨true, ?_, rfl⟩⟩
    simp only [Node.initState, List.getElem?_replicate]
    rw [if_pos (h id (.inl rfl))]; rfl
  | .ifx b y z, h => by
    simp only [Ready, live, List.mem_append] at h ⊢
    exact ⟨ready_init b fun i hi => h i (.inl hi), ready_init y fun i hi => h i (.inr (.inl hi)),
      ready_init z fun i hi => h i (.inr (.inr hi))⟩
  | .merge b y z, h => by
    simp only [Ready, live, List.mem_append] at h ⊢
    exact ⟨ready_init b fun i hi => h i (.inl hi), ready_init y fun i hi => h i (.inr (.inl hi)),
      ready_init z fun i hi => h i (.inr (.inr hi))⟩
  | .substep d i a, h => by
    simp only [Ready, live, List.mem_cons] at h ⊢
    refine ⟨ready_init a fun i hi => h i (.inr hi), fun _ m hm => ⟨m.init, ?_, rfl⟩⟩
    exact States.get?_init hm
theorem readyList_init {lo hi : Nat} : (es : List Expr) →
    (∀ i, Slot.flip i ∈ liveList es → i < n.flips) →
    ReadyList A glob F (n.initState ms) 0 lo hi es
  | [], _ => by simp [ReadyList]
  | e :: es, h => by
    simp only [ReadyList, liveList, List.mem_append] at h ⊢
    exact ⟨ready_init e fun i hi => h i (.inl hi), readyList_init es fun i hi => h i (.inr hi)⟩
end

theorem start_init (hw : Wired n) (hi : Nat)
    (hshape : ∀ id ty, n.registers[id]? = some ty →
      F.shape id = match ty with | some ty => ty.shape | none => .leaf ()) :
    Start A glob F n 0 hi (n.initState ms) := by
  refine ⟨rfl, histOk_init, fun id i f c hu _ => ?_, fun st hst e he => ?_⟩
  · have hlt := hw.registers id (mem_updated.2 ⟨f, hu⟩)
    refine ⟨_, regAt_zero id i f, ?_⟩
    simp only [Node.initState, List.getElem?_map, List.getElem?_eq_getElem hlt, Option.map_some]
    rw [hshape id _ (List.getElem?_eq_getElem hlt)]
    rfl
  · exact ready_init e fun i hi => hw.flips st hst i (List.mem_flatMap.2 ⟨e, he, hi⟩)

/-! ## One instant -/

variable (A glob ms n) in
/-- The inputs are bound and the statements executed. -/
def inner (s : NodeState ms) (i : Value) : R (Env × NodeState ms) := do
  let env ← bindTarget (inputPattern n.inputs) i (fun _ => none)
  execAll A glob ms n.stmts (env, s)

variable (A glob ms n) in
/-- What comes after the statements. -/
def finish (env : Env) (s : NodeState ms) : R (Value × NodeState ms) := do
  let s ← updHists ms env (posNames (declared n)) { s with clock := s.clock + 1 }
  let outs ← readOutputs env n.outputs
  .ok (tupleValue outs, { s with regs := s.regs.map Register.commit })

theorem body_eq (s : NodeState ms) (i : Value) :
    n.body A glob ms s i = (inner A glob ms n s i >>= fun p => finish ms n p.1 p.2) := by
  unfold Node.body inner finish
  cases bindTarget (inputPattern n.inputs) i (fun _ => none) with
  | error p => rfl
  | ok env =>
    show (execAll A glob ms n.stmts (env, s) >>= _) = (execAll A glob ms n.stmts (env, s) >>= _)
    congr 1
    funext p
    obtain ⟨env', s'⟩ := p
    simp only [declared, posNames_append, updHists_append]
    cases updHists ms env' (posNames n.inputs) { s' with clock := s'.clock + 1 } with
    | error p => rfl
    | ok s1 =>
      show (updHists ms env' (posNames n.outputs) s1 >>= _) = _
      show _ = ((updHists ms env' (posNames n.outputs) s1 >>= _) >>= _)
      cases updHists ms env' (posNames n.outputs) s1 with
      | error p => rfl
      | ok s2 => rfl

theorem readOutputs_ok {env : Env} {X : String → Nillable Scalar} : ∀ {vs : List TyVar},
    (∀ v ∈ vs, env v.name = some (X v.name)) →
    readOutputs env vs = .ok (vs.map fun v => .leaf (X v.name))
  | [], _ => rfl
  | v :: vs, h => by
    have := readOutputs_ok (env := env) (X := X) (vs := vs) fun w hw => h w (by simp [hw])
    simp only [readOutputs, h v (by simp), this]
    rfl

theorem sorted_start (hw : WiredInOrder n) :
    Sorted (n.inputs.map (·.name) ++ ([] : List Stmt).flatMap binds) (initialised []) n.stmts := by
  simpa [initialised] using hw.sorted

theorem mid_start {t hi : Nat} {s : NodeState ms} (h : Start A glob F n t hi s) {env : Env}
    (he : ∀ x ∈ n.inputs.map (·.name), env x = some (F.X x t)) :
    Mid A glob F n t hi [] n.stmts env s := by
  refine ⟨h.clock, by simpa using he, h.hist, fun id i f c hu hi' => ?_, h.ready, by simp⟩
  obtain ⟨r, h1, h2⟩ := h.regs id i f c hu hi'
  refine ⟨r, r, h1, h2, ?_⟩
  have := regMid_start (A := A) (glob := glob) (ms := ms) (F := F) (t := t) (id := id) (i := i)
    (f := f) (r₀ := r)
  simpa [initialised, updated] using this

/-- The end of the instant. -/
theorem finish_ok (hw : Wired n) {t hi : Nat} {s : NodeState ms} {env : Env}
    (hm : Mid A glob F n t hi n.stmts [] env s) :
    ∃ s', finish ms n env s = .ok (outputAt F n t, s') ∧ Start A glob F n (t + 1) hi s' := by
  have he : ∀ v ∈ declared n, env v.name = some (F.X v.name t) := by
    intro v hv
    apply hm.vars
    unfold declared at hv
    rw [List.append_assoc, List.mem_append] at hv
    rcases hv with hv | hv
    · exact List.mem_append_left _ (List.mem_map.2 ⟨v, hv, rfl⟩)
    · obtain ⟨st, hst, hb⟩ := hw.defined v hv
      exact List.mem_append_right _ (List.mem_flatMap.2 ⟨st, hst, hb⟩)
  obtain ⟨hist', h1, h2⟩ := histOk_step (ms := ms) (s := { s with clock := s.clock + 1 }) (env := env)
    (t := t) (F := F) (n := n) hm.hist hw.names he
  have h3 := readOutputs_ok (env := env) (X := (F.X · t)) (vs := n.outputs)
    fun v hv => he v (by unfold declared; simp [hv])
  refine ⟨_, by simp only [finish, h1, bind_ok, h3]; rfl, ?_, h2, ?_, ?_⟩
  · show s.clock + 1 = t + 1
    rw [hm.clock]
  · intro id i f c hu hi'
    obtain ⟨r₀, r, h0, hr, hmid⟩ := hm.regs id i f c hu hi'
    refine ⟨r.commit, regMid_commit hmid (mem_initialised.2 ⟨_, _, hi'⟩) (mem_updated.2 ⟨_, hu⟩) h0, ?_⟩
    simp [hr]
  · intro st hst e he'
    have := (hm.past st hst e he')
    refine Ready.congr (s := s) ?_ ?_ this <;> rfl

/-- Values that satisfy the equations at an instant are computed. -/
theorem inner_of_holds (hw : WiredInOrder n) {t hi : Nat} (hhi : t ≤ hi) {s : NodeState ms}
    (hs : Start A glob F n t hi s) {i : Value} (hi' : Assigns (F.X · t) (inputPattern n.inputs) i)
    (hh : ∀ st ∈ n.stmts, Holds A glob ms F t st) :
    ∃ env s', inner A glob ms n s i = .ok (env, s') ∧ Mid A glob F n t hi n.stmts [] env s' := by
  obtain ⟨env, h1, h2⟩ := bindTarget_of_assigns _ (env := fun _ => none) hi'
  have hm := mid_start hs (env := env) (fun x hx => by
    rw [h2, vars_inputPattern, if_pos hx])
  obtain ⟨env', s', h3, h4⟩ := execAll_of_holds hw.toWired hhi (past := []) rfl hm (sorted_start hw) hh
  exact ⟨env', s', by simp only [inner, h1, bind_ok]; exact h3, h4⟩

theorem body_of_holds (hw : WiredInOrder n) {t hi : Nat} (hhi : t ≤ hi) {s : NodeState ms}
    (hs : Start A glob F n t hi s) {i : Value} (hi' : Assigns (F.X · t) (inputPattern n.inputs) i)
    (hh : ∀ st ∈ n.stmts, Holds A glob ms F t st) :
    ∃ s', n.body A glob ms s i = .ok (outputAt F n t, s') ∧ Start A glob F n (t + 1) hi s' := by
  obtain ⟨env, s1, h1, h2⟩ := inner_of_holds hw hhi hs hi' hh
  obtain ⟨s2, h3, h4⟩ := finish_ok hw.toWired h2
  exact ⟨s2, by rw [body_eq, h1]; exact h3, h4⟩

/-- Values that are computed satisfy the equations at the instant. -/
theorem holds_of_inner (hw : WiredInOrder n) {t hi : Nat} (hhi : t ≤ hi) {s s' : NodeState ms}
    (hs : Start A glob F n t hi s) {i : Value} {env : Env}
    (h : inner A glob ms n s i = .ok (env, s'))
    (hX : ∀ x v, env x = some v → F.X x t = v)
    (hC : ∀ id b, clockOf s' id = some b → F.C id t = b) :
    Assigns (F.X · t) (inputPattern n.inputs) i ∧ ∀ st ∈ n.stmts, Holds A glob ms F t st := by
  unfold inner at h
  obtain ⟨env0, h1, h⟩ := ok_bind.1 h
  obtain ⟨_, a2, a3⟩ := bindTarget_inv _ h1
  obtain ⟨b1, b2, b3, b4⟩ := execAll_keeps h
  have honce := hw.once
  rw [List.nodup_append] at honce
  have hin : ∀ x ∈ n.inputs.map (·.name), env0 x = some (F.X x t) := by
    intro x hx
    obtain ⟨v, hv⟩ := a2 x (by rw [vars_inputPattern]; exact hx)
    have : env x = some v := by rw [b1 x fun hc => honce.2.2 x hx x hc rfl, hv]
    rw [hv, hX x v this]
  refine ⟨a3 _ (by rw [vars_inputPattern]; exact honce.1)
    (fun x hx => hin x (by rwa [vars_inputPattern] at hx)), ?_⟩
  refine holds_of_execAll hw.toWired hhi (past := []) rfl (mid_start hs hin) (sorted_start hw) h
    (fun x hx => ?_) (fun id hid => ?_)
  · obtain ⟨v, hv⟩ := b2 x hx
    rw [hv, hX x v hv]
  · obtain ⟨b, hb⟩ := b4 id hid
    rw [hb, hC id b hb]

/-! ## Runs -/

theorem step_present {s : NodeState ms} {i : Value} (h : i.firstIsNil = false) :
    (n.machine A glob ms).step s i = n.body A glob ms s i := by
  simp [Node.machine, Node.step, Candle.implicitClock, h]

theorem run_of_holds (hw : WiredInOrder n) {hi : Nat} : ∀ {is : List Value} {t : Nat}
    {s : NodeState ms}, t + is.length ≤ hi → Start A glob F n t hi s →
    (∀ i ∈ is, i.firstIsNil = false) →
    (∀ j i, is[j]? = some i → Assigns (F.X · (t + j)) (inputPattern n.inputs) i) →
    (∀ j, j < is.length → ∀ st ∈ n.stmts, Holds A glob ms F (t + j) st) →
    ∃ s', (n.machine A glob ms).runFrom s is =
      .ok ((List.range is.length).map fun j => outputAt F n (t + j), s')
  | [], t, s, _, _, _, _, _ => ⟨s, rfl⟩
  | i :: is, t, s, hhi, hs, hp, hin, hh => by
    simp only [List.length_cons] at hhi
    obtain ⟨s1, h1, h2⟩ := body_of_holds hw (by omega) hs (hin 0 i rfl) (hh 0 (by simp))
    obtain ⟨s2, h3⟩ := run_of_holds hw (hi := hi) (is := is) (t := t + 1) (by omega) h2
      (fun j hj => hp j (by simp [hj]))
      (fun j k hk => by
        have := hin (j + 1) k (by simpa using hk)
        rwa [show t + (j + 1) = t + 1 + j by omega] at this)
      (fun j hj st hst => by
        have := hh (j + 1) (by simp; omega) st hst
        rwa [show t + (j + 1) = t + 1 + j by omega] at this)
    refine ⟨s2, ?_⟩
    simp only [Machine.runFrom, step_present (hp i (by simp)), h1]
    show ((n.machine A glob ms).runFrom s1 is >>= _) = _
    rw [h3]
    simp only [List.length_cons, List.range_succ_eq_map, List.map_cons, List.map_map, bind_ok]
    congr 3
    apply List.map_congr_left
    intro j _
    simp only [Function.comp_apply, Nat.succ_eq_add_one]
    congr 1
    omega

variable (A glob ms n) in
/-- The variables and the clocks of the registers at each instant of a run. -/
def trace : List Value → NodeState ms → Nat → Env × (Nat → Option Bool)
  | [], _, _ => (fun _ => none, fun _ => none)
  | i :: _, s, 0 =>
    match inner A glob ms n s i with
    | .ok (env, s') => (env, clockOf s')
    | .error _ => (fun _ => none, fun _ => none)
  | i :: is, s, t + 1 =>
    match n.body A glob ms s i with
    | .ok (_, s') => trace is s' t
    | .error _ => (fun _ => none, fun _ => none)

variable (A glob ms n) in
/-- The streams of a run. -/
def flowOf (is : List Value) : Flow where
  X := fun x t => ((trace A glob ms n is (n.initState ms) t).1 x).getD .nil
  C := fun id t => ((trace A glob ms n is (n.initState ms) t).2 id).getD false
  shape := fun id => match n.registers[id]? with
    | some (some ty) => ty.shape
    | _ => .leaf ()

theorem holds_of_run (hw : WiredInOrder n) {hi : Nat} : ∀ {is os : List Value} {t : Nat}
    {s s' : NodeState ms}, t + is.length ≤ hi → Start A glob F n t hi s →
    (∀ i ∈ is, i.firstIsNil = false) →
    (n.machine A glob ms).runFrom s is = .ok (os, s') →
    (∀ j x, F.X x (t + j) = ((trace A glob ms n is s j).1 x).getD .nil) →
    (∀ j id, F.C id (t + j) = ((trace A glob ms n is s j).2 id).getD false) →
    (∀ j i, is[j]? = some i → Assigns (F.X · (t + j)) (inputPattern n.inputs) i) ∧
    (∀ j, j < is.length → ∀ st ∈ n.stmts, Holds A glob ms F (t + j) st)
  | [], os, t, s, s', _, _, _, _, _, _ => by simp
  | i :: is, os, t, s, s', hhi, hs, hp, h, hX, hC => by
    simp only [List.length_cons] at hhi
    simp only [Machine.runFrom, step_present (hp i (by simp))] at h
    obtain ⟨⟨o, s1⟩, h1, h⟩ := ok_bind.1 h
    obtain ⟨⟨os', s2⟩, h2, h⟩ := ok_bind.1 h
    cases h
    have hb := h1
    rw [body_eq] at hb
    obtain ⟨⟨env, s3⟩, hin, _⟩ := ok_bind.1 hb
    obtain ⟨g1, g2⟩ := holds_of_inner hw (by omega) hs hin
      (fun x v hv => by
        have := hX 0 x
        simp only [trace, hin, Nat.add_zero, hv] at this
        exact this)
      (fun id b hb => by
        have := hC 0 id
        simp only [trace, hin, Nat.add_zero, hb] at this
        exact this)
    obtain ⟨s4, h3, h4⟩ := body_of_holds hw (by omega) hs g1 g2
    rw [h1] at h3
    cases h3
    obtain ⟨k1, k2⟩ := holds_of_run hw (hi := hi) (is := is) (t := t + 1) (by omega) h4
      (fun j hj => hp j (by simp [hj])) h2
      (fun j x => by
        have := hX (j + 1) x
        simp only [trace, h1] at this
        rw [← this]; congr 1; omega)
      (fun j id => by
        have := hC (j + 1) id
        simp only [trace, h1] at this
        rw [← this]; congr 1; omega)
    refine ⟨fun j k hk => ?_, fun j hj st hst => ?_⟩
    · cases j with
      | zero => simp only [List.getElem?_cons_zero, Option.some.injEq] at hk; subst hk; exact g1
      | succ j =>
        have := k1 j k (by simpa using hk)
        rwa [show t + 1 + j = t + (j + 1) by omega] at this
    · cases j with
      | zero => exact g2 st hst
      | succ j =>
        have := k2 j (by simpa using hj) st hst
        rwa [show t + 1 + j = t + (j + 1) by omega] at this

/-- The runs of a node without panic are the solutions of its equations. -/
theorem run_iff_solution (hw : WiredInOrder n) {is os : List Value}
    (hp : ∀ i ∈ is, i.firstIsNil = false) :
    (n.machine A glob ms).run is = .ok os ↔
      ∃ F, Solution A glob ms F n is ∧ os = outputs F n is.length := by
  constructor
  · intro h
    unfold Machine.run at h
    obtain ⟨⟨os', s'⟩, h1, h⟩ := ok_bind.1 h
    cases h
    have hshape : ∀ id ty, n.registers[id]? = some ty → (flowOf A glob ms n is).shape id =
        match ty with | some ty => ty.shape | none => .leaf () := by
      intro id ty hty
      simp only [flowOf, hty]
      cases ty <;> rfl
    have hstart : Start A glob (flowOf A glob ms n is) n 0 is.length (n.initState ms) :=
      start_init hw.toWired _ hshape
    obtain ⟨h2, h3⟩ := holds_of_run hw (hi := is.length) (F := flowOf A glob ms n is) (t := 0)
      (by omega) hstart hp h1 (fun j x => by rw [Nat.zero_add]; rfl)
      (fun j id => by rw [Nat.zero_add]; rfl)
    simp only [Nat.zero_add] at h2 h3
    refine ⟨_, ⟨hshape, h2, h3⟩, ?_⟩
    obtain ⟨s2, h4⟩ := run_of_holds hw (hi := is.length) (t := 0) (by omega) hstart hp
      (by simpa only [Nat.zero_add] using h2) (by simpa only [Nat.zero_add] using h3)
    have h5 := h1.symm.trans h4
    cases h5
    simp [outputs]
  · rintro ⟨F, hF, rfl⟩
    have hstart : Start A glob F n 0 is.length (n.initState ms) :=
      start_init hw.toWired _ hF.shape
    obtain ⟨s2, h4⟩ := run_of_holds hw (hi := is.length) (t := 0) (by omega) hstart hp
      (by simpa only [Nat.zero_add] using hF.inputs) (by simpa only [Nat.zero_add] using hF.stmts)
    have h5 : (n.machine A glob ms).runFrom (n.machine A glob ms).init is = _ := h4
    unfold Machine.run
    rw [h5]
    simp [outputs, bind_ok]

/-! ## Uniqueness -/

theorem same_from (hw : WiredInOrder n) {F F' : Flow} {hi : Nat} : ∀ {is : List Value} {t : Nat}
    {s : NodeState ms}, t + is.length ≤ hi → Start A glob F n t hi s → Start A glob F' n t hi s →
    (∀ j i, is[j]? = some i → Assigns (F.X · (t + j)) (inputPattern n.inputs) i) →
    (∀ j i, is[j]? = some i → Assigns (F'.X · (t + j)) (inputPattern n.inputs) i) →
    (∀ j, j < is.length → ∀ st ∈ n.stmts, Holds A glob ms F (t + j) st) →
    (∀ j, j < is.length → ∀ st ∈ n.stmts, Holds A glob ms F' (t + j) st) →
    ∀ j, j < is.length → ∀ x ∈ n.inputs.map (·.name) ++ n.stmts.flatMap binds,
      F.X x (t + j) = F'.X x (t + j)
  | [], t, s, _, _, _, _, _, _, _ => by simp
  | i :: is, t, s, hhi, hs, hs', hin, hin', hh, hh' => by
    simp only [List.length_cons] at hhi
    obtain ⟨env, s1, h1, h2⟩ := inner_of_holds hw (by omega) hs (hin 0 i rfl) (hh 0 (by simp))
    obtain ⟨env', s1', h1', h2'⟩ := inner_of_holds hw (by omega) hs' (hin' 0 i rfl) (hh' 0 (by simp))
    rw [h1] at h1'
    cases h1'
    obtain ⟨s2, h3, h4⟩ := finish_ok hw.toWired h2
    obtain ⟨s2', h3', h4'⟩ := finish_ok hw.toWired h2'
    rw [h3] at h3'
    simp only [Except.ok.injEq, Prod.mk.injEq] at h3'
    obtain ⟨_, rfl⟩ := h3'
    intro j hj x hx
    cases j with
    | zero =>
      have e1 := h2.vars x hx
      have e2 := h2'.vars x hx
      rw [e1] at e2
      exact Option.some.inj e2
    | succ j =>
      have := same_from hw (F := F) (F' := F') (hi := hi) (is := is) (t := t + 1) (by omega) h4 h4'
        (fun j k hk => by
          have := hin (j + 1) k (by simpa using hk)
          rwa [show t + (j + 1) = t + 1 + j by omega] at this)
        (fun j k hk => by
          have := hin' (j + 1) k (by simpa using hk)
          rwa [show t + (j + 1) = t + 1 + j by omega] at this)
        (fun j hj st hst => by
          have := hh (j + 1) (by simp; omega) st hst
          rwa [show t + (j + 1) = t + 1 + j by omega] at this)
        (fun j hj st hst => by
          have := hh' (j + 1) (by simp; omega) st hst
          rwa [show t + (j + 1) = t + 1 + j by omega] at this) j (by simpa using hj) x hx
      rwa [show t + 1 + j = t + (j + 1) by omega] at this

/-- The equations have at most one solution. -/
theorem solution_unique (hw : WiredInOrder n) {F' : Flow} {is : List Value}
    (h : Solution A glob ms F n is) (h' : Solution A glob ms F' n is) {t : Nat}
    (ht : t < is.length) {v : TyVar} (hv : v ∈ declared n) : F.X v.name t = F'.X v.name t := by
  have := same_from hw (F := F) (F' := F') (hi := is.length) (is := is) (t := 0) (by omega)
    (start_init (ms := ms) hw.toWired _ h.shape) (start_init hw.toWired _ h'.shape)
    (by simpa only [Nat.zero_add] using h.inputs) (by simpa only [Nat.zero_add] using h'.inputs)
    (by simpa only [Nat.zero_add] using h.stmts) (by simpa only [Nat.zero_add] using h'.stmts)
    t ht v.name (by
      unfold declared at hv
      rw [List.append_assoc, List.mem_append] at hv
      rcases hv with hv | hv
      · exact List.mem_append_left _ (List.mem_map.2 ⟨v, hv, rfl⟩)
      · obtain ⟨st, hst, hb⟩ := hw.defined v hv
        exact List.mem_append_right _ (List.mem_flatMap.2 ⟨st, hst, hb⟩))
  rwa [Nat.zero_add] at this

end

end Chandeliers.Den
