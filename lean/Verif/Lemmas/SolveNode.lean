import Verif.Lemmas.Solve
import Verif.Lemmas.NodeSafety

/-! The steps of a node solve its equations. -/

set_option autoImplicit false
set_option linter.unusedSectionVars false

namespace Chandeliers.Den
open Chandeliers.San Chandeliers.Spec

section
variable {A : Arith} {glob : Globals} {ms : List Machine} {F : Flow} {n : Node}

/-! ## Histories -/

/-- At the beginning of instant `t` the histories hold the past of the streams. -/
structure HistOk (n : Node) (F : Flow) (t : Nat) (hist : String → Option AnyHist) : Prop where
  caps : ∀ x, (hist x).map (·.1) = (initHist n x).map (·.1)
  past : ∀ x h, hist x = some h → ∀ d, d ≤ h.1 →
    h.2.toList[d]? = some (if t < d + 1 then .nil else F.X x (t - (d + 1)))

theorem histOk_init : HistOk n F 0 (initHist n) := by
  refine ⟨fun _ => rfl, fun x h hx d hd => ?_⟩
  unfold initHist at hx
  split at hx
  · cases hx
    rw [Hist.toList_default, if_pos (by omega)]
    simp only [List.getElem?_replicate]
    rw [if_pos (by simp only at hd; omega)]
  · cases hx

theorem histOk_ago {hist : String → Option AnyHist} {t : Nat} (h : HistOk n F t hist)
    (hn : ((declared n).map (·.name)).Nodup) {x : String} {d : Nat}
    (hd : ∃ v ∈ declared n, v.name = x ∧ d + 1 ≤ v.depth) :
    ∃ g, hist x = some g ∧
      g.2.ago (d + 1) = .ok (if t < d + 1 then .nil else F.X x (t - (d + 1))) := by
  obtain ⟨v, hv, rfl, hd⟩ := hd
  have hi := initHist_of_mem hn hv (by omega)
  have hc := h.caps v.name
  rw [hi] at hc
  cases hg : hist v.name with
  | none => rw [hg] at hc; cases hc
  | some g =>
    rw [hg] at hc
    simp only [Option.map_some, Option.some.injEq] at hc
    refine ⟨g, rfl, ?_⟩
    rw [Hist.ago_eq, h.past _ g hg d (by omega)]

theorem updHists_ok {env : Env} : ∀ {xs : List String} {s : NodeState ms}, xs.Nodup →
    (∀ x ∈ xs, ∃ h v, s.hist x = some h ∧ env x = some v) →
    ∃ hist', updHists ms env xs s = .ok { s with hist := hist' } ∧
      (∀ x, x ∉ xs → hist' x = s.hist x) ∧
      ∀ x ∈ xs, ∀ h v, s.hist x = some h → env x = some v → hist' x = some ⟨h.1, h.2.update v⟩
  | [], s, _, _ => ⟨s.hist, rfl, fun _ _ => rfl, by simp⟩
  | x :: xs, s, hn, hx => by
    obtain ⟨h, v, h1, h2⟩ := hx x (by simp)
    obtain ⟨hn1, hn2⟩ := List.nodup_cons.1 hn
    obtain ⟨hist', g1, g2, g3⟩ := updHists_ok (env := env) (xs := xs)
      (s := { s with hist := fun y => if y = x then some ⟨h.1, h.2.update v⟩ else s.hist y }) hn2
      (fun y hy => by
        obtain ⟨h', v', e1, e2⟩ := hx y (by simp [hy])
        have : y ≠ x := by rintro rfl; exact hn1 hy
        exact ⟨h', v', by simp [this, e1], e2⟩)
    refine ⟨hist', ?_, fun y hy => ?_, fun y hy h' v' e1 e2 => ?_⟩
    · have : updHist ms env x s = .ok
          { s with hist := fun y => if y = x then some ⟨h.1, h.2.update v⟩ else s.hist y } := by
        simp [updHist, h1, h2]
      simp only [updHists, this, bind_ok, g1]
    · simp only [List.mem_cons, not_or] at hy
      rw [g2 y hy.2]; simp [hy.1]
    · rcases List.mem_cons.1 hy with rfl | hy'
      · rw [h1] at e1; rw [h2] at e2; cases e1; cases e2
        rw [g2 y hn1]; simp
      · have : y ≠ x := by rintro rfl; exact hn1 hy'
        exact g3 y hy' h' v' (by simp [this, e1]) e2

theorem updHists_append {env : Env} : ∀ (xs ys : List String) (s : NodeState ms),
    updHists ms env (xs ++ ys) s = (updHists ms env xs s >>= updHists ms env ys)
  | [], ys, s => rfl
  | x :: xs, ys, s => by
    simp only [List.cons_append, updHists]
    cases updHist ms env x s with
    | error p => rfl
    | ok s1 => exact updHists_append xs ys s1

theorem posNames_append (vs ws : List TyVar) : posNames (vs ++ ws) = posNames vs ++ posNames ws := by
  simp [posNames]

theorem mem_posNames {vs : List TyVar} {x : String} :
    x ∈ posNames vs ↔ ∃ v ∈ vs, v.name = x ∧ 0 < v.depth := by
  simp only [posNames, List.mem_map, List.mem_filter, decide_eq_true_eq]
  constructor
  · rintro ⟨v, ⟨h1, h2⟩, h3⟩; exact ⟨v, h1, h3, h2⟩
  · rintro ⟨v, h1, h3, h2⟩; exact ⟨v, ⟨h1, h2⟩, h3⟩

/-- Shifting every history by the values of the instant. -/
theorem histOk_step {env : Env} {s : NodeState ms} {t : Nat} (h : HistOk n F t s.hist)
    (hn : ((declared n).map (·.name)).Nodup)
    (he : ∀ v ∈ declared n, env v.name = some (F.X v.name t)) :
    ∃ hist', updHists ms env (posNames (declared n)) s = .ok { s with hist := hist' } ∧
      HistOk n F (t + 1) hist' := by
  have hnd : (posNames (declared n)).Nodup :=
    hn.sublist (by unfold posNames; exact List.Sublist.map _ List.filter_sublist)
  have hx : ∀ x ∈ posNames (declared n), ∃ g, s.hist x = some g ∧ env x = some (F.X x t) := by
    intro x hx
    obtain ⟨v, hv, rfl, hd⟩ := mem_posNames.1 hx
    obtain ⟨g, hg, _⟩ := histOk_ago h hn (x := v.name) (d := 0) ⟨v, hv, rfl, hd⟩
    exact ⟨g, hg, he v hv⟩
  obtain ⟨hist', h1, h2, h3⟩ := updHists_ok (ms := ms) (env := env) (s := s) hnd
    (fun x hm => by obtain ⟨g, e1, e2⟩ := hx x hm; exact ⟨g, _, e1, e2⟩)
  refine ⟨hist', h1, fun x => ?_, fun x g hg d hd => ?_⟩
  · by_cases hm : x ∈ posNames (declared n)
    · obtain ⟨g, e1, e2⟩ := hx x hm
      rw [h3 x hm g _ e1 e2, ← h.caps x, e1]; rfl
    · rw [h2 x hm]; exact h.caps x
  · by_cases hm : x ∈ posNames (declared n)
    · obtain ⟨g0, e1, e2⟩ := hx x hm
      have := h3 x hm g0 _ e1 e2
      rw [hg] at this
      cases this
      simp only [Hist.toList_update]
      cases d with
      | zero => simp
      | succ d =>
        have hp := h.past x g0 e1 d (by simp only at hd; omega)
        rw [List.getElem?_cons_succ, List.getElem?_dropLast, if_pos, hp]
        · simp only [Nat.add_lt_add_iff_right, Nat.add_sub_add_right]
        · rw [Hist.length_toList]; simp only at hd; omega
    · rw [h2 x hm] at hg
      exfalso
      have hc := h.caps x
      rw [hg] at hc
      apply hm
      unfold initHist at hc
      split at hc
      · rename_i v hf
        have hp := List.find?_some hf
        simp only [decide_eq_true_eq] at hp
        exact mem_posNames.2 ⟨v, List.mem_of_find?_eq_some hf, hp.1, hp.2⟩
      · cases hc

/-! ## In the course of an instant -/

variable (A glob F n) in
/-- At instant `t`, after the statements `past` and before the statements `todo`. -/
structure Mid (t hi : Nat) (past todo : List Stmt) (env : Env) (s : NodeState ms) : Prop where
  clock : s.clock = t
  vars : ∀ x ∈ n.inputs.map (·.name) ++ past.flatMap binds, env x = some (F.X x t)
  hist : HistOk n F t s.hist
  regs : ∀ id i f c, .updateRegister id f ∈ n.stmts → .initRegister id i c ∈ n.stmts →
    ∃ r₀ r, regAt A glob ms F id i f t = .ok r₀ ∧ s.regs[id]? = some r ∧
      RegMid A glob ms F t id i f (id ∈ initialised past) (id ∈ updated past) r₀ r
  todo : ∀ st ∈ todo, ∀ e ∈ evaluated st, Ready A glob F s t 0 hi e
  past : ∀ st ∈ past, ∀ e ∈ evaluated st, Ready A glob F s (t + 1) 0 hi e

theorem mem_initialised {sts : List Stmt} {id : Nat} :
    id ∈ initialised sts ↔ ∃ i c, .initRegister id i c ∈ sts := by
  induction sts with
  | nil => simp [initialised]
  | cons st sts ih =>
    rw [initialised_cons, List.mem_append, ih]
    cases st <;> simp [initialised]
    rename_i j v c
    constructor
    · rintro (rfl | ⟨i, c', h⟩)
      · exact ⟨v, c, .inl ⟨rfl, rfl, rfl⟩⟩
      · exact ⟨i, c', .inr h⟩
    · rintro ⟨i, c', ⟨rfl, _, _⟩ | h⟩
      · exact .inl rfl
      · exact .inr ⟨i, c', h⟩

theorem mem_updated {sts : List Stmt} {id : Nat} :
    id ∈ updated sts ↔ ∃ f, .updateRegister id f ∈ sts := by
  induction sts with
  | nil => simp [updated]
  | cons st sts ih =>
    rw [updated_cons, List.mem_append, ih]
    cases st <;> simp [updated]
    rename_i j f
    constructor
    · rintro (rfl | ⟨f', h⟩)
      · exact ⟨f, .inl ⟨rfl, rfl⟩⟩
      · exact ⟨f', .inr h⟩
    · rintro ⟨f', ⟨rfl, _⟩ | h⟩
      · exact .inl rfl
      · exact .inr ⟨f', h⟩

theorem init_unique : ∀ {sts : List Stmt} {id : Nat} {i i' c c' : Option Expr},
    (initialised sts).Nodup → .initRegister id i c ∈ sts → .initRegister id i' c' ∈ sts →
    i = i' ∧ c = c'
  | st :: sts, id, i, i', c, c', hn, h, h' => by
    rw [initialised_cons, List.nodup_append] at hn
    rcases List.mem_cons.1 h with rfl | g
    · rcases List.mem_cons.1 h' with g' | g'
      · cases g'; exact ⟨rfl, rfl⟩
      · exact absurd rfl (hn.2.2 id (by simp [initialised]) id (mem_initialised.2 ⟨_, _, g'⟩))
    · rcases List.mem_cons.1 h' with rfl | g'
      · exact absurd rfl (hn.2.2 id (by simp [initialised]) id (mem_initialised.2 ⟨_, _, g⟩))
      · exact init_unique hn.2.1 g g'

theorem update_unique : ∀ {sts : List Stmt} {id : Nat} {f f' : Expr},
    (updated sts).Nodup → .updateRegister id f ∈ sts → .updateRegister id f' ∈ sts → f = f'
  | st :: sts, id, f, f', hn, h, h' => by
    rw [updated_cons, List.nodup_append] at hn
    rcases List.mem_cons.1 h with rfl | g
    · rcases List.mem_cons.1 h' with g' | g'
      · cases g'; rfl
      · exact absurd rfl (hn.2.2 id (by simp [updated]) id (mem_updated.2 ⟨_, g'⟩))
    · rcases List.mem_cons.1 h' with rfl | g'
      · exact absurd rfl (hn.2.2 id (by simp [updated]) id (mem_updated.2 ⟨_, g⟩))
      · exact update_unique hn.2.1 g g'

/-- Everything that the next statement reads is available. -/
theorem mid_reading (hw : Wired n) {t hi : Nat} {past todo : List Stmt} {st : Stmt} {env : Env}
    {s : NodeState ms} (hs : n.stmts = past ++ st :: todo)
    (hm : Mid A glob F n t hi past (st :: todo) env s)
    (ho : Sorted (n.inputs.map (·.name) ++ past.flatMap binds) (initialised past) (st :: todo)) :
    ∀ e ∈ evaluated st, Reading A glob F t env s e := by
  intro e he
  have hst : st ∈ n.stmts := by rw [hs]; simp
  obtain ⟨o1, o2, o3⟩ := ho.1 e he
  refine ⟨hm.clock, fun x hx => hm.vars x (o1 x hx), fun x d hx => ?_, fun id f hf => ?_,
    fun id i f hf => ?_⟩
  · exact histOk_ago hm.hist hw.names (hw.deep st hst e he x d hx)
  · obtain ⟨hu, c, hi'⟩ := hw.fetchPre st hst e he id f hf
    obtain ⟨r₀, r, h0, hr, hmid⟩ := hm.regs id none f c hu hi'
    exact ⟨r, hr, regMid_get hmid (o2 id f hf) h0⟩
  · obtain ⟨hu, c, hi'⟩ := hw.fetchFby st hst e he id i f hf
    obtain ⟨r₀, r, h0, hr, hmid⟩ := hm.regs id (some i) f c hu hi'
    exact ⟨r, hr, regMid_get hmid (o3 id i f hf) h0⟩

/-- The registers that the next statement manages exist. -/
theorem mid_regs (hw : Wired n) {t hi : Nat} {past todo : List Stmt} {st : Stmt} {env : Env}
    {s : NodeState ms} (hs : n.stmts = past ++ st :: todo)
    (hm : Mid A glob F n t hi past (st :: todo) env s) :
    ∀ id ∈ initialised [st] ++ updated [st], ∃ r, s.regs[id]? = some r := by
  intro id hid
  have h1 : id ∈ initialised n.stmts ∧ id ∈ updated n.stmts := by
    have : id ∈ initialised n.stmts ∨ id ∈ updated n.stmts := by
      rw [hs, initialised_append, updated_append, initialised_cons, updated_cons]
      simp only [List.mem_append] at hid ⊢
      rcases hid with h | h
      · exact .inl (.inr (.inl h))
      · exact .inr (.inr (.inl h))
    rcases this with h | h
    · exact ⟨h, (hw.paired id).1 h⟩
    · exact ⟨(hw.paired id).2 h, h⟩
  obtain ⟨i, c, hi'⟩ := mem_initialised.1 h1.1
  obtain ⟨f, hu⟩ := mem_updated.1 h1.2
  obtain ⟨r₀, r, _, hr, _⟩ := hm.regs id i f c hu hi'
  exact ⟨r, hr⟩

/-- The next statement does not read the register that it sets up. -/
theorem mid_loop (hw : Wired n) {past todo : List Stmt} {st : Stmt}
    (hs : n.stmts = past ++ st :: todo)
    (ho : Sorted (n.inputs.map (·.name) ++ past.flatMap binds) (initialised past) (st :: todo)) :
    ∀ id e c, st = .initRegister id (some e) c →
      (∀ f, ¬ Part (.fetchPre id f) e) ∧ ∀ i f, ¬ Part (.fetchFby id i f) e := by
  rintro id e c rfl
  have hn := hw.inits
  rw [hs, initialised_append, initialised_cons, List.nodup_append] at hn
  have hid : id ∉ initialised past := fun h => hn.2.2 id h id (by simp [initialised]) rfl
  obtain ⟨_, o2, o3⟩ := ho.1 e (by simp [evaluated])
  exact ⟨fun f hf => hid (o2 id f hf), fun i f hf => hid (o3 id i f hf)⟩

/-- After the next statement. -/
theorem mid_next (hw : Wired n) {t hi : Nat} {past todo : List Stmt} {st : Stmt} {env env' : Env}
    {s s' : NodeState ms} (hs : n.stmts = past ++ st :: todo)
    (hm : Mid A glob F n t hi past (st :: todo) env s)
    (h : Stepped A glob F t hi st env s env' s') :
    Mid A glob F n t hi (past ++ [st]) todo env' s' := by
  have hst : st ∈ n.stmts := by rw [hs]; simp
  have hslots := hw.slots
  rw [hs, List.flatMap_append, List.flatMap_cons] at hslots
  obtain ⟨_, hn2, hd1, _⟩ := nodup_split hslots
  obtain ⟨_, _, hd2, hd3⟩ := nodup_split hn2
  have hinits := hw.inits
  rw [hs, initialised_append, initialised_cons, List.nodup_append] at hinits
  have hupds := hw.updates
  rw [hs, updated_append, updated_cons, List.nodup_append] at hupds
  refine ⟨h.clock.trans hm.clock, fun x hx => ?_, by rw [h.hist]; exact hm.hist, ?_, ?_, ?_⟩
  · simp only [List.flatMap_append, List.flatMap_cons, List.flatMap_nil, List.append_nil,
      ← List.append_assoc] at hx
    by_cases hb : x ∈ binds st
    · exact h.bound x hb
    · rw [h.unbound x hb]
      exact hm.vars x ((List.mem_append.1 hx).resolve_right hb)
  · intro id i f c hu hi'
    obtain ⟨r₀, r, h0, hr, hmid⟩ := hm.regs id i f c hu hi'
    obtain ⟨r', hr', hstep⟩ := h.regs id r hr
    refine ⟨r₀, r', h0, hr', ?_⟩
    rw [initialised_append, updated_append]
    simp only [List.mem_append]
    have hexcl : id ∈ initialised [st] → id ∉ initialised past := fun h1 h2 =>
      hinits.2.2 id h2 id (List.mem_append_left _ h1) rfl
    have hexcu : id ∈ updated [st] → id ∉ updated past := fun h1 h2 =>
      hupds.2.2 id h2 id (List.mem_append_left _ h1) rfl
    refine ⟨fun hini => ?_, fun hini => ?_, fun hini => ?_, fun hupd => ?_, fun hupd => ?_⟩
    · by_cases c1 : id ∈ initialised [st]
      · exact hstep.clock c1
      · rw [hstep.clock' c1]; exact hmid.clock (hini.resolve_right c1)
    · by_cases c1 : id ∈ initialised [st]
      · obtain ⟨i', c', hin⟩ := mem_initialised.1 c1
        rw [List.mem_singleton] at hin
        obtain ⟨rfl, rfl⟩ := init_unique hw.inits hi' (hin ▸ hst)
        have hr0 := hmid.inner' (hexcl c1)
        rcases hstep.inner _ _ hin.symm with ⟨rfl, e1⟩ | ⟨e, v, rfl, hv, e1⟩
        · exact .inl ⟨rfl, e1.trans hr0⟩
        · refine .inr ⟨e, v, rfl, hv, ?_⟩
          rw [e1]
          unfold Register.tryInitialize
          rw [hr0]
          split <;> simp [hr0]
      · rw [hstep.inner' c1]; exact hmid.inner (hini.resolve_right c1)
    · rw [not_or] at hini
      rw [hstep.inner' hini.2, hmid.inner' hini.1]
    · by_cases c1 : id ∈ updated [st]
      · obtain ⟨f', hin⟩ := mem_updated.1 c1
        rw [List.mem_singleton] at hin
        obtain rfl := update_unique hw.updates hu (hin ▸ hst)
        have hr0 := hmid.next' (hexcu c1)
        obtain ⟨w, hw', e1⟩ := hstep.next _ hin.symm
        refine ⟨w, hw', ?_⟩
        rw [e1]
        unfold Register.schedule
        split <;> simp [hr0]
      · rw [hstep.next' c1]; exact hmid.next (hupd.resolve_right c1)
    · rw [not_or] at hupd
      rw [hstep.next' hupd.2, hmid.next' hupd.1]
  · intro st' hst' e he
    exact Ready.slotFrame h.slots e (fun x hx => hd3 x (List.mem_flatMap.2
      ⟨st', hst', List.mem_flatMap.2 ⟨e, he, hx⟩⟩)) (hm.todo st' (by simp [hst']) e he)
  · intro st' hst' e he
    rcases List.mem_append.1 hst' with hst' | hst'
    · exact Ready.slotFrame h.slots e (fun x hx hc => hd1 x (List.mem_flatMap.2
        ⟨st', hst', List.mem_flatMap.2 ⟨e, he, hx⟩⟩) (List.mem_append_left _ hc))
        (hm.past st' hst' e he)
    · rw [List.mem_singleton] at hst'
      subst hst'
      exact h.ready e he

theorem mid_exec (hw : Wired n) {t hi : Nat} (hhi : t ≤ hi) {past todo : List Stmt} {st : Stmt}
    {env : Env} {s : NodeState ms} (hs : n.stmts = past ++ st :: todo)
    (hm : Mid A glob F n t hi past (st :: todo) env s)
    (ho : Sorted (n.inputs.map (·.name) ++ past.flatMap binds) (initialised past) (st :: todo))
    (hh : Holds A glob ms F t st) :
    ∃ env' s', exec A glob ms st (env, s) = .ok (env', s') ∧
      Mid A glob F n t hi (past ++ [st]) todo env' s' := by
  have hslots := hw.slots
  rw [hs, List.flatMap_append, List.flatMap_cons] at hslots
  obtain ⟨_, hn2, _, _⟩ := nodup_split hslots
  obtain ⟨env', s', h1, h2⟩ := exec_of_holds hhi (nodup_split hn2).1 (mid_reading hw hs hm ho)
    (hm.todo st (by simp)) (mid_regs hw hs hm) (mid_loop hw hs ho) hh
  exact ⟨env', s', h1, mid_next hw hs hm h2⟩

/-- Statements that the streams satisfy are executed without panic. -/
theorem execAll_of_holds (hw : Wired n) {t hi : Nat} (hhi : t ≤ hi) : ∀ {todo past : List Stmt}
    {env : Env} {s : NodeState ms}, n.stmts = past ++ todo → Mid A glob F n t hi past todo env s →
    Sorted (n.inputs.map (·.name) ++ past.flatMap binds) (initialised past) todo →
    (∀ st ∈ todo, Holds A glob ms F t st) →
    ∃ env' s', execAll A glob ms todo (env, s) = .ok (env', s') ∧
      Mid A glob F n t hi n.stmts [] env' s'
  | [], past, env, s, hs, hm, _, _ => by
    rw [List.append_nil] at hs
    exact ⟨env, s, rfl, hs ▸ hm⟩
  | st :: todo, past, env, s, hs, hm, ho, hh => by
    obtain ⟨env1, s1, h1, h2⟩ := mid_exec hw hhi hs hm ho (hh st (by simp))
    obtain ⟨env2, s2, h3, h4⟩ := execAll_of_holds hw hhi (past := past ++ [st]) (todo := todo)
      (by rw [hs]; simp) h2 (by
        have := ho.2
        rw [initialised_append]
        simpa [List.append_assoc] using this) (fun st' h' => hh st' (by simp [h']))
    exact ⟨env2, s2, by simp only [execAll, h1, bind_ok]; exact h3, h4⟩

/-- Statements that are executed without panic are satisfied by the streams they compute. -/
theorem holds_of_execAll (hw : Wired n) {t hi : Nat} (hhi : t ≤ hi) : ∀ {todo past : List Stmt}
    {env env' : Env} {s s' : NodeState ms}, n.stmts = past ++ todo →
    Mid A glob F n t hi past todo env s →
    Sorted (n.inputs.map (·.name) ++ past.flatMap binds) (initialised past) todo →
    execAll A glob ms todo (env, s) = .ok (env', s') →
    (∀ x ∈ todo.flatMap binds, env' x = some (F.X x t)) →
    (∀ id ∈ initialised todo, clockOf s' id = some (F.C id t)) →
    ∀ st ∈ todo, Holds A glob ms F t st
  | [], past, env, env', s, s', hs, hm, _, _, _, _ => by simp
  | st :: todo, past, env, env', s, s', hs, hm, ho, h, hX, hC => by
    simp only [execAll] at h
    obtain ⟨⟨env1, s1⟩, h1, h⟩ := ok_bind.1 h
    obtain ⟨b1, _, b3, _⟩ := execAll_keeps h
    have honce := hw.once
    rw [hs] at honce
    simp only [List.flatMap_append, List.flatMap_cons] at honce
    rw [List.nodup_append] at honce
    have honce := (List.nodup_append.1 honce.2.1).2.1
    have hinits := hw.inits
    rw [hs, initialised_append, initialised_cons st] at hinits
    have hinits := (List.nodup_append.1 hinits).2.1
    have hslots := hw.slots
    rw [hs, List.flatMap_append, List.flatMap_cons] at hslots
    obtain ⟨_, hn2, _, _⟩ := nodup_split hslots
    have hst : Holds A glob ms F t st := by
      refine holds_of_exec hhi (nodup_split hn2).1 (mid_reading hw hs hm ho)
        (hm.todo st (by simp)) (mid_loop hw hs ho) (List.nodup_append.1 honce).1 h1
        (fun x hx => ?_) (fun id hid => ?_)
      · rw [← b1 x fun hc => (List.nodup_append.1 honce).2.2 x hx x hc rfl]
        exact hX x (by simp [hx])
      · rw [← b3 id fun hc => (List.nodup_append.1 hinits).2.2 id hid id hc rfl]
        exact hC id (by rw [initialised_cons]; simp [hid])
    obtain ⟨env2, s2, h2, h3⟩ := mid_exec hw hhi hs hm ho hst
    rw [h1] at h2
    cases h2
    intro st' hst'
    rcases List.mem_cons.1 hst' with rfl | hst'
    · exact hst
    · exact holds_of_execAll hw hhi (past := past ++ [st]) (todo := todo) (by rw [hs]; simp) h3 (by
        have := ho.2
        rw [initialised_append]
        simpa [List.append_assoc] using this) h
        (fun x hx => hX x (by simp only [List.flatMap_cons, List.mem_append]; exact .inr hx))
        (fun id hid => hC id (by rw [initialised_cons]; simp [hid])) st' hst'

end

end Chandeliers.Den
