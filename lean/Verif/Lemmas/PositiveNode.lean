import Verif.Lemmas.NoAgo

/-! # Accepted nodes never read too far: the lemmas behind C21 -/

set_option autoImplicit false
set_option linter.unusedSectionVars false

namespace Chandeliers.San
open Chandeliers.Err Chandeliers.Err.Chk Chandeliers.Spec

variable {σ : Type}

/-- The node with the depths of `m`. -/
def _root_.Chandeliers.San.Node.withDepths (n : Node) (m : Depths) : Node :=
  { n with inputs := setDepths m n.inputs
           outputs := setDepths m n.outputs
           locals := setDepths m n.locals }

theorem makePositive_some {n n' : Node} {s s' : EAccum Diag × σ}
    (h : n.makePositive s = (.some n', s')) :
    ∃ m, Tracks (fun _ => none) m (occurrencesIn n.stmts) ∧ s' = s ∧
      n' = n.withDepths m := by
  obtain ⟨⟨⟨⟩, m⟩, s1, h1, h2⟩ := bind_some.1 h
  obtain ⟨a, t⟩ := s
  unfold San.Chk.local_ at h1
  simp only at h1
  rcases hm : checkPositiveAll n.stmts (a, fun _ => none) with ⟨r, a', m'⟩
  rw [hm] at h1
  cases r <;> cases h1
  obtain ⟨m'', hm'', ht⟩ := checkPositiveAll_good n.stmts _ _ _ hm
  cases hm''
  cases h2
  exact ⟨m, ht, rfl, rfl⟩

theorem mem_declared {m : Depths} {n : Node} {v : TyVar}
    (h : v ∈ declared (n.withDepths m)) :
    ∃ w ∈ declared n, w.name = v.name ∧ v.depth = (m v.name).getD 0 := by
  simp only [declared, Node.withDepths, setDepths, List.mem_append, List.mem_map] at h ⊢
  rcases h with (⟨w, hw, rfl⟩ | ⟨w, hw, rfl⟩) | ⟨w, hw, rfl⟩
  · exact ⟨w, .inl (.inl hw), rfl, rfl⟩
  · exact ⟨w, .inl (.inr hw), rfl, rfl⟩
  · exact ⟨w, .inr hw, rfl, rfl⟩

variable {A : Arith} {glob : Globals} {ms : List Machine}

/-- The fields of a state are those of the initial state. -/
def Fields (n : Node) (s : NodeState ms) : Prop :=
  (∀ x, (s.hist x).map (·.1) = (initHist n x).map (·.1)) ∧ States.All Reach ms s.nodes

theorem within_of_positive {n n' : Node} {s s' : EAccum Diag × σ}
    (h : n.makePositive s = (.some n', s'))
    (hdecl : ∀ x d, (x, d + 1) ∈ occurrencesIn n.stmts → ∃ v ∈ declared n, v.name = x)
    {t : NodeState ms} (ht : ∀ x, (t.hist x).map (·.1) = (initHist n' x).map (·.1)) :
    Within t.hist (occurrencesIn n'.stmts) := by
  obtain ⟨m, htr, -, rfl⟩ := makePositive_some h
  intro x d hx
  obtain ⟨k, hk, hle⟩ := (htr x).1 _ hx
  obtain ⟨v, hv, hvx⟩ := hdecl x d hx
  have hinit : ∃ g, initHist (n.withDepths m) x = some g ∧
      g.1 = k - 1 := by
    unfold initHist Node.withDepths
    generalize hl : (setDepths m n.inputs ++ setDepths m n.outputs ++ setDepths m n.locals) = l
    have hlm : l = (declared n).map fun v => { v with depth := (m v.name).getD 0 } := by
      rw [← hl]; simp [declared, setDepths]
    cases hf : l.find? (fun v => decide (v.name = x ∧ v.depth > 0)) with
    | none =>
      exfalso
      rw [List.find?_eq_none] at hf
      have := hf { v with depth := (m v.name).getD 0 } (by
        rw [hlm]; exact List.mem_map.2 ⟨v, hv, rfl⟩)
      simp [hvx, hk] at this
      omega
    | some w =>
      have hw1 := List.find?_some hf
      have hw2 := List.mem_of_find?_eq_some hf
      rw [hlm] at hw2
      obtain ⟨u, -, rfl⟩ := List.mem_map.1 hw2
      simp only [decide_eq_true_eq] at hw1
      refine ⟨_, rfl, ?_⟩
      simp [hw1.1, hk]
  obtain ⟨g, hg, hgk⟩ := hinit
  have := ht x
  rw [hg] at this
  cases hh : t.hist x with
  | none => rw [hh] at this; simp at this
  | some gg =>
    rw [hh] at this
    simp only [Option.map_some, Option.some.injEq] at this
    exact ⟨gg, rfl, by omega⟩

theorem step_hist {n : Node} {t t' : NodeState ms} {v o : Value}
    (h : n.step A glob ms t v = .ok (o, t')) (x : String) :
    (t'.hist x).map (·.1) = (t.hist x).map (·.1) := by
  unfold Node.step Candle.implicitClock at h
  split at h
  · cases h; rfl
  · unfold Node.body at h
    obtain ⟨env, _, h⟩ := ok_bind.1 h
    obtain ⟨⟨env1, t1⟩, hx, h⟩ := ok_bind.1 h
    obtain ⟨t2, h1, h⟩ := ok_bind.1 h
    obtain ⟨t3, h2, h⟩ := ok_bind.1 h
    obtain ⟨t4, h3, h⟩ := ok_bind.1 h
    obtain ⟨outs, h4, h⟩ := ok_bind.1 h
    cases h
    rw [← (execAll_frame A glob ms _ hx).2]
    exact (((updHists_fields ms _ h1 x).trans (updHists_fields ms _ h2 x)).trans
      (updHists_fields ms _ h3 x)).symm

theorem reach_hist {n : Node} {t : NodeState ms} (h : Reach (n.machine A glob ms) t)
    (x : String) : (t.hist x).map (·.1) = (initHist n x).map (·.1) :=
  reach_inv (m := n.machine A glob ms)
    (fun t : NodeState ms => (t.hist x).map (·.1) = (initHist n x).map (·.1)) rfl
    (fun _ _ _ _ hs hstep => (step_hist hstep x).trans hs) h

theorem updReg_err {s : NodeState ms} {id : Nat} {f : Register Scalar → Register Scalar} {p : Panic}
    (h : updReg ms s id f = .error p) : p = .rejected := by
  unfold updReg at h; split at h <;> cases h; rfl

mutual
theorem bindTarget_err : (t : VarTuple) → {v : Value} → {env : Env} → {p : Panic} →
    bindTarget t v env = .error p → p = .rejected
  | .single _, .leaf _, env, p, h => by simp only [bindTarget] at h; cases h
  | .single _, .tup _ _, env, p, h => by simp only [bindTarget] at h; cases h; rfl
  | .multiple [], v, env, p, h => by simp only [bindTarget] at h; cases h
  | .multiple [q], v, env, p, h => by simp only [bindTarget] at h; exact bindTarget_err q h
  | .multiple (q :: q' :: qs), .tup a b, env, p, h => by
    simp only [bindTarget] at h
    rcases err_bind.1 h with h | ⟨_, _, h⟩
    · exact bindTarget_err q h
    · exact bindTargets_err (q' :: qs) h
  | .multiple (_ :: _ :: _), .leaf _, env, p, h => by simp only [bindTarget] at h; cases h; rfl
theorem bindTargets_err : (ts : List VarTuple) → {vs : List Value} → {env : Env} → {p : Panic} →
    bindTargets ts vs env = .error p → p = .rejected
  | [], [], env, p, h => by simp only [bindTargets] at h; cases h
  | t :: ts, v :: vs, env, p, h => by
    simp only [bindTargets] at h
    rcases err_bind.1 h with h | ⟨_, _, h⟩
    · exact bindTarget_err t h
    · exact bindTargets_err ts h
  | [], _ :: _, env, p, h => by simp only [bindTargets] at h; cases h; rfl
  | _ :: _, [], env, p, h => by simp only [bindTargets] at h; cases h; rfl
end

theorem exec_noAgo (hsub : SubsNoAgo ms) (st : Stmt) {env : Env} {s : NodeState ms}
    (hr : Ready s (occurrencesIn [st] ++ registerOccurrences [st])) {p : Panic}
    (h : exec A glob ms st (env, s) = .error p) : ¬ p.isAgo := by
  cases st with
  | let_ t e =>
    simp only [occurrencesIn, registerOccurrences, List.append_nil] at hr
    simp only [exec] at h
    rcases err_bind.1 h with h | ⟨_, _, h⟩
    · exact eval_noAgo hsub env e hr h
    rcases err_bind.1 h with h | ⟨_, _, h⟩
    · exact not_ago_rejected (bindTarget_err _ h)
    · cases h
  | assert e =>
    simp only [occurrencesIn, registerOccurrences, List.append_nil] at hr
    simp only [exec] at h
    rcases err_bind.1 h with h | ⟨_, _, h⟩
    · exact eval_noAgo hsub env e hr h
    rcases err_bind.1 h with h | ⟨b, _, h⟩
    · exact not_ago_rejected (asBool_err h)
    rcases err_bind.1 h with h | ⟨_, _, h⟩
    · unfold Candle.truth at h
      split at h <;> cases h <;> simp [Panic.isAgo]
    · cases h
  | updateRegister id e =>
    simp only [occurrencesIn, registerOccurrences, List.append_nil, List.nil_append] at hr
    simp only [exec] at h
    rcases err_bind.1 h with h | ⟨_, _, h⟩
    · exact eval_noAgo hsub env e hr h
    rcases err_bind.1 h with h | ⟨_, _, h⟩
    · exact not_ago_rejected (updReg_err h)
    · cases h
  | initRegister id val clk =>
    simp only [occurrencesIn, registerOccurrences, List.append_nil, List.nil_append] at hr
    cases clk with
    | none => simp only [exec] at h; cases h; exact not_ago_rejected rfl
    | some clk =>
      simp only [Option.map_some, Option.getD_some] at hr
      simp only [exec] at h
      rcases err_bind.1 h with h | ⟨⟨v1, s1⟩, h1, h⟩
      · exact eval_noAgo hsub env clk hr.right h
      rcases err_bind.1 h with h | ⟨b, _, h⟩
      · exact not_ago_rejected (asBool_err h)
      rcases err_bind.1 h with h | ⟨s2, h2, h⟩
      · exact not_ago_rejected (updReg_err h)
      cases val with
      | none => simp only at h; cases h
      | some val =>
        simp only at h
        have hr2 : Ready s2 (occurrences val) := by
          have := (Ready.prev hr h1)
          simp only [updReg] at h2
          split at h2 <;> cases h2
          exact ⟨this.within, this.reach⟩
        rcases err_bind.1 h with h | ⟨_, _, h⟩
        · exact eval_noAgo hsub env val hr2 h
        rcases err_bind.1 h with h | ⟨_, _, h⟩
        · exact not_ago_rejected (updReg_err h)
        · cases h

theorem updReg_nodes {s s' : NodeState ms} {id : Nat} {f : Register Scalar → Register Scalar}
    (h : updReg ms s id f = .ok s') : s'.nodes = s.nodes := by
  unfold updReg at h; split at h <;> cases h; rfl

theorem exec_reach (st : Stmt) {env env' : Env} {s s' : NodeState ms}
    (hr : States.All Reach ms s.nodes)
    (h : exec A glob ms st (env, s) = .ok (env', s')) : States.All Reach ms s'.nodes := by
  cases st with
  | let_ t e =>
    simp only [exec] at h
    obtain ⟨⟨v1, s1⟩, h1, h⟩ := ok_bind.1 h
    obtain ⟨_, _, h⟩ := ok_bind.1 h
    cases h
    exact eval_reach A glob ms env e hr h1
  | assert e =>
    simp only [exec] at h
    obtain ⟨⟨v1, s1⟩, h1, h⟩ := ok_bind.1 h
    obtain ⟨_, _, h⟩ := ok_bind.1 h
    obtain ⟨_, _, h⟩ := ok_bind.1 h
    cases h
    exact eval_reach A glob ms env e hr h1
  | updateRegister id e =>
    simp only [exec] at h
    obtain ⟨⟨v1, s1⟩, h1, h⟩ := ok_bind.1 h
    obtain ⟨s2, h2, h⟩ := ok_bind.1 h
    cases h
    rw [updReg_nodes h2]
    exact eval_reach A glob ms env e hr h1
  | initRegister id val clk =>
    cases clk with
    | none => simp only [exec] at h; cases h
    | some clk =>
      simp only [exec] at h
      obtain ⟨⟨v1, s1⟩, h1, h⟩ := ok_bind.1 h
      obtain ⟨_, _, h⟩ := ok_bind.1 h
      obtain ⟨s2, h2, h⟩ := ok_bind.1 h
      have hr2 : States.All Reach ms s2.nodes := by
        rw [updReg_nodes h2]; exact eval_reach A glob ms env clk hr h1
      cases val with
      | none => simp only at h; cases h; exact hr2
      | some val =>
        simp only at h
        obtain ⟨⟨v3, s3⟩, h3, h⟩ := ok_bind.1 h
        obtain ⟨s4, h4, h⟩ := ok_bind.1 h
        cases h
        rw [updReg_nodes h4]
        exact eval_reach A glob ms env val hr2 h3

theorem occurrencesIn_cons (st : Stmt) (sts : List Stmt) :
    occurrencesIn (st :: sts) = occurrencesIn [st] ++ occurrencesIn sts := by
  cases st <;> simp [occurrencesIn]

theorem registerOccurrences_cons (st : Stmt) (sts : List Stmt) :
    registerOccurrences (st :: sts) = registerOccurrences [st] ++ registerOccurrences sts := by
  cases st <;> simp [registerOccurrences]

theorem execAll_noAgo (hsub : SubsNoAgo ms) : ∀ (sts : List Stmt) {env : Env} {s : NodeState ms},
    Ready s (occurrencesIn sts ++ registerOccurrences sts) →
    (∀ p, execAll A glob ms sts (env, s) = .error p → ¬ p.isAgo) ∧
    (∀ env' s', execAll A glob ms sts (env, s) = .ok (env', s') → States.All Reach ms s'.nodes)
  | [], env, s, hr => by
    simp only [execAll]
    exact ⟨fun p h => by (cases h), fun env' s' h => by cases h; exact hr.reach⟩
  | st :: sts, env, s, hr => by
    rw [occurrencesIn_cons, registerOccurrences_cons] at hr
    have hst : Ready s (occurrencesIn [st] ++ registerOccurrences [st]) :=
      ⟨fun x d hx => hr.within x d (by
        simp only [List.mem_append] at hx ⊢; rcases hx with h | h <;> simp [h]), hr.reach⟩
    simp only [execAll]
    cases h1 : exec A glob ms st (env, s) with
    | error q =>
      refine ⟨fun p h => ?_, fun _ _ h => by cases h⟩
      cases h
      exact exec_noAgo hsub st hst h1
    | ok x =>
      obtain ⟨env1, s1⟩ := x
      have hs1 : Ready s1 (occurrencesIn sts ++ registerOccurrences sts) :=
        ⟨by
          rw [(exec_frame A glob ms st h1).2]
          exact fun x d hx => hr.within x d (by
            simp only [List.mem_append] at hx ⊢; rcases hx with h | h <;> simp [h]),
         exec_reach st hr.reach h1⟩
      exact execAll_noAgo hsub sts hs1

theorem updHists_nodes {env : Env} : ∀ (xs : List String) {s s' : NodeState ms},
    updHists ms env xs s = .ok s' → s'.nodes = s.nodes
  | [], s, s', h => by cases h; rfl
  | x :: xs, s, s', h => by
    simp only [updHists] at h
    obtain ⟨s1, h1, h⟩ := ok_bind.1 h
    rw [updHists_nodes xs h]
    unfold updHist at h1
    split at h1 <;> cases h1
    rfl

theorem updHists_err {env : Env} : ∀ (xs : List String) {s : NodeState ms} {p : Panic},
    updHists ms env xs s = .error p → p = .rejected
  | [], s, p, h => by cases h
  | x :: xs, s, p, h => by
    simp only [updHists] at h
    rcases err_bind.1 h with h | ⟨s1, _, h⟩
    · unfold updHist at h
      split at h <;> cases h
      rfl
    · exact updHists_err xs h

theorem readOutputs_err {env : Env} : ∀ (xs : List TyVar) {p : Panic},
    readOutputs env xs = .error p → p = .rejected
  | [], p, h => by cases h
  | x :: xs, p, h => by
    simp only [readOutputs] at h
    split at h
    · rcases err_bind.1 h with h | ⟨_, _, h⟩
      · exact readOutputs_err xs h
      · cases h
    · cases h; rfl

end Chandeliers.San
