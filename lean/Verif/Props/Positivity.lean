import Verif.Lemmas.PositiveNode

/-! # C21: accepted programs never look too far into the past -/

set_option autoImplicit false
set_option linter.unusedSectionVars false

namespace Chandeliers.Props
open Chandeliers.Err Chandeliers.Err.Chk Chandeliers.San Chandeliers.Spec

variable {σ : Type}

/-- C21: the remembered depth of a variable covers every distance at which it is read. -/
theorem C21_depths_cover {n n' : Node} {s s' : EAccum Diag × σ}
    (h : n.makePositive s = (.some n', s')) {v : TyVar} (hv : v ∈ declared n') {d : Nat}
    (hd : (v.name, d) ∈ occurrencesIn n'.stmts) : d ≤ v.depth := by
  obtain ⟨m, ht, -, rfl⟩ := makePositive_some h
  obtain ⟨w, -, -, hdepth⟩ := mem_declared hv
  obtain ⟨k, hk, hle⟩ := (ht v.name).1 d hd
  rw [hdepth, hk]
  exact hle

/-- C21: it is no larger than needed. -/
theorem C21_depths_minimal {n n' : Node} {s s' : EAccum Diag × σ}
    (h : n.makePositive s = (.some n', s')) {v : TyVar} (hv : v ∈ declared n') :
    v.depth = 0 ∨ (v.name, v.depth) ∈ occurrencesIn n'.stmts := by
  obtain ⟨m, ht, -, rfl⟩ := makePositive_some h
  obtain ⟨w, -, -, hdepth⟩ := mem_declared hv
  rcases (ht v.name).2.1 with hm | ⟨d, hd, hm⟩
  · left; rw [hdepth, hm]; rfl
  · right; rw [hdepth, hm]; exact hd

/-- C21: the check changes nothing but the depths. -/
theorem C21_only_depths {n n' : Node} {s s' : EAccum Diag × σ}
    (h : n.makePositive s = (.some n', s')) :
    s' = s ∧ n'.stmts = n.stmts ∧ n'.blocks = n.blocks ∧
      (declared n').map (fun v => (v.name, v.ty, v.clk)) =
        (declared n).map (fun v => (v.name, v.ty, v.clk)) := by
  obtain ⟨m, -, hs, rfl⟩ := makePositive_some h
  refine ⟨hs, rfl, rfl, ?_⟩
  simp [declared, Node.withDepths, setDepths, Function.comp_def]

variable {A : Arith} {glob : Globals} {ms : List Machine}

/-- C21: in every reachable state of an accepted node, every read of the past that its equations
contain finds a field that reaches back far enough. -/
theorem C21_reads_succeed {n n' : Node} {s s' : EAccum Diag × σ}
    (h : n.makePositive s = (.some n', s'))
    (hdecl : ∀ x d, (x, d + 1) ∈ occurrencesIn n.stmts → ∃ v ∈ declared n, v.name = x)
    {t : NodeState ms} (ht : Reach (n'.machine A glob ms) t) (env : Env) {x : String} {d : Nat}
    (hx : (x, d + 1) ∈ occurrencesIn n'.stmts) : ∃ v, readVar ms env t x (d + 1) = .ok v :=
  readVar_within ms fun y k hy => by
    obtain ⟨rfl, rfl⟩ : y = x ∧ k = d := by simpa using hy
    exact within_of_positive h hdecl (reach_hist ht) y k hx

/-- C21: no run of an accepted node ever panics because a history is too short, provided its
subnodes do not.  What registers store must also occur in the equations that read them, as it
does in every node made by the translation. -/
theorem C21_never_too_far {n n' : Node} {s s' : EAccum Diag × σ}
    (h : n.makePositive s = (.some n', s'))
    (hdecl : ∀ x d, (x, d + 1) ∈ occurrencesIn n.stmts → ∃ v ∈ declared n, v.name = x)
    (hreg : ∀ x d, (x, d + 1) ∈ registerOccurrences n.stmts → (x, d + 1) ∈ occurrencesIn n.stmts)
    (hsub : ∀ m ∈ ms, ∀ is, m.run is ≠ .error .agoTooFar ∧ m.run is ≠ .error .agoZero)
    (is : List Value) :
    (n'.machine A glob ms).run is ≠ .error .agoTooFar ∧
      (n'.machine A glob ms).run is ≠ .error .agoZero := by
  have hsub' : SubsNoAgo ms := by
    rintro m hm is p (rfl | rfl)
    · exact (hsub m hm is).2
    · exact (hsub m hm is).1
  have key : ∀ (p : Panic), p.isAgo → (n'.machine A glob ms).run is ≠ .error p := by
    intro p hp
    refine run_panic (m := n'.machine A glob ms) (fun t => Fields n' t)
      ⟨fun _ => rfl, States.all_init reach_init ms⟩ ?_ is
    intro t v ht
    have hstmts : n'.stmts = n.stmts := (C21_only_depths h).2.1
    have hw : Within t.hist (occurrencesIn n'.stmts ++ registerOccurrences n'.stmts) := by
      have hw := within_of_positive h hdecl ht.1
      intro x d hx
      rcases List.mem_append.1 hx with hx | hx
      · exact hw x d hx
      · rw [hstmts] at hx hw; exact hw x d (hreg x d hx)
    simp only [Node.machine, Node.step, Candle.implicitClock]
    split
    · exact ⟨fun h => by (cases h), fun o t' h => by cases h; exact ht⟩
    · unfold Node.body
      cases hb : bindTarget (inputPattern n'.inputs) v (fun _ => none) with
      | error q =>
        have := bindTarget_err _ hb
        refine ⟨fun h => ?_, fun o t' h => by cases h⟩
        cases h
        exact not_ago_rejected this hp
      | ok env =>
        simp only [bind, Except.bind]
        obtain ⟨e1, e2⟩ := execAll_noAgo (A := A) (glob := glob) hsub' n'.stmts (env := env)
          (s := t) ⟨hw, ht.2⟩
        cases hx : execAll A glob ms n'.stmts (env, t) with
        | error q =>
          refine ⟨fun h => ?_, fun o t' h => by cases h⟩
          cases h
          exact e1 _ hx hp
        | ok x =>
          obtain ⟨env1, t1⟩ := x
          have ht1 := e2 _ _ hx
          have hf1 := (execAll_frame A glob ms _ hx).2
          simp only
          cases h1 : updHists ms env1 (posNames n'.inputs) { t1 with clock := t1.clock + 1 } with
          | error q =>
            refine ⟨fun h => ?_, fun o t' h => by cases h⟩
            cases h
            exact not_ago_rejected (updHists_err _ h1) hp
          | ok t2 =>
          simp only
          cases h2 : updHists ms env1 (posNames n'.outputs) t2 with
          | error q =>
            refine ⟨fun h => ?_, fun o t' h => by cases h⟩
            cases h
            exact not_ago_rejected (updHists_err _ h2) hp
          | ok t3 =>
          simp only
          cases h3 : updHists ms env1 (posNames n'.locals) t3 with
          | error q =>
            refine ⟨fun h => ?_, fun o t' h => by cases h⟩
            cases h
            exact not_ago_rejected (updHists_err _ h3) hp
          | ok t4 =>
          simp only
          cases h4 : readOutputs env1 n'.outputs with
          | error q =>
            refine ⟨fun h => ?_, fun o t' h => by cases h⟩
            cases h
            exact not_ago_rejected (readOutputs_err _ h4) hp
          | ok outs =>
            refine ⟨fun h => by (cases h), fun o t' h => ?_⟩
            cases h
            refine ⟨fun x => ?_, ?_⟩
            · rw [← ht.1 x, ← hf1]
              exact (((updHists_fields ms _ h1 x).trans (updHists_fields ms _ h2 x)).trans
                (updHists_fields ms _ h3 x)).symm
            · rw [updHists_nodes _ h3, updHists_nodes _ h2, updHists_nodes _ h1]
              exact ht1
  exact ⟨key _ (.inr rfl), key _ (.inl rfl)⟩

/-- A node that meets the hypotheses: `o = 0 -> (0 -> pre pre i)` in default mode, accepted, with
the history of `i` of depth 2. -/
def deepNode : Node where
  name := "deep"
  inputs := [⟨"i", .int, .implicit, 0⟩]
  outputs := [⟨"o", .int, .implicit, 0⟩]
  locals := []
  blocks := []
  stmts := [.let_ (.single "o") (.later 0 (.lit (.int 0)) (.later 1 (.lit (.int 0))
    (.dummyPre (.dummyPre (.var "i" 2)))))]
  registers := []
  flips := 0

example : ∃ n', deepNode.makePositive (EAccum.default, ()) = (.some n', (EAccum.default, ())) ∧
    n'.inputs = [⟨"i", .int, .implicit, 2⟩] ∧ n'.outputs = [⟨"o", .int, .implicit, 0⟩] :=
  ⟨_, rfl, rfl, rfl⟩

example : ∀ x d, (x, d + 1) ∈ occurrencesIn deepNode.stmts → ∃ v ∈ declared deepNode, v.name = x := by
  intro x d h
  simp [deepNode, occurrencesIn, occurrences] at h
  exact ⟨⟨"i", .int, .implicit, 0⟩, by simp [declared, deepNode], h.1.symm⟩

/-- One `->` less and the node is refused, with the distance that is missing. -/
example : (Expr.later 0 (.lit (.int 0)) (.dummyPre (.dummyPre (.var "i" 2)))).checkPositive 0
    (EAccum.default, fun _ => none) = (.none, (⟨[.notPositive "i" 1 2], []⟩, fun _ => none)) := rfl

end Chandeliers.Props
