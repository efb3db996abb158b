import Verif.Lemmas.ClockedNode

/-! # Accepted nodes with registers -/

set_option autoImplicit false
set_option linter.unusedSectionVars false

namespace Chandeliers.Uni
open Chandeliers.San Chandeliers.Spec Chandeliers.Syn Chandeliers.Den Chandeliers.Pres
open Chandeliers.Err Chandeliers.Props

/-! ## Statements -/

/-- A statement is the translation of an equation or of an assertion. -/
def Comes (v : View) (blocks : List NodeInstance) (st : SrcStmt) (st' : Stmt) : Prop :=
  match st with
  | .def_ p e => ∃ c c' x, e.translate v c = .ok (x, c') ∧ c'.blocks <+: blocks ∧
      st' = .let_ p.translate x
  | .assert e => ∃ c c' x, e.translate v c = .ok (x, c') ∧ c'.blocks <+: blocks ∧ st' = .assert x

theorem Comes.mono {v : View} {bs bs' : List NodeInstance} {st : SrcStmt} {st' : Stmt}
    (h : Comes v bs st st') (hb : bs <+: bs') : Comes v bs' st st' := by
  cases st with
  | def_ p e =>
    obtain ⟨c, c', x, h1, h2, h3⟩ := h
    exact ⟨c, c', x, h1, h2.trans hb, h3⟩
  | assert e =>
    obtain ⟨c, c', x, h1, h2, h3⟩ := h
    exact ⟨c, c', x, h1, h2.trans hb, h3⟩

theorem stmt_comes {v : View} {st : SrcStmt} {c c' : ExprCtx} (h : st.translate v c = .ok ((), c')) :
    ∃ new, c'.stmts = c.stmts ++ new ∧ (∃ st' ∈ new, Comes v c'.blocks st st') ∧
      ∀ st' ∈ new, Stmt.source st' ≠ [] → Comes v c'.blocks st st' := by
  cases st with
  | assert e =>
    obtain ⟨x, c₁, h1, h2⟩ := tr_bind_ok.1 h
    simp only [pushStmt, Except.ok.injEq, Prod.mk.injEq, true_and] at h2
    subst h2
    obtain ⟨m, hm⟩ := fresh_translate e v c x c₁ h1
    have hc : Comes v c₁.blocks (.assert e) (.assert x) := ⟨c, c₁, x, h1, List.prefix_rfl, rfl⟩
    refine ⟨m ++ [.assert x], by simp [hm.stmts], ⟨_, by simp, hc⟩, fun st' hst hne => ?_⟩
    rcases List.mem_append.1 hst with hst | hst
    · rcases hm.only st' hst with ⟨_, _, rfl⟩ | ⟨_, _, rfl⟩ <;> exact absurd rfl hne
    · rw [List.mem_singleton] at hst
      subst hst
      exact hc
  | def_ p e =>
    obtain ⟨x, c₁, h1, h2⟩ := tr_bind_ok.1 h
    simp only [pushStmt, Except.ok.injEq, Prod.mk.injEq, true_and] at h2
    subst h2
    obtain ⟨m, hm⟩ := fresh_translate e v c x c₁ h1
    have hc : Comes v c₁.blocks (.def_ p e) (.let_ p.translate x) :=
      ⟨c, c₁, x, h1, List.prefix_rfl, rfl⟩
    refine ⟨m ++ [.let_ p.translate x], by simp [hm.stmts], ⟨_, by simp, hc⟩, fun st' hst hne => ?_⟩
    rcases List.mem_append.1 hst with hst | hst
    · rcases hm.only st' hst with ⟨_, _, rfl⟩ | ⟨_, _, rfl⟩ <;> exact absurd rfl hne
    · rw [List.mem_singleton] at hst
      subst hst
      exact hc

theorem stmts_come {v : View} : ∀ {sts : List SrcStmt} {c c' : ExprCtx},
    translateStmts v sts c = .ok ((), c') → ∃ new, c'.stmts = c.stmts ++ new ∧
      (∀ st ∈ sts, ∃ st' ∈ new, Comes v c'.blocks st st') ∧
      ∀ st' ∈ new, Stmt.source st' ≠ [] → ∃ st ∈ sts, Comes v c'.blocks st st'
  | [], c, c', h => by
    unfold translateStmts at h
    cases tr_pure_ok.1 h
    exact ⟨[], by simp, by simp, by simp⟩
  | st :: sts, c, c', h => by
    unfold translateStmts at h
    obtain ⟨_, c₁, h1, h2⟩ := tr_bind_ok.1 h
    obtain ⟨n', hn'⟩ := built_stmts h2
    obtain ⟨new, e1, e2, e3⟩ := stmts_come h2
    obtain ⟨new', f1, ⟨st₀, f2, f3⟩, f4⟩ := stmt_comes h1
    refine ⟨new' ++ new, by rw [e1, f1]; simp, fun s hs => ?_, fun s hs hne => ?_⟩
    · rcases List.mem_cons.1 hs with rfl | hs
      · exact ⟨st₀, List.mem_append_left _ f2, f3.mono hn'.blocks⟩
      · obtain ⟨s', g1, g2⟩ := e2 s hs
        exact ⟨s', List.mem_append_right _ g1, g2⟩
    · rcases List.mem_append.1 hs with hs | hs
      · exact ⟨st, List.mem_cons_self .., (f4 s hs hne).mono hn'.blocks⟩
      · obtain ⟨s', g1, g2⟩ := e3 s hs hne
        exact ⟨s', List.mem_cons_of_mem _ g1, g2⟩

/-! ## The surroundings of an accepted node -/

section
variable {b : Bool} {o : TyOpts} {sigs : String → Option Sig} {consts : String → Option TyBase}
  {src : SrcNode} {n n₁ n₂ : Node} {c : ExprCtx} {ctx : TyCtx} {clk : Nat → Expr} {m : Depths}
  {K : String → Option Clk} {ms : List Machine} {nodes : String → Option Machine}

theorem final_linked (hf : Final b o sigs consts src n n₁ n₂ c ctx clk m K)
    (hL : Linked ms nodes n.blocks) : Linked ms nodes c.blocks := by
  have hb : n.blocks.map (·.name) = c.blocks.map (·.name) := by
    rw [hf.final, hf.same, hf.start]
    simp only [Node.withDepths, Node.withClocks, Node.fill]
    apply List.ext_getElem?
    intro i
    simp
    cases c.blocks[i]? <;> rfl
  intro i bl hbl
  have h1 : (n.blocks.map (·.name))[i]? = some bl.name := by rw [hb]; simp [hbl]
  rw [List.getElem?_map, Option.map_eq_some_iff] at h1
  obtain ⟨b', h2, h3⟩ := h1
  rw [hL i b' h2, h3]

/-- The clocks survive the last pass. -/
theorem final_clocked (hf : Final b o sigs consts src n n₁ n₂ c ctx clk m K) :
    NodeClocked false n K := by
  have h := hf.clocked
  have hd : ∀ (vs : List TyVar) x k, (∃ v ∈ setDepths m vs, v.name = x ∧ v.clk.intoClk = k) ↔
      ∃ v ∈ vs, v.name = x ∧ v.clk.intoClk = k := by
    intro vs x k
    simp [setDepths]
  refine ⟨?_, ?_, ?_⟩
  · intro v hv
    rw [hf.final] at hv
    have : ∃ v' ∈ n₂.inputs ++ n₂.outputs, v'.clk = v.clk := by
      simp only [Node.withDepths, Node.withClocks, Node.fill, setDepths, List.mem_append,
        List.mem_map] at hv
      rcases hv with ⟨a, h1, rfl⟩ | ⟨a, h1, rfl⟩
      · exact ⟨a, List.mem_append_left _ h1, rfl⟩
      · exact ⟨a, List.mem_append_right _ h1, rfl⟩
    obtain ⟨v', h1, h2⟩ := this
    rw [← h2]
    exact h.interface v' h1
  · intro x k
    rw [h.declared x k, hf.final]
    have : (setDepths m n₂.inputs ++ setDepths m n₂.outputs ++ setDepths m n₂.locals) =
        setDepths m (n₂.inputs ++ n₂.outputs ++ n₂.locals) := by simp [setDepths]
    simp only [Node.withDepths, Node.withClocks, Node.fill]
    rw [this, hd]
  · intro st hst
    rw [hf.final_stmts] at hst
    obtain ⟨st', h1, rfl⟩ := List.mem_map.1 hst
    have := h.stmts st' h1
    cases st' with
    | initRegister => exact .initRegister
    | _ => exact this

theorem source_withClocks (clk : Nat → Expr) (st : Stmt) :
    Stmt.source (Stmt.withClocks clk st) = Stmt.source st := by
  cases st <;> rfl

theorem fetchesIn_withClocks (clk : Nat → Expr) (st : Stmt) :
    fetchesIn (Stmt.withClocks clk st) = fetchesIn st := by
  cases st <;> rfl

theorem clocks_known (hn : (SrcNode.vars src).Nodup) {a : ArgsTy} {x : String}
    (ha : a ∈ src.inputs ++ src.outputs ++ src.locals) (hx : x ∈ a.ids) :
    SrcNode.clocks src x = a.clk := by
  have e : SrcNode.vars src = argNames (src.inputs ++ src.outputs ++ src.locals) := by
    simp [SrcNode.vars, argNames]
  rw [e] at hn
  unfold SrcNode.clocks
  revert ha hn
  generalize src.inputs ++ src.outputs ++ src.locals = as
  intro hn ha
  induction as with
  | nil => cases ha
  | cons a' as ih =>
    simp only [argNames, List.flatMap_cons] at hn
    rw [List.nodup_append] at hn
    rw [List.find?_cons]
    by_cases hx' : x ∈ a'.ids
    · rw [decide_eq_true hx']
      rcases List.mem_cons.1 ha with rfl | ha
      · rfl
      · exact absurd rfl (hn.2.2 x hx' x (List.mem_flatMap.2 ⟨a, ha, hx⟩))
    · rw [decide_eq_false hx']
      rcases List.mem_cons.1 ha with rfl | ha
      · exact absurd hx hx'
      · exact ih hn.2.1 ha

/-- The clock of a register is that of what feeds it. -/
theorem final_regs (hf : Final b o sigs consts src n n₁ n₂ c ctx clk m K) :
    ∀ id f, .updateRegister id f ∈ n.stmts → ∀ i c, .initRegister id i c ∈ n.stmts →
      ∃ k, HasClock false K f k ∧ c = some (clockExpr k) := by
  intro id f hfu i cc hii
  rw [hf.final_stmts] at hii
  obtain ⟨st', h1, h2⟩ := List.mem_map.1 hii
  cases st' with
  | initRegister id' i' c' =>
    simp only [Stmt.withClocks, Stmt.initRegister.injEq] at h2
    obtain ⟨rfl, rfl, rfl⟩ := h2
    obtain ⟨f', k, h3, h4, h5⟩ := hf.clocks id' (mem_initialised'.2 ⟨_, _, h1⟩)
    obtain ⟨st₂, g1, g2⟩ := List.mem_flatMap.1 h3
    have h6 := hf.update_mem.2 ((hf.built.fetched id' f').1
      (List.mem_flatMap.2 ⟨st₂, hf.perm.mem_iff.1 g1, g2⟩))
    obtain rfl := update_unique hf.wired.updates hfu h6
    exact ⟨k, h4, by rw [h5]⟩
  | _ => cases h2

/-- The clocks of variables are those of the source. -/
theorem final_known (hf : Final b o sigs consts src n n₁ n₂ c ctx clk m K) :
    ∀ x k, K x = some k → (SrcNode.clocks src x).intoClk = k := by
  intro x k hx
  obtain ⟨v, hv, rfl, rfl⟩ := ((final_clocked hf).declared _ _).1 hx
  have hv' : ∃ v' ∈ translateArgs src.inputs ++ translateArgs src.outputs ++
      translateArgs src.locals, v'.name = v.name ∧ v'.clk = v.clk := by
    have : n.inputs ++ n.outputs ++ n.locals = setDepths m (translateArgs src.inputs ++
        translateArgs src.outputs ++ translateArgs src.locals) := by
      rw [hf.final, hf.same, hf.start]
      simp [Node.withDepths, Node.withClocks, Node.fill, setDepths]
    rw [this] at hv
    obtain ⟨v', h1, rfl⟩ := List.mem_map.1 hv
    exact ⟨v', h1, rfl, rfl⟩
  obtain ⟨v', h1, h2, h3⟩ := hv'
  have : ∃ a ∈ src.inputs ++ src.outputs ++ src.locals, v.name ∈ a.ids ∧ a.clk = v.clk := by
    have h4 : v' ∈ translateArgs (src.inputs ++ src.outputs ++ src.locals) := by
      simpa [translateArgs] using h1
    obtain ⟨a, g1, g2⟩ := List.mem_flatMap.1 h4
    obtain ⟨y, g3, rfl⟩ := List.mem_map.1 g2
    exact ⟨a, g1, h2 ▸ g3, h3⟩
  obtain ⟨a, g1, g2, g3⟩ := this
  rw [clocks_known ?_ g1 g2, g3]
  have := hf.wired.names
  have e : (declared n).map (·.name) = SrcNode.vars src := by
    rw [declared, hf.final, hf.same, hf.start]
    simp [Node.withDepths, Node.withClocks, Node.fill, setDepths, SrcNode.vars, ← args_names,
      Function.comp_def]
  rwa [e] at this

theorem surround_of_final (hf : Final true o sigs consts src n n₁ n₂ c ctx clk m K)
    (hi : BoundBeforeUse n) (hidle : ∀ m ∈ ms, Idle m)
    (hw : ∀ a ∈ src.inputs ++ src.outputs ++ src.locals, a.clk ≠ .adaptative) :
    Surround ms n K (SrcNode.clocks src) where
  idle := hidle
  wired := ⟨hf.wired, hi⟩
  clocked := final_clocked hf
  fetched := by
    intro st hst p hp
    rw [hf.final_stmts] at hst
    obtain ⟨st', h1, rfl⟩ := List.mem_map.1 hst
    rw [fetchesIn_withClocks] at hp
    exact hf.update_mem.2 ((hf.built.fetched p.1 p.2).1
      (List.mem_flatMap.2 ⟨st', hf.perm.mem_iff.1 h1, hp⟩))
  regs := final_regs hf
  known := final_known hf
  unknown := by
    intro x hx
    unfold SrcNode.clocks
    split
    · rename_i a ha
      have h1 := List.mem_of_find?_eq_some ha
      have h2 : x ∈ a.ids := by simpa using List.find?_some ha
      exfalso
      have h4 : (⟨x, a.base, a.clk, 0⟩ : TyVar) ∈ translateArgs (src.inputs ++ src.outputs ++
          src.locals) := List.mem_flatMap.2 ⟨a, h1, List.mem_map.2 ⟨x, h2, rfl⟩⟩
      have h5 : ∃ v ∈ n.inputs ++ n.outputs ++ n.locals, v.name = x ∧
          v.clk.intoClk = a.clk.intoClk := by
        have : n.inputs ++ n.outputs ++ n.locals = setDepths m (translateArgs (src.inputs ++
            src.outputs ++ src.locals)) := by
          rw [hf.final, hf.same, hf.start]
          simp [Node.withDepths, Node.withClocks, Node.fill, setDepths, translateArgs]
        rw [this]
        exact ⟨_, List.mem_map.2 ⟨_, h4, rfl⟩, rfl, rfl⟩
      have := ((final_clocked hf).declared x a.clk.intoClk).2 h5
      rw [hx] at this
      cases this
    · rfl
  written := by
    intro x
    unfold SrcNode.clocks
    split
    · rename_i a ha
      exact hw a (List.mem_of_find?_eq_some ha)
    · simp

variable {A : Arith} {glob : Globals} {F : Flow}

/-- The streams of an accepted node with registers agree with the clocked reference. -/
theorem solution_clocked (h : Passes true o sigs consts src n) (hi : BoundBeforeUse n)
    (hidle : ∀ m ∈ ms, Idle m)
    (hw : ∀ a ∈ src.inputs ++ src.outputs ++ src.locals, a.clk ≠ .adaptative)
    (hL : Linked ms nodes n.blocks) {is : List Value} (hs : Solution A glob ms F n is) {t : Nat}
    (ht : t < is.length)
    (hp : ∀ st ∈ src.defs, ProperStmt ⟨A, SrcNode.vars src, F.X, glob, nodes⟩
      (SrcNode.clocks src) t st) :
    (∀ x, due F.X (SrcNode.clocks src x) t = false → F.X x t = .nil) ∧
    ∀ st ∈ src.defs, ClockedHolds ⟨A, SrcNode.vars src, F.X, glob, nodes⟩
      (SrcNode.clocks src) t st := by
  obtain ⟨n₁, n₂, c, ctx, clk, m, K, hf⟩ := passes_final h
  have hsur := surround_of_final hf hi hidle hw
  have hLc := final_linked hf hL
  have hW : (⟨A, SrcNode.vars src, F.X, glob, nodes⟩ : World) =
      worldX A glob nodes F.X (src.view true) := by
    simp only [worldX, SrcNode.view, SrcNode.vars, List.map_append, args_names]
  rw [hW] at hp ⊢
  obtain ⟨new, e1, e2, e3⟩ := stmts_come hf.stmts
  simp only [List.nil_append] at e1
  subst e1
  have hh : ∀ u, u ≤ t → ∀ st ∈ n.stmts, Holds A glob ms F u st :=
    fun u hu => hs.stmts u (by omega)
  have hprop : ∀ st ∈ n.stmts, ∀ e ∈ Stmt.source st,
      ProperX A glob ms F.X (SrcNode.clocks src) t e := by
    intro st hst e he
    rw [hf.final_stmts] at hst
    obtain ⟨st', h1, rfl⟩ := List.mem_map.1 hst
    rw [source_withClocks] at he
    obtain ⟨s, h2, h3⟩ := e3 st' (hf.perm.mem_iff.1 h1) (by intro h0; rw [h0] at he; cases he)
    have hps := hp s h2
    cases s with
    | def_ p e' =>
      obtain ⟨c₀, c₁, x, g1, g2, rfl⟩ := h3
      obtain rfl := List.mem_singleton.1 he
      exact translate_proper rfl rfl e' g1 (linked_of_prefix hLc g2) hps
    | assert e' =>
      obtain ⟨c₀, c₁, x, g1, g2, rfl⟩ := h3
      obtain rfl := List.mem_singleton.1 he
      exact translate_proper rfl rfl e' g1 (linked_of_prefix hLc g2) hps
  have key := hsur.absent hh hprop t (Nat.le_refl _)
  refine ⟨key.1, fun st hst => ?_⟩
  obtain ⟨st', h1, h2⟩ := e2 st hst
  have hmem : ∀ s, Stmt.withClocks clk s = s → s ∈ c.stmts → s ∈ n.stmts := by
    intro s h0 hs'
    rw [hf.final_stmts]
    exact List.mem_map.2 ⟨s, hf.perm.mem_iff.2 hs', h0⟩
  cases st with
  | def_ p e =>
    obtain ⟨c₀, c₁, x, g1, g2, rfl⟩ := h2
    have h3 := hmem _ rfl h1
    obtain ⟨v, hd, ha⟩ := hh t (Nat.le_refl _) _ h3
    have hag := den_clocked hsur.idle x (key.2 _ h3 x (by simp [Stmt.source])) hd
    rw [translate_on (A := A) (glob := glob) (nodes := nodes) rfl e g1,
      translate_val rfl e g1 (linked_of_prefix hLc g2)] at hag
    exact ⟨v, (gets_translate p v).1 ha, hag.1, hag.2⟩
  | assert e =>
    obtain ⟨c₀, c₁, x, g1, g2, rfl⟩ := h2
    have h3 := hmem _ rfl h1
    have hd := hh t (Nat.le_refl _) _ h3
    have hag := den_clocked hsur.idle x (key.2 _ h3 x (by simp [Stmt.source])) hd
    rw [translate_on (A := A) (glob := glob) (nodes := nodes) rfl e g1,
      translate_val rfl e g1 (linked_of_prefix hLc g2)] at hag
    intro ho w hw
    exact (hag.2 ho w hw).symm

end

end Chandeliers.Uni
