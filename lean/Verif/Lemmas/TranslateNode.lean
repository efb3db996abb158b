import Verif.Lemmas.Lustre

/-! What the translation of a node is made of. -/

set_option autoImplicit false

namespace Chandeliers.Den
open Chandeliers.San Chandeliers.Spec Chandeliers.Syn

/-- What the translation of statements did to the context. -/
structure Built (v : View) (c c' : ExprCtx) (new : List Stmt) : Prop where
  stmts : c'.stmts = c.stmts ++ new
  blocks : c.blocks <+: c'.blocks
  flips : c.flips ≤ c'.flips
  registers : c.registers ≤ c'.registers
  slots : (new.flatMap placesIn).Perm (slotsBetween c c')
  updates : (updated new).Perm (regsBetween c c')
  inits : (initialised new).Perm (regsBetween c c')
  clocks : ∀ id i k, .initRegister id i k ∈ new → k = none
  parts : ∀ e ∈ new.flatMap evaluated, ∀ p ∈ parts e, Okay v new p
  fetched : ∀ id f, (id, f) ∈ new.flatMap fetchesIn ↔ .updateRegister id f ∈ new
  started : ∀ id i, (id, i) ∈ new.flatMap startsIn ↔ .initRegister id i none ∈ new
  whole : (slotsOf new).Perm (slotsBetween c c')
  plain : v.useRegisters = false → c'.registers = c.registers ∧ c'.flips = c.flips

theorem Built.nil (v : View) (c : ExprCtx) : Built v c c [] where
  stmts := by simp
  blocks := List.prefix_rfl
  flips := Nat.le_refl _
  registers := Nat.le_refl _
  slots := by simp [slotsBetween]
  updates := by simp [updated, regsBetween]
  inits := by simp [initialised, regsBetween]
  clocks := by simp
  parts := by simp
  fetched := by simp
  started := by simp
  whole := by simp [slotsOf, slotsBetween]
  plain := fun _ => ⟨rfl, rfl⟩

theorem slotsOf_append (l l' : List Stmt) : slotsOf (l ++ l') = slotsOf l ++ slotsOf l' := by
  induction l with
  | nil => rfl
  | cons st l ih => cases st <;> simp [slotsOf, ih]

theorem Built.append {v : View} {c c₁ c₂ : ExprCtx} {n₁ n₂ : List Stmt}
    (h : Built v c c₁ n₁) (h' : Built v c₁ c₂ n₂) : Built v c c₂ (n₁ ++ n₂) where
  stmts := by rw [h'.stmts, h.stmts, List.append_assoc]
  blocks := h.blocks.trans h'.blocks
  flips := Nat.le_trans h.flips h'.flips
  registers := Nat.le_trans h.registers h'.registers
  slots := by
    have := slotsBetween_trans h.registers h'.registers h.flips h'.flips h.blocks.length_le
      h'.blocks.length_le
    rw [List.flatMap_append]
    exact (h.slots.append h'.slots).trans this
  updates := by
    rw [regsBetween_trans h.registers h'.registers, updated_append]
    exact h.updates.append h'.updates
  inits := by
    rw [regsBetween_trans h.registers h'.registers, initialised_append]
    exact h.inits.append h'.inits
  clocks := by
    intro id i k hm
    rcases List.mem_append.1 hm with hm | hm
    · exact h.clocks id i k hm
    · exact h'.clocks id i k hm
  parts := by
    intro e he p hp
    simp only [List.mem_append, List.flatMap_append] at he
    rcases he with he | he
    · exact (h.parts e he p hp).mono (by simp +contextual)
    · exact (h'.parts e he p hp).mono (by simp +contextual)
  fetched := fun id f => by
    rw [List.flatMap_append, List.mem_append, List.mem_append, h.fetched, h'.fetched]
  started := fun id i => by
    rw [List.flatMap_append, List.mem_append, List.mem_append, h.started, h'.started]
  whole := by
    rw [slotsOf_append]
    exact (h.whole.append h'.whole).trans (slotsBetween_trans h.registers h'.registers h.flips
      h'.flips h.blocks.length_le h'.blocks.length_le)
  plain := by
    intro hu
    obtain ⟨h1, h2⟩ := h.plain hu
    obtain ⟨h3, h4⟩ := h'.plain hu
    exact ⟨h3.trans h1, h4.trans h2⟩

/-- Pushing the statement that evaluates the translated expression. -/
theorem Fresh.push {v : View} {c c' : ExprCtx} {n : List Stmt} {x : Expr} (h : Fresh v [x] c c' n)
    {st : Stmt} (he : evaluated st = [x]) (hf : fetchesIn st = fetches x)
    (hst : startsIn st = starts x) (hw : slotsOf [st] = Spec.slots x) (hu : updated [st] = []) (hi : initialised [st] = [])
    {r : Unit × ExprCtx} (hp : pushStmt st c' = .ok r) : Built v c r.2 (n ++ [st]) := by
  simp only [pushStmt, Except.ok.injEq] at hp
  subst hp
  exact {
    stmts := by simp [h.stmts]
    blocks := h.blocks
    flips := h.flips
    registers := h.registers
    slots := by
      have h' := h.slots
      rw [List.perm_iff_count] at h' ⊢
      intro s
      have := h' s
      simp only [placesList, List.append_nil, slotsBetween, List.flatMap_append, List.flatMap_cons,
        List.flatMap_nil, List.count_append, placesIn, he] at this ⊢
      omega
    updates := by
      rw [updated_append, hu, List.append_nil]
      exact h.updates
    inits := by
      rw [initialised_append, hi, List.append_nil]
      exact h.inits
    clocks := by
      intro id i k hm
      rcases List.mem_append.1 hm with hm | hm
      · rcases h.only _ hm with ⟨_, _, e⟩ | ⟨_, _, e⟩
        · cases e
        · cases e
          rfl
      · rw [List.mem_singleton] at hm
        subst hm
        simp [initialised] at hi
    parts := by
      intro e hm p hp
      simp only [List.flatMap_append, List.flatMap_cons, List.flatMap_nil, List.append_nil, he,
        List.mem_append, List.mem_singleton] at hm
      rcases hm with hm | rfl
      · exact (h.parts e (List.mem_append_right _ hm) p hp).mono (by simp +contextual)
      · exact (h.parts e (by simp) p hp).mono (by simp +contextual)
    fetched := fun id f => by
      have := h.fetched id f
      have h1 : n.flatMap fetchesIn = [] := List.flatMap_eq_nil_iff.2 fun st' hst => by
        rcases h.only st' hst with ⟨_, _, rfl⟩ | ⟨_, _, rfl⟩ <;> rfl
      have h2 : ∀ id f, st ≠ .updateRegister id f := fun id f hst => by
        subst hst
        simp [updated] at hu
      simp only [List.flatMap_append, h1, List.flatMap_cons, List.flatMap_nil, hf, List.append_nil,
        List.nil_append, fetchesList, List.mem_append, List.mem_singleton] at this ⊢
      rw [this]
      exact ⟨.inl, fun hm => hm.elim (fun h => h) fun hm => absurd hm.symm (h2 _ _)⟩
    started := fun id i => by
      have := h.started id i
      have h1 : n.flatMap startsIn = [] := List.flatMap_eq_nil_iff.2 fun st' hst => by
        rcases h.only st' hst with ⟨_, _, rfl⟩ | ⟨_, _, rfl⟩ <;> rfl
      have h2 : ∀ id i, st ≠ .initRegister id i none := fun id f hst => by
        subst hst
        simp [initialised] at hi
      simp only [List.flatMap_append, h1, List.flatMap_cons, List.flatMap_nil, hst, List.append_nil,
        List.nil_append, startsList, List.mem_append, List.mem_singleton] at this ⊢
      rw [this]
      exact ⟨.inl, fun hm => hm.elim (fun h => h) fun hm => absurd hm.symm (h2 _ _)⟩
    whole := by
      have h1 : ∀ l : List Stmt, (∀ st ∈ l, (∃ id f, st = .updateRegister id f) ∨
          ∃ id i, st = .initRegister id i none) → slotsOf l = [] := by
        intro l hl
        induction l with
        | nil => rfl
        | cons st' l ih =>
          have := ih fun s hs => hl s (by simp [hs])
          rcases hl st' (by simp) with ⟨_, _, rfl⟩ | ⟨_, _, rfl⟩ <;> simp [slotsOf, this]
      rw [slotsOf_append, h1 n h.only, hw]
      have := h.whole
      simp only [slotsList, List.append_nil] at this
      exact this
    plain := fun hu => (h.plain hu).2 }

theorem built_stmt {v : View} {st : SrcStmt} {c : ExprCtx} {r : Unit × ExprCtx}
    (h : st.translate v c = .ok r) : ∃ n, Built v c r.2 n := by
  cases st with
  | assert e =>
    obtain ⟨x, c₁, h1, h⟩ := tr_bind_ok.1 h
    obtain ⟨n, hn⟩ := fresh_translate e v c x c₁ h1
    exact ⟨_, hn.push (st := .assert x) rfl rfl rfl (by simp [slotsOf]) rfl rfl h⟩
  | def_ p e =>
    obtain ⟨x, c₁, h1, h⟩ := tr_bind_ok.1 h
    obtain ⟨n, hn⟩ := fresh_translate e v c x c₁ h1
    exact ⟨_, hn.push (st := .let_ p.translate x) rfl rfl rfl (by simp [slotsOf]) rfl rfl h⟩

theorem built_stmts {v : View} : ∀ {sts : List SrcStmt} {c : ExprCtx} {r : Unit × ExprCtx},
    translateStmts v sts c = .ok r → ∃ n, Built v c r.2 n
  | [], c, r, h => by
    unfold translateStmts at h
    cases tr_pure_ok.1 h
    exact ⟨_, Built.nil v c⟩
  | st :: sts, c, r, h => by
    unfold translateStmts at h
    obtain ⟨_, c₁, h1, h⟩ := tr_bind_ok.1 h
    obtain ⟨n, hn⟩ := built_stmt h1
    obtain ⟨n', hn'⟩ := built_stmts h
    exact ⟨_, hn.append hn'⟩

/-- A node is translated by translating its statements. -/
theorem node_translate {b : Bool} {n : SrcNode} {n' : Node} (h : n.translate b = .ok n') :
    ∃ c, translateStmts (n.view b) n.defs {} = .ok ((), c) ∧
      n' = { name := n.name, inputs := translateArgs n.inputs, outputs := translateArgs n.outputs,
             locals := translateArgs n.locals, blocks := c.blocks, stmts := c.stmts,
             registers := List.replicate c.registers none, flips := c.flips } := by
  unfold SrcNode.translate at h
  simp only [StateT.run] at h
  cases hc : translateStmts (n.view b) n.defs {} with
  | error e => rw [hc] at h; cases h
  | ok r =>
    obtain ⟨u, c⟩ := r
    rw [hc] at h
    cases h
    exact ⟨c, rfl, rfl⟩

/-! ## Semantics, without registers -/

theorem gets_translate {X : String → Nillable Scalar} : ∀ (p : Target) (v : Value),
    Assigns X p.translate v ↔ Target.Gets X p v
  | .var x, v => by
    cases v <;> simp [Target.translate, Assigns, Target.Gets]
  | .tuple [] b, v => by
    simp [Target.translate, Target.translateList, Assigns, Target.Gets]
  | .tuple [p] b, v => by
    cases b
    · simp only [Target.translate, Target.translateList, Target.Gets]
      exact gets_translate p v
    · simp only [Target.translate, Target.translateList, Assigns, Target.Gets]
      exact gets_translate p v
  | .tuple (p :: p' :: ps) b, .leaf a => by
    simp [Target.translate, Target.translateList, Assigns, Target.Gets]
  | .tuple (p :: p' :: ps) b, .tup h t => by
    have h1 := gets_translate (X := X) p h
    have h2 := getList_translate (X := X) (p' :: ps) t
    simp only [Target.translateList] at h2
    simp only [Target.translate, Target.translateList, Assigns, Target.Gets, h1, h2]
where
  getList_translate {X : String → Nillable Scalar} : ∀ (ps : List Target) (vs : List Value),
      AssignsList X (Target.translateList ps) vs ↔ Target.GetList X ps vs
    | [], [] => by simp [Target.translateList, AssignsList, Target.GetList]
    | [], _ :: _ => by simp [Target.translateList, AssignsList, Target.GetList]
    | _ :: _, [] => by simp [Target.translateList, AssignsList, Target.GetList]
    | p :: ps, v :: vs => by
      simp only [Target.translateList, AssignsList, Target.GetList, gets_translate p v,
        getList_translate ps vs]

section
variable {A : Arith} {glob : Globals} {ms : List Machine} {F : Flow}
  {nodes : String → Option Machine}

theorem holds_stmts {v : View} (hu : v.useRegisters = false) (hd : v.depth = 0) (t : Nat) :
    ∀ {sts : List SrcStmt} {c c' : ExprCtx},
    translateStmts v sts c = .ok ((), c') → Linked ms nodes c'.blocks →
    ∃ new, c'.stmts = c.stmts ++ new ∧
      ((∀ st ∈ new, Holds A glob ms F t st) ↔
        ∀ st ∈ sts, SrcHolds (worldOf A glob nodes F v) t st)
  | [], c, c', h, hL => by
    unfold translateStmts at h
    cases tr_pure_ok.1 h
    exact ⟨[], by simp, by simp⟩
  | st :: sts, c, c', h, hL => by
    unfold translateStmts at h
    obtain ⟨_, c₁, h1, h⟩ := tr_bind_ok.1 h
    obtain ⟨n', hn'⟩ := built_stmts h
    have hL₁ := linked_of_prefix hL hn'.blocks
    obtain ⟨new, e1, e2⟩ := holds_stmts hu hd t h hL
    have key : ∃ st', c₁.stmts = c.stmts ++ [st'] ∧
        (Holds A glob ms F t st' ↔ SrcHolds (worldOf A glob nodes F v) t st) := by
      cases st with
      | assert e =>
        obtain ⟨x, c₂, h2, h1⟩ := tr_bind_ok.1 h1
        simp only [pushStmt, Except.ok.injEq, Prod.mk.injEq, true_and] at h1
        subst h1
        obtain ⟨m, hm⟩ := fresh_translate e v c x c₂ h2
        have hs := hm.stmts
        rw [(hm.plain hu).1, List.append_nil] at hs
        refine ⟨.assert x, by rw [hs], ?_⟩
        have := translate_ref (A := A) (glob := glob) (F := F) e v c x c₂ h2 hu hL₁ 0 (by omega) t
        rw [hd, show (t : Int) - (0 : Nat) = t by omega] at this
        simp only [Holds, SrcHolds, ← this, toOption_some]
      | def_ p e =>
        obtain ⟨x, c₂, h2, h1⟩ := tr_bind_ok.1 h1
        simp only [pushStmt, Except.ok.injEq, Prod.mk.injEq, true_and] at h1
        subst h1
        obtain ⟨m, hm⟩ := fresh_translate e v c x c₂ h2
        have hs := hm.stmts
        rw [(hm.plain hu).1, List.append_nil] at hs
        refine ⟨.let_ p.translate x, by rw [hs], ?_⟩
        have := translate_ref (A := A) (glob := glob) (F := F) e v c x c₂ h2 hu hL₁ 0 (by omega) t
        rw [hd, show (t : Int) - (0 : Nat) = t by omega] at this
        simp only [Holds, SrcHolds, ← this, toOption_some, gets_translate]
        rfl
    obtain ⟨st', e3, e4⟩ := key
    refine ⟨st' :: new, by rw [e1, e3]; simp, ?_⟩
    simp only [List.mem_cons, forall_eq_or_imp, e4, e2]

theorem args_names (as : List ArgsTy) : (translateArgs as).map (·.name) = argNames as := by
  simp [translateArgs, argNames, List.map_flatMap, Function.comp_def]

theorem assigns_inputs {X : String → Nillable Scalar} {vs : List TyVar} {i : Value} :
    Assigns X (inputPattern vs) i ↔
      (vs.map (·.name) ≠ [] → i = together X (vs.map (·.name))) := by
  have key : ∀ (ps : List TyVar) (is : List Value),
      AssignsList X (ps.map fun v => .single v.name) is ↔
        is = (ps.map (·.name)).map fun x => .leaf (X x) := by
    intro ps
    induction ps with
    | nil => intro is; cases is <;> simp [AssignsList]
    | cons p ps ih =>
      intro is
      cases is with
      | nil => simp [AssignsList]
      | cons j is =>
        simp only [List.map_cons, AssignsList, ih, List.cons.injEq]
        refine and_congr_left fun _ => ?_
        cases j <;> simp [Assigns, eq_comm]
  unfold inputPattern together
  match vs with
  | [] => simp [Assigns]
  | [v] =>
    simp only [List.map_cons, List.map_nil, Assigns, tupleValue]
    cases i <;> simp [Assigns, eq_comm]
  | v :: v' :: vs =>
    cases i with
    | leaf a => simp [Assigns, tupleValue]
    | tup h t =>
      have := key (v' :: vs) t
      simp only [List.map_cons] at this
      simp only [List.map_cons, Assigns, this, tupleValue, ne_eq, reduceCtorEq, not_false_eq_true,
        forall_const, Tup.tup.injEq]
      refine and_congr_left fun _ => ?_
      cases h <;> simp [Assigns, eq_comm]

/-- A node and its translation without registers have the same solutions. -/
theorem solution_translate {n : SrcNode} {n' : Node} (h : n.translate false = .ok n')
    (hL : Linked ms nodes n'.blocks) (is : List Value) :
    Solution A glob ms F n' is ↔ SrcSolution ⟨A, SrcNode.vars n, F.X, glob, nodes⟩ n is := by
  obtain ⟨c, hc, rfl⟩ := node_translate h
  have hw : worldOf A glob nodes F (n.view false) = ⟨A, SrcNode.vars n, F.X, glob, nodes⟩ := by
    simp only [worldOf, SrcNode.view, SrcNode.vars, List.map_append, args_names]
  have hst : ∀ t, (∀ st ∈ c.stmts, Holds A glob ms F t st) ↔
      ∀ st ∈ n.defs, SrcHolds ⟨A, SrcNode.vars n, F.X, glob, nodes⟩ t st := by
    intro t
    obtain ⟨new, e1, e2⟩ := holds_stmts (A := A) (glob := glob) (F := F) (v := n.view false) rfl rfl
      t hc hL
    rw [← hw, ← e2, e1]
    simp
  obtain ⟨new, hb⟩ := built_stmts hc
  have hr : c.registers = 0 := (hb.plain rfl).1
  constructor
  · intro hs
    refine ⟨fun t i hi => ?_, fun t ht => (hst t).1 (hs.stmts t ht)⟩
    have := assigns_inputs.1 (hs.inputs t i hi)
    rw [args_names] at this
    exact this
  · intro hs
    refine ⟨?_, fun t i hi => ?_, fun t ht => (hst t).2 (hs.defs t ht)⟩
    · simp [hr]
    · refine assigns_inputs.2 ?_
      rw [args_names]
      exact hs.inputs t i hi

end

end Chandeliers.Den
