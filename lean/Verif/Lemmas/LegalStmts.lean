import Verif.Lemmas.LegalTypes
import Verif.Lemmas.LegalClocks
import Verif.Lemmas.LegalReady
import Verif.Lemmas.LegalParts
import Verif.Lemmas.LegalNames
import Verif.Lemmas.TranslateNode

/-! Equations and their translations. -/

set_option autoImplicit false

namespace Chandeliers.Den
open Chandeliers.San Chandeliers.Spec Chandeliers.Syn Chandeliers.Spec.Static

/-! ### Left-hand sides -/

mutual
theorem target_vars : (p : Target) → p.translate.vars = targets p
  | .var x => by rw [Target.translate, targets, VarTuple.vars]
  | .tuple ps tr => by
    unfold Target.translate
    rw [targets, ← targets_vars ps]
    split
    · rename_i h; rw [h]; simp [VarTuple.varsList]
    · rw [VarTuple.vars]
theorem targets_vars : (ps : List Target) → VarTuple.varsList (Target.translateList ps) = targetsList ps
  | [] => by rw [Target.translateList, targetsList, VarTuple.varsList]
  | p :: ps => by
    rw [Target.translateList, targetsList, VarTuple.varsList, target_vars p, targets_vars ps]
end

section
variable {S : Scope} {vars : String → Option TyBase}
mutual
theorem target_type (hV : ∀ x, vars x = (S.var x).map (·.ty)) : (p : Target) → {t : TyTuple} →
    (TargetType vars p.translate t ↔ TargetTy S p t)
  | .var x, t => by
    rw [Target.translate, TargetTy]
    constructor
    · intro h
      cases h with
      | single h =>
        rw [hV, Option.map_eq_some_iff] at h
        obtain ⟨w, h1, h2⟩ := h
        exact ⟨w, h1, by rw [h2]⟩
    · rintro ⟨w, h, rfl⟩
      exact .single (by rw [hV, h]; rfl)
  | .tuple ps tr, t => by
    unfold Target.translate
    rw [TargetTy]
    simp only [← targets_type hV ps]
    split
    · rename_i u h
      rw [h]
      constructor
      · intro h; exact ⟨[t], .cons h .nil, rfl⟩
      · rintro ⟨ts, h, rfl⟩
        cases h with | cons h hs => cases hs; exact h
    · rename_i tr' _ _ hn
      have key : ∀ ts, TargetTypes vars (Target.translateList ps) ts → group ts tr' = .multiple ts := by
        intro ts h
        unfold group
        split
        · generalize Target.translateList ps = qs at h hn
          cases h with
          | cons h hs => cases hs; exact (hn _ rfl rfl).elim
        · rfl
      constructor
      · intro h
        cases h with
        | multiple h => exact ⟨_, h, (key _ h).symm⟩
      · rintro ⟨ts, h, rfl⟩
        rw [key ts h]
        exact .multiple h
theorem targets_type (hV : ∀ x, vars x = (S.var x).map (·.ty)) : (ps : List Target) →
    {ts : List TyTuple} → (TargetTypes vars (Target.translateList ps) ts ↔ TargetTys S ps ts)
  | [], ts => by
    rw [Target.translateList, TargetTys]
    exact ⟨fun h => by cases h; rfl, fun h => by subst h; exact .nil⟩
  | p :: ps, ts => by
    rw [Target.translateList, TargetTys]
    simp only [← target_type hV p, ← targets_type hV ps]
    constructor
    · intro h; cases h with | cons h hs => exact ⟨_, _, rfl, h, hs⟩
    · rintro ⟨t, us, rfl, h, hs⟩; exact .cons h hs
end
end

section
variable {S : Scope} {K : String → Option Clk}
mutual
theorem target_clock (hK : ∀ x, K x = (S.var x).map (·.clk)) : (p : Target) → {k : Clk} →
    (TargetClock K p.translate k ↔ TargetClk S p k)
  | .var x, k => by
    rw [Target.translate, TargetClk]
    constructor
    · intro h
      cases h with
      | single h =>
        rw [hK, Option.map_eq_some_iff] at h
        obtain ⟨w, h1, h2⟩ := h
        exact ⟨w, h1, by rw [h2]⟩
    · rintro ⟨w, h, rfl⟩
      exact .single (by rw [hK, h]; rfl)
  | .tuple ps tr, k => by
    unfold Target.translate
    rw [TargetClk]
    split
    · rename_i u h
      rw [← targets_clock hK ps, h]
      constructor
      · intro h; exact .tuple h .nil
      · intro h; cases h with | tuple h _ => exact h
    · exact targets_clock hK ps
theorem targets_clock (hK : ∀ x, K x = (S.var x).map (·.clk)) : (ps : List Target) → {k : Clk} →
    (TargetClock K (.multiple (Target.translateList ps)) k ↔ TargetsClk S ps k)
  | [], k => by
    rw [Target.translateList, TargetsClk]
    exact ⟨fun h => by cases h; rfl, fun h => by subst h; exact .empty⟩
  | p :: ps, k => by
    rw [Target.translateList, TargetsClk, ← target_clock hK p, ← targets_same hK ps]
    constructor
    · intro h; cases h with | tuple h h' => exact ⟨h, h'⟩
    · rintro ⟨h, h'⟩; exact .tuple h h'
theorem targets_same (hK : ∀ x, K x = (S.var x).map (·.clk)) : (ps : List Target) → {k : Clk} →
    (TargetsClock K (Target.translateList ps) k ↔ TargetsSame S k ps)
  | [], k => by
    rw [Target.translateList, TargetsSame]
    exact ⟨fun _ => trivial, fun _ => .nil⟩
  | p :: ps, k => by
    rw [Target.translateList, TargetsSame, ← targets_same hK ps]
    simp only [← target_clock hK p]
    constructor
    · intro h; cases h with | cons h h' h'' => exact ⟨⟨_, h, h'⟩, h''⟩
    · rintro ⟨⟨_, h, h'⟩, h''⟩; exact .cons h h' h''
end
end

theorem translateList_length : (ps : List Target) → (Target.translateList ps).length = ps.length
  | [] => by rw [Target.translateList]; rfl
  | p :: ps => by rw [Target.translateList, List.length_cons, List.length_cons, translateList_length ps]

theorem target_unit : (p : Target) → (p.translate = .multiple [] ↔ IsUnit p)
  | .var x => by rw [Target.translate, IsUnit]; simp
  | .tuple ps tr => by
    unfold Target.translate
    rw [IsUnit]
    cases ps with
    | nil => simp [Target.translateList]
    | cons p ps =>
      cases ps with
      | nil =>
        cases tr
        · simp [Target.translateList, AllUnit, target_unit p]
        · simp [Target.translateList]
      | cons q ps => simp [Target.translateList]

/-! ### Statements -/

theorem assigned_append (l l' : List Stmt) : assigned (l ++ l') = assigned l ++ assigned l' := by
  induction l with
  | nil => rfl
  | cons st l ih => cases st <;> simp [assigned, ih]

theorem assigned_registers {l : List Stmt} (h : ∀ st ∈ l, (∃ id f, st = .updateRegister id f) ∨
    ∃ id i, st = .initRegister id i none) : assigned l = [] := by
  induction l with
  | nil => rfl
  | cons st l ih =>
    have h' := ih fun st hst => h st (by simp [hst])
    rcases h st (by simp) with ⟨id, f, rfl⟩ | ⟨id, i, rfl⟩ <;> simpa [assigned] using h'

/-- The statements of a node, before and after translation. -/
structure StmtsCome (v : View) (src : List SrcStmt) (c c' C : ExprCtx) : Prop where
  defs : ∀ p e, .def_ p e ∈ src → ∃ x, Comes C v e x ∧ .let_ p.translate x ∈ c'.stmts
  asserts : ∀ e, SrcStmt.assert e ∈ src → ∃ x, Comes C v e x ∧ .assert x ∈ c'.stmts
  lets : ∀ t x, .let_ t x ∈ c'.stmts → .let_ t x ∈ c.stmts ∨
    ∃ p e, .def_ p e ∈ src ∧ t = p.translate ∧ Comes C v e x
  checks : ∀ x, .assert x ∈ c'.stmts → .assert x ∈ c.stmts ∨ ∃ e, SrcStmt.assert e ∈ src ∧ Comes C v e x
  assigned : assigned c'.stmts = assigned c.stmts ++ defined src

theorem stmt_come {v : View} {st : SrcStmt} {c : ExprCtx} {r : Unit × ExprCtx}
    (h : st.translate v c = .ok r) : Grown c r.2 ∧ ∀ C, Grown r.2 C → StmtsCome v [st] c r.2 C := by
  cases st with
  | assert e =>
    obtain ⟨x, c₁, h1, h⟩ := tr_bind_ok.1 h
    obtain ⟨n, hn⟩ := fresh_translate e v c x c₁ h1
    obtain ⟨g, k⟩ := comes e h1
    cases h
    have g' : Grown c₁ { c₁ with stmts := c₁.stmts ++ [.assert x] } :=
      ⟨List.prefix_rfl, List.prefix_append _ _⟩
    refine ⟨g.trans g', fun C hC => ?_⟩
    have hx := k C (g'.trans hC)
    refine ⟨by simp, ?_, ?_, ?_, ?_⟩
    · intro e' he
      rw [List.mem_singleton, SrcStmt.assert.injEq] at he
      subst he
      exact ⟨x, hx, by simp⟩
    · intro t y hy
      simp only [hn.stmts, List.mem_append, List.mem_singleton, reduceCtorEq, or_false] at hy
      rcases hy with hy | hy
      · exact .inl hy
      · rcases hn.only _ hy with ⟨_, _, h⟩ | ⟨_, _, h⟩ <;> cases h
    · intro y hy
      simp only [hn.stmts, List.mem_append, List.mem_singleton, Stmt.assert.injEq] at hy
      rcases hy with (hy | hy) | rfl
      · exact .inl hy
      · rcases hn.only _ hy with ⟨_, _, h⟩ | ⟨_, _, h⟩ <;> cases h
      · exact .inr ⟨e, by simp, hx⟩
    · simp only [hn.stmts, assigned_append, assigned_registers hn.only]
      simp [assigned, defined]
  | def_ p e =>
    obtain ⟨x, c₁, h1, h⟩ := tr_bind_ok.1 h
    obtain ⟨n, hn⟩ := fresh_translate e v c x c₁ h1
    obtain ⟨g, k⟩ := comes e h1
    cases h
    have g' : Grown c₁ { c₁ with stmts := c₁.stmts ++ [.let_ p.translate x] } :=
      ⟨List.prefix_rfl, List.prefix_append _ _⟩
    refine ⟨g.trans g', fun C hC => ?_⟩
    have hx := k C (g'.trans hC)
    refine ⟨?_, by simp, ?_, ?_, ?_⟩
    · intro p' e' he
      rw [List.mem_singleton, SrcStmt.def_.injEq] at he
      obtain ⟨rfl, rfl⟩ := he
      exact ⟨x, hx, by simp⟩
    · intro t y hy
      simp only [hn.stmts, List.mem_append, List.mem_singleton, Stmt.let_.injEq] at hy
      rcases hy with (hy | hy) | ⟨rfl, rfl⟩
      · exact .inl hy
      · rcases hn.only _ hy with ⟨_, _, h⟩ | ⟨_, _, h⟩ <;> cases h
      · exact .inr ⟨p, e, by simp, rfl, hx⟩
    · intro y hy
      simp only [hn.stmts, List.mem_append, List.mem_singleton, reduceCtorEq, or_false] at hy
      rcases hy with hy | hy
      · exact .inl hy
      · rcases hn.only _ hy with ⟨_, _, h⟩ | ⟨_, _, h⟩ <;> cases h
    · simp only [hn.stmts, assigned_append, assigned_registers hn.only]
      simp [assigned, defined, target_vars]

theorem stmts_come {v : View} : {sts : List SrcStmt} → {c : ExprCtx} → {r : Unit × ExprCtx} →
    translateStmts v sts c = .ok r → Grown c r.2 ∧ ∀ C, Grown r.2 C → StmtsCome v sts c r.2 C
  | [], c, r, h => by
    unfold translateStmts at h
    cases tr_pure_ok.1 h
    exact ⟨Grown.rfl', fun C _ => ⟨by simp, by simp, fun _ _ => .inl, fun _ => .inl, by simp [defined]⟩⟩
  | st :: sts, c, r, h => by
    unfold translateStmts at h
    obtain ⟨_, c₁, h1, h⟩ := tr_bind_ok.1 h
    obtain ⟨g, k⟩ := stmt_come h1
    obtain ⟨g', k'⟩ := stmts_come h
    refine ⟨g.trans g', fun C hC => ?_⟩
    obtain ⟨a1, a2, a3, a4, a5⟩ := k C (g'.trans hC)
    obtain ⟨b1, b2, b3, b4, b5⟩ := k' C hC
    refine ⟨?_, ?_, ?_, ?_, ?_⟩
    · intro p e he
      rcases List.mem_cons.1 he with rfl | he
      · obtain ⟨x, h1, h2⟩ := a1 p e (by simp)
        exact ⟨x, h1, g'.2.mem h2⟩
      · exact b1 p e he
    · intro e he
      rcases List.mem_cons.1 he with rfl | he
      · obtain ⟨x, h1, h2⟩ := a2 e (by simp)
        exact ⟨x, h1, g'.2.mem h2⟩
      · exact b2 e he
    · intro t x hx
      rcases b3 t x hx with h | ⟨p, e, h1, h2, h3⟩
      · rcases a3 t x h with h | ⟨p, e, h1, h2, h3⟩
        · exact .inl h
        · rw [List.mem_singleton] at h1
          exact .inr ⟨p, e, by simp [h1], h2, h3⟩
      · exact .inr ⟨p, e, by simp [h1], h2, h3⟩
    · intro x hx
      rcases b4 x hx with h | ⟨e, h1, h3⟩
      · rcases a4 x h with h | ⟨e, h1, h3⟩
        · exact .inl h
        · rw [List.mem_singleton] at h1
          exact .inr ⟨e, by simp [h1], h3⟩
      · exact .inr ⟨e, by simp [h1], h3⟩
    · rw [b5, a5]
      simp [defined]

/-- The statements of a node that is translated. -/
structure NodeComes (v : View) (src : List SrcStmt) (C : ExprCtx) : Prop where
  defs : ∀ p e, .def_ p e ∈ src → ∃ x, Comes C v e x ∧ .let_ p.translate x ∈ C.stmts
  asserts : ∀ e, SrcStmt.assert e ∈ src → ∃ x, Comes C v e x ∧ .assert x ∈ C.stmts
  lets : ∀ t x, .let_ t x ∈ C.stmts → ∃ p e, .def_ p e ∈ src ∧ t = p.translate ∧ Comes C v e x
  checks : ∀ x, .assert x ∈ C.stmts → ∃ e, SrcStmt.assert e ∈ src ∧ Comes C v e x
  assigned : assigned C.stmts = defined src
  once : (initialised C.stmts).Nodup
  started : ∀ id i, (id, i) ∈ C.stmts.flatMap startsIn ↔ .initRegister id i none ∈ C.stmts
  clocks : ∀ id i k, .initRegister id i k ∈ C.stmts → k = none

theorem node_comes {v : View} {sts : List SrcStmt} {C : ExprCtx}
    (h : translateStmts v sts {} = .ok ((), C)) : NodeComes v sts C := by
  obtain ⟨-, k⟩ := stmts_come h
  obtain ⟨a1, a2, a3, a4, a5⟩ := k C Grown.rfl'
  obtain ⟨n, hn⟩ := built_stmts h
  have hs : C.stmts = n := by simpa using hn.stmts
  refine ⟨a1, a2, fun t x hx => (a3 t x hx).resolve_left (by simp),
    fun x hx => (a4 x hx).resolve_left (by simp), by simpa [Spec.assigned] using a5, ?_, ?_, ?_⟩
  · rw [hs]
    refine hn.inits.nodup_iff.2 ?_
    simp only [regsBetween]
    exact List.nodup_range'
  · rw [hs]; exact hn.started
  · rw [hs]; exact hn.clocks

end Chandeliers.Den
