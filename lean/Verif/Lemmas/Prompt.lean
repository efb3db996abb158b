import Verif.Spec.Prompt
import Verif.Lemmas.SteadyReady
import Verif.Lemmas.SteadyExpr
import Verif.Lemmas.Clocked

/-! # Expressions on which `#[universal_pre]` and Lustre agree -/

set_option autoImplicit false
set_option linter.unusedSectionVars false

namespace Chandeliers.Std
open Chandeliers.San Chandeliers.Spec Chandeliers.Syn Chandeliers.Den Chandeliers.Pres Chandeliers.Uni
open Chandeliers.Spec.Static

section
variable {S : Scope} {W : World} {D : String → Clock} {θ : Subst}

/-! ## An expression is late by one number of instants only -/

mutual
theorem steady_unique : (e : Src) → ∀ {r r' : Nat}, Steady S e r → Steady S e r' → r = r'
  | .lit _, r, r', h, h' => by rw [Steady] at h h'; omega
  | .var _, r, r', h, h' => by rw [Steady] at h h'; omega
  | .paren es b, r, r', h, h' => by
    rw [Steady] at h h'
    exact allSteady_unique es h.1 h'.1 h.2 h'.2
  | .left e rest, r, r', h, h' => by
    rw [Steady] at h h'
    obtain ⟨s, h1, -, h2⟩ := h
    obtain ⟨s', h1', -, h2'⟩ := h'
    cases steady_unique e h1 h1'
    exact leftSteady_unique rest h2 h2'
  | .cmp e rest, r, r', h, h' => by
    rw [Steady] at h h'
    obtain ⟨s, h1, h2⟩ := h
    obtain ⟨s', h1', h2'⟩ := h'
    cases steady_unique e h1 h1'
    exact cmpSteady_unique rest h2 h2'
  | .fby e rest, r, r', h, h' => by
    rw [Steady] at h h'
    obtain ⟨s, h1, h2⟩ := h
    obtain ⟨s', h1', h2'⟩ := h'
    cases steady_unique e h1 h1'
    cases rest with
    | nil =>
      rcases h2 with ⟨-, rfl⟩ | ⟨_, h2, -⟩
      · rcases h2' with ⟨-, rfl⟩ | ⟨_, h2', -⟩
        · rfl
        · rw [FbySteady] at h2'; exact h2'.elim
      · rw [FbySteady] at h2; exact h2.elim
    | cons e' es =>
      rcases h2 with ⟨h2, -⟩ | ⟨_, h2, rfl⟩
      · cases h2
      rcases h2' with ⟨h2', -⟩ | ⟨_, h2', rfl⟩
      · cases h2'
      cases fbySteady_unique (e' :: es) h2 h2'
      rfl
  | .arrow e rest, r, r', h, h' => by
    rw [Steady] at h h'
    exact steady_unique e h.1 h'.1
  | .ifx c y n, r, r', h, h' => by
    rw [Steady] at h h'
    obtain ⟨rc, ry, rn, h1, h2, h3, -, -, -, rfl, -⟩ := h
    obtain ⟨rc', ry', rn', h1', h2', h3', -, -, -, rfl, -⟩ := h'
    cases steady_unique c h1 h1'
    cases steady_unique y h2 h2'
    rfl
  | .merge c y n, r, r', h, h' => by
    rw [Steady] at h h'
    rw [h.2.2.2, h'.2.2.2]
  | .call f args b, r, r', h, h' => by
    rw [Steady] at h h'
    exact allSteady_unique args h.1 h'.1 h.2 h'.2
  | .pre e, r, r', h, h' => by
    rw [Steady] at h h'
    obtain ⟨s, h1, rfl⟩ := h
    obtain ⟨s', h1', rfl⟩ := h'
    cases steady_unique e h1 h1'
    rfl
  | .neg e, r, r', h, h' => by
    rw [Steady] at h h'
    exact steady_unique e h h'
  | .not e, r, r', h, h' => by
    rw [Steady] at h h'
    exact steady_unique e h h'
theorem allSteady_unique : (es : List Src) → ∀ {r r' : Nat}, AllSteady S es r → AllSteady S es r' →
    (es = [] → r = 0) → (es = [] → r' = 0) → r = r'
  | [], r, r', _, _, h, h' => by rw [h rfl, h' rfl]
  | e :: es, r, r', h, h', _, _ => by
    rw [AllSteady] at h h'
    exact steady_unique e h.1 h'.1
theorem leftSteady_unique : (rest : List (LOp × Src)) → ∀ {s r r' : Nat}, LeftSteady S s rest r →
    LeftSteady S s rest r' → r = r'
  | [], s, r, r', h, h' => by rw [LeftSteady] at h h'; omega
  | (op, e) :: rest, s, r, r', h, h' => by
    rw [LeftSteady] at h h'
    cases hg : Static.guard op with
    | none =>
      rw [hg] at h h'
      obtain ⟨s1, h1, -, h2⟩ := h
      obtain ⟨s1', h1', -, h2'⟩ := h'
      cases steady_unique e h1 h1'
      exact leftSteady_unique rest h2 h2'
    | some g =>
      rw [hg] at h h'
      exact leftSteady_unique rest h.2 h'.2
theorem cmpSteady_unique : (rest : List (CmpOp × Src)) → ∀ {a : Src} {s r r' : Nat},
    CmpSteady S a s rest r → CmpSteady S a s rest r' → r = r'
  | [], a, s, r, r', h, h' => by rw [CmpSteady] at h h'; omega
  | (op, e) :: rest, a, s, r, r', h, h' => by
    rw [CmpSteady] at h h'
    obtain ⟨s1, h1, -, -, rfl, -⟩ := h
    obtain ⟨s1', h1', -, -, rfl, -⟩ := h'
    cases steady_unique e h1 h1'
    rfl
theorem fbySteady_unique : (es : List Src) → ∀ {r r' : Nat}, FbySteady S es r → FbySteady S es r' →
    r = r'
  | [], r, r', h, h' => by rw [FbySteady] at h; exact h.elim
  | e :: es, r, r', h, h' => by
    rw [FbySteady] at h h'
    obtain ⟨s, h1, h2⟩ := h
    obtain ⟨s', h1', h2'⟩ := h'
    cases steady_unique e h1 h1'
    cases es with
    | nil =>
      rcases h2 with ⟨-, rfl⟩ | ⟨_, h2, -⟩
      · rcases h2' with ⟨-, rfl⟩ | ⟨_, h2', -⟩
        · rfl
        · rw [FbySteady] at h2'; exact h2'.elim
      · rw [FbySteady] at h2; exact h2.elim
    | cons e' es =>
      rcases h2 with ⟨h2, -⟩ | ⟨_, h2, rfl⟩
      · cases h2
      rcases h2' with ⟨h2', -⟩ | ⟨_, h2', rfl⟩
      · cases h2'
      cases fbySteady_unique (e' :: es) h2 h2'
      rfl
end

/-! ## Presence -/

theorem active_meet {X : String → Nat → Nillable Scalar} {k k' : Clk} {t : Nat}
    (h : Compatible k k') : Active X (Clk.meet k k') t ↔ Active X k t ∧ Active X k' t := by
  have := ripe_meet (X := X) (t := t) (s := 0) (s' := 0) h (.inl rfl) (.inl rfl)
  simpa only [ripe_zero, Nat.max_self] using this

theorem due_active {X : String → Nat → Nillable Scalar} {c : Clock} {t : Nat} :
    due X c t = true ↔ Active X c.intoClk t := by
  cases c with
  | implicit => simp [due, Clock.intoClk, Active]
  | adaptative => simp [due, Clock.intoClk, Active]
  | explicit b x =>
    cases b <;> simp [due, Clock.intoClk, Active, Chandeliers.Uni.isBool_true]

theorem isVar_open (ha : Around S W D) {v : Var} (b : Bool) (t : Nat) : (e : Src) → IsVar S v e →
    opened W b e t = Nillable.isBool b (W.X v.name t)
  | .var x, h => by
    simp only [IsVar] at h
    rw [opened, if_pos (ha.local h), var_name h]
  | .left e rest, h => by
    obtain ⟨rfl, h⟩ := h
    rw [opened]; exact isVar_open ha b t e h
  | .cmp e rest, h => by
    obtain ⟨rfl, h⟩ := h
    rw [opened]; exact isVar_open ha b t e h
  | .fby e rest, h => by
    obtain ⟨rfl, h⟩ := h
    rw [opened]; exact isVar_open ha b t e h
  | .arrow e rest, h => by
    obtain ⟨rfl, h⟩ := h
    rw [opened]; exact isVar_open ha b t e h
  | .lit _, h => h.elim
  | .paren _ _, h => h.elim
  | .ifx _ _ _, h => h.elim
  | .merge _ _ _, h => h.elim
  | .call _ _ _, h => h.elim
  | .pre _, h => h.elim
  | .neg _, h => h.elim
  | .not _, h => h.elim

theorem isVar_clocked (ha : Around S W D) {v : Var} (t : Nat) : (e : Src) → IsVar S v e →
    (clockedOn W D e t = true ↔ Active W.X v.clk t) ∧
      clocked W D e t = whole (.leaf (W.X v.name t))
  | .var x, h => by
    simp only [IsVar] at h
    rw [clockedOn, clocked, if_pos (ha.local h), if_pos (ha.local h), due_active, ha.clocks x v h,
      var_name h]
    exact ⟨.rfl, rfl⟩
  | .left e rest, h => by
    obtain ⟨rfl, h⟩ := h
    rw [clockedOn, clockedOnLeft, clocked, clockedLeft]; exact isVar_clocked ha t e h
  | .cmp e rest, h => by
    obtain ⟨rfl, h⟩ := h
    rw [clockedOn, clockedOnCmp, Bool.and_true, clocked, clockedCmp]; exact isVar_clocked ha t e h
  | .fby e rest, h => by
    obtain ⟨rfl, h⟩ := h
    rw [clockedOn, clocked]; exact isVar_clocked ha t e h
  | .arrow e rest, h => by
    obtain ⟨rfl, h⟩ := h
    rw [clockedOn, clocked]; exact isVar_clocked ha t e h
  | .lit _, h => h.elim
  | .paren _ _, h => h.elim
  | .ifx _ _ _, h => h.elim
  | .merge _ _ _, h => h.elim
  | .call _ _ _, h => h.elim
  | .pre _, h => h.elim
  | .neg _, h => h.elim
  | .not _, h => h.elim

mutual
theorem clockedOn_clk (ha : Around S W D) (t : Nat) : (e : Src) → {τ : TyTuple} → {k : Clk} →
    HasTy S e τ → HasClk S e k → (clockedOn W D e t = true ↔ Active W.X k t)
  | .lit l, τ, k, hτ, h => by rw [HasClk] at h; subst h; rw [clockedOn]; simp [Active]
  | .var x, τ, k, hτ, h => by
    rw [HasClk] at h
    rw [clockedOn]
    cases hv : S.var x with
    | some v =>
      rw [hv] at h
      simp only at h
      rw [if_pos (ha.local hv), due_active, ha.clocks x v hv, h]
    | none =>
      rw [hv] at h
      simp only at h
      rw [if_neg (by rw [ha.locals, hv]; simp), h]
      simp [Active]
  | .paren es b, τ, k, hτ, h => by
    rw [HasClk] at h
    rw [HasTy] at hτ
    obtain ⟨ts, hτ, -⟩ := hτ
    rw [clockedOn]
    exact clockedOnAll_clk ha t es hτ h
  | .left e rest, τ, k, hτ, h => by
    rw [HasClk] at h
    rw [HasTy] at hτ
    obtain ⟨u, hτ, hτ'⟩ := hτ
    obtain ⟨k₀, h1, h2⟩ := h
    rw [clockedOn]
    exact clockedOnLeft_clk ha t rest hτ' h2 (clockedOn_clk ha t e hτ h1)
  | .cmp e rest, τ, k, hτ, h => by
    rw [HasClk] at h
    rw [HasTy] at hτ
    obtain ⟨u, hτ, hτ'⟩ := hτ
    obtain ⟨k₀, h1, h2⟩ := h
    rw [clockedOn, Bool.and_eq_true, clockedOn_clk ha t e hτ h1]
    exact clockedOnCmp_clk ha t rest hτ' h2
  | .fby e rest, τ, k, hτ, h => by
    rw [HasClk] at h
    rw [HasTy] at hτ
    obtain ⟨k₀, h1, h2⟩ := h
    rw [clockedOn, clockedOn_clk ha t e hτ.1 h1]
    cases rest with
    | nil => rw [ChainClk] at h2; rw [h2]
    | cons e' es =>
      rw [ChainClk] at h2
      obtain ⟨k₁, k₂, -, -, h2⟩ := h2
      rw [if_pos ha.universal] at h2
      obtain ⟨h2, rfl⟩ := h2
      rw [active_same h2]
  | .arrow e rest, τ, k, hτ, h => by
    rw [HasClk] at h
    rw [HasTy] at hτ
    obtain ⟨k₀, h1, h2⟩ := h
    rw [clockedOn, clockedOn_clk ha t e hτ.1 h1]
    cases rest with
    | nil => rw [ChainClk] at h2; rw [h2]
    | cons e' es =>
      rw [ChainClk] at h2
      obtain ⟨k₁, k₂, -, -, h2⟩ := h2
      rw [if_pos ha.universal] at h2
      obtain ⟨h2, rfl⟩ := h2
      rw [active_same h2]
  | .ifx c y n, τ, k, hτ, h => by
    rw [HasClk] at h
    rw [HasTy] at hτ
    obtain ⟨k₁, k₂, k₃, h1, h2, h3, h4, h5, rfl⟩ := h
    rw [clockedOn, Bool.and_eq_true, Bool.and_eq_true, clockedOn_clk ha t c hτ.1 h1,
      clockedOn_clk ha t y hτ.2.1 h2, clockedOn_clk ha t n hτ.2.2 h3, active_meet h5, active_meet h4,
      and_assoc]
  | .merge c y n, τ, k, hτ, h => by
    rw [HasClk] at h
    obtain ⟨v, k₁, k₂, h1, -, -, -, -, rfl⟩ := h
    rw [clockedOn]
    exact (isVar_clocked ha t c h1).1
  | .call f args b, τ, k, hτ, h => by
    rw [HasClk] at h
    rw [HasTy] at hτ
    obtain ⟨ts, gens, ins, outs, θ, hτ, -⟩ := hτ
    rw [clockedOn]
    exact clockedOnAll_clk ha t args hτ h
  | .pre e, τ, k, hτ, h => by
    rw [HasClk] at h
    rw [HasTy] at hτ
    rw [clockedOn]
    exact clockedOn_clk ha t e hτ h.1
  | .neg e, τ, k, hτ, h => by
    rw [HasClk] at h
    rw [HasTy] at hτ
    rw [clockedOn]
    exact clockedOn_clk ha t e hτ.1 h
  | .not e, τ, k, hτ, h => by
    rw [HasClk] at h
    rw [HasTy] at hτ
    rw [clockedOn]
    exact clockedOn_clk ha t e hτ.1 h
theorem clockedOnAll_clk (ha : Around S W D) (t : Nat) : (es : List Src) → {ts : List TyTuple} →
    {k : Clk} → HasTys S es ts → TupleClk S es k → (clockedOnAll W D es t = true ↔ Active W.X k t)
  | [], ts, k, hτ, h => by rw [TupleClk] at h; subst h; rw [clockedOnAll]; simp [Active]
  | e :: es, ts, k, hτ, h => by
    rw [TupleClk] at h
    rw [HasTys] at hτ
    obtain ⟨τ, us, -, hτ, hτ'⟩ := hτ
    rw [clockedOnAll, Bool.and_eq_true, clockedOn_clk ha t e hτ h.1]
    exact ⟨fun h => h.1, fun h' => ⟨h', clockedOnSame_clk ha t es hτ' h.2 h'⟩⟩
theorem clockedOnSame_clk (ha : Around S W D) (t : Nat) : (es : List Src) → {ts : List TyTuple} →
    {k : Clk} → HasTys S es ts → SameClks S k es → Active W.X k t → clockedOnAll W D es t = true
  | [], ts, k, hτ, h, _ => by rw [clockedOnAll]
  | e :: es, ts, k, hτ, h, hk => by
    rw [SameClks] at h
    rw [HasTys] at hτ
    obtain ⟨τ, us, -, hτ, hτ'⟩ := hτ
    obtain ⟨⟨k', h1, h2⟩, h3⟩ := h
    rw [clockedOnAll, Bool.and_eq_true, clockedOn_clk ha t e hτ h1, ← active_same h2]
    exact ⟨hk, clockedOnSame_clk ha t es hτ' h3 hk⟩
theorem clockedOnLeft_clk (ha : Around S W D) (t : Nat) : (rest : List (LOp × Src)) →
    {u τ : TyTuple} → {k₀ k : Clk} → {acc : Bool} → LeftTy S u rest τ → LeftClk S k₀ rest k →
    (acc = true ↔ Active W.X k₀ t) → (clockedOnLeft W D acc rest t = true ↔ Active W.X k t)
  | [], u, τ, k₀, k, acc, hτ, h, hacc => by rw [LeftClk] at h; rw [clockedOnLeft, h]; exact hacc
  | (op, e) :: rest, u, τ, k₀, k, acc, hτ, h, hacc => by
    rw [LeftClk] at h
    rw [LeftTy] at hτ
    obtain ⟨w, r, hτ, -, hτ'⟩ := hτ
    cases op with
    | when =>
      obtain ⟨v, h1, h2, h3⟩ := h
      rw [clockedOnLeft, isVar_open ha true t e h1]
      refine clockedOnLeft_clk ha t rest hτ' h3 ?_
      rw [Chandeliers.Uni.isBool_true]; rfl
    | whenot =>
      obtain ⟨v, h1, h2, h3⟩ := h
      rw [clockedOnLeft, isVar_open ha false t e h1]
      refine clockedOnLeft_clk ha t rest hτ' h3 ?_
      rw [Chandeliers.Uni.isBool_true]; rfl
    | _ =>
      obtain ⟨k₁, h1, h2, h3⟩ := h
      rw [clockedOnLeft]
      · refine clockedOnLeft_clk ha t rest hτ' h3 ?_
        rw [Bool.and_eq_true, hacc, clockedOn_clk ha t e hτ h1, active_meet h2]
      all_goals simp
theorem clockedOnCmp_clk (ha : Around S W D) (t : Nat) : (rest : List (CmpOp × Src)) →
    {u τ : TyTuple} → {k₀ k : Clk} → CmpTy S u rest τ → CmpClk S k₀ rest k →
    (Active W.X k₀ t ∧ clockedOnCmp W D rest t = true ↔ Active W.X k t)
  | [], u, τ, k₀, k, hτ, h => by rw [CmpClk] at h; rw [clockedOnCmp, h]; simp
  | (op, e) :: rest, u, τ, k₀, k, hτ, h => by
    rw [CmpClk] at h
    rw [CmpTy] at hτ
    obtain ⟨rfl, b, -, -, hτ, -⟩ := hτ
    obtain ⟨k₁, h1, h2, rfl⟩ := h
    rw [clockedOnCmp, clockedOnCmp, Bool.and_true, clockedOn_clk ha t e hτ h1, active_meet h2]
end

end
end Chandeliers.Std
