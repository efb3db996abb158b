import Verif.Lemmas.Rename
import Verif.Lemmas.Rewrite

/-!
# Names do not matter for legality
-/

set_option autoImplicit false

namespace Chandeliers.Rep
open Chandeliers.San Chandeliers.Spec Chandeliers.Syn Chandeliers.Spec.Static

/-- A clock, under the other name of its variable. -/
def renClk (ρ : String → String) : Clk → Clk
  | .on x => .on (ρ x)
  | .off x => .off (ρ x)
  | k => k

/-- A variable, under its other name. -/
def renVar (ρ : String → String) (v : Var) : Var := ⟨ρ v.name, v.ty, renClk ρ v.clk⟩

section
variable {ρ ν : String → String}

theorem renClk_always {k : Clk} : Always (renClk ρ k) ↔ Always k := by
  cases k <;> simp [renClk, Always]

theorem renClk_same {k l : Clk} (h : SameClk k l) : SameClk (renClk ρ k) (renClk ρ l) := by
  rcases h with rfl | h
  · exact .inl rfl
  · exact .inr ⟨renClk_always.2 h.1, renClk_always.2 h.2⟩

theorem renClk_compatible {k l : Clk} (h : Compatible k l) :
    Compatible (renClk ρ k) (renClk ρ l) := by
  rcases h with rfl | rfl | rfl
  · exact .inl rfl
  · exact .inr (.inl rfl)
  · exact .inr (.inr rfl)

theorem renClk_meet (k l : Clk) : renClk ρ (Clk.meet k l) = Clk.meet (renClk ρ k) (renClk ρ l) := by
  cases k <;> rfl

theorem renClk_guard (g : ClockOp) (x : String) : renClk ρ (guardClk g x) = guardClk g (ρ x) := by
  cases g <;> rfl

theorem renClock_into (c : Clock) : (renameClock ρ c).intoClk = renClk ρ c.intoClk := by
  cases c with
  | explicit b x => cases b <;> rfl
  | _ => rfl

theorem renClk_id (k : Clk) : renClk id k = k := by cases k <;> rfl

theorem renVar_id (v : Var) : renVar id v = v := by simp [renVar, renClk_id]

end

/-- Two scopes that agree, up to names. -/
structure CorrS (ρ ν : String → String) (P : String → Prop) (S S' : Scope) : Prop where
  pre : S'.universalPre = S.universalPre
  nodes : ∀ f, S'.nodes (ν f) = S.nodes f
  var : ∀ x, P x → S'.var (ρ x) = (S.var x).map (renVar ρ)
  consts : ∀ x, P x → S.var x = none → S'.consts (ρ x) = S.consts x

section
variable {ρ ν : String → String} {P : String → Prop} {S S' : Scope}

theorem renameCmp_nil : (r : List (CmpOp × Src)) → (renameCmp ρ ν r = [] ↔ r = [])
  | [] => by simp [renameCmp]
  | (_, _) :: _ => by simp [renameCmp]

theorem renameOps_nil : (r : List (LOp × Src)) → (renameOps ρ ν r = [] ↔ r = [])
  | [] => by simp [renameOps]
  | (_, _) :: _ => by simp [renameOps]

theorem renameList_nil : (r : List Src) → (renameList ρ ν r = [] ↔ r = [])
  | [] => by simp [renameList]
  | _ :: _ => by simp [renameList]

theorem renameList_length : (r : List Src) → (renameList ρ ν r).length = r.length
  | [] => rfl
  | _ :: r => by simp [renameList, renameList_length r]

mutual
theorem hasTy_rename (h : CorrS ρ ν P S S') : (e : Src) → (∀ x ∈ names e, P x) → ∀ {t},
    HasTy S' (renameSrc ρ ν e) t ↔ HasTy S e t
  | .lit l, hn, t => by rw [renameSrc, HasTy, HasTy]
  | .var x, hn, t => by
    have hp : P x := hn x (by simp [names])
    rw [renameSrc, HasTy, HasTy, h.var x hp]
    cases hx : S.var x with
    | none => simp only [Option.map_none, h.consts x hp hx]
    | some v => simp [renVar]
  | .paren es b, hn, t => by
    rw [names] at hn
    rw [renameSrc, HasTy, HasTy]
    simp only [hasTys_rename h es hn]
  | .left e r, hn, t => by
    rw [names, forall_append] at hn
    rw [renameSrc, HasTy, HasTy]
    simp only [hasTy_rename h e hn.1, leftTy_rename h r hn.2]
  | .cmp e r, hn, t => by
    rw [names, forall_append] at hn
    rw [renameSrc, HasTy, HasTy]
    simp only [hasTy_rename h e hn.1, cmpTy_rename h r hn.2]
  | .fby e r, hn, t => by
    rw [names, forall_append] at hn
    rw [renameSrc, HasTy, HasTy]
    simp only [hasTy_rename h e hn.1, allTy_rename h r hn.2]
  | .arrow e r, hn, t => by
    rw [names, forall_append] at hn
    rw [renameSrc, HasTy, HasTy]
    simp only [hasTy_rename h e hn.1, allTy_rename h r hn.2]
  | .ifx b y n, hn, t => by
    rw [names, forall_append, forall_append] at hn
    rw [renameSrc, HasTy, HasTy]
    simp only [hasTy_rename h b hn.1, hasTy_rename h y hn.2.1, hasTy_rename h n hn.2.2]
  | .merge b y n, hn, t => by
    rw [names, forall_append, forall_append] at hn
    rw [renameSrc, HasTy, HasTy]
    simp only [hasTy_rename h b hn.1, hasTy_rename h y hn.2.1, hasTy_rename h n hn.2.2]
  | .call f es b, hn, t => by
    rw [names] at hn
    rw [renameSrc, HasTy, HasTy]
    simp only [hasTys_rename h es hn, h.nodes]
  | .pre e, hn, t => by
    rw [names] at hn
    rw [renameSrc, HasTy, HasTy, hasTy_rename h e hn]
  | .neg e, hn, t => by
    rw [names] at hn
    rw [renameSrc, HasTy, HasTy, hasTy_rename h e hn]
  | .not e, hn, t => by
    rw [names] at hn
    rw [renameSrc, HasTy, HasTy, hasTy_rename h e hn]
theorem hasTys_rename (h : CorrS ρ ν P S S') : (es : List Src) → (∀ x ∈ namesList es, P x) →
    ∀ {ts}, HasTys S' (renameList ρ ν es) ts ↔ HasTys S es ts
  | [], hn, ts => by rw [renameList, HasTys, HasTys]
  | e :: es, hn, ts => by
    rw [namesList, forall_append] at hn
    rw [renameList, HasTys, HasTys]
    simp only [hasTy_rename h e hn.1, hasTys_rename h es hn.2]
theorem allTy_rename (h : CorrS ρ ν P S S') : (es : List Src) → (∀ x ∈ namesList es, P x) →
    ∀ {t}, AllTy S' (renameList ρ ν es) t ↔ AllTy S es t
  | [], hn, t => by rw [renameList, AllTy, AllTy]
  | e :: es, hn, t => by
    rw [namesList, forall_append] at hn
    rw [renameList, AllTy, AllTy, hasTy_rename h e hn.1, allTy_rename h es hn.2]
theorem leftTy_rename (h : CorrS ρ ν P S S') : (es : List (LOp × Src)) → (∀ x ∈ namesLeft es, P x) →
    ∀ {u t}, LeftTy S' u (renameOps ρ ν es) t ↔ LeftTy S u es t
  | [], hn, u, t => by rw [renameOps, LeftTy, LeftTy]
  | (op, e) :: es, hn, u, t => by
    rw [namesLeft, forall_append] at hn
    rw [renameOps, LeftTy, LeftTy]
    simp only [hasTy_rename h e hn.1, leftTy_rename h es hn.2]
theorem cmpTy_rename (h : CorrS ρ ν P S S') : (es : List (CmpOp × Src)) → (∀ x ∈ namesCmp es, P x) →
    ∀ {u t}, CmpTy S' u (renameCmp ρ ν es) t ↔ CmpTy S u es t
  | [], hn, u, t => by rw [renameCmp, CmpTy, CmpTy]
  | (op, e) :: es, hn, u, t => by
    rw [namesCmp, forall_append] at hn
    rw [renameCmp, CmpTy, CmpTy]
    simp only [hasTy_rename h e hn.1, renameCmp_nil]
end

mutual
theorem targetTy_rename (h : CorrS ρ ν P S S') : (p : Target) → (∀ x ∈ targets p, P x) → ∀ {t},
    TargetTy S p t → TargetTy S' (renameTarget ρ p) t
  | .var x, hn, t, k => by
    have hp : P x := hn x (by simp [targets])
    rw [TargetTy] at k
    obtain ⟨v, hv, rfl⟩ := k
    rw [renameTarget, TargetTy, h.var x hp, hv]
    exact ⟨renVar ρ v, rfl, rfl⟩
  | .tuple ps b, hn, t, k => by
    rw [targets] at hn
    rw [TargetTy] at k
    obtain ⟨ts, k1, k2⟩ := k
    rw [renameTarget, TargetTy]
    exact ⟨ts, targetTys_rename h ps hn k1, k2⟩
theorem targetTys_rename (h : CorrS ρ ν P S S') : (ps : List Target) → (∀ x ∈ targetsList ps, P x) →
    ∀ {ts}, TargetTys S ps ts → TargetTys S' (renameTargets ρ ps) ts
  | [], hn, ts, k => by rw [TargetTys] at k; rw [renameTargets, TargetTys]; exact k
  | p :: ps, hn, ts, k => by
    rw [targetsList, forall_append] at hn
    rw [TargetTys] at k
    obtain ⟨t, us, k1, k2, k3⟩ := k
    rw [renameTargets, TargetTys]
    exact ⟨t, us, k1, targetTy_rename h p hn.1 k2, targetTys_rename h ps hn.2 k3⟩
end

/-! ## Clocks -/

theorem isVar_rename (h : CorrS ρ ν P S S') {v : Var} : (e : Src) → (∀ x ∈ names e, P x) →
    IsVar S v e → IsVar S' (renVar ρ v) (renameSrc ρ ν e)
  | .lit _, hn, k => by simp [IsVar] at k
  | .var x, hn, k => by
    rw [IsVar] at k
    rw [renameSrc, IsVar, h.var x (hn x (by simp [names])), k]
    rfl
  | .paren _ _, hn, k => by simp [IsVar] at k
  | .left e r, hn, k => by
    rw [names, forall_append] at hn
    rw [IsVar] at k
    rw [renameSrc, IsVar]
    exact ⟨(renameOps_nil r).2 k.1, isVar_rename h e hn.1 k.2⟩
  | .cmp e r, hn, k => by
    rw [names, forall_append] at hn
    rw [IsVar] at k
    rw [renameSrc, IsVar]
    exact ⟨(renameCmp_nil r).2 k.1, isVar_rename h e hn.1 k.2⟩
  | .fby e r, hn, k => by
    rw [names, forall_append] at hn
    rw [IsVar] at k
    rw [renameSrc, IsVar]
    exact ⟨(renameList_nil r).2 k.1, isVar_rename h e hn.1 k.2⟩
  | .arrow e r, hn, k => by
    rw [names, forall_append] at hn
    rw [IsVar] at k
    rw [renameSrc, IsVar]
    exact ⟨(renameList_nil r).2 k.1, isVar_rename h e hn.1 k.2⟩
  | .ifx _ _ _, hn, k => by simp [IsVar] at k
  | .merge _ _ _, hn, k => by simp [IsVar] at k
  | .call _ _ _, hn, k => by simp [IsVar] at k
  | .pre _, hn, k => by simp [IsVar] at k
  | .neg _, hn, k => by simp [IsVar] at k
  | .not _, hn, k => by simp [IsVar] at k

mutual
theorem hasClk_rename (h : CorrS ρ ν P S S') : (e : Src) → (∀ x ∈ names e, P x) → ∀ {k},
    HasClk S e k → HasClk S' (renameSrc ρ ν e) (renClk ρ k)
  | .lit l, hn, k, hk => by
    rw [HasClk] at hk
    subst hk
    rw [renameSrc, HasClk]
    rfl
  | .var x, hn, k, hk => by
    have hp : P x := hn x (by simp [names])
    rw [HasClk] at hk
    rw [renameSrc, HasClk, h.var x hp]
    cases hx : S.var x with
    | none => rw [hx] at hk; subst hk; rfl
    | some v => rw [hx] at hk; subst hk; rfl
  | .paren es b, hn, k, hk => by
    rw [names] at hn
    rw [HasClk] at hk
    rw [renameSrc, HasClk]
    exact tupleClk_rename h es hn hk
  | .left e r, hn, k, hk => by
    rw [names, forall_append] at hn
    rw [HasClk] at hk
    obtain ⟨k₀, h1, h2⟩ := hk
    rw [renameSrc, HasClk]
    exact ⟨_, hasClk_rename h e hn.1 h1, leftClk_rename h r hn.2 h2⟩
  | .cmp e r, hn, k, hk => by
    rw [names, forall_append] at hn
    rw [HasClk] at hk
    obtain ⟨k₀, h1, h2⟩ := hk
    rw [renameSrc, HasClk]
    exact ⟨_, hasClk_rename h e hn.1 h1, cmpClk_rename h r hn.2 h2⟩
  | .fby e r, hn, k, hk => by
    rw [names, forall_append] at hn
    rw [HasClk] at hk
    obtain ⟨k₀, h1, h2⟩ := hk
    rw [renameSrc, HasClk]
    exact ⟨_, hasClk_rename h e hn.1 h1, chainClk_rename h r hn.2 h2⟩
  | .arrow e r, hn, k, hk => by
    rw [names, forall_append] at hn
    rw [HasClk] at hk
    obtain ⟨k₀, h1, h2⟩ := hk
    rw [renameSrc, HasClk]
    exact ⟨_, hasClk_rename h e hn.1 h1, chainClk_rename h r hn.2 h2⟩
  | .ifx b y n, hn, k, hk => by
    rw [names, forall_append, forall_append] at hn
    rw [HasClk] at hk
    obtain ⟨k₁, k₂, k₃, h1, h2, h3, h4, h5, rfl⟩ := hk
    rw [renameSrc, HasClk]
    refine ⟨_, _, _, hasClk_rename h b hn.1 h1, hasClk_rename h y hn.2.1 h2,
      hasClk_rename h n hn.2.2 h3, renClk_compatible h4, ?_, ?_⟩
    · rw [← renClk_meet]; exact renClk_compatible h5
    · rw [renClk_meet, renClk_meet]
  | .merge b y n, hn, k, hk => by
    rw [names, forall_append, forall_append] at hn
    rw [HasClk] at hk
    obtain ⟨v, k₁, k₂, h1, h2, h3, h4, h5, rfl⟩ := hk
    rw [renameSrc, HasClk]
    exact ⟨_, _, _, isVar_rename h b hn.1 h1, hasClk_rename h y hn.2.1 h2,
      hasClk_rename h n hn.2.2 h3, renClk_compatible (ρ := ρ) h4, renClk_compatible (ρ := ρ) h5, rfl⟩
  | .call f es b, hn, k, hk => by
    rw [names] at hn
    rw [HasClk] at hk
    rw [renameSrc, HasClk]
    exact tupleClk_rename h es hn hk
  | .pre e, hn, k, hk => by
    rw [names] at hn
    rw [HasClk] at hk
    rw [renameSrc, HasClk]
    refine ⟨hasClk_rename h e hn hk.1, fun hu => renClk_always.2 (hk.2 ?_)⟩
    rw [← h.pre]; exact hu
  | .neg e, hn, k, hk => by
    rw [names] at hn
    rw [HasClk] at hk
    rw [renameSrc, HasClk]
    exact hasClk_rename h e hn hk
  | .not e, hn, k, hk => by
    rw [names] at hn
    rw [HasClk] at hk
    rw [renameSrc, HasClk]
    exact hasClk_rename h e hn hk
theorem tupleClk_rename (h : CorrS ρ ν P S S') : (es : List Src) → (∀ x ∈ namesList es, P x) → ∀ {k},
    TupleClk S es k → TupleClk S' (renameList ρ ν es) (renClk ρ k)
  | [], hn, k, hk => by
    rw [TupleClk] at hk
    subst hk
    rw [renameList, TupleClk]
    rfl
  | e :: es, hn, k, hk => by
    rw [namesList, forall_append] at hn
    rw [TupleClk] at hk
    rw [renameList, TupleClk]
    exact ⟨hasClk_rename h e hn.1 hk.1, sameClks_rename h es hn.2 hk.2⟩
theorem sameClks_rename (h : CorrS ρ ν P S S') : (es : List Src) → (∀ x ∈ namesList es, P x) →
    ∀ {k}, SameClks S k es → SameClks S' (renClk ρ k) (renameList ρ ν es)
  | [], hn, k, hk => by rw [renameList, SameClks]; trivial
  | e :: es, hn, k, hk => by
    rw [namesList, forall_append] at hn
    rw [SameClks] at hk
    obtain ⟨⟨k', h1, h2⟩, h3⟩ := hk
    rw [renameList, SameClks]
    exact ⟨⟨_, hasClk_rename h e hn.1 h1, renClk_same h2⟩, sameClks_rename h es hn.2 h3⟩
theorem leftClk_rename (h : CorrS ρ ν P S S') : (es : List (LOp × Src)) →
    (∀ x ∈ namesLeft es, P x) → ∀ {k₀ k}, LeftClk S k₀ es k →
    LeftClk S' (renClk ρ k₀) (renameOps ρ ν es) (renClk ρ k)
  | [], hn, k₀, k, hk => by
    rw [LeftClk] at hk
    subst hk
    rw [renameOps, LeftClk]
  | (op, e) :: es, hn, k₀, k, hk => by
    rw [namesLeft, forall_append] at hn
    rw [LeftClk] at hk
    rw [renameOps, LeftClk]
    cases hg : guard op with
    | none =>
      rw [hg] at hk
      obtain ⟨k₁, h1, h2, h3⟩ := hk
      refine ⟨_, hasClk_rename h e hn.1 h1, renClk_compatible h2, ?_⟩
      rw [← renClk_meet]
      exact leftClk_rename h es hn.2 h3
    | some g =>
      rw [hg] at hk
      obtain ⟨v, h1, h2, h3⟩ := hk
      refine ⟨_, isVar_rename h e hn.1 h1, renClk_compatible (ρ := ρ) h2, ?_⟩
      have := leftClk_rename h es hn.2 h3
      rw [renClk_guard] at this
      exact this
theorem cmpClk_rename (h : CorrS ρ ν P S S') : (es : List (CmpOp × Src)) →
    (∀ x ∈ namesCmp es, P x) → ∀ {k₀ k}, CmpClk S k₀ es k →
    CmpClk S' (renClk ρ k₀) (renameCmp ρ ν es) (renClk ρ k)
  | [], hn, k₀, k, hk => by
    rw [CmpClk] at hk
    subst hk
    rw [renameCmp, CmpClk]
  | (op, e) :: es, hn, k₀, k, hk => by
    rw [namesCmp, forall_append] at hn
    rw [CmpClk] at hk
    obtain ⟨k₁, h1, h2, rfl⟩ := hk
    rw [renameCmp, CmpClk]
    exact ⟨_, hasClk_rename h e hn.1 h1, renClk_compatible h2, renClk_meet _ _⟩
theorem chainClk_rename (h : CorrS ρ ν P S S') : (es : List Src) →
    (∀ x ∈ namesList es, P x) → ∀ {k₀ k}, ChainClk S k₀ es k →
    ChainClk S' (renClk ρ k₀) (renameList ρ ν es) (renClk ρ k)
  | [], hn, k₀, k, hk => by
    rw [ChainClk] at hk
    subst hk
    rw [renameList, ChainClk]
  | e :: es, hn, k₀, k, hk => by
    rw [namesList, forall_append] at hn
    rw [ChainClk] at hk
    obtain ⟨k₁, k₂, h1, h2, h3⟩ := hk
    rw [renameList, ChainClk, h.pre]
    refine ⟨_, _, hasClk_rename h e hn.1 h1, chainClk_rename h es hn.2 h2, ?_⟩
    split
    · rename_i hu
      rw [if_pos hu] at h3
      exact ⟨renClk_same h3.1, by rw [h3.2]⟩
    · rename_i hu
      rw [if_neg hu] at h3
      rw [h3]
end

mutual
theorem targetClk_rename (h : CorrS ρ ν P S S') : (p : Target) → (∀ x ∈ targets p, P x) → ∀ {k},
    TargetClk S p k → TargetClk S' (renameTarget ρ p) (renClk ρ k)
  | .var x, hn, k, hk => by
    have hp : P x := hn x (by simp [targets])
    rw [TargetClk] at hk
    obtain ⟨v, hv, rfl⟩ := hk
    rw [renameTarget, TargetClk, h.var x hp, hv]
    exact ⟨renVar ρ v, rfl, rfl⟩
  | .tuple ps b, hn, k, hk => by
    rw [targets] at hn
    rw [TargetClk] at hk
    rw [renameTarget, TargetClk]
    exact targetsClk_rename h ps hn hk
theorem targetsClk_rename (h : CorrS ρ ν P S S') : (ps : List Target) → (∀ x ∈ targetsList ps, P x) →
    ∀ {k}, TargetsClk S ps k → TargetsClk S' (renameTargets ρ ps) (renClk ρ k)
  | [], hn, k, hk => by
    rw [TargetsClk] at hk
    subst hk
    rw [renameTargets, TargetsClk]
    rfl
  | p :: ps, hn, k, hk => by
    rw [targetsList, forall_append] at hn
    rw [TargetsClk] at hk
    rw [renameTargets, TargetsClk]
    exact ⟨targetClk_rename h p hn.1 hk.1, targetsSame_rename h ps hn.2 hk.2⟩
theorem targetsSame_rename (h : CorrS ρ ν P S S') : (ps : List Target) →
    (∀ x ∈ targetsList ps, P x) → ∀ {k}, TargetsSame S k ps →
    TargetsSame S' (renClk ρ k) (renameTargets ρ ps)
  | [], hn, k, hk => by rw [renameTargets, TargetsSame]; trivial
  | p :: ps, hn, k, hk => by
    rw [targetsList, forall_append] at hn
    rw [TargetsSame] at hk
    obtain ⟨⟨k', h1, h2⟩, h3⟩ := hk
    rw [renameTargets, TargetsSame]
    exact ⟨⟨_, targetClk_rename h p hn.1 h1, renClk_same h2⟩, targetsSame_rename h ps hn.2 h3⟩
end

mutual
theorem isUnit_rename : (p : Target) → (IsUnit (renameTarget ρ p) ↔ IsUnit p)
  | .var x => by rw [renameTarget, IsUnit, IsUnit]
  | .tuple ps b => by
    rw [renameTarget, IsUnit, IsUnit, allUnit_rename ps]
    cases ps <;> simp [renameTargets]
    rename_i q qs
    cases qs <;> simp [renameTargets]
theorem allUnit_rename : (ps : List Target) → (AllUnit (renameTargets ρ ps) ↔ AllUnit ps)
  | [] => by rw [renameTargets, AllUnit]
  | p :: ps => by rw [renameTargets, AllUnit, AllUnit, isUnit_rename p, allUnit_rename ps]
end

/-! ## Initialisation -/

mutual
theorem ready_rename (h : CorrS ρ ν P S S') : (e : Src) → (∀ x ∈ names e, P x) → ∀ {d n},
    Static.Ready S d n e → Static.Ready S' d n (renameSrc ρ ν e)
  | .lit l, hn, d, m, k => by rw [renameSrc, Static.Ready]; trivial
  | .var x, hn, d, m, k => by
    rw [Static.Ready] at k
    rw [renameSrc, Static.Ready, h.var x (hn x (by simp [names])), Option.isSome_map]
    exact k
  | .paren es b, hn, d, m, k => by
    rw [names] at hn
    rw [Static.Ready] at k
    rw [renameSrc, Static.Ready]
    exact allReady_rename h es hn k
  | .left e r, hn, d, m, k => by
    rw [names, forall_append] at hn
    rw [Static.Ready] at k
    rw [renameSrc, Static.Ready]
    exact ⟨ready_rename h e hn.1 k.1, leftReady_rename h r hn.2 k.2⟩
  | .cmp e r, hn, d, m, k => by
    rw [names, forall_append] at hn
    rw [Static.Ready] at k
    rw [renameSrc, Static.Ready]
    exact ⟨ready_rename h e hn.1 k.1, cmpReady_rename h r hn.2 k.2⟩
  | .fby e r, hn, d, m, k => by
    rw [names, forall_append] at hn
    rw [Static.Ready] at k
    rw [renameSrc, Static.Ready]
    exact ⟨ready_rename h e hn.1 k.1, fbyReady_rename h r hn.2 k.2⟩
  | .arrow e r, hn, d, m, k => by
    rw [names, forall_append] at hn
    rw [Static.Ready] at k
    rw [renameSrc, Static.Ready]
    exact ⟨ready_rename h e hn.1 k.1, arrowReady_rename h r hn.2 k.2⟩
  | .ifx b y n, hn, d, m, k => by
    rw [names, forall_append, forall_append] at hn
    rw [Static.Ready] at k
    rw [renameSrc, Static.Ready]
    exact ⟨ready_rename h b hn.1 k.1, ready_rename h y hn.2.1 k.2.1, ready_rename h n hn.2.2 k.2.2⟩
  | .merge b y n, hn, d, m, k => by
    rw [names, forall_append, forall_append] at hn
    rw [Static.Ready] at k
    rw [renameSrc, Static.Ready]
    exact ⟨ready_rename h b hn.1 k.1, ready_rename h y hn.2.1 k.2.1, ready_rename h n hn.2.2 k.2.2⟩
  | .call f es b, hn, d, m, k => by
    rw [names] at hn
    rw [Static.Ready] at k
    rw [renameSrc, Static.Ready]
    exact allReady_rename h es hn k
  | .pre e, hn, d, m, k => by
    rw [names] at hn
    rw [Static.Ready] at k
    rw [renameSrc, Static.Ready, h.pre]
    split
    · rename_i hu
      rw [if_pos hu] at k
      exact ⟨k.1, ready_rename h e hn k.2⟩
    · rename_i hu
      rw [if_neg hu] at k
      exact ready_rename h e hn k
  | .neg e, hn, d, m, k => by
    rw [names] at hn
    rw [Static.Ready] at k
    rw [renameSrc, Static.Ready]
    exact ready_rename h e hn k
  | .not e, hn, d, m, k => by
    rw [names] at hn
    rw [Static.Ready] at k
    rw [renameSrc, Static.Ready]
    exact ready_rename h e hn k
theorem allReady_rename (h : CorrS ρ ν P S S') : (es : List Src) → (∀ x ∈ namesList es, P x) →
    ∀ {d n}, AllReady S d n es → AllReady S' d n (renameList ρ ν es)
  | [], hn, d, m, k => by rw [renameList, AllReady]; trivial
  | e :: es, hn, d, m, k => by
    rw [namesList, forall_append] at hn
    rw [AllReady] at k
    rw [renameList, AllReady]
    exact ⟨ready_rename h e hn.1 k.1, allReady_rename h es hn.2 k.2⟩
theorem leftReady_rename (h : CorrS ρ ν P S S') : (es : List (LOp × Src)) →
    (∀ x ∈ namesLeft es, P x) → ∀ {d n}, LeftReady S d n es → LeftReady S' d n (renameOps ρ ν es)
  | [], hn, d, m, k => by rw [renameOps, LeftReady]; trivial
  | (op, e) :: es, hn, d, m, k => by
    rw [namesLeft, forall_append] at hn
    rw [LeftReady] at k
    rw [renameOps, LeftReady]
    exact ⟨ready_rename h e hn.1 k.1, leftReady_rename h es hn.2 k.2⟩
theorem cmpReady_rename (h : CorrS ρ ν P S S') : (es : List (CmpOp × Src)) →
    (∀ x ∈ namesCmp es, P x) → ∀ {d n}, CmpReady S d n es → CmpReady S' d n (renameCmp ρ ν es)
  | [], hn, d, m, k => by rw [renameCmp, CmpReady]; trivial
  | (op, e) :: es, hn, d, m, k => by
    rw [namesCmp, forall_append] at hn
    rw [CmpReady] at k
    rw [renameCmp, CmpReady]
    exact ⟨ready_rename h e hn.1 k.1, cmpReady_rename h es hn.2 k.2⟩
theorem fbyReady_rename (h : CorrS ρ ν P S S') : (es : List Src) → (∀ x ∈ namesList es, P x) →
    ∀ {d n i}, FbyReady S d n i es → FbyReady S' d n i (renameList ρ ν es)
  | [], hn, d, m, i, k => by rw [renameList, FbyReady]; trivial
  | e :: es, hn, d, m, i, k => by
    rw [namesList, forall_append] at hn
    rw [FbyReady] at k
    rw [renameList, FbyReady, h.pre]
    refine ⟨?_, fbyReady_rename h es hn.2 k.2⟩
    have := k.1
    split
    · rename_i hu
      rw [if_pos hu] at this
      exact ready_rename h e hn.1 this
    · rename_i hu
      rw [if_neg hu] at this
      exact ready_rename h e hn.1 this
theorem arrowReady_rename (h : CorrS ρ ν P S S') : (es : List Src) → (∀ x ∈ namesList es, P x) →
    ∀ {d n i}, ArrowReady S d n i es → ArrowReady S' d n i (renameList ρ ν es)
  | [], hn, d, m, i, k => by rw [renameList, ArrowReady]; trivial
  | e :: es, hn, d, m, i, k => by
    rw [namesList, forall_append] at hn
    rw [ArrowReady] at k
    rw [renameList, ArrowReady, h.pre]
    refine ⟨?_, arrowReady_rename h es hn.2 k.2⟩
    have := k.1
    split
    · rename_i hu
      rw [if_pos hu] at this
      exact ready_rename h e hn.1 this
    · rename_i hu
      rw [if_neg hu] at this
      exact ready_rename h e hn.1 this
end

/-! ## Names -/

mutual
theorem instant_rename : (e : Src) → instant (renameSrc ρ ν e) = (instant e).map ρ
  | .lit l => rfl
  | .var x => rfl
  | .paren es b => by rw [renameSrc, instant, instant, instants_rename es]
  | .left e r => by
    rw [renameSrc, instant, instant, instant_rename e, instantLeft_rename r, List.map_append]
  | .cmp e r => by
    rw [renameSrc, instant, instant, instant_rename e, instantCmp_rename r, List.map_append]
  | .fby e r => by rw [renameSrc, instant, instant, instant_rename e]
  | .arrow e r => by
    rw [renameSrc, instant, instant, instant_rename e, instants_rename r, List.map_append]
  | .ifx b y n => by
    rw [renameSrc, instant, instant, instant_rename b, instant_rename y, instant_rename n,
      List.map_append, List.map_append]
  | .merge b y n => by
    rw [renameSrc, instant, instant, instant_rename b, instant_rename y, instant_rename n,
      List.map_append, List.map_append]
  | .call f es b => by rw [renameSrc, instant, instant, instants_rename es]
  | .pre e => rfl
  | .neg e => by rw [renameSrc, instant, instant, instant_rename e]
  | .not e => by rw [renameSrc, instant, instant, instant_rename e]
theorem instants_rename : (es : List Src) → instants (renameList ρ ν es) = (instants es).map ρ
  | [] => rfl
  | e :: es => by
    rw [renameList, instants, instants, instant_rename e, instants_rename es, List.map_append]
theorem instantLeft_rename : (es : List (LOp × Src)) →
    instantLeft (renameOps ρ ν es) = (instantLeft es).map ρ
  | [] => rfl
  | (_, e) :: es => by
    rw [renameOps, instantLeft, instantLeft, instant_rename e, instantLeft_rename es, List.map_append]
theorem instantCmp_rename : (es : List (CmpOp × Src)) →
    instantCmp (renameCmp ρ ν es) = (instantCmp es).map ρ
  | [] => rfl
  | (_, e) :: es => by
    rw [renameCmp, instantCmp, instantCmp, instant_rename e, instantCmp_rename es, List.map_append]
end

mutual
theorem instant_names : (e : Src) → ∀ x ∈ instant e, x ∈ names e
  | .lit l, x, h => by simp [instant] at h
  | .var y, x, h => h
  | .paren es b, x, h => by rw [instant] at h; rw [names]; exact instants_names es x h
  | .left e r, x, h => by
    rw [instant, List.mem_append] at h
    rw [names, List.mem_append]
    exact h.imp (instant_names e x) (instantLeft_names r x)
  | .cmp e r, x, h => by
    rw [instant, List.mem_append] at h
    rw [names, List.mem_append]
    exact h.imp (instant_names e x) (instantCmp_names r x)
  | .fby e r, x, h => by
    rw [instant] at h
    rw [names, List.mem_append]
    exact .inl (instant_names e x h)
  | .arrow e r, x, h => by
    rw [instant, List.mem_append] at h
    rw [names, List.mem_append]
    exact h.imp (instant_names e x) (instants_names r x)
  | .ifx b y n, x, h => by
    rw [instant, List.mem_append, List.mem_append] at h
    rw [names, List.mem_append, List.mem_append]
    exact h.imp (instant_names b x) (Or.imp (instant_names y x) (instant_names n x))
  | .merge b y n, x, h => by
    rw [instant, List.mem_append, List.mem_append] at h
    rw [names, List.mem_append, List.mem_append]
    exact h.imp (instant_names b x) (Or.imp (instant_names y x) (instant_names n x))
  | .call f es b, x, h => by rw [instant] at h; rw [names]; exact instants_names es x h
  | .pre e, x, h => by simp [instant] at h
  | .neg e, x, h => by rw [instant] at h; rw [names]; exact instant_names e x h
  | .not e, x, h => by rw [instant] at h; rw [names]; exact instant_names e x h
theorem instants_names : (es : List Src) → ∀ x ∈ instants es, x ∈ namesList es
  | [], x, h => h
  | e :: es, x, h => by
    rw [instants, List.mem_append] at h
    rw [namesList, List.mem_append]
    exact h.imp (instant_names e x) (instants_names es x)
theorem instantLeft_names : (es : List (LOp × Src)) → ∀ x ∈ instantLeft es, x ∈ namesLeft es
  | [], x, h => h
  | (_, e) :: es, x, h => by
    rw [instantLeft, List.mem_append] at h
    rw [namesLeft, List.mem_append]
    exact h.imp (instant_names e x) (instantLeft_names es x)
theorem instantCmp_names : (es : List (CmpOp × Src)) → ∀ x ∈ instantCmp es, x ∈ namesCmp es
  | [], x, h => h
  | (_, e) :: es, x, h => by
    rw [instantCmp, List.mem_append] at h
    rw [namesCmp, List.mem_append]
    exact h.imp (instant_names e x) (instantCmp_names es x)
end

mutual
theorem targets_rename : (p : Target) → targets (renameTarget ρ p) = (targets p).map ρ
  | .var x => rfl
  | .tuple ps b => by rw [renameTarget, targets, targets, targetsList_rename ps]
theorem targetsList_rename : (ps : List Target) →
    targetsList (renameTargets ρ ps) = (targetsList ps).map ρ
  | [] => rfl
  | p :: ps => by
    rw [renameTargets, targetsList, targetsList, targets_rename p, targetsList_rename ps,
      List.map_append]
end

mutual
theorem callees_rename : (e : Src) → callees (renameSrc ρ ν e) = (callees e).map ν
  | .lit l => rfl
  | .var x => rfl
  | .paren es b => by simp [renameSrc, callees, callees, calleesList_rename es]
  | .left e r => by simp [renameSrc, callees, callees, callees_rename e, calleesLeft_rename r]
  | .cmp e r => by simp [renameSrc, callees, callees, callees_rename e, calleesCmp_rename r]
  | .fby e r => by simp [renameSrc, callees, callees, callees_rename e, calleesList_rename r]
  | .arrow e r => by simp [renameSrc, callees, callees, callees_rename e, calleesList_rename r]
  | .ifx b y n => by
    simp [renameSrc, callees, callees, callees_rename b, callees_rename y, callees_rename n]
  | .merge b y n => by
    simp [renameSrc, callees, callees, callees_rename b, callees_rename y, callees_rename n]
  | .call f es b => by simp [renameSrc, callees, callees, calleesList_rename es]
  | .pre e => by simp [renameSrc, callees, callees, callees_rename e]
  | .neg e => by simp [renameSrc, callees, callees, callees_rename e]
  | .not e => by simp [renameSrc, callees, callees, callees_rename e]
theorem calleesList_rename : (es : List Src) → calleesList (renameList ρ ν es) = (calleesList es).map ν
  | [] => rfl
  | e :: es => by simp [renameList, calleesList, calleesList, callees_rename e, calleesList_rename es]
theorem calleesLeft_rename : (es : List (LOp × Src)) →
    calleesLeft (renameOps ρ ν es) = (calleesLeft es).map ν
  | [] => rfl
  | (_, e) :: es => by
    simp [renameOps, calleesLeft, calleesLeft, callees_rename e, calleesLeft_rename es]
theorem calleesCmp_rename : (es : List (CmpOp × Src)) →
    calleesCmp (renameCmp ρ ν es) = (calleesCmp es).map ν
  | [] => rfl
  | (_, e) :: es => by
    simp [renameCmp, calleesCmp, calleesCmp, callees_rename e, calleesCmp_rename es]
end

theorem justVar_rename : (e : Src) → justVar (renameSrc ρ ν e) = (justVar e).map ρ
  | .lit l => by simp [renameSrc, justVar]
  | .var x => by simp [renameSrc, justVar]
  | .paren es b => by simp [renameSrc, justVar]
  | .left e [] => by rw [renameSrc, renameOps, justVar, justVar, justVar_rename e]
  | .left e ((_, _) :: _) => by simp [renameSrc, renameOps, justVar]
  | .cmp e [] => by rw [renameSrc, renameCmp, justVar, justVar, justVar_rename e]
  | .cmp e ((_, _) :: _) => by simp [renameSrc, renameCmp, justVar]
  | .fby e [] => by rw [renameSrc, renameList, justVar, justVar, justVar_rename e]
  | .fby e (_ :: _) => by simp [renameSrc, renameList, justVar]
  | .arrow e [] => by rw [renameSrc, renameList, justVar, justVar, justVar_rename e]
  | .arrow e (_ :: _) => by simp [renameSrc, renameList, justVar]
  | .ifx b y n => by simp [renameSrc, justVar]
  | .merge b y n => by simp [renameSrc, justVar]
  | .call f es b => by simp [renameSrc, justVar]
  | .pre e => by simp [renameSrc, justVar]
  | .neg e => by simp [renameSrc, justVar]
  | .not e => by simp [renameSrc, justVar]

mutual
theorem guards_rename : (e : Src) → guards (renameSrc ρ ν e) = (guards e).map ρ
  | .lit l => rfl
  | .var x => rfl
  | .paren es b => by rw [renameSrc, guards, guards, guardsList_rename es]
  | .left e r => by
    rw [renameSrc, guards, guards, guards_rename e, guardsLeft_rename r, List.map_append]
  | .cmp e r => by
    rw [renameSrc, guards, guards, guards_rename e, guardsCmp_rename r, List.map_append]
  | .fby e r => by
    rw [renameSrc, guards, guards, guards_rename e, guardsList_rename r, List.map_append]
  | .arrow e r => by
    rw [renameSrc, guards, guards, guards_rename e, guardsList_rename r, List.map_append]
  | .ifx b y n => by
    rw [renameSrc, guards, guards, guards_rename b, guards_rename y, guards_rename n,
      List.map_append, List.map_append]
  | .merge b y n => by
    rw [renameSrc, guards, guards, guards_rename b, guards_rename y, guards_rename n,
      List.map_append, List.map_append]
  | .call f es b => by rw [renameSrc, guards, guards, guardsList_rename es]
  | .pre e => by rw [renameSrc, guards, guards, guards_rename e]
  | .neg e => by rw [renameSrc, guards, guards, guards_rename e]
  | .not e => by rw [renameSrc, guards, guards, guards_rename e]
theorem guardsList_rename : (es : List Src) → guardsList (renameList ρ ν es) = (guardsList es).map ρ
  | [] => rfl
  | e :: es => by
    rw [renameList, guardsList, guardsList, guards_rename e, guardsList_rename es, List.map_append]
theorem guardsLeft_rename : (es : List (LOp × Src)) →
    guardsLeft (renameOps ρ ν es) = (guardsLeft es).map ρ
  | [] => rfl
  | (op, e) :: es => by
    rw [renameOps, guardsLeft, guardsLeft, guards_rename e, guardsLeft_rename es, justVar_rename,
      List.map_append, List.map_append]
    congr 1
    split
    · cases justVar e <;> rfl
    · rfl
theorem guardsCmp_rename : (es : List (CmpOp × Src)) →
    guardsCmp (renameCmp ρ ν es) = (guardsCmp es).map ρ
  | [] => rfl
  | (_, e) :: es => by
    rw [renameCmp, guardsCmp, guardsCmp, guards_rename e, guardsCmp_rename es, List.map_append]
end

mutual
theorem flat_rename : (e : Src) → noOneTuple (renameSrc ρ ν e) = noOneTuple e
  | .lit l => rfl
  | .var x => rfl
  | .paren es b => by
    rw [renameSrc, noOneTuple, noOneTuple, flatList_rename es, renameList_length]
  | .left e r => by rw [renameSrc, noOneTuple, noOneTuple, flat_rename e, flatLeft_rename r]
  | .cmp e r => by rw [renameSrc, noOneTuple, noOneTuple, flat_rename e, flatCmp_rename r]
  | .fby e r => by rw [renameSrc, noOneTuple, noOneTuple, flat_rename e, flatList_rename r]
  | .arrow e r => by rw [renameSrc, noOneTuple, noOneTuple, flat_rename e, flatList_rename r]
  | .ifx b y n => by
    rw [renameSrc, noOneTuple, noOneTuple, flat_rename b, flat_rename y, flat_rename n]
  | .merge b y n => by
    rw [renameSrc, noOneTuple, noOneTuple, flat_rename b, flat_rename y, flat_rename n]
  | .call f es b => by
    rw [renameSrc, noOneTuple, noOneTuple, flatList_rename es, renameList_length]
  | .pre e => by rw [renameSrc, noOneTuple, noOneTuple, flat_rename e]
  | .neg e => by rw [renameSrc, noOneTuple, noOneTuple, flat_rename e]
  | .not e => by rw [renameSrc, noOneTuple, noOneTuple, flat_rename e]
theorem flatList_rename : (es : List Src) → noOneTuples (renameList ρ ν es) = noOneTuples es
  | [] => rfl
  | e :: es => by rw [renameList, noOneTuples, noOneTuples, flat_rename e, flatList_rename es]
theorem flatLeft_rename : (es : List (LOp × Src)) →
    noOneTupleLeft (renameOps ρ ν es) = noOneTupleLeft es
  | [] => rfl
  | (_, e) :: es => by
    rw [renameOps, noOneTupleLeft, noOneTupleLeft, flat_rename e, flatLeft_rename es]
theorem flatCmp_rename : (es : List (CmpOp × Src)) →
    noOneTupleCmp (renameCmp ρ ν es) = noOneTupleCmp es
  | [] => rfl
  | (_, e) :: es => by
    rw [renameCmp, noOneTupleCmp, noOneTupleCmp, flat_rename e, flatCmp_rename es]
end

/-! ## Statements -/

theorem legalStmt_rename (h : CorrS ρ ν P S S') {st : SrcStmt} (ht : ∀ x ∈ stmtTargets st, P x)
    (hn : ∀ x ∈ names (SrcStmt.expr st), P x) (hl : LegalStmt S st) :
    LegalStmt S' (renameStmt ρ ν st) := by
  cases st with
  | def_ p e =>
    obtain ⟨⟨t, h1, h2⟩, ⟨k, k', h3, h4, h5⟩, h6⟩ := hl
    refine ⟨⟨t, targetTy_rename h p ht h1, (hasTy_rename h e hn).2 h2⟩,
      ⟨_, _, targetClk_rename h p ht h3, hasClk_rename h e hn h4, fun hu => ?_⟩,
      ready_rename h e hn h6⟩
    exact renClk_same (h5 fun hu' => hu ((isUnit_rename p).2 hu'))
  | assert e =>
    obtain ⟨h1, ⟨k, h2, h3⟩, h4⟩ := hl
    exact ⟨(hasTy_rename h e hn).2 h1, ⟨_, hasClk_rename h e hn h2, renClk_always.2 h3⟩,
      ready_rename h e hn h4⟩

end

end Chandeliers.Rep
