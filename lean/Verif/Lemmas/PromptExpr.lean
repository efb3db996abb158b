import Verif.Lemmas.Prompt

/-! # The values of expressions on which `#[universal_pre]` and Lustre agree -/

set_option autoImplicit false
set_option linter.unusedSectionVars false

namespace Chandeliers.Std
open Chandeliers.San Chandeliers.Spec Chandeliers.Syn Chandeliers.Den Chandeliers.Pres Chandeliers.Uni
open Chandeliers.Spec.Static

section
variable {S : Scope} {W : World} {D : String → Clock} {θ : Subst}

/-! ## The past -/

theorem last_kept {X : String → Nat → Nillable Scalar} {k : Clk} {r : Nat} {f : Nat → Option Value}
    {on : Nat → Bool} (hon : ∀ u, on u = true ↔ Active X k u) : ∀ {t : Nat},
    (∀ u, u < t → ∀ v, f u = some v → Timely X k r u v) →
    ∀ {o : Option Value}, lastKept f t = some o →
    (r + 1 ≤ ticks X k t → ∃ u v, u < t ∧ lastBefore on t = some u ∧ o = some v ∧ f u = some v ∧
      Ripe X k r u) ∧ (ticks X k t ≤ r → o = none)
  | 0, _, o, h => by
    cases h
    simp [ticks]
  | t + 1, hf, o, h => by
    simp only [lastKept] at h
    obtain ⟨old, h1, h⟩ := some_bind.1 h
    obtain ⟨v, h2, h⟩ := some_bind.1 h
    simp only [Option.pure_def, Option.some.injEq] at h
    obtain ⟨i1, i2⟩ := last_kept hon (t := t) (fun u hu => hf u (by omega)) h1
    obtain ⟨f1, f2⟩ := hf t (by omega) v h2
    rw [lacks_first] at h
    by_cases hr : Ripe X k r t
    · rw [full_present (f1 hr)] at h
      have e := ticks_on hr.1
      have := hr.2
      refine ⟨fun _ => ⟨t, v, by omega, ?_, by simpa using h.symm, h2, hr⟩, fun h => by omega⟩
      rw [lastBefore, if_pos ((hon t).2 hr.1)]
    · rw [blank_absent (f2 hr)] at h
      simp only [if_true] at h
      subst h
      by_cases ha : Active X k t
      · have e := ticks_on ha
        have : ¬ r ≤ ticks X k t := fun h => hr ⟨ha, h⟩
        exact ⟨fun h => by omega, fun _ => i2 (by omega)⟩
      · rw [ticks_off ha, lastBefore, if_neg (by rw [hon]; exact ha)]
        refine ⟨fun h => ?_, i2⟩
        obtain ⟨u, v, j1, j2⟩ := i1 h
        exact ⟨u, v, by omega, j2⟩

theorem last_none {X : String → Nat → Nillable Scalar} {k : Clk} {on : Nat → Bool}
    (hon : ∀ u, on u = true ↔ Active X k u) : ∀ {t : Nat}, ticks X k t = 0 → lastBefore on t = none
  | 0, _ => rfl
  | t + 1, h => by
    by_cases ha : Active X k t
    · rw [ticks_on ha] at h; cases h
    · rw [ticks_off ha] at h
      rw [lastBefore, if_neg (by rw [hon]; exact ha)]
      exact last_none hon h

theorem last_some {X : String → Nat → Nillable Scalar} {k : Clk} {on : Nat → Bool}
    (hon : ∀ u, on u = true ↔ Active X k u) : ∀ {t : Nat}, ticks X k t ≠ 0 →
    ∃ u, lastBefore on t = some u
  | 0, h => by simp [ticks] at h
  | t + 1, h => by
    by_cases ha : Active X k t
    · exact ⟨t, by rw [lastBefore, if_pos ((hon t).2 ha)]⟩
    · rw [ticks_off ha] at h
      rw [lastBefore, if_neg (by rw [hon]; exact ha)]
      exact last_some hon h

/-! ## Calls -/

theorem past_run {m : Machine} (hm : ∀ s i, i.firstIsNil = true →
      m.step s i = .ok (Tup.allNil Scalar m.outTy, s)) {on : Nat → Bool} {f g : Nat → Option Value} :
    ∀ {t : Nat} {bs : List Value}, (List.range t).mapM f = some bs →
    (∀ u, u < t → ∀ i, f u = some i → (on u = true → g u = some i) ∧
      (on u = false → i.firstIsNil = true)) →
    ∀ {s s' : m.σ} {os : List Value}, m.runFrom s bs = .ok (os, s') →
    ∃ as os', pastValues on g t = some as ∧ m.runFrom s as = .ok (os', s')
  | 0, bs, h, _, s, s', os, hr => by
    cases h
    cases hr
    exact ⟨[], [], rfl, rfl⟩
  | t + 1, bs, h, hfg, s, s', os, hr => by
    rw [List.range_succ, List.mapM_append] at h
    obtain ⟨bs', h2, h1⟩ := some_bind.1 h
    obtain ⟨cs, h3, h1⟩ := some_bind.1 h1
    rw [List.mapM_cons] at h3
    obtain ⟨i, h4, h3⟩ := some_bind.1 h3
    cases h3
    cases h1
    rw [runFrom_append] at hr
    obtain ⟨⟨o1, s1⟩, h8, h7⟩ := ok_bind.1 hr
    obtain ⟨⟨o2, s2⟩, h9, h7⟩ := ok_bind.1 h7
    cases h7
    replace h9 : m.runFrom s1 [i] = .ok (o2, s') := h9
    obtain ⟨as, os', h5, h6⟩ := past_run hm h2 (fun u hu => hfg u (by omega)) h8
    obtain ⟨k1, k2⟩ := hfg t (by omega) i h4
    rw [pastValues, h5]
    cases ho : on t with
    | true =>
      rw [k1 ho]
      refine ⟨as ++ [i], os' ++ o2, rfl, ?_⟩
      rw [runFrom_append, h6]
      show (m.runFrom s1 [i] >>= _) = _
      rw [h9]
      rfl
    | false =>
      rw [runFrom_single, hm _ _ (k2 ho)] at h9
      cases h9
      exact ⟨as, os', rfl, h6⟩

theorem call_prompt {m : Machine} (hm : ∀ s i, i.firstIsNil = true →
      m.step s i = .ok (Tup.allNil Scalar m.outTy, s)) {on : Nat → Bool} {f g : Nat → Option Value}
    {t : Nat} {o : Value} (h : callAt m f t = some o)
    (hfg : ∀ u, u ≤ t → ∀ i, f u = some i → (on u = true → g u = some i) ∧
      (on u = false → i.firstIsNil = true)) (hon : on t = true) (ho : Full o) :
    clockedCall m on g t = some o := by
  unfold callAt at h
  rw [List.range_succ, List.mapM_append] at h
  obtain ⟨as, h1, h⟩ := some_bind.1 h
  obtain ⟨bs, h2, h1⟩ := some_bind.1 h1
  obtain ⟨cs, h3, h1⟩ := some_bind.1 h1
  rw [List.mapM_cons] at h3
  obtain ⟨i, h4, h3⟩ := some_bind.1 h3
  cases h3
  cases h1
  obtain ⟨os, h5, h6⟩ := some_bind.1 h
  rw [toOption_some] at h5
  replace h5 : m.run (bs ++ [i]) = .ok os := h5
  unfold Machine.run at h5
  obtain ⟨⟨os', s'⟩, h7, h5⟩ := ok_bind.1 h5
  cases h5
  rw [runFrom_append] at h7
  obtain ⟨⟨o1, s1⟩, h8, h7⟩ := ok_bind.1 h7
  obtain ⟨⟨o2, s2⟩, h9, h7⟩ := ok_bind.1 h7
  cases h7
  replace h9 : m.runFrom s1 [i] = .ok (o2, s') := h9
  obtain ⟨as, os', k1, k2⟩ := past_run hm h2 (fun u hu => hfg u (by omega)) h8
  have hg := (hfg t (Nat.le_refl _) i h4).1 hon
  rw [runFrom_single] at h9
  obtain ⟨⟨o3, s3⟩, h10, h9⟩ := ok_bind.1 h9
  cases h9
  rw [List.getLast?_append] at h6
  simp at h6
  subst h6
  have hrun : m.run (as ++ [i]) = .ok (os' ++ [o3]) := by
    unfold Machine.run
    rw [runFrom_append, k2]
    show ((m.runFrom s1 [i] >>= _) >>= _) = _
    rw [runFrom_single, h10]
    rfl
  unfold clockedCall
  rw [pastValues, k1, hg]
  simp only [hon, if_true, Option.pure_def, Option.bind_eq_bind, Option.bind_some, hrun,
    Except.toOption, List.getLast?_append, List.getLast?_singleton, Option.some_or]
  exact Chandeliers.Uni.whole_some.2 ⟨rfl, ho⟩

/-! ## `->` and `fby` -/

theorem before_prompt {k : Clk} {t : Nat} {f g f' g' : Nat → Option Value} {on : Nat → Bool}
    {v : Value} (hon : ∀ u, on u = true ↔ Active W.X k u)
    (hg : ∀ u, u < t → ∀ v, g u = some v → Timely W.X k 0 u v)
    (hf' : ∀ v, f t = some v → Ripe W.X k 0 t → f' t = some v)
    (hg' : ∀ u, u < t → ∀ v, g u = some v → Ripe W.X k 0 u → g' u = some v)
    (h : uniBefore (clkOn W.X k t) f g t = some v) (hr : Ripe W.X k 0 t) :
    (match lastBefore on t with
      | none => f' t
      | some u => g' u) = some v := by
  unfold uniBefore at h
  obtain ⟨b, h1, h⟩ := some_bind.1 h
  obtain ⟨w, h3, h⟩ := some_bind.1 h
  obtain ⟨_, -, h⟩ := some_bind.1 h
  obtain ⟨o, h2, h⟩ := some_bind.1 h
  simp only [Option.pure_def, Option.some.injEq] at h
  have hb := (clkOn_active h1).2 hr.1
  subst hb
  obtain ⟨k1, k2⟩ := last_kept hon hg h2
  simp only [seen, if_true] at h
  by_cases hs : 1 ≤ ticks W.X k t
  · obtain ⟨u, v', j1, j2, rfl, j3, j4⟩ := k1 hs
    rw [j2]
    cases h
    exact hg' u j1 _ j3 j4
  · rw [k2 (by omega)] at h
    cases h
    rw [last_none hon (by omega)]
    exact hf' _ h3 hr

theorem then_prompt {k : Clk} {r t : Nat} {f g f' g' : Nat → Option Value} {on : Nat → Bool}
    {v : Value} (hon : ∀ u, on u = true ↔ Active W.X k u)
    (hf : ∀ u, u ≤ t → ∀ v, f u = some v → Timely W.X k 0 u v)
    (hf' : ∀ v, f t = some v → Ripe W.X k 0 t → f' t = some v)
    (hg' : ∀ v, g t = some v → Ripe W.X k r t → g' t = some v) (hle : r ≤ 1)
    (h : uniThen f g t = some v) (hr : Ripe W.X k 0 t) :
    (match lastBefore on t with
      | none => f' t
      | some _ => g' t) = some v := by
  unfold uniThen at h
  obtain ⟨w, h1, h⟩ := some_bind.1 h
  obtain ⟨w', h2, h⟩ := some_bind.1 h
  rw [lacks_first, full_present ((hf t (Nat.le_refl _) w h1).1 hr)] at h
  simp only [Bool.false_eq_true, if_false] at h
  obtain ⟨o, h3, h⟩ := some_bind.1 h
  obtain ⟨k1, k2⟩ := last_kept hon (fun u hu => hf u (by omega)) h3
  by_cases hs : 1 ≤ ticks W.X k t
  · obtain ⟨u, v', j1, j2, rfl, j3, j4⟩ := k1 hs
    rw [j2]
    cases h
    exact hg' _ h2 ⟨hr.1, by omega⟩
  · rw [k2 (by omega)] at h
    cases h
    rw [last_none hon (by omega)]
    exact hf' _ h1 hr

theorem fby_zero : {es : List Src} → es ≠ [] → AllSteady S es 0 → FbySteady S es 0
  | [], h, _ => absurd rfl h
  | [e], _, h => by
    rw [AllSteady] at h
    rw [FbySteady]
    exact ⟨0, h.1, .inl ⟨rfl, rfl⟩⟩
  | e :: e' :: es, _, h => by
    rw [AllSteady] at h
    rw [FbySteady]
    exact ⟨0, h.1, .inr ⟨0, fby_zero (by simp) h.2, by simp⟩⟩

/-! ## Expressions -/

/-- All the variables, until now. -/
def AllGood (S : Scope) (W : World) (θ : Subst) (t : Nat) : Prop :=
  ∀ u, u ≤ t → ∀ x, VarGood S W θ x u

theorem AllGood.past {t u : Nat} (h : AllGood S W θ t) (hu : u ≤ t) : AllGood S W θ u :=
  fun w hw => h w (by omega)

theorem AllGood.known {t : Nat} (h : AllGood S W θ t) (ns is : List String) : Known S W θ ns is t :=
  ⟨fun u hu x _ => h u (by omega) x, fun x _ => h t (Nat.le_refl _) x⟩

theorem chain_same (hu : S.universalPre = true) {k₀ k : Clk} {e : Src} {es : List Src}
    (h : ChainClk S k₀ (e :: es) k) : SameClk k₀ k := by
  rw [ChainClk] at h
  obtain ⟨k₁, k₂, -, -, h⟩ := h
  rw [if_pos hu] at h
  obtain ⟨h, rfl⟩ := h
  exact h.elim (fun e => .inl e.symm) fun e => .inr ⟨e.2, e.1⟩

theorem ripe_ifx {X : String → Nat → Nillable Scalar} {k1 k2 k3 : Clk} {rc ry rn r t : Nat}
    (hc : Compatible k1 k2) (hc' : Compatible (Clk.meet k1 k2) k3)
    (m1 : rc = 0 ∨ k1 ≠ .adaptative) (m2 : ry = 0 ∨ k2 ≠ .adaptative)
    (m3 : rn = 0 ∨ k3 ≠ .adaptative) (e1 : r = max rc ry) (e2 : r = max rc rn)
    (hs : k1 = .adaptative → SameClk k2 k3)
    (hr : Ripe X (Clk.meet (Clk.meet k1 k2) k3) r t) :
    Ripe X k1 rc t ∧ Ripe X k2 ry t ∧ Ripe X k3 rn t := by
  by_cases hne : k1 = .adaptative
  · subst hne
    have : rc = 0 := m1.resolve_right (by simp)
    subst this
    have hsame := hs rfl
    have e : Clk.meet .adaptative k2 = k2 := rfl
    rw [e] at hr
    have hm : SameClk (Clk.meet k2 k3) k2 := by
      rcases hsame with rfl | ⟨ha, ha'⟩
      · exact .inl (by cases k2 <;> rfl)
      · exact .inr ⟨by cases k2 <;> first | exact ha' | exact ha, ha⟩
    have hm' : SameClk (Clk.meet k2 k3) k3 := by
      rcases hsame with rfl | ⟨ha, ha'⟩
      · exact hm
      · exact .inr ⟨by cases k2 <;> first | exact ha' | exact ha, ha'⟩
    have ey : r = ry := by omega
    have en : r = rn := by omega
    exact ⟨ripe_zero.2 trivial, ey ▸ (ripe_same hm r t).1 hr, en ▸ (ripe_same hm' r t).1 hr⟩
  · have e3 : Clk.meet k1 k2 = k1 := by cases k1 <;> simp_all [Clk.meet]
    rw [e3] at hc' hr
    have e4 : Clk.meet k1 k3 = k1 := by cases k1 <;> simp_all [Clk.meet]
    have p2 := ripe_meet (X := X) (t := t) hc m1 m2
    have p3 := ripe_meet (X := X) (t := t) hc' m1 m3
    rw [e3, ← e1] at p2
    rw [e4, ← e2] at p3
    rw [e4] at hr
    exact ⟨(p2.1 hr).1, (p2.1 hr).2, (p3.1 hr).2⟩

mutual
theorem uni_clocked (ha : Around S W D) : (e : Src) → ∀ {τ : TyTuple} {k : Clk} {r t : Nat}
    {v : Value}, HasTy S e τ → HasClk S e k → Steady S e r → Prompt S e → noOneTuple e = true →
    AllGood S W θ t → uni W D e t = some v → Ripe W.X k r t → clocked W D e t = some v
  | .lit l, τ, k, r, t, v, hτ, hk, hr, hq, hn, hx, h, hp => by
    rw [uni] at h
    rw [clocked, h]
  | .var x, τ, k, r, t, v, hτ, hk, hr, hq, hn, hx, h, hp => by
    have hfull := (uni_at ha _ hτ hk hr hn (hx.known _ _) h).2.1 hp
    rw [uni] at h
    rw [clocked]
    split at h
    · rw [if_pos ‹_›]
      cases h
      exact whole_some.2 ⟨rfl, hfull⟩
    · rw [if_neg ‹_›]
      exact h
  | .paren es b, τ, k, r, t, v, hτ, hk, hr, hq, hn, hx, h, hp => by
    rw [HasTy] at hτ; rw [HasClk] at hk; rw [Steady] at hr; rw [Prompt] at hq; rw [uni] at h
    rw [noOneTuple, Bool.and_eq_true] at hn
    obtain ⟨ts, hτ, rfl⟩ := hτ
    obtain ⟨vs, h1, h⟩ := some_bind.1 h
    cases h
    have hs : SameClks S k es := by
      cases es with
      | nil => trivial
      | cons e es => exact tuple_same hk
    rw [clocked, uniList_clocked ha es hτ hs hr.1 hq hn.2 hx h1 hp]
    rfl
  | .left e rest, τ, k, r, t, v, hτ, hk, hr, hq, hn, hx, h, hp => by
    rw [HasTy] at hτ; rw [HasClk] at hk; rw [Steady] at hr; rw [Prompt] at hq; rw [uni] at h
    rw [noOneTuple, Bool.and_eq_true] at hn
    obtain ⟨u, hτ, hτ'⟩ := hτ
    obtain ⟨k₀, hk, hk'⟩ := hk
    obtain ⟨s, hr, hm, hr'⟩ := hr
    obtain ⟨w, h1, h⟩ := some_bind.1 h
    rw [clocked]
    exact uniLeft_clocked ha rest hτ' hk' hr' (hm.imp_right fun hm => mixes_clk hm hk) hq.2 hn.2 hx
      (uni_at ha e hτ hk hr hn.1 (hx.known _ _) h1)
      (fun hp => uni_clocked ha e hτ hk hr hq.1 hn.1 hx h1 hp) h hp
  | .cmp e rest, τ, k, r, t, v, hτ, hk, hr, hq, hn, hx, h, hp => by
    rw [HasTy] at hτ; rw [HasClk] at hk; rw [Steady] at hr; rw [Prompt] at hq; rw [uni] at h
    rw [noOneTuple, Bool.and_eq_true] at hn
    obtain ⟨u, hτ, hτ'⟩ := hτ
    obtain ⟨k₀, hk, hk'⟩ := hk
    obtain ⟨s, hr, hr'⟩ := hr
    obtain ⟨w, h1, h⟩ := some_bind.1 h
    rw [clocked]
    exact uniCmp_clocked ha rest hτ hk hτ' hk' hr' hq.2 hn.2 hx
      (uni_at ha e hτ hk hr hn.1 (hx.known _ _) h1)
      (fun hp => uni_clocked ha e hτ hk hr hq.1 hn.1 hx h1 hp) h hp
  | .fby e rest, τ, k, r, t, v, hτ, hk, hr, hq, hn, hx, h, hp => by
    rw [HasTy] at hτ; rw [HasClk] at hk; rw [Steady] at hr; rw [Prompt] at hq; rw [uni] at h
    rw [noOneTuple, Bool.and_eq_true] at hn
    obtain ⟨k₀, hk, hk'⟩ := hk
    obtain ⟨s, hr, hr'⟩ := hr
    obtain ⟨q1, q2, q3⟩ := hq
    rw [clocked]
    cases rest with
    | nil =>
      rw [ChainClk] at hk'
      subst hk'
      rcases hr' with ⟨-, rfl⟩ | ⟨r', hr', -⟩
      · exact uni_clocked ha e hτ.1 hk hr q1 hn.1 hx h hp
      · rw [FbySteady] at hr'; exact hr'.elim
    | cons e' es =>
      rcases hr' with ⟨he, -⟩ | ⟨r', hr', rfl⟩
      · cases he
      have q3 := q3.resolve_left (by simp)
      rw [AllSteady] at q3
      cases steady_unique e hr q3.1
      cases fbySteady_unique _ hr' (fby_zero (by simp) q3.2)
      rw [if_neg (by simp), uniOn_clk ha t e hτ.1 hk] at h
      rw [if_neg (by simp)]
      have hks := chain_same ha.universal hk'
      rw [clkOn_same hks] at h
      exact before_prompt (f' := clocked W D e) (g' := clockedFby W D (e' :: es))
        (fun u => by rw [clockedOn_clk ha u e hτ.1 hk, active_same hks])
        (fun u hu w hw => (uniFby_at ha (e' :: es) hτ.2 hk' hr' hn.2
          ((hx.past (by omega)).known _ _) hw).2)
        (fun w hw hp => uni_clocked ha e hτ.1 hk hr q1 hn.1 hx hw ((ripe_same hks _ _).2 hp))
        (fun u hu w hw hp => uniFby_clocked ha (e' :: es) hτ.2 hk' q3.2 q2 hn.2
          (hx.past (by omega)) hw hp) h (ripe_zero.2 hp.1)
  | .arrow e rest, τ, k, r, t, v, hτ, hk, hr, hq, hn, hx, h, hp => by
    rw [HasTy] at hτ; rw [HasClk] at hk; rw [Steady] at hr; rw [Prompt] at hq; rw [uni] at h
    rw [noOneTuple, Bool.and_eq_true] at hn
    obtain ⟨k₀, hk, hk'⟩ := hk
    obtain ⟨hr, hr'⟩ := hr
    obtain ⟨q1, q2, q3⟩ := hq
    rw [clocked]
    cases rest with
    | nil =>
      rw [ChainClk] at hk'
      subst hk'
      exact uni_clocked ha e hτ.1 hk hr q1 hn.1 hx h hp
    | cons e' es =>
      rcases hr' with he | ⟨r', hr', hle⟩
      · cases he
      rw [List.dropLast_cons_cons, AllSteady] at q3
      cases steady_unique e hr q3.1
      rw [if_neg (by simp)] at h
      rw [if_neg (by simp)]
      have hks := chain_same ha.universal hk'
      exact then_prompt (f' := clocked W D e) (g' := clockedArrow W D (e' :: es))
        (fun u => by rw [clockedOn_clk ha u e hτ.1 hk, active_same hks])
        (fun u hu w hw => ((uni_at ha e hτ.1 hk hr hn.1 ((hx.past hu).known _ _) hw).2).same hks)
        (fun w hw hp => uni_clocked ha e hτ.1 hk hr q1 hn.1 hx hw ((ripe_same hks _ _).2 hp))
        (fun w hw hp => uniArrow_clocked ha (e' :: es) hτ.2 hk' hr' q3.2 q2 hn.2 hx hw hp)
        hle h (ripe_zero.2 hp.1)
  | .ifx c y n, τ, k, r, t, v, hτ, hk, hr, hq, hn, hx, h, hp => by
    rw [HasTy] at hτ; rw [HasClk] at hk; rw [Steady] at hr; rw [Prompt] at hq; rw [uni] at h
    rw [noOneTuple, Bool.and_eq_true, Bool.and_eq_true] at hn
    obtain ⟨k1, k2, k3, hk1, hk2, hk3, hc1, hc2, rfl⟩ := hk
    obtain ⟨rc, ry, rn, r1, r2, r3, m1, m2, m3, e1, e2, hs⟩ := hr
    obtain ⟨wc, h1, h⟩ := some_bind.1 h
    obtain ⟨b, h2, h⟩ := some_bind.1 h
    obtain ⟨wy, h3, h⟩ := some_bind.1 h
    obtain ⟨wn, h4, h⟩ := some_bind.1 h
    cases h
    obtain ⟨p1, p2, p3⟩ := ripe_ifx hc1 hc2 (mixes_clk m1 hk1) (mixes_clk m2 hk2)
      (mixes_clk m3 hk3) e1 e2 (fun e => hs (e ▸ hk1) k2 k3 hk2 hk3) hp
    have hfull := (uni_at ha c hτ.1 hk1 r1 hn.1.1 (hx.known _ _) h1).2.1 p1
    rw [condition_eq h2] at hfull
    have hfull := full_leaf.1 hfull
    rw [clocked, uni_clocked ha c hτ.1 hk1 r1 hq.1 hn.1.1 hx h1 p1]
    show (condition wc >>= _) = _
    rw [h2]
    rcases b with ⟨⟨⟩⟩ | _
    · exact uni_clocked ha n hτ.2.2 hk3 r3 hq.2.2 hn.2 hx h4 p3
    · exact uni_clocked ha y hτ.2.1 hk2 r2 hq.2.1 hn.1.2 hx h3 p2
    · exact absurd rfl hfull
  | .merge c y n, τ, k, r, t, v, hτ, hk, hr, hq, hn, hx, h, hp => by
    rw [HasTy] at hτ; rw [HasClk] at hk; rw [Steady] at hr; rw [Prompt] at hq; rw [uni] at h
    rw [noOneTuple, Bool.and_eq_true, Bool.and_eq_true] at hn
    obtain ⟨w, k1, k2, hv, hk1, hk2, hc1, hc2, rfl⟩ := hk
    obtain ⟨r1, r2, r3, rfl⟩ := hr
    obtain ⟨wc, h1, h⟩ := some_bind.1 h
    obtain ⟨b, h2, h⟩ := some_bind.1 h
    obtain ⟨wy, h3, h⟩ := some_bind.1 h
    obtain ⟨wn, h4, h⟩ := some_bind.1 h
    cases h
    obtain ⟨e1, e2, e3⟩ := isVar_uni ha t c hv
    rw [e1] at h1
    cases h1
    have hb := Tup.leaf.inj (condition_eq h2)
    have hfull := (hx t (Nat.le_refl _) _ w e3).2.1 hp.1
    rw [clocked, (isVar_clocked ha t c hv).2, whole_some.2 ⟨rfl, hfull⟩]
    show (condition _ >>= _) = _
    rw [h2]
    have hfull := full_leaf.1 hfull
    rcases b with ⟨⟨⟩⟩ | _
    · refine uni_clocked ha n hτ.2.2 hk2 r3 hq.2.2 hn.2 hx h4 (ripe_zero.2 ?_)
      rcases hc2 with rfl | h | rfl
      · trivial
      · cases h
      · exact hb
    · refine uni_clocked ha y hτ.2.1 hk1 r2 hq.2.1 hn.1.2 hx h3 (ripe_zero.2 ?_)
      rcases hc1 with rfl | h | rfl
      · trivial
      · cases h
      · exact hb
    · exact absurd hb hfull
  | .call f args b, τ, k, r, t, v, hτ, hk, hr, hq, hn, hx, h, hp => by
    have hfull := (uni_at ha _ hτ hk hr hn (hx.known _ _) h).2.1 hp
    rw [HasTy] at hτ; rw [HasClk] at hk; rw [Steady] at hr; rw [Prompt] at hq; rw [uni] at h
    rw [noOneTuple, Bool.and_eq_true] at hn
    obtain ⟨ts, gens, ins, outs, θ', hτ, hf, hg, rfl⟩ := hτ
    obtain ⟨m, hm, hgood⟩ := ha.nodes f _ hf
    rw [hm] at h
    simp only at h
    rw [clocked, hm]
    have hs : SameClks S k args := by
      cases args with
      | nil => trivial
      | cons e es => exact tuple_same hk
    refine call_prompt (hgood.2 θ').idle h (fun u hu i hi => ?_)
      ((clockedOnAll_clk ha t args hτ hk).2 hp.1) hfull
    obtain ⟨vs, h1, hi⟩ := some_bind.1 hi
    cases hi
    have hon := clockedOnAll_clk ha u args hτ hk
    constructor
    · intro ho
      rw [uniList_clocked ha args hτ hs hq.2 hq.1 hn.2 (hx.past hu) h1 (ripe_zero.2 (hon.1 ho))]
      rfl
    · intro ho
      have hna : ¬ Active W.X k u := fun h => by rw [hon.2 h] at ho; cases ho
      refine blank_absent ?_
      obtain ⟨-, i2⟩ := uniList_at (θ := θ) ha args hτ hs hq.2 hn.2 ((hx.past hu).known _ _) h1
      refine (timely_tuple (fun he => ⟨rfl, ?_⟩) i2).2 fun h => hna h.1
      subst he
      cases args with
      | nil => rw [TupleClk] at hk; subst hk; trivial
      | cons e es =>
        rw [uniList] at h1
        obtain ⟨_, -, h1⟩ := some_bind.1 h1
        obtain ⟨_, -, h1⟩ := some_bind.1 h1
        cases h1
  | .pre e, τ, k, r, t, v, hτ, hk, hr, hq, hn, hx, h, hp => by
    rw [HasTy] at hτ; rw [HasClk] at hk; rw [Steady] at hr; rw [Prompt] at hq; rw [uni] at h
    rw [noOneTuple] at hn
    obtain ⟨s, hr, rfl⟩ := hr
    rw [uniOn_clk ha t e hτ hk.1] at h
    unfold uniPre at h
    obtain ⟨on, h1, h⟩ := some_bind.1 h
    obtain ⟨_, -, h⟩ := some_bind.1 h
    obtain ⟨o, h2, h⟩ := some_bind.1 h
    simp only [Option.pure_def, Option.some.injEq] at h
    have hb := (clkOn_active h1).2 hp.1
    subst hb
    obtain ⟨u, w, j1, j2, rfl, j3, j4⟩ := (last_kept (on := clockedOn W D e)
      (fun u => clockedOn_clk ha u e hτ hk.1)
      (fun u hu w hw => (uni_at ha e hτ hk.1 hr hn ((hx.past (by omega)).known _ _) hw).2) h2).1 hp.2
    cases h
    rw [clocked, j2]
    exact uni_clocked ha e hτ hk.1 hr hq hn (hx.past (by omega)) j3 j4
  | .neg e, τ, k, r, t, v, hτ, hk, hr, hq, hn, hx, h, hp => by
    rw [HasTy] at hτ; rw [HasClk] at hk; rw [Steady] at hr; rw [Prompt] at hq; rw [uni] at h
    rw [noOneTuple] at hn
    obtain ⟨w, h1, h⟩ := some_bind.1 h
    rw [clocked, uni_clocked ha e hτ.1 hk hr hq hn hx h1 hp]
    exact h
  | .not e, τ, k, r, t, v, hτ, hk, hr, hq, hn, hx, h, hp => by
    rw [HasTy] at hτ; rw [HasClk] at hk; rw [Steady] at hr; rw [Prompt] at hq; rw [uni] at h
    rw [noOneTuple] at hn
    obtain ⟨w, h1, h⟩ := some_bind.1 h
    rw [clocked, uni_clocked ha e hτ.1 hk hr hq hn hx h1 hp]
    exact h
theorem uniList_clocked (ha : Around S W D) : (es : List Src) → ∀ {ts : List TyTuple} {k : Clk}
    {r t : Nat} {vs : List Value}, HasTys S es ts → SameClks S k es → AllSteady S es r →
    PromptAll S es → noOneTuples es = true → AllGood S W θ t → uniList W D es t = some vs →
    Ripe W.X k r t → clockedList W D es t = some vs
  | [], ts, k, r, t, vs, hτ, hk, hr, hq, hn, hx, h, hp => by
    rw [uniList] at h
    rw [clockedList, h]
  | e :: es, ts, k, r, t, vs, hτ, hk, hr, hq, hn, hx, h, hp => by
    rw [HasTys] at hτ; rw [SameClks] at hk; rw [AllSteady] at hr; rw [PromptAll] at hq
    rw [uniList] at h
    rw [noOneTuples, Bool.and_eq_true] at hn
    obtain ⟨τ, us, rfl, hτ, hτ'⟩ := hτ
    obtain ⟨⟨k', hk, hk'⟩, hks⟩ := hk
    obtain ⟨v, h1, h⟩ := some_bind.1 h
    obtain ⟨vs', h2, h⟩ := some_bind.1 h
    cases h
    rw [clockedList, uni_clocked ha e hτ hk hr.1 hq.1 hn.1 hx h1 ((ripe_same hk' _ _).1 hp),
      uniList_clocked ha es hτ' hks hr.2 hq.2 hn.2 hx h2 hp]
    rfl
theorem uniLeft_clocked (ha : Around S W D) : (rest : List (LOp × Src)) → ∀ {u τ : TyTuple}
    {k₀ k : Clk} {s r t : Nat} {acc v : Value} {accC : Option Value}, LeftTy S u rest τ →
    LeftClk S k₀ rest k → LeftSteady S s rest r → (rest = [] ∨ s = 0 ∨ k₀ ≠ .adaptative) →
    PromptLeft S rest → noOneTupleLeft rest = true → AllGood S W θ t → At θ W.X u k₀ s t acc →
    (Ripe W.X k₀ s t → accC = some acc) → uniLeft W D acc rest t = some v → Ripe W.X k r t →
    clockedLeft W D accC rest t = some v
  | [], u, τ, k₀, k, s, r, t, acc, v, accC, hτ, hk, hr, hm, hq, hn, hx, hacc, hC, h, hp => by
    rw [LeftClk] at hk; rw [LeftSteady] at hr; rw [uniLeft] at h
    cases h
    subst hk hr
    rw [clockedLeft]
    exact hC hp
  | (op, e) :: rest, u, τ, k₀, k, s, r, t, acc, v, accC, hτ, hk, hr, hm, hq, hn, hx, hacc, hC, h,
      hp => by
    rw [LeftTy] at hτ; rw [LeftClk] at hk; rw [LeftSteady] at hr; rw [PromptLeft] at hq
    rw [uniLeft] at h
    rw [noOneTupleLeft, Bool.and_eq_true] at hn
    obtain ⟨w, r', hτ, ho, hτ'⟩ := hτ
    obtain ⟨x, h1, h⟩ := some_bind.1 h
    obtain ⟨z, h2, h'⟩ := some_bind.1 h
    clear h
    rw [clockedLeft]
    cases hg : Static.guard op with
    | none =>
      rw [hg] at hk hr
      obtain ⟨k₁, hk, hc, hk'⟩ := hk
      obtain ⟨s', hr, hm', hr'⟩ := hr
      have hm := hm.resolve_left (by simp)
      have hm' := mixes_clk hm' hk
      obtain ⟨i1, i2⟩ := uni_at (θ := θ) ha e hτ hk hr hn.1 (hx.known _ _) h1
      obtain ⟨o1, o2, o3⟩ := op_value θ hg ho hacc.1 i1 h2
      refine uniLeft_clocked ha rest hτ' hk' hr' (.inr (mixes_meet hm hm')) hq.2 hn.2 hx
        ⟨o1, timely_binary hc hm hm' hacc.2 i2 o2 o3⟩ (fun hp => ?_) h' hp
      obtain ⟨p1, p2⟩ := (ripe_meet hc hm hm').1 hp
      rw [hC p1, uni_clocked ha e hτ hk hr hq.1 hn.1 hx h1 p2]
      cases op with
      | when => cases hg
      | whenot => cases hg
      | _ => exact h2
    | some g =>
      rw [hg] at hk hr
      obtain ⟨y, hv, hc, hk'⟩ := hk
      obtain ⟨rfl, hr'⟩ := hr
      obtain ⟨e1, e2, e3⟩ := isVar_uni ha t e hv
      rw [e1] at h1
      cases h1
      have hgood := (hx t (Nat.le_refl _) _ y e3).2
      have hr : r' = u := by
        cases op <;> first | exact ho.2 | cases hg
      subst hr
      have hopen : ∀ c : Bool, W.X y.name t = .defined (.bool c) → accC = some acc := by
        intro c hc'
        refine hC (ripe_zero.2 ?_)
        have hact : Active W.X y.clk t := by
          by_contra hn
          have := blank_leaf.1 (hgood.2 hn)
          rw [hc'] at this
          cases this
        rcases hc with rfl | h | rfl
        · trivial
        · exact absurd h (ha.written _ _ e3)
        · exact hact
      have hop := isVar_open ha (op == .when) t e hv
      cases op with
      | when =>
        cases hg
        obtain ⟨b, h3, h2⟩ := some_bind.1 h2
        cases h2
        have hb := Tup.leaf.inj (condition_eq h3)
        refine uniLeft_clocked ha rest hτ' hk' hr' (.inr (.inl rfl)) hq.2 hn.2 hx
          ⟨valTy_when hacc.1, timely_guard (op := .when) hgood (ha.written _ _ e3) hc hacc.2
            hb.symm⟩ (fun hp => ?_) h' hp
        have hX : W.X y.name t = .defined (.bool true) := hp.1
        rw [hop, hX, clockedOp]
        rw [hX] at hb
        rcases b with ⟨⟨⟩⟩ | _
        · cases hb
        · exact hopen true hX
        · cases hb
      | whenot =>
        cases hg
        obtain ⟨b, h3, h2⟩ := some_bind.1 h2
        cases h2
        have hb := Tup.leaf.inj (condition_eq h3)
        refine uniLeft_clocked ha rest hτ' hk' hr' (.inr (.inl rfl)) hq.2 hn.2 hx
          ⟨valTy_whenot hacc.1, timely_guard (op := .whenot) hgood (ha.written _ _ e3) hc hacc.2
            hb.symm⟩ (fun hp => ?_) h' hp
        have hX : W.X y.name t = .defined (.bool false) := hp.1
        rw [hop, hX, clockedOp]
        rw [hX] at hb
        rcases b with ⟨⟨⟩⟩ | _
        · exact hopen false hX
        · cases hb
        · cases hb
      | _ => cases hg
theorem uniCmp_clocked (ha : Around S W D) : (rest : List (CmpOp × Src)) → ∀ {a : Src}
    {u τ : TyTuple} {k₀ k : Clk} {s r t : Nat} {acc v : Value} {accC : Option Value},
    HasTy S a u → HasClk S a k₀ → CmpTy S u rest τ → CmpClk S k₀ rest k → CmpSteady S a s rest r →
    PromptCmp S rest → noOneTupleCmp rest = true → AllGood S W θ t → At θ W.X u k₀ s t acc →
    (Ripe W.X k₀ s t → accC = some acc) → uniCmp W D acc rest t = some v → Ripe W.X k r t →
    clockedCmp W D accC rest t = some v
  | [], a, u, τ, k₀, k, s, r, t, acc, v, accC, hau, hak, hτ, hk, hr, hq, hn, hx, hacc, hC, h, hp => by
    rw [CmpClk] at hk; rw [CmpSteady] at hr; rw [uniCmp] at h
    cases h
    subst hk hr
    rw [clockedCmp]
    exact hC hp
  | (op, e) :: rest, a, u, τ, k₀, k, s, r, t, acc, v, accC, hau, hak, hτ, hk, hr, hq, hn, hx, hacc,
      hC, h, hp => by
    rw [CmpTy] at hτ; rw [CmpClk] at hk; rw [CmpSteady] at hr; rw [PromptCmp] at hq
    rw [noOneTupleCmp, Bool.and_eq_true] at hn
    obtain ⟨rfl, b, hb, rfl, hτ, rfl⟩ := hτ
    obtain ⟨k₁, hk, hc, rfl⟩ := hk
    obtain ⟨s', hr, m1, m2, rfl, hfl⟩ := hr
    rw [uniCmp] at h
    obtain ⟨x, h1, h⟩ := some_bind.1 h
    obtain ⟨i1, i2⟩ := uni_at (θ := θ) ha e hτ hk hr hn.1 (hx.known _ _) h1
    obtain ⟨j1, j2⟩ := hacc
    simp only [substTy, cmpTypes_subst hb] at i1 j1
    obtain ⟨o1, o2, o3⟩ := cmp_value hb j1 i1
      (fun hf => by subst hf; exact hfl S rfl ⟨hau, hτ⟩) h
    obtain ⟨p1, p2⟩ := (ripe_meet hc (mixes_clk m1 hak) (mixes_clk m2 hk)).1 hp
    rw [clockedCmp, hC p1, uni_clocked ha e hτ hk hr hq.1 hn.1 hx h1 p2]
    show (applyCmp W.arith op acc x >>= _) = _
    rw [h]
    exact whole_some.2 ⟨rfl, o2 (j2.1 p1) (i2.1 p2)⟩
theorem uniFby_clocked (ha : Around S W D) : (es : List Src) → ∀ {τ : TyTuple} {k₀ k : Clk}
    {t : Nat} {v : Value}, AllTy S es τ → ChainClk S k₀ es k → AllSteady S es 0 → PromptAll S es →
    noOneTuples es = true → AllGood S W θ t → uniFby W D es t = some v → Ripe W.X k 0 t →
    clockedFby W D es t = some v
  | [], τ, k₀, k, t, v, hτ, hk, hr, hq, hn, hx, h, hp => by
    rw [uniFby] at h; cases h
  | e :: es, τ, k₀, k, t, v, hτ, hk, hr, hq, hn, hx, h, hp => by
    rw [AllTy] at hτ; rw [ChainClk] at hk; rw [AllSteady] at hr; rw [PromptAll] at hq
    rw [uniFby] at h
    rw [noOneTuples, Bool.and_eq_true] at hn
    obtain ⟨k₁, k₂, hk, hk', hk''⟩ := hk
    rw [if_pos ha.universal] at hk''
    obtain ⟨-, rfl⟩ := hk''
    rw [clockedFby]
    cases es with
    | nil =>
      rw [ChainClk] at hk'
      subst hk'
      exact uni_clocked ha e hτ.1 hk hr.1 hq.1 hn.1 hx h hp
    | cons e' es =>
      rw [if_neg (by simp), uniOn_clk ha t e hτ.1 hk] at h
      rw [if_neg (by simp)]
      have hks := chain_same ha.universal hk'
      rw [clkOn_same hks] at h
      exact before_prompt (f' := clocked W D e) (g' := clockedFby W D (e' :: es))
        (fun u => by rw [clockedOn_clk ha u e hτ.1 hk, active_same hks])
        (fun u hu w hw => (uniFby_at ha (e' :: es) hτ.2 hk' (fby_zero (by simp) hr.2) hn.2
          ((hx.past (by omega)).known _ _) hw).2)
        (fun w hw hp => uni_clocked ha e hτ.1 hk hr.1 hq.1 hn.1 hx hw ((ripe_same hks _ _).2 hp))
        (fun u hu w hw hp => uniFby_clocked ha (e' :: es) hτ.2 hk' hr.2 hq.2 hn.2
          (hx.past (by omega)) hw hp) h hp
theorem uniArrow_clocked (ha : Around S W D) : (es : List Src) → ∀ {τ : TyTuple} {k₀ k : Clk}
    {r t : Nat} {v : Value}, AllTy S es τ → ChainClk S k₀ es k → ArrowSteady S es r →
    AllSteady S es.dropLast 0 → PromptAll S es → noOneTuples es = true → AllGood S W θ t →
    uniArrow W D es t = some v → Ripe W.X k r t → clockedArrow W D es t = some v
  | [], τ, k₀, k, r, t, v, hτ, hk, hr, hz, hq, hn, hx, h, hp => by
    rw [uniArrow] at h; cases h
  | e :: es, τ, k₀, k, r, t, v, hτ, hk, hr, hz, hq, hn, hx, h, hp => by
    rw [AllTy] at hτ; rw [ChainClk] at hk; rw [ArrowSteady] at hr; rw [PromptAll] at hq
    rw [uniArrow] at h
    rw [noOneTuples, Bool.and_eq_true] at hn
    obtain ⟨k₁, k₂, hk, hk', hk''⟩ := hk
    rw [if_pos ha.universal] at hk''
    obtain ⟨-, rfl⟩ := hk''
    obtain ⟨hr, hr'⟩ := hr
    rw [clockedArrow]
    cases es with
    | nil =>
      rw [ChainClk] at hk'
      subst hk'
      exact uni_clocked ha e hτ.1 hk hr hq.1 hn.1 hx h hp
    | cons e' es =>
      rcases hr' with he | ⟨r', hr', hle⟩
      · cases he
      rw [List.dropLast_cons_cons, AllSteady] at hz
      cases steady_unique e hr hz.1
      rw [if_neg (by simp)] at h
      rw [if_neg (by simp)]
      have hks := chain_same ha.universal hk'
      exact then_prompt (f' := clocked W D e) (g' := clockedArrow W D (e' :: es))
        (fun u => by rw [clockedOn_clk ha u e hτ.1 hk, active_same hks])
        (fun u hu w hw => ((uni_at ha e hτ.1 hk hr hn.1 ((hx.past hu).known _ _) hw).2).same hks)
        (fun w hw hp => uni_clocked ha e hτ.1 hk hr hq.1 hn.1 hx hw ((ripe_same hks _ _).2 hp))
        (fun w hw hp => uniArrow_clocked ha (e' :: es) hτ.2 hk' hr' hz.2 hq.2 hn.2 hx hw hp)
        hle h hp
end

end
end Chandeliers.Std
