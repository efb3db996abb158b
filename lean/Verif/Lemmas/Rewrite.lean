import Verif.Spec.Refactor
import Verif.Props.Legal

/-!
# Programs that stay legal
-/

set_option autoImplicit false

namespace Chandeliers.Rep
open Chandeliers.San Chandeliers.Spec Chandeliers.Syn Chandeliers.Spec.Static Chandeliers.Err
  Chandeliers.Props

section
variable {B : Bool → Src → Src → Prop} {S : Scope}

/-! ## Types -/

mutual
theorem hasTy_exchanged (hB : ∀ {late e e' t}, B late e e' → HasTy S e t → HasTy S e' t) :
    ∀ {late : Bool} {e e' : Src}, Exchanged B late e e' → ∀ {t}, HasTy S e t → HasTy S e' t
  | _, _, _, .here h, t, k => hB h k
  | _, _, _, .lit, t, k => k
  | _, _, _, .var, t, k => k
  | _, _, _, .paren h, t, k => by
    rw [HasTy] at k ⊢
    obtain ⟨ts, k1, k2⟩ := k
    exact ⟨ts, hasTys_exchanged hB h k1, k2⟩
  | _, _, _, .left h hr, t, k => by
    rw [HasTy] at k ⊢
    obtain ⟨u, k1, k2⟩ := k
    exact ⟨u, hasTy_exchanged hB h k1, leftTy_exchanged hB hr k2⟩
  | _, _, _, .cmp h hr, t, k => by
    rw [HasTy] at k ⊢
    obtain ⟨u, k1, k2⟩ := k
    exact ⟨u, hasTy_exchanged hB h k1, cmpTy_exchanged hB hr k2⟩
  | _, _, _, .fby h hr, t, k => by
    rw [HasTy] at k ⊢
    exact ⟨hasTy_exchanged hB h k.1, allTy_exchanged hB hr k.2⟩
  | _, _, _, .arrow h hr, t, k => by
    rw [HasTy] at k ⊢
    exact ⟨hasTy_exchanged hB h k.1, allTy_exchanged hB hr k.2⟩
  | _, _, _, .ifx hb hy hn, t, k => by
    rw [HasTy] at k ⊢
    exact ⟨hasTy_exchanged hB hb k.1, hasTy_exchanged hB hy k.2.1, hasTy_exchanged hB hn k.2.2⟩
  | _, _, _, .merge hy hn, t, k => by
    rw [HasTy] at k ⊢
    exact ⟨k.1, hasTy_exchanged hB hy k.2.1, hasTy_exchanged hB hn k.2.2⟩
  | _, _, _, .call h, t, k => by
    rw [HasTy] at k ⊢
    obtain ⟨ts, a, b, c, d, k1, k2⟩ := k
    exact ⟨ts, a, b, c, d, hasTys_exchanged hB h k1, k2⟩
  | _, _, _, .pre h, t, k => by
    rw [HasTy] at k ⊢
    exact hasTy_exchanged hB h k
  | _, _, _, .neg h, t, k => by
    rw [HasTy] at k ⊢
    exact ⟨hasTy_exchanged hB h k.1, k.2⟩
  | _, _, _, .not h, t, k => by
    rw [HasTy] at k ⊢
    exact ⟨hasTy_exchanged hB h k.1, k.2⟩
theorem hasTys_exchanged (hB : ∀ {late e e' t}, B late e e' → HasTy S e t → HasTy S e' t) :
    ∀ {late : Bool} {es es' : List Src}, ExchangedList B late es es' → ∀ {ts}, HasTys S es ts →
      HasTys S es' ts
  | _, _, _, .nil, ts, k => k
  | _, _, _, .cons h hs, ts, k => by
    rw [HasTys] at k ⊢
    obtain ⟨t, us, k0, k1, k2⟩ := k
    exact ⟨t, us, k0, hasTy_exchanged hB h k1, hasTys_exchanged hB hs k2⟩
theorem allTy_exchanged (hB : ∀ {late e e' t}, B late e e' → HasTy S e t → HasTy S e' t) :
    ∀ {late : Bool} {es es' : List Src}, ExchangedList B late es es' → ∀ {t}, AllTy S es t →
      AllTy S es' t
  | _, _, _, .nil, ts, k => k
  | _, _, _, .cons h hs, ts, k => by
    rw [AllTy] at k ⊢
    exact ⟨hasTy_exchanged hB h k.1, allTy_exchanged hB hs k.2⟩
theorem leftTy_exchanged (hB : ∀ {late e e' t}, B late e e' → HasTy S e t → HasTy S e' t) :
    ∀ {late : Bool} {es es' : List (LOp × Src)}, ExchangedOps B late es es' → ∀ {u t},
      LeftTy S u es t → LeftTy S u es' t
  | _, _, _, .nil, u, ts, k => k
  | _, _, _, .op h _ _ hs, u, ts, k => by
    rw [LeftTy] at k ⊢
    obtain ⟨w, r, k0, k1, k2⟩ := k
    exact ⟨w, r, hasTy_exchanged hB h k0, k1, leftTy_exchanged hB hs k2⟩
  | _, _, _, .guard hs, u, ts, k => by
    rw [LeftTy] at k ⊢
    obtain ⟨w, r, k0, k1, k2⟩ := k
    exact ⟨w, r, k0, k1, leftTy_exchanged hB hs k2⟩
theorem cmpTy_exchanged (hB : ∀ {late e e' t}, B late e e' → HasTy S e t → HasTy S e' t) :
    ∀ {late : Bool} {es es' : List (CmpOp × Src)}, ExchangedCmp B late es es' → ∀ {u t},
      CmpTy S u es t → CmpTy S u es' t
  | _, _, _, .nil, u, ts, k => k
  | _, _, _, .cons h hs, u, ts, k => by
    rw [CmpTy] at k ⊢
    obtain ⟨rfl, b, k0, k1, k2, k3⟩ := k
    cases hs
    exact ⟨rfl, b, k0, k1, hasTy_exchanged hB h k2, k3⟩
end

/-! ## Clocks -/

/-- The same clock, or a constant instead of the clock of the node. -/
def Eased (k k' : Clk) : Prop := k' = k ∨ (k = .implicit ∧ k' = .adaptative)

theorem Eased.refl (k : Clk) : Eased k k := .inl rfl

theorem Eased.compatible {k k' l l' : Clk} (h : Eased k k') (h' : Eased l l') (hc : Compatible k l) :
    Compatible k' l' := by
  unfold Compatible Eased at *
  rcases h with rfl | ⟨rfl, rfl⟩ <;> rcases h' with rfl | ⟨rfl, rfl⟩ <;> simp_all

theorem Eased.meet {k k' l l' : Clk} (h : Eased k k') (h' : Eased l l') (hc : Compatible k l) :
    Eased (Clk.meet k l) (Clk.meet k' l') := by
  unfold Compatible Eased at *
  rcases h with rfl | ⟨rfl, rfl⟩ <;> rcases h' with rfl | ⟨rfl, rfl⟩ <;>
    rcases hc with hc | hc | hc <;> simp_all [Clk.meet]

theorem Eased.always {k k' : Clk} (h : Eased k k') (ha : Always k) : Always k' := by
  rcases h with rfl | ⟨rfl, rfl⟩
  · exact ha
  · trivial

theorem Eased.same {k k' l l' : Clk} (h : Eased k k') (h' : Eased l l') (hc : SameClk k l) :
    SameClk k' l' := by
  rcases hc with rfl | ⟨h1, h2⟩
  · rcases h with rfl | ⟨rfl, rfl⟩ <;> rcases h' with rfl | ⟨h, rfl⟩
    · exact .inl rfl
    · subst h; exact .inr ⟨trivial, trivial⟩
    · exact .inr ⟨trivial, trivial⟩
    · exact .inl rfl
  · exact .inr ⟨h.always h1, h'.always h2⟩

mutual
theorem hasClk_exchanged (hB : ∀ {late e e' k}, B late e e' → HasClk S e k →
      ∃ k', HasClk S e' k' ∧ Eased k k') :
    ∀ {late : Bool} {e e' : Src}, Exchanged B late e e' → ∀ {k}, HasClk S e k →
      ∃ k', HasClk S e' k' ∧ Eased k k'
  | _, _, _, .here h, t, k => hB h k
  | _, _, _, .lit, t, k => ⟨_, k, .refl _⟩
  | _, _, _, .var, t, k => ⟨_, k, .refl _⟩
  | _, _, _, .paren h, t, k => by
    rw [HasClk] at k
    obtain ⟨k', k1, k2⟩ := tupleClk_exchanged hB h k
    exact ⟨k', by rw [HasClk]; exact k1, k2⟩
  | _, _, _, .left h hr, t, k => by
    rw [HasClk] at k
    obtain ⟨u, k1, k2⟩ := k
    obtain ⟨u', k1, e⟩ := hasClk_exchanged hB h k1
    obtain ⟨v, k2, e2⟩ := leftClk_exchanged hB hr e k2
    exact ⟨v, by rw [HasClk]; exact ⟨u', k1, k2⟩, e2⟩
  | _, _, _, .cmp h hr, t, k => by
    rw [HasClk] at k
    obtain ⟨u, k1, k2⟩ := k
    obtain ⟨u', k1, e⟩ := hasClk_exchanged hB h k1
    obtain ⟨v, k2, e2⟩ := cmpClk_exchanged hB hr e k2
    exact ⟨v, by rw [HasClk]; exact ⟨u', k1, k2⟩, e2⟩
  | _, _, _, .fby h hr, t, k => by
    rw [HasClk] at k
    obtain ⟨u, k1, k2⟩ := k
    obtain ⟨u', k1, e⟩ := hasClk_exchanged hB h k1
    obtain ⟨v, k2, e2⟩ := chainClk_exchanged hB hr e k2
    exact ⟨v, by rw [HasClk]; exact ⟨u', k1, k2⟩, e2⟩
  | _, _, _, .arrow h hr, t, k => by
    rw [HasClk] at k
    obtain ⟨u, k1, k2⟩ := k
    obtain ⟨u', k1, e⟩ := hasClk_exchanged hB h k1
    obtain ⟨v, k2, e2⟩ := chainClk_exchanged hB hr e k2
    exact ⟨v, by rw [HasClk]; exact ⟨u', k1, k2⟩, e2⟩
  | _, _, _, .ifx hb hy hn, t, k => by
    rw [HasClk] at k
    obtain ⟨k1, k2, k3, h1, h2, h3, c1, c2, rfl⟩ := k
    obtain ⟨l1, h1, e1⟩ := hasClk_exchanged hB hb h1
    obtain ⟨l2, h2, e2⟩ := hasClk_exchanged hB hy h2
    obtain ⟨l3, h3, e3⟩ := hasClk_exchanged hB hn h3
    exact ⟨_, by
      rw [HasClk]
      exact ⟨l1, l2, l3, h1, h2, h3, e1.compatible e2 c1, (e1.meet e2 c1).compatible e3 c2, rfl⟩,
      (e1.meet e2 c1).meet e3 c2⟩
  | _, _, _, .merge hy hn, t, k => by
    rw [HasClk] at k
    obtain ⟨v, k1, k2, h0, h1, h2, c1, c2, rfl⟩ := k
    obtain ⟨l1, h1, e1⟩ := hasClk_exchanged hB hy h1
    obtain ⟨l2, h2, e2⟩ := hasClk_exchanged hB hn h2
    exact ⟨_, by
      rw [HasClk]
      exact ⟨v, l1, l2, h0, h1, h2, e1.compatible (.refl _) c1, e2.compatible (.refl _) c2, rfl⟩,
      .refl _⟩
  | _, _, _, .call h, t, k => by
    rw [HasClk] at k
    obtain ⟨k', k1, k2⟩ := tupleClk_exchanged hB h k
    exact ⟨k', by rw [HasClk]; exact k1, k2⟩
  | _, _, _, .pre h, t, k => by
    rw [HasClk] at k
    obtain ⟨k', k1, k2⟩ := hasClk_exchanged hB h k.1
    exact ⟨k', by rw [HasClk]; exact ⟨k1, fun u => k2.always (k.2 u)⟩, k2⟩
  | _, _, _, .neg h, t, k => by
    rw [HasClk] at k
    obtain ⟨k', k1, k2⟩ := hasClk_exchanged hB h k
    exact ⟨k', by rw [HasClk]; exact k1, k2⟩
  | _, _, _, .not h, t, k => by
    rw [HasClk] at k
    obtain ⟨k', k1, k2⟩ := hasClk_exchanged hB h k
    exact ⟨k', by rw [HasClk]; exact k1, k2⟩
theorem tupleClk_exchanged (hB : ∀ {late e e' k}, B late e e' → HasClk S e k →
      ∃ k', HasClk S e' k' ∧ Eased k k') :
    ∀ {late : Bool} {es es' : List Src}, ExchangedList B late es es' → ∀ {k}, TupleClk S es k →
      ∃ k', TupleClk S es' k' ∧ Eased k k'
  | _, _, _, .nil, t, k => ⟨_, k, .refl _⟩
  | _, _, _, .cons h hs, t, k => by
    rw [TupleClk] at k
    obtain ⟨k', k1, k2⟩ := hasClk_exchanged hB h k.1
    exact ⟨k', by rw [TupleClk]; exact ⟨k1, sameClks_exchanged hB hs k2 k.2⟩, k2⟩
theorem sameClks_exchanged (hB : ∀ {late e e' k}, B late e e' → HasClk S e k →
      ∃ k', HasClk S e' k' ∧ Eased k k') :
    ∀ {late : Bool} {es es' : List Src}, ExchangedList B late es es' → ∀ {k k'}, Eased k k' →
      SameClks S k es → SameClks S k' es'
  | _, _, _, .nil, t, t', e, k => by rw [SameClks]; trivial
  | _, _, _, .cons h hs, t, t', e, k => by
    rw [SameClks] at k ⊢
    obtain ⟨⟨l, h1, h2⟩, k⟩ := k
    obtain ⟨l', k1, k2⟩ := hasClk_exchanged hB h h1
    exact ⟨⟨l', k1, e.same k2 h2⟩, sameClks_exchanged hB hs e k⟩
theorem leftClk_exchanged (hB : ∀ {late e e' k}, B late e e' → HasClk S e k →
      ∃ k', HasClk S e' k' ∧ Eased k k') :
    ∀ {late : Bool} {es es' : List (LOp × Src)}, ExchangedOps B late es es' → ∀ {l l' k},
      Eased l l' → LeftClk S l es k → ∃ k', LeftClk S l' es' k' ∧ Eased k k'
  | _, _, _, .nil, l, l', t, e, k => by
    rw [LeftClk] at k
    subst k
    exact ⟨l', by rw [LeftClk], e⟩
  | _, _, _, .op (o := o) h hw hn hs, l, l', t, e, k => by
    rw [LeftClk] at k
    have hg : Static.guard o = none := by cases o <;> first | rfl | contradiction
    rw [hg] at k
    obtain ⟨m, h1, h2, k⟩ := k
    obtain ⟨m', k1, k2⟩ := hasClk_exchanged hB h h1
    obtain ⟨r, k3, k4⟩ := leftClk_exchanged hB hs (e.meet k2 h2) k
    refine ⟨r, ?_, k4⟩
    rw [LeftClk, hg]
    exact ⟨m', k1, e.compatible k2 h2, k3⟩
  | _, _, _, .guard (o := o) hs, l, l', t, e, k => by
    rw [LeftClk] at k
    cases hg : Static.guard o with
    | none =>
      rw [hg] at k
      obtain ⟨m, h1, h2, k⟩ := k
      obtain ⟨r, k3, k4⟩ := leftClk_exchanged hB hs (e.meet (.refl _) h2) k
      refine ⟨r, ?_, k4⟩
      rw [LeftClk, hg]
      exact ⟨m, h1, e.compatible (.refl _) h2, k3⟩
    | some g =>
      rw [hg] at k
      obtain ⟨v, h1, h2, k⟩ := k
      obtain ⟨r, k3, k4⟩ := leftClk_exchanged hB hs (.refl _) k
      refine ⟨r, ?_, k4⟩
      rw [LeftClk, hg]
      exact ⟨v, h1, e.compatible (.refl _) h2, k3⟩
theorem cmpClk_exchanged (hB : ∀ {late e e' k}, B late e e' → HasClk S e k →
      ∃ k', HasClk S e' k' ∧ Eased k k') :
    ∀ {late : Bool} {es es' : List (CmpOp × Src)}, ExchangedCmp B late es es' → ∀ {l l' k},
      Eased l l' → CmpClk S l es k → ∃ k', CmpClk S l' es' k' ∧ Eased k k'
  | _, _, _, .nil, l, l', t, e, k => by
    rw [CmpClk] at k
    subst k
    exact ⟨l', by rw [CmpClk], e⟩
  | _, _, _, .cons h hs, l, l', t, e, k => by
    rw [CmpClk] at k
    obtain ⟨m, h1, h2, rfl⟩ := k
    obtain ⟨m', k1, k2⟩ := hasClk_exchanged hB h h1
    exact ⟨_, by rw [CmpClk]; exact ⟨m', k1, e.compatible k2 h2, rfl⟩, e.meet k2 h2⟩
theorem chainClk_exchanged (hB : ∀ {late e e' k}, B late e e' → HasClk S e k →
      ∃ k', HasClk S e' k' ∧ Eased k k') :
    ∀ {late : Bool} {es es' : List Src}, ExchangedList B late es es' → ∀ {l l' k},
      Eased l l' → ChainClk S l es k → ∃ k', ChainClk S l' es' k' ∧ Eased k k'
  | _, _, _, .nil, l, l', t, e, k => by
    rw [ChainClk] at k
    subst k
    exact ⟨l', by rw [ChainClk], e⟩
  | _, _, _, .cons h hs, l, l', t, e, k => by
    rw [ChainClk] at k
    obtain ⟨k1, k2, h1, h2, k⟩ := k
    obtain ⟨l1, g1, e1⟩ := hasClk_exchanged hB h h1
    obtain ⟨l2, g2, e2⟩ := chainClk_exchanged hB hs e1 h2
    by_cases u : S.universalPre = true
    · rw [if_pos u] at k
      obtain ⟨k, rfl⟩ := k
      refine ⟨l2, ?_, e2⟩
      rw [ChainClk]
      exact ⟨l1, l2, g1, g2, by rw [if_pos u]; exact ⟨e2.same e k, rfl⟩⟩
    · rw [if_neg u] at k
      subst k
      refine ⟨l', ?_, e⟩
      rw [ChainClk]
      exact ⟨l1, l2, g1, g2, by rw [if_neg u]⟩
end

/-! ## Initialisation -/

mutual
theorem ready_later : (e : Src) → ∀ {d n d' n' : Nat}, d' + n ≤ n' + d → Ready S d n e →
    (S.universalPre = true → d' = d) → Ready S d' n' e
  | .lit _, d, n, d', n', h, k, hu => by rw [Static.Ready]; trivial
  | .var x, d, n, d', n', h, k, hu => by
    rw [Static.Ready] at k ⊢
    intro hx
    have := k hx
    omega
  | .paren es _, d, n, d', n', h, k, hu => by
    rw [Static.Ready] at k ⊢
    exact allReady_later es h k hu
  | .left e r, d, n, d', n', h, k, hu => by
    rw [Static.Ready] at k ⊢
    exact ⟨ready_later e h k.1 hu, leftReady_later r h k.2 hu⟩
  | .cmp e r, d, n, d', n', h, k, hu => by
    rw [Static.Ready] at k ⊢
    exact ⟨ready_later e h k.1 hu, cmpReady_later r h k.2 hu⟩
  | .fby e r, d, n, d', n', h, k, hu => by
    rw [Static.Ready] at k ⊢
    exact ⟨ready_later e h k.1 hu, fbyReady_later r h k.2 hu⟩
  | .arrow e r, d, n, d', n', h, k, hu => by
    rw [Static.Ready] at k ⊢
    exact ⟨ready_later e h k.1 hu, arrowReady_later r h k.2 hu⟩
  | .ifx b y z, d, n, d', n', h, k, hu => by
    rw [Static.Ready] at k ⊢
    exact ⟨ready_later b h k.1 hu, ready_later y h k.2.1 hu, ready_later z h k.2.2 hu⟩
  | .merge b y z, d, n, d', n', h, k, hu => by
    rw [Static.Ready] at k ⊢
    exact ⟨ready_later b h k.1 hu, ready_later y h k.2.1 hu, ready_later z h k.2.2 hu⟩
  | .call _ es _, d, n, d', n', h, k, hu => by
    rw [Static.Ready] at k ⊢
    exact allReady_later es h k hu
  | .pre e, d, n, d', n', h, k, hu => by
    rw [Static.Ready] at k ⊢
    split
    · rename_i u
      rw [if_pos u] at k
      have := hu u
      exact ⟨by omega, ready_later e (by omega) k.2 hu⟩
    · rename_i u
      rw [if_neg u] at k
      exact ready_later e (by omega) k fun u' => absurd u' u
  | .neg e, d, n, d', n', h, k, hu => by
    rw [Static.Ready] at k ⊢
    exact ready_later e h k hu
  | .not e, d, n, d', n', h, k, hu => by
    rw [Static.Ready] at k ⊢
    exact ready_later e h k hu
theorem allReady_later : (es : List Src) → ∀ {d n d' n' : Nat}, d' + n ≤ n' + d →
    AllReady S d n es → (S.universalPre = true → d' = d) → AllReady S d' n' es
  | [], d, n, d', n', h, k, hu => by rw [AllReady]; trivial
  | e :: es, d, n, d', n', h, k, hu => by
    rw [AllReady] at k ⊢
    exact ⟨ready_later e h k.1 hu, allReady_later es h k.2 hu⟩
theorem leftReady_later : (es : List (LOp × Src)) → ∀ {d n d' n' : Nat}, d' + n ≤ n' + d →
    LeftReady S d n es → (S.universalPre = true → d' = d) → LeftReady S d' n' es
  | [], d, n, d', n', h, k, hu => by rw [LeftReady]; trivial
  | (_, e) :: es, d, n, d', n', h, k, hu => by
    rw [LeftReady] at k ⊢
    exact ⟨ready_later e h k.1 hu, leftReady_later es h k.2 hu⟩
theorem cmpReady_later : (es : List (CmpOp × Src)) → ∀ {d n d' n' : Nat}, d' + n ≤ n' + d →
    CmpReady S d n es → (S.universalPre = true → d' = d) → CmpReady S d' n' es
  | [], d, n, d', n', h, k, hu => by rw [CmpReady]; trivial
  | (_, e) :: es, d, n, d', n', h, k, hu => by
    rw [CmpReady] at k ⊢
    exact ⟨ready_later e h k.1 hu, cmpReady_later es h k.2 hu⟩
theorem fbyReady_later : (es : List Src) → ∀ {i d n d' n' : Nat}, d' + n ≤ n' + d →
    FbyReady S d n i es → (S.universalPre = true → d' = d) → FbyReady S d' n' i es
  | [], i, d, n, d', n', h, k, hu => by rw [FbyReady]; trivial
  | e :: es, i, d, n, d', n', h, k, hu => by
    rw [FbyReady] at k ⊢
    refine ⟨?_, fbyReady_later es h k.2 hu⟩
    split
    · rename_i u
      rw [if_pos u] at k
      exact ready_later e h k.1 hu
    · rename_i u
      rw [if_neg u] at k
      exact ready_later e (by omega) k.1 fun u' => absurd u' u
theorem arrowReady_later : (es : List Src) → ∀ {i d n d' n' : Nat}, d' + n ≤ n' + d →
    ArrowReady S d n i es → (S.universalPre = true → d' = d) → ArrowReady S d' n' i es
  | [], i, d, n, d', n', h, k, hu => by rw [ArrowReady]; trivial
  | e :: es, i, d, n, d', n', h, k, hu => by
    rw [ArrowReady] at k ⊢
    refine ⟨?_, arrowReady_later es h k.2 hu⟩
    split
    · rename_i u
      rw [if_pos u] at k
      have := hu u
      exact ready_later e (by omega) k.1 hu
    · rename_i u
      rw [if_neg u] at k
      exact ready_later e (by omega) k.1 fun u' => absurd u' u
end

mutual
theorem ready_exchanged (hB : ∀ {late e e' d n}, B late e e' → (S.universalPre = true → d = 0) →
      Ready S d n e → Ready S d n e') :
    ∀ {late : Bool} {e e' : Src}, Exchanged B late e e' → ∀ {d n : Nat},
      (S.universalPre = true → d = 0) → Ready S d n e → Ready S d n e'
  | _, _, _, .here h, d, n, hu, k => hB h hu k
  | _, _, _, .lit, d, n, hu, k => k
  | _, _, _, .var, d, n, hu, k => k
  | _, _, _, .paren h, d, n, hu, k => by
    rw [Static.Ready] at k ⊢
    exact allReady_exchanged hB h hu k
  | _, _, _, .left h hr, d, n, hu, k => by
    rw [Static.Ready] at k ⊢
    exact ⟨ready_exchanged hB h hu k.1, leftReady_exchanged hB hr hu k.2⟩
  | _, _, _, .cmp h hr, d, n, hu, k => by
    rw [Static.Ready] at k ⊢
    exact ⟨ready_exchanged hB h hu k.1, cmpReady_exchanged hB hr hu k.2⟩
  | _, _, _, .fby h hr, d, n, hu, k => by
    rw [Static.Ready] at k ⊢
    exact ⟨ready_exchanged hB h hu k.1, fbyReady_exchanged hB hr hu k.2⟩
  | _, _, _, .arrow h hr, d, n, hu, k => by
    rw [Static.Ready] at k ⊢
    exact ⟨ready_exchanged hB h hu k.1, arrowReady_exchanged hB hr hu k.2⟩
  | _, _, _, .ifx hb hy hn, d, n, hu, k => by
    rw [Static.Ready] at k ⊢
    exact ⟨ready_exchanged hB hb hu k.1, ready_exchanged hB hy hu k.2.1,
      ready_exchanged hB hn hu k.2.2⟩
  | _, _, _, .merge hy hn, d, n, hu, k => by
    rw [Static.Ready] at k ⊢
    exact ⟨k.1, ready_exchanged hB hy hu k.2.1, ready_exchanged hB hn hu k.2.2⟩
  | _, _, _, .call h, d, n, hu, k => by
    rw [Static.Ready] at k ⊢
    exact allReady_exchanged hB h hu k
  | _, _, _, .pre h, d, n, hu, k => by
    rw [Static.Ready] at k ⊢
    split
    · rename_i u
      rw [if_pos u] at k
      exact ⟨k.1, ready_exchanged hB h hu k.2⟩
    · rename_i u
      rw [if_neg u] at k
      exact ready_exchanged hB h (fun u' => absurd u' u) k
  | _, _, _, .neg h, d, n, hu, k => by
    rw [Static.Ready] at k ⊢
    exact ready_exchanged hB h hu k
  | _, _, _, .not h, d, n, hu, k => by
    rw [Static.Ready] at k ⊢
    exact ready_exchanged hB h hu k
theorem allReady_exchanged (hB : ∀ {late e e' d n}, B late e e' → (S.universalPre = true → d = 0) →
      Ready S d n e → Ready S d n e') :
    ∀ {late : Bool} {es es' : List Src}, ExchangedList B late es es' → ∀ {d n : Nat},
      (S.universalPre = true → d = 0) → AllReady S d n es → AllReady S d n es'
  | _, _, _, .nil, d, n, hu, k => k
  | _, _, _, .cons h hs, d, n, hu, k => by
    rw [AllReady] at k ⊢
    exact ⟨ready_exchanged hB h hu k.1, allReady_exchanged hB hs hu k.2⟩
theorem leftReady_exchanged (hB : ∀ {late e e' d n}, B late e e' → (S.universalPre = true → d = 0) →
      Ready S d n e → Ready S d n e') :
    ∀ {late : Bool} {es es' : List (LOp × Src)}, ExchangedOps B late es es' → ∀ {d n : Nat},
      (S.universalPre = true → d = 0) → LeftReady S d n es → LeftReady S d n es'
  | _, _, _, .nil, d, n, hu, k => k
  | _, _, _, .op h _ _ hs, d, n, hu, k => by
    rw [LeftReady] at k ⊢
    exact ⟨ready_exchanged hB h hu k.1, leftReady_exchanged hB hs hu k.2⟩
  | _, _, _, .guard hs, d, n, hu, k => by
    rw [LeftReady] at k ⊢
    exact ⟨k.1, leftReady_exchanged hB hs hu k.2⟩
theorem cmpReady_exchanged (hB : ∀ {late e e' d n}, B late e e' → (S.universalPre = true → d = 0) →
      Ready S d n e → Ready S d n e') :
    ∀ {late : Bool} {es es' : List (CmpOp × Src)}, ExchangedCmp B late es es' → ∀ {d n : Nat},
      (S.universalPre = true → d = 0) → CmpReady S d n es → CmpReady S d n es'
  | _, _, _, .nil, d, n, hu, k => k
  | _, _, _, .cons h hs, d, n, hu, k => by
    rw [CmpReady] at k ⊢
    exact ⟨ready_exchanged hB h hu k.1, cmpReady_exchanged hB hs hu k.2⟩
theorem fbyReady_exchanged (hB : ∀ {late e e' d n}, B late e e' → (S.universalPre = true → d = 0) →
      Ready S d n e → Ready S d n e') :
    ∀ {late : Bool} {es es' : List Src}, ExchangedList B late es es' → ∀ {i d n : Nat},
      (S.universalPre = true → d = 0) → FbyReady S d n i es → FbyReady S d n i es'
  | _, _, _, .nil, i, d, n, hu, k => by rw [FbyReady]; trivial
  | _, _, _, .cons h hs, i, d, n, hu, k => by
    rw [FbyReady] at k ⊢
    refine ⟨?_, fbyReady_exchanged hB hs hu k.2⟩
    split
    · rename_i u
      rw [if_pos u] at k
      exact ready_exchanged hB h hu k.1
    · rename_i u
      rw [if_neg u] at k
      exact ready_exchanged hB h (fun u' => absurd u' u) k.1
theorem arrowReady_exchanged (hB : ∀ {late e e' d n}, B late e e' → (S.universalPre = true → d = 0) →
      Ready S d n e → Ready S d n e') :
    ∀ {late : Bool} {es es' : List Src}, ExchangedList B late es es' → ∀ {i d n : Nat},
      (S.universalPre = true → d = 0) → ArrowReady S d n i es → ArrowReady S d n i es'
  | _, _, _, .nil, i, d, n, hu, k => by rw [ArrowReady]; trivial
  | _, _, _, .cons h hs, i, d, n, hu, k => by
    rw [ArrowReady] at k ⊢
    refine ⟨?_, arrowReady_exchanged hB hs hu k.2⟩
    split
    · rename_i u
      rw [if_pos u] at k
      exact ready_exchanged hB h hu k.1
    · rename_i u
      rw [if_neg u] at k
      exact ready_exchanged hB h (fun u' => absurd u' u) k.1
end

/-! ## Dependencies -/

mutual
theorem instant_exchanged {Z : String → String → Prop} (hZ : ∀ z, Z z z) (hB : ∀ {late e e'}, B late e e' → ∀ y ∈ instant e', ∃ z ∈ instant e, Z z y) :
    ∀ {late : Bool} {e e' : Src}, Exchanged B late e e' → ∀ y ∈ instant e', ∃ z ∈ instant e, Z z y
  | _, _, _, .here h, y, k => hB h y k
  | _, _, _, .lit, y, k => ⟨y, k, hZ y⟩
  | _, _, _, .var, y, k => ⟨y, k, hZ y⟩
  | _, _, _, .paren h, y, k => by
    rw [instant] at k ⊢
    exact instants_exchanged hZ hB h y k
  | _, _, _, .left h hr, y, k => by
    rw [instant] at k ⊢
    rcases List.mem_append.1 k with k | k
    · obtain ⟨z, k1, k2⟩ := instant_exchanged hZ hB h y k
      exact ⟨z, List.mem_append_left _ k1, k2⟩
    · obtain ⟨z, k1, k2⟩ := instantLeft_exchanged hZ hB hr y k
      exact ⟨z, List.mem_append_right _ k1, k2⟩
  | _, _, _, .cmp h hr, y, k => by
    rw [instant] at k ⊢
    rcases List.mem_append.1 k with k | k
    · obtain ⟨z, k1, k2⟩ := instant_exchanged hZ hB h y k
      exact ⟨z, List.mem_append_left _ k1, k2⟩
    · obtain ⟨z, k1, k2⟩ := instantCmp_exchanged hZ hB hr y k
      exact ⟨z, List.mem_append_right _ k1, k2⟩
  | _, _, _, .fby h hr, y, k => by
    rw [instant] at k ⊢
    exact instant_exchanged hZ hB h y k
  | _, _, _, .arrow h hr, y, k => by
    rw [instant] at k ⊢
    rcases List.mem_append.1 k with k | k
    · obtain ⟨z, k1, k2⟩ := instant_exchanged hZ hB h y k
      exact ⟨z, List.mem_append_left _ k1, k2⟩
    · obtain ⟨z, k1, k2⟩ := instants_exchanged hZ hB hr y k
      exact ⟨z, List.mem_append_right _ k1, k2⟩
  | _, _, _, .ifx hb hy hn, y, k => by
    rw [instant] at k ⊢
    rcases List.mem_append.1 k with k | k
    · obtain ⟨z, k1, k2⟩ := instant_exchanged hZ hB hb y k
      exact ⟨z, List.mem_append_left _ k1, k2⟩
    · rcases List.mem_append.1 k with k | k
      · obtain ⟨z, k1, k2⟩ := instant_exchanged hZ hB hy y k
        exact ⟨z, List.mem_append_right _ (List.mem_append_left _ k1), k2⟩
      · obtain ⟨z, k1, k2⟩ := instant_exchanged hZ hB hn y k
        exact ⟨z, List.mem_append_right _ (List.mem_append_right _ k1), k2⟩
  | _, _, _, .merge hy hn, y, k => by
    rw [instant] at k ⊢
    rcases List.mem_append.1 k with k | k
    · exact ⟨y, List.mem_append_left _ k, hZ y⟩
    · rcases List.mem_append.1 k with k | k
      · obtain ⟨z, k1, k2⟩ := instant_exchanged hZ hB hy y k
        exact ⟨z, List.mem_append_right _ (List.mem_append_left _ k1), k2⟩
      · obtain ⟨z, k1, k2⟩ := instant_exchanged hZ hB hn y k
        exact ⟨z, List.mem_append_right _ (List.mem_append_right _ k1), k2⟩
  | _, _, _, .call h, y, k => by
    rw [instant] at k ⊢
    exact instants_exchanged hZ hB h y k
  | _, _, _, .pre h, y, k => by
    rw [instant] at k
    cases k
  | _, _, _, .neg h, y, k => by
    rw [instant] at k ⊢
    exact instant_exchanged hZ hB h y k
  | _, _, _, .not h, y, k => by
    rw [instant] at k ⊢
    exact instant_exchanged hZ hB h y k
theorem instants_exchanged {Z : String → String → Prop} (hZ : ∀ z, Z z z) (hB : ∀ {late e e'}, B late e e' → ∀ y ∈ instant e', ∃ z ∈ instant e, Z z y) :
    ∀ {late : Bool} {es es' : List Src}, ExchangedList B late es es' → ∀ y ∈ instants es',
      ∃ z ∈ instants es, Z z y
  | _, _, _, .nil, y, k => ⟨y, k, hZ y⟩
  | _, _, _, .cons h hs, y, k => by
    rw [instants] at k ⊢
    rcases List.mem_append.1 k with k | k
    · obtain ⟨z, k1, k2⟩ := instant_exchanged hZ hB h y k
      exact ⟨z, List.mem_append_left _ k1, k2⟩
    · obtain ⟨z, k1, k2⟩ := instants_exchanged hZ hB hs y k
      exact ⟨z, List.mem_append_right _ k1, k2⟩
theorem instantLeft_exchanged {Z : String → String → Prop} (hZ : ∀ z, Z z z) (hB : ∀ {late e e'}, B late e e' → ∀ y ∈ instant e', ∃ z ∈ instant e, Z z y) :
    ∀ {late : Bool} {es es' : List (LOp × Src)}, ExchangedOps B late es es' → ∀ y ∈ instantLeft es',
      ∃ z ∈ instantLeft es, Z z y
  | _, _, _, .nil, y, k => ⟨y, k, hZ y⟩
  | _, _, _, .op h _ _ hs, y, k => by
    rw [instantLeft] at k ⊢
    rcases List.mem_append.1 k with k | k
    · obtain ⟨z, k1, k2⟩ := instant_exchanged hZ hB h y k
      exact ⟨z, List.mem_append_left _ k1, k2⟩
    · obtain ⟨z, k1, k2⟩ := instantLeft_exchanged hZ hB hs y k
      exact ⟨z, List.mem_append_right _ k1, k2⟩
  | _, _, _, .guard hs, y, k => by
    rw [instantLeft] at k ⊢
    rcases List.mem_append.1 k with k | k
    · exact ⟨y, List.mem_append_left _ k, hZ y⟩
    · obtain ⟨z, k1, k2⟩ := instantLeft_exchanged hZ hB hs y k
      exact ⟨z, List.mem_append_right _ k1, k2⟩
theorem instantCmp_exchanged {Z : String → String → Prop} (hZ : ∀ z, Z z z) (hB : ∀ {late e e'}, B late e e' → ∀ y ∈ instant e', ∃ z ∈ instant e, Z z y) :
    ∀ {late : Bool} {es es' : List (CmpOp × Src)}, ExchangedCmp B late es es' → ∀ y ∈ instantCmp es',
      ∃ z ∈ instantCmp es, Z z y
  | _, _, _, .nil, y, k => ⟨y, k, hZ y⟩
  | _, _, _, .cons h hs, y, k => by
    rw [instantCmp] at k ⊢
    rcases List.mem_append.1 k with k | k
    · obtain ⟨z, k1, k2⟩ := instant_exchanged hZ hB h y k
      exact ⟨z, List.mem_append_left _ k1, k2⟩
    · obtain ⟨z, k1, k2⟩ := instantCmp_exchanged hZ hB hs y k
      exact ⟨z, List.mem_append_right _ k1, k2⟩
end

/-! ## Calls -/

mutual
theorem callees_exchanged {C : List String} (hB : ∀ {late e e'}, B late e e' → ∀ y ∈ callees e', y ∈ callees e ∨ y ∈ C) :
    ∀ {late : Bool} {e e' : Src}, Exchanged B late e e' → ∀ y ∈ callees e', y ∈ callees e ∨ y ∈ C
  | _, _, _, .here h, y, k => hB h y k
  | _, _, _, .lit, y, k => .inl (k)
  | _, _, _, .var, y, k => .inl (k)
  | _, _, _, .paren h, y, k => by
    rw [callees] at k ⊢
    exact calleesList_exchanged hB h y k
  | _, _, _, .left h hr, y, k => by
    rw [callees] at k ⊢
    rcases List.mem_append.1 k with k | k
    · rcases callees_exchanged hB h y k with k | k
      · exact .inl (List.mem_append_left _ k)
      · exact .inr k
    · rcases calleesLeft_exchanged hB hr y k with k | k
      · exact .inl (List.mem_append_right _ k)
      · exact .inr k
  | _, _, _, .cmp h hr, y, k => by
    rw [callees] at k ⊢
    rcases List.mem_append.1 k with k | k
    · rcases callees_exchanged hB h y k with k | k
      · exact .inl (List.mem_append_left _ k)
      · exact .inr k
    · rcases calleesCmp_exchanged hB hr y k with k | k
      · exact .inl (List.mem_append_right _ k)
      · exact .inr k
  | _, _, _, .fby h hr, y, k => by
    rw [callees] at k ⊢
    rcases List.mem_append.1 k with k | k
    · rcases callees_exchanged hB h y k with k | k
      · exact .inl (List.mem_append_left _ k)
      · exact .inr k
    · rcases calleesList_exchanged hB hr y k with k | k
      · exact .inl (List.mem_append_right _ k)
      · exact .inr k
  | _, _, _, .arrow h hr, y, k => by
    rw [callees] at k ⊢
    rcases List.mem_append.1 k with k | k
    · rcases callees_exchanged hB h y k with k | k
      · exact .inl (List.mem_append_left _ k)
      · exact .inr k
    · rcases calleesList_exchanged hB hr y k with k | k
      · exact .inl (List.mem_append_right _ k)
      · exact .inr k
  | _, _, _, .ifx hb hy hn, y, k => by
    rw [callees] at k ⊢
    rcases List.mem_append.1 k with k | k
    · rcases callees_exchanged hB hb y k with k | k
      · exact .inl (List.mem_append_left _ k)
      · exact .inr k
    · rcases List.mem_append.1 k with k | k
      · rcases callees_exchanged hB hy y k with k | k
        · exact .inl (List.mem_append_right _ (List.mem_append_left _ k))
        · exact .inr k
      · rcases callees_exchanged hB hn y k with k | k
        · exact .inl (List.mem_append_right _ (List.mem_append_right _ k))
        · exact .inr k
  | _, _, _, .merge hy hn, y, k => by
    rw [callees] at k ⊢
    rcases List.mem_append.1 k with k | k
    · exact .inl (List.mem_append_left _ k)
    · rcases List.mem_append.1 k with k | k
      · rcases callees_exchanged hB hy y k with k | k
        · exact .inl (List.mem_append_right _ (List.mem_append_left _ k))
        · exact .inr k
      · rcases callees_exchanged hB hn y k with k | k
        · exact .inl (List.mem_append_right _ (List.mem_append_right _ k))
        · exact .inr k
  | _, _, _, .call h, y, k => by
    rw [callees] at k ⊢
    rcases List.mem_cons.1 k with k | k
    · exact .inl (by rw [k]; exact List.mem_cons_self ..)
    · rcases calleesList_exchanged hB h y k with k | k
      · exact .inl (List.mem_cons_of_mem _ k)
      · exact .inr k
  | _, _, _, .pre h, y, k => by
    rw [callees] at k ⊢
    exact callees_exchanged hB h y k
  | _, _, _, .neg h, y, k => by
    rw [callees] at k ⊢
    exact callees_exchanged hB h y k
  | _, _, _, .not h, y, k => by
    rw [callees] at k ⊢
    exact callees_exchanged hB h y k
theorem calleesList_exchanged {C : List String} (hB : ∀ {late e e'}, B late e e' → ∀ y ∈ callees e', y ∈ callees e ∨ y ∈ C) :
    ∀ {late : Bool} {es es' : List Src}, ExchangedList B late es es' → ∀ y ∈ calleesList es',
      y ∈ calleesList es ∨ y ∈ C
  | _, _, _, .nil, y, k => .inl (k)
  | _, _, _, .cons h hs, y, k => by
    rw [calleesList] at k ⊢
    rcases List.mem_append.1 k with k | k
    · rcases callees_exchanged hB h y k with k | k
      · exact .inl (List.mem_append_left _ k)
      · exact .inr k
    · rcases calleesList_exchanged hB hs y k with k | k
      · exact .inl (List.mem_append_right _ k)
      · exact .inr k
theorem calleesLeft_exchanged {C : List String} (hB : ∀ {late e e'}, B late e e' → ∀ y ∈ callees e', y ∈ callees e ∨ y ∈ C) :
    ∀ {late : Bool} {es es' : List (LOp × Src)}, ExchangedOps B late es es' → ∀ y ∈ calleesLeft es',
      y ∈ calleesLeft es ∨ y ∈ C
  | _, _, _, .nil, y, k => .inl (k)
  | _, _, _, .op h _ _ hs, y, k => by
    rw [calleesLeft] at k ⊢
    rcases List.mem_append.1 k with k | k
    · rcases callees_exchanged hB h y k with k | k
      · exact .inl (List.mem_append_left _ k)
      · exact .inr k
    · rcases calleesLeft_exchanged hB hs y k with k | k
      · exact .inl (List.mem_append_right _ k)
      · exact .inr k
  | _, _, _, .guard hs, y, k => by
    rw [calleesLeft] at k ⊢
    rcases List.mem_append.1 k with k | k
    · exact .inl (List.mem_append_left _ k)
    · rcases calleesLeft_exchanged hB hs y k with k | k
      · exact .inl (List.mem_append_right _ k)
      · exact .inr k
theorem calleesCmp_exchanged {C : List String} (hB : ∀ {late e e'}, B late e e' → ∀ y ∈ callees e', y ∈ callees e ∨ y ∈ C) :
    ∀ {late : Bool} {es es' : List (CmpOp × Src)}, ExchangedCmp B late es es' → ∀ y ∈ calleesCmp es',
      y ∈ calleesCmp es ∨ y ∈ C
  | _, _, _, .nil, y, k => .inl (k)
  | _, _, _, .cons h hs, y, k => by
    rw [calleesCmp] at k ⊢
    rcases List.mem_append.1 k with k | k
    · rcases callees_exchanged hB h y k with k | k
      · exact .inl (List.mem_append_left _ k)
      · exact .inr k
    · rcases calleesCmp_exchanged hB hs y k with k | k
      · exact .inl (List.mem_append_right _ k)
      · exact .inr k
end

/-! ## Guards -/

mutual
theorem guards_exchanged {C : List String} (hB : ∀ {late e e'}, B late e e' → ∀ y ∈ guards e', y ∈ guards e ∨ y ∈ C) :
    ∀ {late : Bool} {e e' : Src}, Exchanged B late e e' → ∀ y ∈ guards e', y ∈ guards e ∨ y ∈ C
  | _, _, _, .here h, y, k => hB h y k
  | _, _, _, .lit, y, k => .inl (k)
  | _, _, _, .var, y, k => .inl (k)
  | _, _, _, .paren h, y, k => by
    rw [guards] at k ⊢
    exact guardsList_exchanged hB h y k
  | _, _, _, .left h hr, y, k => by
    rw [guards] at k ⊢
    rcases List.mem_append.1 k with k | k
    · rcases guards_exchanged hB h y k with k | k
      · exact .inl (List.mem_append_left _ k)
      · exact .inr k
    · rcases guardsLeft_exchanged hB hr y k with k | k
      · exact .inl (List.mem_append_right _ k)
      · exact .inr k
  | _, _, _, .cmp h hr, y, k => by
    rw [guards] at k ⊢
    rcases List.mem_append.1 k with k | k
    · rcases guards_exchanged hB h y k with k | k
      · exact .inl (List.mem_append_left _ k)
      · exact .inr k
    · rcases guardsCmp_exchanged hB hr y k with k | k
      · exact .inl (List.mem_append_right _ k)
      · exact .inr k
  | _, _, _, .fby h hr, y, k => by
    rw [guards] at k ⊢
    rcases List.mem_append.1 k with k | k
    · rcases guards_exchanged hB h y k with k | k
      · exact .inl (List.mem_append_left _ k)
      · exact .inr k
    · rcases guardsList_exchanged hB hr y k with k | k
      · exact .inl (List.mem_append_right _ k)
      · exact .inr k
  | _, _, _, .arrow h hr, y, k => by
    rw [guards] at k ⊢
    rcases List.mem_append.1 k with k | k
    · rcases guards_exchanged hB h y k with k | k
      · exact .inl (List.mem_append_left _ k)
      · exact .inr k
    · rcases guardsList_exchanged hB hr y k with k | k
      · exact .inl (List.mem_append_right _ k)
      · exact .inr k
  | _, _, _, .ifx hb hy hn, y, k => by
    rw [guards] at k ⊢
    rcases List.mem_append.1 k with k | k
    · rcases guards_exchanged hB hb y k with k | k
      · exact .inl (List.mem_append_left _ k)
      · exact .inr k
    · rcases List.mem_append.1 k with k | k
      · rcases guards_exchanged hB hy y k with k | k
        · exact .inl (List.mem_append_right _ (List.mem_append_left _ k))
        · exact .inr k
      · rcases guards_exchanged hB hn y k with k | k
        · exact .inl (List.mem_append_right _ (List.mem_append_right _ k))
        · exact .inr k
  | _, _, _, .merge hy hn, y, k => by
    rw [guards] at k ⊢
    rcases List.mem_append.1 k with k | k
    · exact .inl (List.mem_append_left _ k)
    · rcases List.mem_append.1 k with k | k
      · rcases guards_exchanged hB hy y k with k | k
        · exact .inl (List.mem_append_right _ (List.mem_append_left _ k))
        · exact .inr k
      · rcases guards_exchanged hB hn y k with k | k
        · exact .inl (List.mem_append_right _ (List.mem_append_right _ k))
        · exact .inr k
  | _, _, _, .call h, y, k => by
    rw [guards] at k ⊢
    exact guardsList_exchanged hB h y k
  | _, _, _, .pre h, y, k => by
    rw [guards] at k ⊢
    exact guards_exchanged hB h y k
  | _, _, _, .neg h, y, k => by
    rw [guards] at k ⊢
    exact guards_exchanged hB h y k
  | _, _, _, .not h, y, k => by
    rw [guards] at k ⊢
    exact guards_exchanged hB h y k
theorem guardsList_exchanged {C : List String} (hB : ∀ {late e e'}, B late e e' → ∀ y ∈ guards e', y ∈ guards e ∨ y ∈ C) :
    ∀ {late : Bool} {es es' : List Src}, ExchangedList B late es es' → ∀ y ∈ guardsList es',
      y ∈ guardsList es ∨ y ∈ C
  | _, _, _, .nil, y, k => .inl (k)
  | _, _, _, .cons h hs, y, k => by
    rw [guardsList] at k ⊢
    rcases List.mem_append.1 k with k | k
    · rcases guards_exchanged hB h y k with k | k
      · exact .inl (List.mem_append_left _ k)
      · exact .inr k
    · rcases guardsList_exchanged hB hs y k with k | k
      · exact .inl (List.mem_append_right _ k)
      · exact .inr k
theorem guardsLeft_exchanged {C : List String} (hB : ∀ {late e e'}, B late e e' → ∀ y ∈ guards e', y ∈ guards e ∨ y ∈ C) :
    ∀ {late : Bool} {es es' : List (LOp × Src)}, ExchangedOps B late es es' → ∀ y ∈ guardsLeft es',
      y ∈ guardsLeft es ∨ y ∈ C
  | _, _, _, .nil, y, k => .inl (k)
  | _, _, _, .op h hw hn hs, y, k => by
    rw [guardsLeft, if_neg (not_or.2 ⟨hw, hn⟩), List.nil_append] at k ⊢
    rcases List.mem_append.1 k with k | k
    · rcases guards_exchanged hB h y k with k | k
      · exact .inl (List.mem_append_left _ k)
      · exact .inr k
    · rcases guardsLeft_exchanged hB hs y k with k | k
      · exact .inl (List.mem_append_right _ k)
      · exact .inr k
  | _, _, _, .guard hs, y, k => by
    rw [guardsLeft] at k ⊢
    rcases List.mem_append.1 k with k | k
    · exact .inl (List.mem_append_left _ k)
    · rcases List.mem_append.1 k with k | k
      · exact .inl (List.mem_append_right _ (List.mem_append_left _ k))
      · rcases guardsLeft_exchanged hB hs y k with k | k
        · exact .inl (List.mem_append_right _ (List.mem_append_right _ k))
        · exact .inr k
theorem guardsCmp_exchanged {C : List String} (hB : ∀ {late e e'}, B late e e' → ∀ y ∈ guards e', y ∈ guards e ∨ y ∈ C) :
    ∀ {late : Bool} {es es' : List (CmpOp × Src)}, ExchangedCmp B late es es' → ∀ y ∈ guardsCmp es',
      y ∈ guardsCmp es ∨ y ∈ C
  | _, _, _, .nil, y, k => .inl (k)
  | _, _, _, .cons h hs, y, k => by
    rw [guardsCmp] at k ⊢
    rcases List.mem_append.1 k with k | k
    · rcases guards_exchanged hB h y k with k | k
      · exact .inl (List.mem_append_left _ k)
      · exact .inr k
    · rcases guardsCmp_exchanged hB hs y k with k | k
      · exact .inl (List.mem_append_right _ k)
      · exact .inr k
end

theorem exchanged_length {late : Bool} : ∀ {es es' : List Src}, ExchangedList B late es es' →
    es.length = es'.length
  | _, _, .nil => rfl
  | _, _, .cons _ hs => by rw [List.length_cons, List.length_cons, exchanged_length hs]

/-! ## Tuples of one element -/

mutual
theorem flat_exchanged (hB : ∀ {late e e'}, B late e e' → noOneTuple e = true → noOneTuple e' = true) :
    ∀ {late : Bool} {e e' : Src}, Exchanged B late e e' → noOneTuple e = true → noOneTuple e' = true
  | _, _, _, .here h, k => hB h k
  | _, _, _, .lit, k => k
  | _, _, _, .var, k => k
  | _, _, _, .paren h, k => by
    rw [noOneTuple, Bool.and_eq_true] at k ⊢
    exact ⟨by rw [← exchanged_length h]; exact k.1, flats_exchanged hB h k.2⟩
  | _, _, _, .left h hr, k => by
    rw [noOneTuple, Bool.and_eq_true] at k ⊢
    exact ⟨flat_exchanged hB h k.1, flatLeft_exchanged hB hr k.2⟩
  | _, _, _, .cmp h hr, k => by
    rw [noOneTuple, Bool.and_eq_true] at k ⊢
    exact ⟨flat_exchanged hB h k.1, flatCmp_exchanged hB hr k.2⟩
  | _, _, _, .fby h hr, k => by
    rw [noOneTuple, Bool.and_eq_true] at k ⊢
    exact ⟨flat_exchanged hB h k.1, flats_exchanged hB hr k.2⟩
  | _, _, _, .arrow h hr, k => by
    rw [noOneTuple, Bool.and_eq_true] at k ⊢
    exact ⟨flat_exchanged hB h k.1, flats_exchanged hB hr k.2⟩
  | _, _, _, .ifx hb hy hn, k => by
    rw [noOneTuple, Bool.and_eq_true, Bool.and_eq_true] at k ⊢
    exact ⟨⟨flat_exchanged hB hb k.1.1, flat_exchanged hB hy k.1.2⟩, flat_exchanged hB hn k.2⟩
  | _, _, _, .merge hy hn, k => by
    rw [noOneTuple, Bool.and_eq_true, Bool.and_eq_true] at k ⊢
    exact ⟨⟨k.1.1, flat_exchanged hB hy k.1.2⟩, flat_exchanged hB hn k.2⟩
  | _, _, _, .call h, k => by
    rw [noOneTuple, Bool.and_eq_true] at k ⊢
    exact ⟨by rw [← exchanged_length h]; exact k.1, flats_exchanged hB h k.2⟩
  | _, _, _, .pre h, k => by
    rw [noOneTuple] at k ⊢
    exact flat_exchanged hB h k
  | _, _, _, .neg h, k => by
    rw [noOneTuple] at k ⊢
    exact flat_exchanged hB h k
  | _, _, _, .not h, k => by
    rw [noOneTuple] at k ⊢
    exact flat_exchanged hB h k
theorem flats_exchanged (hB : ∀ {late e e'}, B late e e' → noOneTuple e = true → noOneTuple e' = true) :
    ∀ {late : Bool} {es es' : List Src}, ExchangedList B late es es' → noOneTuples es = true →
      noOneTuples es' = true
  | _, _, _, .nil, k => k
  | _, _, _, .cons h hs, k => by
    rw [noOneTuples, Bool.and_eq_true] at k ⊢
    exact ⟨flat_exchanged hB h k.1, flats_exchanged hB hs k.2⟩
theorem flatLeft_exchanged (hB : ∀ {late e e'}, B late e e' → noOneTuple e = true → noOneTuple e' = true) :
    ∀ {late : Bool} {es es' : List (LOp × Src)}, ExchangedOps B late es es' → noOneTupleLeft es = true →
      noOneTupleLeft es' = true
  | _, _, _, .nil, k => k
  | _, _, _, .op h _ _ hs, k => by
    rw [noOneTupleLeft, Bool.and_eq_true] at k ⊢
    exact ⟨flat_exchanged hB h k.1, flatLeft_exchanged hB hs k.2⟩
  | _, _, _, .guard hs, k => by
    rw [noOneTupleLeft, Bool.and_eq_true] at k ⊢
    exact ⟨k.1, flatLeft_exchanged hB hs k.2⟩
theorem flatCmp_exchanged (hB : ∀ {late e e'}, B late e e' → noOneTuple e = true → noOneTuple e' = true) :
    ∀ {late : Bool} {es es' : List (CmpOp × Src)}, ExchangedCmp B late es es' →
      noOneTupleCmp es = true → noOneTupleCmp es' = true
  | _, _, _, .nil, k => k
  | _, _, _, .cons h hs, k => by
    rw [noOneTupleCmp, Bool.and_eq_true] at k ⊢
    exact ⟨flat_exchanged hB h k.1, flatCmp_exchanged hB hs k.2⟩
end

/-! ## Nodes -/

/-- What exchanging two expressions keeps. -/
structure Keeps (S : Scope) (Z : String → String → Prop) (B : Bool → Src → Src → Prop) : Prop where
  ty : ∀ {late e e' t}, B late e e' → HasTy S e t → HasTy S e' t
  clk : ∀ {late e e' k}, B late e e' → HasClk S e k → ∃ k', HasClk S e' k' ∧ Eased k k'
  ready : ∀ {late e e' d n}, B late e e' → (S.universalPre = true → d = 0) → Ready S d n e →
    Ready S d n e'
  instant : ∀ {late e e'}, B late e e' → ∀ y ∈ instant e', ∃ z ∈ instant e, Z z y

theorem defined_exchanged {n n' : SrcNode} (h : ExchangedNode B n n') :
    defined n'.defs = defined n.defs := by
  have := h.defs
  revert this
  generalize n.defs = l
  generalize n'.defs = l'
  intro h
  induction h with
  | nil => rfl
  | cons hab _ ih =>
    simp only [defined, List.flatMap_cons] at ih ⊢
    rw [ih]
    cases hab <;> rfl

theorem mem_right {α β : Type} {R : α → β → Prop} {l : List α} {l' : List β}
    (h : List.Forall₂ R l l') : ∀ b ∈ l', ∃ a ∈ l, R a b := by
  induction h with
  | nil => intro b hb; cases hb
  | cons hab _ ih =>
    intro b hb
    rcases List.mem_cons.1 hb with rfl | hb
    · exact ⟨_, List.mem_cons_self .., hab⟩
    · obtain ⟨a, ha, h⟩ := ih b hb
      exact ⟨a, List.mem_cons_of_mem _ ha, h⟩

theorem legalStmt_exchanged {Z : String → String → Prop} (hk : Keeps S Z B) {st st' : SrcStmt}
    (h : ExchangedStmt B st st') (hl : LegalStmt S st) : LegalStmt S st' := by
  cases h with
  | def_ h =>
    obtain ⟨⟨t, h1, h2⟩, ⟨k, k', h3, h4, h5⟩, h6⟩ := hl
    obtain ⟨l, g1, g2⟩ := hasClk_exchanged hk.clk h h4
    exact ⟨⟨t, h1, hasTy_exchanged hk.ty h h2⟩, ⟨k, l, h3, g1, fun hn =>
      (Eased.refl _).same g2 (h5 hn)⟩, ready_exchanged hk.ready h (fun _ => rfl) h6⟩
  | assert h =>
    obtain ⟨h2, ⟨k, h4, h5⟩, h6⟩ := hl
    obtain ⟨l, g1, g2⟩ := hasClk_exchanged hk.clk h h4
    exact ⟨hasTy_exchanged hk.ty h h2, ⟨l, g1, g2.always h5⟩,
      ready_exchanged hk.ready h (fun _ => rfl) h6⟩

theorem transGen_closed {α : Type} {r s : α → α → Prop}
    (h : ∀ a b, s a b → Relation.TransGen r a b) {a b : α} (hs : Relation.TransGen s a b) :
    Relation.TransGen r a b := by
  induction hs with
  | single h1 => exact h _ _ h1
  | tail _ h1 ih => exact ih.trans (h _ _ h1)

theorem legalNode_exchanged {o : NodeOptions} {consts : String → Option TyBase}
    {nodes : String → Option Sig} {n n' : SrcNode} {Z : String → String → Prop}
    (h : ExchangedNode B n n') (hk : Keeps (scope o consts nodes n) Z B) (hZr : ∀ z, Z z z)
    (hZ : ∀ z y, Z z y → z = y ∨ Relation.TransGen (DefinedFrom n.defs) z y)
    (hl : LegalNode o consts nodes n) : LegalNode o consts nodes n' := by
  have hs : scope o consts nodes n' = scope o consts nodes n := by
    rw [scope, scope, h.inputs, h.outputs, h.locals]
  have hd := defined_exchanged h
  refine ⟨by rw [h.inputs, h.outputs, h.locals]; exact hl.interface,
    by rw [h.inputs, h.outputs, h.locals]; exact hl.vars, fun st hst => ?_,
    by rw [h.inputs, hd]; exact hl.inputs, by rw [hd]; exact hl.once,
    by rw [h.outputs, h.locals, hd]; exact hl.everything, fun x hx => hl.causal x ?_⟩
  · obtain ⟨st₀, h0, h1⟩ := mem_right h.defs st hst
    rw [hs]
    exact legalStmt_exchanged hk h1 (hl.stmts st₀ h0)
  · refine transGen_closed ?_ hx
    rintro a b ⟨q, e', h1, h2, h3⟩
    obtain ⟨st₀, h0, h4⟩ := mem_right h.defs _ h1
    cases h4 with
    | @def_ _ e _ h4 =>
      obtain ⟨z, g1, g2⟩ := instant_exchanged hZr hk.instant h4 b h3
      have first : Relation.TransGen (DefinedFrom n.defs) a z := .single ⟨q, e, h0, h2, g1⟩
      rcases hZ z b g2 with rfl | h5
      · exact first
      · exact first.trans h5

/-! ## Programs -/

/-- What rewriting a node must keep for the program to stay legal. -/
structure KeepsNode (R : Bool → SrcNode → SrcNode → Prop) : Prop where
  name : ∀ {u n n'}, R u n n' → n'.name = n.name
  inputs : ∀ {u n n'}, R u n n' → argTypes n'.inputs = argTypes n.inputs
  outputs : ∀ {u n n'}, R u n n' → argTypes n'.outputs = argTypes n.outputs
  legal : ∀ {o : NodeOptions} {consts nodes n n'}, R o.universalPre n n' →
    LegalNode o consts nodes n → LegalNode o consts nodes n'
  calls : ∀ {u n n'}, R u n n' → ∀ st' ∈ n'.defs, ∀ g ∈ callees (SrcStmt.expr st'),
    ∃ st ∈ n.defs, g ∈ callees (SrcStmt.expr st)

theorem legal_rewritten {R : Bool → SrcNode → SrcNode → Prop} (hR : KeepsNode R) {p r : SrcProg}
    (hs : List.Forall₂ (Rewritten R) p r) (h : Legal p) : Legal r := by
  have e1 : r.filterMap constant = p.filterMap constant := by
    clear h
    induction hs with
    | nil => rfl
    | @cons a b _ _ hab _ ih =>
      have : constant b = constant a := by cases hab <;> rfl
      rw [List.filterMap_cons, List.filterMap_cons, this, ih]
  have e2 : r.filterMap nodeSig = p.filterMap nodeSig := by
    clear h e1
    induction hs with
    | nil => rfl
    | @cons a b _ _ hab _ ih =>
      have : nodeSig b = nodeSig a := by
        cases hab with
        | same => rfl
        | node hr => simp [nodeSig, signature, hR.name hr, hR.inputs hr, hR.outputs hr]
      rw [List.filterMap_cons, List.filterMap_cons, this, ih]
  have hq := mem_right hs
  refine ⟨fun d hd a ha => ?_, by rw [e1]; exact h.constNames, by rw [e2]; exact h.nodeNames,
    fun d hd => ?_, fun x hx => h.constCycles x ?_, fun f hf => h.nodeCycles f ?_⟩
  · obtain ⟨d', hd', hs'⟩ := hq d hd
    cases hs' with
    | same => exact h.attributes d hd' a ha
    | node => exact h.attributes _ hd' a ha
  · obtain ⟨d', hd', hs'⟩ := hq d hd
    rw [e1, e2]
    cases hs' with
    | same => exact h.items _ hd'
    | @node attrs n n' hr => exact hR.legal (o := meaning attrs) hr (h.items _ hd')
  · refine Relation.TransGen.mono ?_ x x hx
    rintro a b ⟨attrs, c, h1, h2⟩
    obtain ⟨d', hd', hs'⟩ := hq _ h1
    cases hs'
    exact ⟨attrs, c, hd', h2⟩
  · refine Relation.TransGen.mono ?_ f f hf
    rintro a b ⟨attrs, n, h1, h2, st, h3, h4⟩
    obtain ⟨d', hd', hs'⟩ := hq _ h1
    cases hs' with
    | same => exact ⟨attrs, n, hd', h2, st, h3, h4⟩
    | node hr =>
      obtain ⟨st₀, g1, g2⟩ := hR.calls hr st h3 b h4
      exact ⟨attrs, _, hd', by rw [← hR.name hr]; exact h2, st₀, g1, g2⟩

theorem generics_rewritten {R : Bool → SrcNode → SrcNode → Prop} {p r : SrcProg}
    (hs : List.Forall₂ (Rewritten R) p r) (h : DistinctGenerics p) : DistinctGenerics r := by
  intro d hd
  obtain ⟨d', hd', hs'⟩ := mem_right hs d hd
  have := h d' hd'
  cases hs' <;> exact this

/-- A rewritten program is accepted if the original is. -/
theorem accepted_rewritten {R : Bool → SrcNode → SrcNode → Prop} (hR : KeepsNode R) {p r : SrcProg}
    (hg : DistinctGenerics p) (hs : List.Forall₂ (Rewritten R) p r) (h : Accepted p) : Accepted r :=
  (C50_accepted (generics_rewritten hs hg)).2 (legal_rewritten hR hs ((C50_accepted hg).1 h))

/-- And it satisfies the conditions about registers. -/
theorem tidy_rewritten {R : Bool → SrcNode → SrcNode → Prop}
    (hR : ∀ {n n'}, R true n n' → Tidy n → Tidy n') {p r : SrcProg}
    (hs : List.Forall₂ (Rewritten R) p r) (h : TidyProg p) : TidyProg r := by
  intro attrs n hd hu
  obtain ⟨d', hd', hs'⟩ := mem_right hs _ hd
  cases hs' with
  | same => exact h attrs n hd' hu
  | node hr =>
    rw [hu] at hr
    exact hR hr (h attrs _ hd' hu)

theorem tidy_exchanged {n n' : SrcNode} (h : ExchangedNode B n n')
    (hG : ∀ {late e e'}, B late e e' → ∀ y ∈ guards e', y ∈ guards e ∨ y ∈ argNames n.inputs)
    (hF : ∀ {late e e'}, B late e e' → noOneTuple e = true → noOneTuple e' = true) (ht : Tidy n) :
    Tidy n' := by
  refine ⟨⟨?_, ?_⟩, ?_⟩
  · rw [h.inputs, h.outputs, h.locals]
    exact ht.clocks.declared
  · intro st hst x hx
    obtain ⟨st₀, h0, h1⟩ := mem_right h.defs st hst
    rw [h.inputs]
    cases h1 with
    | def_ h1 =>
      rcases guards_exchanged hG h1 x hx with k | k
      · exact ht.clocks.used _ h0 x k
      · exact k
    | assert h1 =>
      rcases guards_exchanged hG h1 x hx with k | k
      · exact ht.clocks.used _ h0 x k
      · exact k
  · intro st hst
    obtain ⟨st₀, h0, h1⟩ := mem_right h.defs st hst
    cases h1 with
    | def_ h1 => exact flat_exchanged hF h1 (ht.flat _ h0)
    | assert h1 => exact flat_exchanged hF h1 (ht.flat _ h0)

theorem calls_exchanged {n n' : SrcNode} (h : ExchangedNode B n n') {C : List String}
    (hC : ∀ {late e e'}, B late e e' → ∀ y ∈ callees e', y ∈ callees e ∨ y ∈ C)
    (hCn : ∀ g ∈ C, ∃ st ∈ n.defs, g ∈ callees (SrcStmt.expr st)) :
    ∀ st' ∈ n'.defs, ∀ g ∈ callees (SrcStmt.expr st'),
      ∃ st ∈ n.defs, g ∈ callees (SrcStmt.expr st) := by
  intro st hst g hg
  obtain ⟨st₀, h0, h1⟩ := mem_right h.defs st hst
  cases h1 with
  | def_ h1 =>
    rcases callees_exchanged hC h1 g hg with k | k
    · exact ⟨_, h0, k⟩
    · exact hCn g k
  | assert h1 =>
    rcases callees_exchanged hC h1 g hg with k | k
    · exact ⟨_, h0, k⟩
    · exact hCn g k

/-! ## Parentheses -/

theorem wraps_keeps : Keeps S Eq Wraps where
  ty := by
    rintro late e e' t rfl h
    rw [HasTy]
    exact ⟨[t], by rw [HasTys]; exact ⟨t, [], rfl, h, by rw [HasTys]⟩, rfl⟩
  clk := by
    rintro late e e' k rfl h
    exact ⟨k, by rw [HasClk, TupleClk]; exact ⟨h, by rw [SameClks]; trivial⟩, .refl _⟩
  ready := by
    rintro late e e' d n rfl - h
    rw [Static.Ready, AllReady]
    exact ⟨h, by rw [AllReady]; trivial⟩
  instant := by
    rintro late e e' rfl y h
    rw [Static.instant, instants, instants, List.append_nil] at h
    exact ⟨y, h, rfl⟩

theorem wraps_keepsNode : KeepsNode (fun _ n n' => ExchangedNode Wraps n n') where
  name h := h.name
  inputs h := by rw [h.inputs]
  outputs h := by rw [h.outputs]
  legal h hl := legalNode_exchanged h wraps_keeps (fun _ => rfl) (fun _ _ h => .inl h) hl
  calls h := calls_exchanged h (C := []) (by
    rintro late e e' rfl y h
    rw [callees, calleesList, calleesList, List.append_nil] at h
    exact .inl h) (fun g h => by cases h)

theorem wraps_tidy {n n' : SrcNode} (h : ExchangedNode Wraps n n') (ht : Tidy n) : Tidy n' :=
  tidy_exchanged h (by
    rintro late e e' rfl y h
    rw [guards, guardsList, guardsList, List.append_nil] at h
    exact .inl h) (by
    rintro late e e' rfl h
    simp [noOneTuple, noOneTuples, h]) ht

/-! ## Definitions -/

theorem varsOf_clk {as : List ArgsTy} (hw : ∀ a ∈ as, a.clk ≠ .adaptative) {v : Var}
    (h : v ∈ varsOf as) : v.clk ≠ .adaptative := by
  simp only [varsOf, List.mem_flatMap, List.mem_map] at h
  obtain ⟨a, ha, x, -, rfl⟩ := h
  have := hw a ha
  revert this
  cases a.clk with
  | implicit => simp [Clock.intoClk]
  | explicit b x => cases b <;> simp [Clock.intoClk]
  | adaptative => simp

theorem unfolds_keeps {u : Bool} {o : NodeOptions} {consts : String → Option TyBase}
    {nodes : String → Option Sig} {n : SrcNode} (hl : LegalNode o consts nodes n) (hw : WrittenClocks n) {x : String}
    {d : Src} (hd : .def_ (.var x) d ∈ n.defs) :
    Keeps (scope o consts nodes n) (fun z y => z = y ∨ (z = x ∧ y ∈ instant d))
      (Unfolds u (SrcNode.vars n) x d) := by
  obtain ⟨⟨t, h1, h2⟩, ⟨k, k', h3, h4, h5⟩, h6⟩ := hl.stmts _ hd
  rw [TargetTy] at h1
  rw [TargetClk] at h3
  obtain ⟨v, hv, rfl⟩ := h1
  obtain ⟨v', hv', rfl⟩ := h3
  rw [hv] at hv'
  cases hv'
  have hm : v ∈ varsOf (n.inputs ++ n.outputs ++ n.locals) := List.mem_of_find?_eq_some hv
  constructor
  · rintro late e e' t ⟨rfl, rfl, -⟩ h
    rw [HasTy, hv] at h
    subst h
    rw [HasTy]
    exact ⟨[.single v.ty], by rw [HasTys]; exact ⟨_, [], rfl, h2, by rw [HasTys]⟩, rfl⟩
  · rintro late e e' t ⟨rfl, rfl, -⟩ h
    rw [HasClk, hv] at h
    subst h
    refine ⟨k', by rw [HasClk, TupleClk]; exact ⟨h4, by rw [SameClks]; trivial⟩, ?_⟩
    rcases h5 (by rw [IsUnit]; exact id) with h | ⟨h, h'⟩
    · exact .inl h.symm
    · have := varsOf_clk hw hm
      revert h h' this
      unfold Eased
      cases v.clk <;> cases k' <;> simp [Always]
  · rintro late e e' d' n' ⟨rfl, rfl, -⟩ hu h
    rw [Static.Ready] at h
    have := h (by rw [hv]; rfl)
    rw [Static.Ready, AllReady]
    refine ⟨ready_later d (by omega) h6 hu, by rw [AllReady]; trivial⟩
  · rintro late e e' ⟨rfl, rfl, -⟩ y h
    rw [Static.instant, instants, instants, List.append_nil] at h
    exact ⟨x, by rw [Static.instant]; exact List.mem_singleton.2 rfl, .inr ⟨rfl, h⟩⟩

theorem unfolded_keepsNode : KeepsNode UnfoldedNode where
  name := fun ⟨_, _, _, _, _, _, h⟩ => h.name
  inputs := fun ⟨_, _, _, _, _, _, h⟩ => by rw [h.inputs]
  outputs := fun ⟨_, _, _, _, _, _, h⟩ => by rw [h.outputs]
  legal := by
    rintro o consts nodes n n' ⟨hw, x, d, -, hd, -, h⟩ hl
    refine legalNode_exchanged h (unfolds_keeps hl hw hd) (fun _ => .inl rfl) ?_ hl
    rintro z y (rfl | ⟨rfl, hy⟩)
    · exact .inl rfl
    · exact .inr (.single ⟨_, d, hd, by rw [targets]; exact List.mem_singleton.2 rfl, hy⟩)
  calls := by
    rintro u n n' ⟨-, x, d, -, hd, -, h⟩
    refine calls_exchanged h (C := callees d) ?_ (fun g hg => ⟨_, hd, hg⟩)
    rintro late e e' ⟨rfl, rfl, -⟩ y h
    rw [callees, calleesList, calleesList, List.append_nil] at h
    exact .inr h

theorem unfolded_tidy {u : Bool} {n n' : SrcNode} (h : UnfoldedNode u n n') (ht : Tidy n) :
    Tidy n' := by
  obtain ⟨-, x, d, -, hd, -, h⟩ := h
  refine tidy_exchanged h ?_ ?_ ht
  · rintro late e e' ⟨rfl, rfl, -⟩ y h
    rw [guards, guardsList, guardsList, List.append_nil] at h
    exact .inr (ht.clocks.used _ hd y h)
  · rintro late e e' ⟨rfl, rfl, -⟩ -
    have : noOneTuple d = true := ht.flat _ hd
    simp [noOneTuple, noOneTuples, this]

end

end Chandeliers.Rep
