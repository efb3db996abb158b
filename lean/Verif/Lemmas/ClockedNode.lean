import Verif.Lemmas.ClockedTranslate
import Verif.Lemmas.PresenceNode

/-! # Clocked nodes -/

set_option autoImplicit false
set_option linter.unusedSectionVars false

namespace Chandeliers.Uni
open Chandeliers.San Chandeliers.Spec Chandeliers.Syn Chandeliers.Den Chandeliers.Pres

/-! ## Proper expressions -/

section
variable (A : Arith) (glob : Globals) (ms : List Machine) (X : String → Nat → Nillable Scalar)
  (D : String → Clock) (t : Nat)

mutual
/-- `Proper` of compiled expressions; reads are not delayed. -/
def ProperX : Expr → Prop
  | .lit _ => True
  | .global _ => True
  | .var _ d => d = 0
  | .tuple es => ProperXs es
  | .dummyPre e => ProperX e
  | .dummyParen e => ProperX e
  | .bin _ l r => ProperX l ∧ ProperX r
  | .un _ e => ProperX e
  | .cmp _ l r => ProperX l ∧ ProperX r
  | .clock _ e b => ProperX e ∧ ProperX b
  | .later _ _ _ => False
  | .fetchPre _ f => ProperX f
  | .fetchFby _ i f => ProperX i ∧ ProperX f
  | .flip _ i c => ProperX i ∧ ProperX c ∧
      ∀ u, u ≤ t → onX X D i u = true → (valX A glob ms X D i u).isSome
  | .ifx b y n => ProperX b ∧ ProperX y ∧ ProperX n ∧
      ∀ u, u ≤ t → onX X D b u = true → onX X D y u = onX X D n u
  | .merge b y n => ProperX b ∧ ProperX y ∧ ProperX n
  | .substep d _ a => d = 0 ∧ ProperX a
/-- All of them. -/
def ProperXs : List Expr → Prop
  | [] => True
  | e :: es => ProperX e ∧ ProperXs es
end

end

section
variable {A : Arith} {glob : Globals} {ms : List Machine} {X : String → Nat → Nillable Scalar}
  {D : String → Clock} {nodes : String → Option Machine}

mutual
theorem properX_mono {t u : Nat} (hu : u ≤ t) : (e : Expr) →
    ProperX A glob ms X D t e → ProperX A glob ms X D u e
  | .lit _, h => h
  | .global _, h => h
  | .var _ d, h => h
  | .tuple es, h => by
    have := properXs_mono hu es h
    simpa [ProperX] using this
  | .dummyPre e, h => by have := properX_mono hu e h; simpa [ProperX] using this
  | .dummyParen e, h => by have := properX_mono hu e h; simpa [ProperX] using this
  | .bin _ l r, h => ⟨properX_mono hu l h.1, properX_mono hu r h.2⟩
  | .un _ e, h => by have := properX_mono hu e h; simpa [ProperX] using this
  | .cmp _ l r, h => ⟨properX_mono hu l h.1, properX_mono hu r h.2⟩
  | .clock _ e b, h => ⟨properX_mono hu e h.1, properX_mono hu b h.2⟩
  | .later _ _ _, h => h
  | .fetchPre _ f, h => by have := properX_mono hu f h; simpa [ProperX] using this
  | .fetchFby _ i f, h => ⟨properX_mono hu i h.1, properX_mono hu f h.2⟩
  | .flip _ i c, h => ⟨properX_mono hu i h.1, properX_mono hu c h.2.1,
      fun w hw => h.2.2 w (Nat.le_trans hw hu)⟩
  | .ifx b y n, h => ⟨properX_mono hu b h.1, properX_mono hu y h.2.1, properX_mono hu n h.2.2.1,
      fun w hw => h.2.2.2 w (Nat.le_trans hw hu)⟩
  | .merge b y n, h => ⟨properX_mono hu b h.1, properX_mono hu y h.2.1, properX_mono hu n h.2.2⟩
  | .substep d _ a, h => ⟨h.1, properX_mono hu a h.2⟩
theorem properXs_mono {t u : Nat} (hu : u ≤ t) : (es : List Expr) →
    ProperXs A glob ms X D t es → ProperXs A glob ms X D u es
  | [], h => h
  | e :: es, h => ⟨properX_mono hu e h.1, properXs_mono hu es h.2⟩
end

theorem properX_paren {xs : List Expr} {b : Bool} {t : Nat} (h : ProperXs A glob ms X D t xs) :
    ProperX A glob ms X D t (parenthesise xs b) := by
  unfold parenthesise
  split
  · exact h.1
  · exact h

theorem properX_compose {op : LOp} {x y : Expr} {t : Nat} (hx : ProperX A glob ms X D t x)
    (hy : ProperX A glob ms X D t y) : ProperX A glob ms X D t (op.compose x y) := by
  cases op <;> exact ⟨hx, hy⟩

mutual
/-- `Proper` is preserved. -/
theorem translate_proper {v : View} (hu : v.useRegisters = true) (hd : v.depth = 0) {t : Nat} :
    (e : Src) → ∀ {c c' : ExprCtx} {x : Expr}, e.translate v c = .ok (x, c') →
    Linked ms nodes c'.blocks → Proper (worldX A glob nodes X v) D t e → ProperX A glob ms X D t x
  | .lit l, c, c', x, h, hL, hp => by
    unfold Src.translate Lit.translate at h
    split at h
    · cases tr_pure_ok.1 h; trivial
    · split at h
      · cases tr_pure_ok.1 h; trivial
      · exact (tr_throw.1 h).elim
    · cases tr_pure_ok.1 h; trivial
    · exact (tr_throw.1 h).elim
    · exact (tr_throw.1 h).elim
  | .var y, c, c', x, h, hL, hp => by
    unfold Src.translate at h
    split at h
    · cases tr_pure_ok.1 h; exact hd
    · cases tr_pure_ok.1 h; trivial
  | .paren es tr, c, c', x, h, hL, hp => by
    unfold Src.translate at h
    obtain ⟨xs, c₁, h1, h2⟩ := tr_bind_ok.1 h
    cases tr_pure_ok.1 h2
    exact properX_paren (translate_properList hu hd es h1 hL hp)
  | .left first rest, c, c', x, h, hL, hp => by
    unfold Src.translate at h
    obtain ⟨acc, c₁, h1, h2⟩ := tr_bind_ok.1 h
    exact translate_properLeft hu hd rest h2 hL
      (translate_proper hu hd first h1 (linked_of_prefix hL (blocks_translateLeft rest h2)) hp.1) hp.2
  | .cmp first rest, c, c', x, h, hL, hp => by
    unfold Src.translate at h
    obtain ⟨acc, c₁, h1, h2⟩ := tr_bind_ok.1 h
    exact translate_properCmp hu hd rest h2 hL
      (translate_proper hu hd first h1 (linked_of_prefix hL (blocks_translateCmp rest h2)) hp.1) hp.2
  | .fby first rest, c, c', x, h, hL, hp => by
    unfold Src.translate at h
    obtain ⟨acc, c₁, h1, h2⟩ := tr_bind_ok.1 h
    obtain ⟨before, c₂, h3, h4⟩ := tr_bind_ok.1 h2
    rw [if_pos hu] at h3
    obtain ⟨n', hn'⟩ := fresh_translate first _ c₁ before c₂ h3
    cases acc with
    | none =>
      cases tr_pure_ok.1 h4
      exact translate_proper hu hd first h3 hL hp.1
    | some after =>
      simp only [mkFby, hu, if_true, Except.ok.injEq, Prod.mk.injEq] at h4
      obtain ⟨rfl, rfl⟩ := h4
      exact ⟨translate_proper hu hd first h3 hL hp.1,
        translate_properFby hu hd rest h1 (linked_of_prefix hL hn'.blocks) hp.2 after rfl⟩
  | .arrow first rest, c, c', x, h, hL, hp => by
    unfold Src.translate at h
    obtain ⟨acc, c₁, h1, h2⟩ := tr_bind_ok.1 h
    obtain ⟨before, c₂, h3, h4⟩ := tr_bind_ok.1 h2
    obtain ⟨n', hn'⟩ := fresh_translate first _ c₁ before c₂ h3
    cases acc with
    | none =>
      cases tr_pure_ok.1 h4
      exact translate_proper hu hd first h3 hL hp.1
    | some after =>
      simp only [mkThen, hu, if_true, Except.ok.injEq, Prod.mk.injEq] at h4
      obtain ⟨rfl, rfl⟩ := h4
      cases rest with
      | nil =>
        unfold Src.translateThen at h1
        cases tr_pure_ok.1 h1
      | cons e es =>
      refine ⟨translate_proper hu hd first h3 hL hp.1,
        translate_properThen hu hd (e :: es) h1 (linked_of_prefix hL hn'.blocks) hp.2.1 hp.2.2.2
          after rfl, fun u hut ho => ?_⟩
      rw [translate_val hu first h3 hL u]
      exact hp.2.2.1 u hut ((translate_on hu first h3).symm.trans ho)
  | .ifx b y n, c, c', x, h, hL, hp => by
    unfold Src.translate at h
    obtain ⟨b', c₁, h1, h2⟩ := tr_bind_ok.1 h
    obtain ⟨y', c₂, h3, h4⟩ := tr_bind_ok.1 h2
    obtain ⟨n', c₃, h5, h6⟩ := tr_bind_ok.1 h4
    cases tr_pure_ok.1 h6
    obtain ⟨n₂, hn₂⟩ := fresh_translate y v c₁ y' c₂ h3
    obtain ⟨n₃, hn₃⟩ := fresh_translate n v c₂ n' c' h5
    have hL₂ := linked_of_prefix hL hn₃.blocks
    refine ⟨translate_proper hu hd b h1 (linked_of_prefix hL₂ hn₂.blocks) hp.1,
      translate_proper hu hd y h3 hL₂ hp.2.1, translate_proper hu hd n h5 hL hp.2.2.1,
      fun u hut ho => ?_⟩
    rw [translate_on (A := A) (glob := glob) (nodes := nodes) hu y h3,
      translate_on (A := A) (glob := glob) (nodes := nodes) hu n h5]
    exact hp.2.2.2 u hut ((translate_on hu b h1).symm.trans ho)
  | .merge b y n, c, c', x, h, hL, hp => by
    unfold Src.translate at h
    obtain ⟨b', c₁, h1, h2⟩ := tr_bind_ok.1 h
    obtain ⟨y', c₂, h3, h4⟩ := tr_bind_ok.1 h2
    obtain ⟨n', c₃, h5, h6⟩ := tr_bind_ok.1 h4
    cases tr_pure_ok.1 h6
    obtain ⟨n₂, hn₂⟩ := fresh_translate y v c₁ y' c₂ h3
    obtain ⟨n₃, hn₃⟩ := fresh_translate n v c₂ n' c' h5
    have hL₂ := linked_of_prefix hL hn₃.blocks
    exact ⟨translate_proper hu hd b h1 (linked_of_prefix hL₂ hn₂.blocks) hp.1,
      translate_proper hu hd y h3 hL₂ hp.2.1, translate_proper hu hd n h5 hL hp.2.2⟩
  | .call f es tr, c, c', x, h, hL, hp => by
    unfold Src.translate at h
    obtain ⟨xs, c₁, h1, h2⟩ := tr_bind_ok.1 h
    simp only [mkCall, Except.ok.injEq, Prod.mk.injEq] at h2
    obtain ⟨rfl, rfl⟩ := h2
    exact ⟨hd, properX_paren (translate_properList hu hd es h1
      (linked_of_prefix hL (List.prefix_append _ _)) hp)⟩
  | .pre e, c, c', x, h, hL, hp => by
    unfold Src.translate at h
    rw [if_pos hu] at h
    obtain ⟨id, c₁, h1, h2⟩ := tr_bind_ok.1 h
    obtain ⟨y, c₂, h3, h4⟩ := tr_bind_ok.1 h2
    simp only [mkPre, Except.ok.injEq, Prod.mk.injEq] at h4
    obtain ⟨rfl, rfl⟩ := h4
    have := translate_proper hu hd e h3 hL hp
    exact this
  | .neg e, c, c', x, h, hL, hp => by
    unfold Src.translate at h
    obtain ⟨y, c₁, h1, h2⟩ := tr_bind_ok.1 h
    cases tr_pure_ok.1 h2
    have := translate_proper hu hd e h1 hL hp
    exact this
  | .not e, c, c', x, h, hL, hp => by
    unfold Src.translate at h
    obtain ⟨y, c₁, h1, h2⟩ := tr_bind_ok.1 h
    cases tr_pure_ok.1 h2
    have := translate_proper hu hd e h1 hL hp
    exact this
theorem translate_properList {v : View} (hu : v.useRegisters = true) (hd : v.depth = 0) {t : Nat} :
    (es : List Src) → ∀ {c c' : ExprCtx} {xs : List Expr},
    Src.translateList v es c = .ok (xs, c') → Linked ms nodes c'.blocks →
    ProperAll (worldX A glob nodes X v) D t es → ProperXs A glob ms X D t xs
  | [], c, c', xs, h, hL, hp => by
    unfold Src.translateList at h
    cases tr_pure_ok.1 h
    trivial
  | e :: es, c, c', xs, h, hL, hp => by
    unfold Src.translateList at h
    obtain ⟨x, c₁, h1, h2⟩ := tr_bind_ok.1 h
    obtain ⟨ys, c₂, h3, h4⟩ := tr_bind_ok.1 h2
    cases tr_pure_ok.1 h4
    obtain ⟨n₂, hn₂⟩ := fresh_translateList es v c₁ ys c' h3
    exact ⟨translate_proper hu hd e h1 (linked_of_prefix hL hn₂.blocks) hp.1,
      translate_properList hu hd es h3 hL hp.2⟩
theorem translate_properLeft {v : View} (hu : v.useRegisters = true) (hd : v.depth = 0) {t : Nat} :
    (rest : List (LOp × Src)) → ∀ {c c' : ExprCtx} {acc x : Expr},
    Src.translateLeft v acc rest c = .ok (x, c') → Linked ms nodes c'.blocks →
    ProperX A glob ms X D t acc → ProperLeft (worldX A glob nodes X v) D t rest →
    ProperX A glob ms X D t x
  | [], c, c', acc, x, h, hL, ha, hp => by
    unfold Src.translateLeft at h
    cases tr_pure_ok.1 h
    exact ha
  | (op, e) :: rest, c, c', acc, x, h, hL, ha, hp => by
    unfold Src.translateLeft at h
    obtain ⟨y, c₁, h1, h2⟩ := tr_bind_ok.1 h
    exact translate_properLeft hu hd rest h2 hL (properX_compose ha (translate_proper hu hd e h1
      (linked_of_prefix hL (blocks_translateLeft rest h2)) hp.1)) hp.2
theorem translate_properCmp {v : View} (hu : v.useRegisters = true) (hd : v.depth = 0) {t : Nat} :
    (rest : List (CmpOp × Src)) → ∀ {c c' : ExprCtx} {acc x : Expr},
    Src.translateCmp v acc rest c = .ok (x, c') → Linked ms nodes c'.blocks →
    ProperX A glob ms X D t acc → ProperCmp (worldX A glob nodes X v) D t rest →
    ProperX A glob ms X D t x
  | [], c, c', acc, x, h, hL, ha, hp => by
    unfold Src.translateCmp at h
    cases tr_pure_ok.1 h
    exact ha
  | [(op, e)], c, c', acc, x, h, hL, ha, hp => by
    unfold Src.translateCmp at h
    obtain ⟨y, c₁, h1, h2⟩ := tr_bind_ok.1 h
    cases tr_pure_ok.1 h2
    exact ⟨ha, translate_proper hu hd e h1 hL hp.1⟩
  | (_, _) :: (_, _) :: _, c, c', acc, x, h, hL, ha, hp => by
    unfold Src.translateCmp at h
    obtain ⟨_, c₁, h1, h2⟩ := tr_bind_ok.1 h
    obtain ⟨_, c₂, h3, h4⟩ := tr_bind_ok.1 h2
    exact (tr_throw.1 h4).elim
theorem translate_properFby {v : View} (hu : v.useRegisters = true) (hd : v.depth = 0) {t : Nat} :
    (es : List Src) → ∀ {i : Nat} {c c' : ExprCtx} {o : Option Expr},
    Src.translateFby v i es c = .ok (o, c') → Linked ms nodes c'.blocks →
    ProperAll (worldX A glob nodes X v) D t es → ∀ x, o = some x → ProperX A glob ms X D t x
  | [], i, c, c', o, h, hL, hp => by
    unfold Src.translateFby at h
    cases tr_pure_ok.1 h
    exact fun x hx => by cases hx
  | e :: es, i, c, c', o, h, hL, hp => by
    unfold Src.translateFby at h
    obtain ⟨acc, c₁, h1, h2⟩ := tr_bind_ok.1 h
    obtain ⟨before, c₂, h3, h4⟩ := tr_bind_ok.1 h2
    rw [if_pos hu] at h3
    obtain ⟨n', hn'⟩ := fresh_translate e _ c₁ before c₂ h3
    cases acc with
    | none =>
      cases tr_pure_ok.1 h4
      intro x hx
      cases hx
      exact translate_proper hu hd e h3 hL hp.1
    | some after =>
      obtain ⟨y, c₃, h5, h6⟩ := tr_bind_ok.1 h4
      cases tr_pure_ok.1 h6
      simp only [mkFby, hu, if_true, Except.ok.injEq, Prod.mk.injEq] at h5
      obtain ⟨rfl, rfl⟩ := h5
      intro x hx
      cases hx
      exact ⟨translate_proper hu hd e h3 hL hp.1,
        translate_properFby hu hd es h1 (linked_of_prefix hL hn'.blocks) hp.2 after rfl⟩
theorem translate_properThen {v : View} (hu : v.useRegisters = true) (hd : v.depth = 0) {t : Nat} :
    (es : List Src) → ∀ {i : Nat} {c c' : ExprCtx} {o : Option Expr},
    Src.translateThen v i es c = .ok (o, c') → Linked ms nodes c'.blocks →
    ProperAll (worldX A glob nodes X v) D t es → Started (worldX A glob nodes X v) D t es →
    ∀ x, o = some x → ProperX A glob ms X D t x
  | [], i, c, c', o, h, hL, hp, hs => by
    unfold Src.translateThen at h
    cases tr_pure_ok.1 h
    exact fun x hx => by cases hx
  | e :: es, i, c, c', o, h, hL, hp, hs => by
    unfold Src.translateThen at h
    obtain ⟨acc, c₁, h1, h2⟩ := tr_bind_ok.1 h
    obtain ⟨before, c₂, h3, h4⟩ := tr_bind_ok.1 h2
    obtain ⟨n', hn'⟩ := fresh_translate e _ c₁ before c₂ h3
    cases acc with
    | none =>
      cases tr_pure_ok.1 h4
      intro x hx
      cases hx
      exact translate_proper hu hd e h3 hL hp.1
    | some after =>
      obtain ⟨y, c₃, h5, h6⟩ := tr_bind_ok.1 h4
      cases tr_pure_ok.1 h6
      simp only [mkThen, hu, if_true, Except.ok.injEq, Prod.mk.injEq] at h5
      obtain ⟨rfl, rfl⟩ := h5
      intro x hx
      cases hx
      cases es with
      | nil =>
        unfold Src.translateThen at h1
        cases tr_pure_ok.1 h1
      | cons e' es =>
      refine ⟨translate_proper hu hd e h3 hL hp.1,
        translate_properThen hu hd (e' :: es) h1 (linked_of_prefix hL hn'.blocks) hp.2 hs.2 after rfl,
        fun u hut ho => ?_⟩
      rw [translate_val hu e h3 hL u]
      exact hs.1 u hut ((translate_on hu e h3).symm.trans ho)
end

/-! ## Clocks -/

theorem due_active (k : Clock) (t : Nat) : due X k t = true ↔ Active X k.intoClk t := by
  cases k with
  | implicit => simp [due, Clock.intoClk, Active]
  | adaptative => simp [due, Clock.intoClk, Active]
  | explicit b x =>
    have : Nillable.isBool b (X x t) = true ↔ X x t = .defined (.bool b) := by
      cases X x t with
      | nil => simp [Nillable.isBool]
      | defined a => cases a <;> simp [Nillable.isBool]
    cases b <;> simpa [due, Clock.intoClk, Active] using this

theorem isBool_iff {b : Bool} {a : Nillable Scalar} :
    Nillable.isBool b a = true ↔ a = .defined (.bool b) := by
  cases a with
  | nil => simp [Nillable.isBool]
  | defined a => cases a <;> simp [Nillable.isBool]

theorem active_same {k k' : Clk} (h : SameClk k k') (t : Nat) : Active X k t ↔ Active X k' t := by
  rcases h with rfl | ⟨h1, h2⟩
  · exact Iff.rfl
  · cases k <;> cases k' <;> first | exact h1.elim | exact h2.elim | simp [Active]

theorem active_meet {k k' : Clk} (h : Compatible k k') (t : Nat) :
    Active X (Clk.meet k k') t ↔ (Active X k t ∧ Active X k' t) := by
  rcases h with rfl | rfl | rfl
  · simp [Clk.meet, Active]
  · cases k <;> simp [Clk.meet, Active]
  · cases k <;> simp [Clk.meet]

mutual
/-- An expression is present at the instants of its clock. -/
theorem on_active {strict : Bool} {K : String → Option Clk}
    (hK : ∀ x k, K x = some k → (D x).intoClk = k) {t : Nat} : (e : Expr) → ∀ {k : Clk},
    HasClock strict K e k → (onX X D e t = true ↔ Active X k t)
  | .lit _, k, h => by cases h; simp [onX, Active]
  | .global _, k, h => by cases h; simp [onX, Active]
  | .var x d, k, h => by
    cases h with
    | var h => rw [onX, due_active, hK x k h]
  | .tuple es, k, h => by
    cases h with
    | empty => simp [onX, onXs, Active]
    | tuple h h' =>
      rw [onX, onXs, Bool.and_eq_true, on_active hK _ h]
      have := ons_active hK (t := t) _ h'
      exact ⟨fun a => a.1, fun a => ⟨a, (onXs_all _).2 fun e he => (this e he).2 a⟩⟩
  | .dummyPre e, k, h => by
    cases h with
    | dummyPre h _ => have := on_active hK (t := t) e h; simpa [onX] using this
  | .dummyParen e, k, h => by
    cases h with
    | dummyParen h => have := on_active hK (t := t) e h; simpa [onX] using this
  | .bin _ l r, k, h => by
    cases h with
    | bin h h' hk =>
      rw [onX, Bool.and_eq_true, on_active hK l h, on_active hK r h', active_meet hk]
  | .un _ e, k, h => by
    cases h with
    | un h => have := on_active hK (t := t) e h; simpa [onX] using this
  | .cmp _ l r, k, h => by
    cases h with
    | cmp h h' hk =>
      rw [onX, Bool.and_eq_true, on_active hK l h, on_active hK r h', active_meet hk]
  | .clock op e b, k, h => by
    cases h with
    | clock h h' hk =>
      rw [onX, openedX, isBool_iff]
      cases op <;> simp [guardClk, Active]
      rfl
  | .later _ b a, k, h => by
    cases h with
    | later h h' hs => have := on_active hK (t := t) b h; simpa [onX] using this
  | .fetchPre _ f, k, h => by
    cases h with
    | fetchPre h => have := on_active hK (t := t) f h; simpa [onX] using this
  | .fetchFby _ i f, k, h => by
    cases h with
    | fetchFby h h' hk =>
      have := on_active hK (t := t) i h'
      rw [active_same hk]
      simpa [onX] using this
  | .flip _ i c, k, h => by
    cases h with
    | flip h h' hk =>
      have := on_active hK (t := t) i h
      rw [active_same hk]
      simpa [onX] using this
  | .ifx b y n, k, h => by
    cases h with
    | ifx h h' h'' hk hk' =>
      rw [onX, Bool.and_eq_true, Bool.and_eq_true, on_active hK b h, on_active hK y h',
        on_active hK n h'', active_meet hk', active_meet hk, and_assoc]
  | .merge b y n, k, h => by
    cases h with
    | merge h h' h'' hk hk' => rw [onX, onX, due_active, hK _ _ h]
  | .substep _ _ a, k, h => by
    cases h with
    | substep h => have := on_active hK (t := t) a h; simpa [onX] using this
theorem ons_active {strict : Bool} {K : String → Option Clk}
    (hK : ∀ x k, K x = some k → (D x).intoClk = k) {t : Nat} : (es : List Expr) → ∀ {k : Clk},
    HaveClock strict K es k → ∀ e ∈ es, (onX X D e t = true ↔ Active X k t)
  | [], k, h => by simp
  | e :: es, k, h => by
    cases h with
    | cons h hk h' =>
      intro e' he
      rcases List.mem_cons.1 he with he | he
      · rw [he, active_same hk]; exact on_active hK e h
      · exact ons_active hK es h' e' he
theorem onXs_all {t : Nat} : (es : List Expr) → (onXs X D es t = true ↔ ∀ e ∈ es, onX X D e t = true)
  | [] => by simp [onXs]
  | e :: es => by rw [onXs, Bool.and_eq_true, onXs_all es]; simp
end

end

/-! ## Tidy expressions -/

mutual
/-- The variables that an expression, or the initial values of its registers, reads now. -/
def nowVars : Expr → List String
  | .lit _ => []
  | .global _ => []
  | .var x d => if d = 0 then [x] else []
  | .tuple es => nowVarsList es
  | .dummyPre e => nowVars e
  | .dummyParen e => nowVars e
  | .bin _ l r => nowVars l ++ nowVars r
  | .un _ e => nowVars e
  | .cmp _ l r => nowVars l ++ nowVars r
  | .clock _ e b => nowVars e ++ nowVars b
  | .later _ e e' => nowVars e ++ nowVars e'
  | .fetchPre _ _ => []
  | .fetchFby _ i _ => nowVars i
  | .flip _ e e' => nowVars e ++ nowVars e'
  | .ifx b y n => nowVars b ++ (nowVars y ++ nowVars n)
  | .merge b y n => nowVars b ++ (nowVars y ++ nowVars n)
  | .substep _ _ e => nowVars e
/-- Of a list. -/
def nowVarsList : List Expr → List String
  | [] => []
  | e :: es => nowVars e ++ nowVarsList es
end

section
variable {A : Arith} {glob : Globals} {ms : List Machine} {F : Flow} {D : String → Clock}

/-- What is known around an expression at instant `t`. -/
structure Fit (A : Arith) (glob : Globals) (ms : List Machine) (F : Flow) (D : String → Clock)
    (t : Nat) (vars : List String) (fs : List (Nat × Expr)) : Prop where
  clocks : ∀ p ∈ fs, ∀ u, u ≤ t → F.C p.1 u = onX F.X D p.2 u
  past : ∀ u, u < t → ∀ x, Absent F.X D x u
  now : ∀ x ∈ vars, Absent F.X D x t

theorem Fit.sub {t : Nat} {vars vars' : List String} {fs fs' : List (Nat × Expr)}
    (h : Fit A glob ms F D t vars fs) (hv : ∀ x ∈ vars', x ∈ vars) (hf : ∀ p ∈ fs', p ∈ fs) :
    Fit A glob ms F D t vars' fs' :=
  ⟨fun p hp => h.clocks p (hf p hp), h.past, fun x hx => h.now x (hv x hx)⟩

theorem Fit.before {t u : Nat} {vars vars' : List String} {fs fs' : List (Nat × Expr)}
    (h : Fit A glob ms F D t vars fs) (hu : u < t) (hf : ∀ p ∈ fs', p ∈ fs) :
    Fit A glob ms F D u vars' fs' :=
  ⟨fun p hp w hw => h.clocks p (hf p hp) w (by omega), fun w hw => h.past w (by omega),
    fun x _ => h.past u hu x⟩

theorem Fit.upto {t u : Nat} {vars vars' : List String} {fs fs' : List (Nat × Expr)}
    (h : Fit A glob ms F D t vars fs) (hu : u ≤ t) (hv : ∀ x ∈ vars', x ∈ vars)
    (hf : ∀ p ∈ fs', p ∈ fs) : Fit A glob ms F D u vars' fs' := by
  rcases Nat.lt_or_eq_of_le hu with hu | rfl
  · exact h.before hu hf
  · exact h.sub hv hf

variable {strict : Bool} {K : String → Option Clk}

mutual
theorem tidy_of_clock (hK : ∀ x k, K x = some k → (D x).intoClk = k)
    (hD : ∀ x, D x ≠ .adaptative) : (e : Expr) → ∀ {t : Nat} {k : Clk}, HasClock strict K e k →
    ProperX A glob ms F.X D t e → Fit A glob ms F D t (nowVars e) (Spec.fetches e) →
    Tidy A glob ms F D e t
  | .lit _, t, k, h, hp, hf => trivial
  | .global _, t, k, h, hp, hf => trivial
  | .var x d, t, k, h, hp, hf => by
    obtain rfl : d = 0 := hp
    exact ⟨rfl, hf.now x (by simp [nowVars])⟩
  | .tuple es, t, k, h, hp, hf => by
    have h1 : ∃ k', HaveClock strict K es k' := by
      cases h with
      | empty => exact ⟨.adaptative, .nil⟩
      | tuple h h' => exact ⟨_, .cons h (.inl rfl) h'⟩
    obtain ⟨k', h1⟩ := h1
    refine ⟨tidyList_of_clock hK hD es h1 hp (by simpa [nowVars, Spec.fetches] using hf), fun e he => ?_⟩
    have h2 := ons_active (X := F.X) (D := D) (t := t) hK es h1
    rw [Bool.eq_iff_iff, onXs_all, h2 e he]
    exact ⟨fun a e' he' => (h2 e' he').2 a, fun a => (h2 e he).1 (a e he)⟩
  | .dummyPre e, t, k, h, hp, hf => by
    cases h with
    | dummyPre h _ =>
      have := tidy_of_clock hK hD e h hp (by simpa [nowVars, Spec.fetches] using hf)
      simpa [Tidy] using this
  | .dummyParen e, t, k, h, hp, hf => by
    cases h with
    | dummyParen h =>
      have := tidy_of_clock hK hD e h hp (by simpa [nowVars, Spec.fetches] using hf)
      simpa [Tidy] using this
  | .bin _ l r, t, k, h, hp, hf => by
    cases h with
    | bin h h' hk =>
      exact ⟨tidy_of_clock hK hD l h hp.1 (hf.sub (by simp [nowVars]; tauto) (by simp [Spec.fetches]; tauto)),
        tidy_of_clock hK hD r h' hp.2 (hf.sub (by simp [nowVars]; tauto) (by simp [Spec.fetches]; tauto))⟩
  | .un _ e, t, k, h, hp, hf => by
    cases h with
    | un h =>
      have := tidy_of_clock hK hD e h hp (by simpa [nowVars, Spec.fetches] using hf)
      simpa [Tidy] using this
  | .cmp _ l r, t, k, h, hp, hf => by
    cases h with
    | cmp h h' hk =>
      exact ⟨tidy_of_clock hK hD l h hp.1 (hf.sub (by simp [nowVars]; tauto) (by simp [Spec.fetches]; tauto)),
        tidy_of_clock hK hD r h' hp.2 (hf.sub (by simp [nowVars]; tauto) (by simp [Spec.fetches]; tauto))⟩
  | .clock op e b, t, k, h, hp, hf => by
    cases h with
    | @clock _ _ x d k k' h h' hk =>
      obtain rfl : d = 0 := hp.2
      refine ⟨⟨x, rfl⟩, tidy_of_clock hK hD e h hp.1
        (hf.sub (by simp [nowVars]; tauto) (by simp [Spec.fetches])), fun ho => ?_⟩
      rw [openedX, isBool_iff] at ho
      have hdue : due F.X (D x) t = true := by
        cases hb : due F.X (D x) t with
        | true => rfl
        | false =>
          have := hf.now x (by simp [nowVars]) hb
          rw [this] at ho
          cases ho
      have hact := (due_active (X := F.X) (D x) t).1 hdue
      rw [hK x k' h'] at hact
      rw [on_active hK e h]
      rcases hk with rfl | rfl | rfl
      · trivial
      · have := hK x _ h'
        cases hx : D x with
        | implicit => rw [hx] at this; cases this
        | adaptative => exact absurd hx (hD x)
        | explicit b y => rw [hx] at this; cases b <;> cases this
      · exact hact
  | .later _ _ _, t, k, h, hp, hf => hp.elim
  | .fetchPre id f, t, k, h, hp, hf => by
    cases h with
    | fetchPre h =>
      exact ⟨fun u hu => hf.clocks (id, f) (by simp [Spec.fetches]) u hu, fun u hu =>
        tidy_of_clock hK hD f h (properX_mono (Nat.le_of_lt hu) f hp)
          (hf.before hu (by simp [Spec.fetches]; tauto))⟩
  | .fetchFby id i f, t, k, h, hp, hf => by
    cases h with
    | fetchFby h h' hk =>
      refine ⟨fun u hu => hf.clocks (id, f) (by simp [Spec.fetches]) u hu, fun u hu => ?_, fun u hu =>
        tidy_of_clock hK hD i h' (properX_mono hu i hp.1)
          (hf.upto hu (by simp [nowVars]) (by simp [Spec.fetches]; tauto)), fun u hu =>
        tidy_of_clock hK hD f h (properX_mono (Nat.le_of_lt hu) f hp.2)
          (hf.before hu (by simp [Spec.fetches]; tauto))⟩
      rw [Bool.eq_iff_iff, on_active hK i h', on_active hK f h, active_same hk]
  | .flip id i c, t, k, h, hp, hf => by
    cases h with
    | flip h h' hk =>
      refine ⟨fun u hu => tidy_of_clock hK hD i h (properX_mono hu i hp.1)
          (hf.upto hu (by simp [nowVars]; tauto) (by simp [Spec.fetches]; tauto)), hp.2.2,
        tidy_of_clock hK hD c h' hp.2.1 (hf.sub (by simp [nowVars]; tauto) (by simp [Spec.fetches]; tauto)),
        ?_⟩
      rw [Bool.eq_iff_iff, on_active hK i h, on_active hK c h', active_same hk]
  | .ifx b y n, t, k, h, hp, hf => by
    cases h with
    | ifx h h' h'' hk hk' =>
      exact ⟨tidy_of_clock hK hD b h hp.1 (hf.sub (by simp [nowVars]; tauto) (by simp [Spec.fetches]; tauto)),
        tidy_of_clock hK hD y h' hp.2.1 (hf.sub (by simp [nowVars]; tauto) (by simp [Spec.fetches]; tauto)),
        tidy_of_clock hK hD n h'' hp.2.2.1
          (hf.sub (by simp [nowVars]; tauto) (by simp [Spec.fetches]; tauto)),
        hp.2.2.2 t (Nat.le_refl _)⟩
  | .merge b y n, t, k, h, hp, hf => by
    cases h with
    | @merge x d _ _ k k' k'' h h' h'' hk hk' =>
      obtain rfl : d = 0 := hp.1
      refine ⟨⟨x, rfl, hf.now x (by simp [nowVars])⟩,
        tidy_of_clock hK hD y h' hp.2.1 (hf.sub (by simp [nowVars]; tauto) (by simp [Spec.fetches]; tauto)),
        tidy_of_clock hK hD n h'' hp.2.2 (hf.sub (by simp [nowVars]; tauto) (by simp [Spec.fetches]; tauto)),
        fun ho => ?_, fun ho => ?_⟩ <;> rw [openedX, isBool_iff] at ho
      · rw [on_active hK y h']
        rcases hk with rfl | hk | rfl
        · trivial
        · cases hk
        · exact ho
      · rw [on_active hK n h'']
        rcases hk' with rfl | hk | rfl
        · trivial
        · cases hk
        · exact ho
  | .substep d id a, t, k, h, hp, hf => by
    cases h with
    | substep h =>
      exact ⟨hp.1, fun u hu => tidy_of_clock hK hD a h (properX_mono hu a hp.2)
        (hf.upto hu (by simp [nowVars]) (by simp [Spec.fetches]))⟩
theorem tidyList_of_clock (hK : ∀ x k, K x = some k → (D x).intoClk = k)
    (hD : ∀ x, D x ≠ .adaptative) : (es : List Expr) → ∀ {t : Nat} {k : Clk},
    HaveClock strict K es k → ProperXs A glob ms F.X D t es →
    Fit A glob ms F D t (nowVarsList es) (fetchesList es) → TidyList A glob ms F D es t
  | [], t, k, h, hp, hf => trivial
  | e :: es, t, k, h, hp, hf => by
    cases h with
    | cons h hk h' =>
      exact ⟨tidy_of_clock hK hD e h hp.1
          (hf.sub (by simp [nowVarsList]; tauto) (by simp [fetchesList]; tauto)),
        tidyList_of_clock hK hD es h' hp.2
          (hf.sub (by simp [nowVarsList]; tauto) (by simp [fetchesList]; tauto))⟩
end

mutual
theorem now_of_parts {P : String → Prop} : (e : Expr) → (∀ x, Part (.var x 0) e → P x) →
    (∀ id i f, Part (.fetchFby id i f) e → ∀ x ∈ nowVars i, P x) → ∀ x ∈ nowVars e, P x
  | .lit _, h1, h2, x, hx => by simp [nowVars] at hx
  | .global _, h1, h2, x, hx => by simp [nowVars] at hx
  | .var y d, h1, h2, x, hx => by
    by_cases hd : d = 0
    · subst hd
      simp only [nowVars, if_true, List.mem_singleton] at hx
      subst hx
      exact h1 x .refl
    · simp [nowVars, hd] at hx
  | .tuple es, h1, h2, x, hx => by
    rw [nowVars] at hx
    exact nowList_of_parts es (fun e he x h => h1 x (h.tail (.tuple he)))
      (fun e he id i f h => h2 id i f (h.tail (.tuple he))) x hx
  | .dummyPre e, h1, h2, x, hx => by
    rw [nowVars] at hx
    exact now_of_parts e (fun x h => h1 x (h.tail .dummyPre))
      (fun id i f h => h2 id i f (h.tail .dummyPre)) x hx
  | .dummyParen e, h1, h2, x, hx => by
    rw [nowVars] at hx
    exact now_of_parts e (fun x h => h1 x (h.tail .dummyParen))
      (fun id i f h => h2 id i f (h.tail .dummyParen)) x hx
  | .bin _ l r, h1, h2, x, hx => by
    rw [nowVars, List.mem_append] at hx
    rcases hx with hx | hx
    · exact now_of_parts l (fun x h => h1 x (h.tail .binL))
        (fun id i f h => h2 id i f (h.tail .binL)) x hx
    · exact now_of_parts r (fun x h => h1 x (h.tail .binR))
        (fun id i f h => h2 id i f (h.tail .binR)) x hx
  | .un _ e, h1, h2, x, hx => by
    rw [nowVars] at hx
    exact now_of_parts e (fun x h => h1 x (h.tail .un))
      (fun id i f h => h2 id i f (h.tail .un)) x hx
  | .cmp _ l r, h1, h2, x, hx => by
    rw [nowVars, List.mem_append] at hx
    rcases hx with hx | hx
    · exact now_of_parts l (fun x h => h1 x (h.tail .cmpL))
        (fun id i f h => h2 id i f (h.tail .cmpL)) x hx
    · exact now_of_parts r (fun x h => h1 x (h.tail .cmpR))
        (fun id i f h => h2 id i f (h.tail .cmpR)) x hx
  | .clock _ e b, h1, h2, x, hx => by
    rw [nowVars, List.mem_append] at hx
    rcases hx with hx | hx
    · exact now_of_parts e (fun x h => h1 x (h.tail .clockInner))
        (fun id i f h => h2 id i f (h.tail .clockInner)) x hx
    · exact now_of_parts b (fun x h => h1 x (h.tail .clockGuard))
        (fun id i f h => h2 id i f (h.tail .clockGuard)) x hx
  | .later _ b a, h1, h2, x, hx => by
    rw [nowVars, List.mem_append] at hx
    rcases hx with hx | hx
    · exact now_of_parts b (fun x h => h1 x (h.tail .laterBefore))
        (fun id i f h => h2 id i f (h.tail .laterBefore)) x hx
    · exact now_of_parts a (fun x h => h1 x (h.tail .laterAfter))
        (fun id i f h => h2 id i f (h.tail .laterAfter)) x hx
  | .fetchPre _ _, h1, h2, x, hx => by simp [nowVars] at hx
  | .fetchFby id i f, h1, h2, x, hx => by
    rw [nowVars] at hx
    exact h2 id i f .refl x hx
  | .flip _ i c, h1, h2, x, hx => by
    rw [nowVars, List.mem_append] at hx
    rcases hx with hx | hx
    · exact now_of_parts i (fun x h => h1 x (h.tail .flipInitial))
        (fun id i f h => h2 id i f (h.tail .flipInitial)) x hx
    · exact now_of_parts c (fun x h => h1 x (h.tail .flipContinued))
        (fun id i f h => h2 id i f (h.tail .flipContinued)) x hx
  | .ifx b y n, h1, h2, x, hx => by
    rw [nowVars, List.mem_append, List.mem_append] at hx
    rcases hx with hx | hx | hx
    · exact now_of_parts b (fun x h => h1 x (h.tail .ifCond))
        (fun id i f h => h2 id i f (h.tail .ifCond)) x hx
    · exact now_of_parts y (fun x h => h1 x (h.tail .ifYes))
        (fun id i f h => h2 id i f (h.tail .ifYes)) x hx
    · exact now_of_parts n (fun x h => h1 x (h.tail .ifNo))
        (fun id i f h => h2 id i f (h.tail .ifNo)) x hx
  | .merge b y n, h1, h2, x, hx => by
    rw [nowVars, List.mem_append, List.mem_append] at hx
    rcases hx with hx | hx | hx
    · exact now_of_parts b (fun x h => h1 x (h.tail .mergeSwitch))
        (fun id i f h => h2 id i f (h.tail .mergeSwitch)) x hx
    · exact now_of_parts y (fun x h => h1 x (h.tail .mergeOn))
        (fun id i f h => h2 id i f (h.tail .mergeOn)) x hx
    · exact now_of_parts n (fun x h => h1 x (h.tail .mergeOff))
        (fun id i f h => h2 id i f (h.tail .mergeOff)) x hx
  | .substep _ _ a, h1, h2, x, hx => by
    rw [nowVars] at hx
    exact now_of_parts a (fun x h => h1 x (h.tail .arg))
      (fun id i f h => h2 id i f (h.tail .arg)) x hx
theorem nowList_of_parts {P : String → Prop} : (es : List Expr) →
    (∀ e ∈ es, ∀ x, Part (.var x 0) e → P x) →
    (∀ e ∈ es, ∀ id i f, Part (.fetchFby id i f) e → ∀ x ∈ nowVars i, P x) →
    ∀ x ∈ nowVarsList es, P x
  | [], h1, h2, x, hx => by simp [nowVarsList] at hx
  | e :: es, h1, h2, x, hx => by
    rw [nowVarsList, List.mem_append] at hx
    rcases hx with hx | hx
    · exact now_of_parts e (h1 e (List.mem_cons_self ..)) (h2 e (List.mem_cons_self ..)) x hx
    · exact nowList_of_parts es (fun e he => h1 e (List.mem_cons_of_mem _ he))
        (fun e he => h2 e (List.mem_cons_of_mem _ he)) x hx
end

mutual
theorem target_clk : {p : VarTuple} → {k : Clk} → TargetClock K p k → ∀ x ∈ p.vars,
    ∃ k', K x = some k' ∧ SameClk k k'
  | .single y, k, h, x, hx => by
    simp only [VarTuple.vars, List.mem_singleton] at hx
    subst hx
    cases h with
    | single h => exact ⟨k, h, .inl rfl⟩
  | .multiple [], k, h, x, hx => by simp [VarTuple.vars, VarTuple.varsList] at hx
  | .multiple (p :: ps), k, h, x, hx => by
    simp only [VarTuple.vars] at hx
    rw [VarTuple.varsList, List.mem_append] at hx
    cases h with
    | tuple h h' =>
      rcases hx with hx | hx
      · exact target_clk h x hx
      · exact targets_clk h' x hx
theorem targets_clk : {ps : List VarTuple} → {k : Clk} → TargetsClock K ps k →
    ∀ x ∈ VarTuple.varsList ps, ∃ k', K x = some k' ∧ SameClk k k'
  | [], k, h, x, hx => by simp [VarTuple.varsList] at hx
  | p :: ps, k, h, x, hx => by
    rw [VarTuple.varsList, List.mem_append] at hx
    cases h with
    | cons h hk h' =>
      rcases hx with hx | hx
      · obtain ⟨k', h1, h2⟩ := target_clk h x hx
        refine ⟨k', h1, ?_⟩
        rcases hk with rfl | hk
        · exact h2
        · rcases h2 with rfl | h2
          · exact .inr hk
          · exact .inr ⟨hk.1, h2.2⟩
      · exact targets_clk h' x hx
end

mutual
theorem target_blank {Y : String → Nillable Scalar} : {p : VarTuple} → {v : Value} →
    Assigns Y p v → Blank v → ∀ x ∈ p.vars, Y x = .nil
  | .single y, .leaf a, h, hb, x, hx => by
    simp only [VarTuple.vars, List.mem_singleton] at hx
    subst hx
    simp only [Assigns] at h
    rw [h]
    exact blank_leaf.1 hb
  | .single y, .tup _ _, h, hb, x, hx => h.elim
  | .multiple [], v, h, hb, x, hx => by simp [VarTuple.vars, VarTuple.varsList] at hx
  | .multiple [p], v, h, hb, x, hx => by
    simp only [Assigns] at h
    exact target_blank h hb x (by simpa [VarTuple.vars, VarTuple.varsList] using hx)
  | .multiple (p :: p' :: ps), .leaf v, h, hb, x, hx => h.elim
  | .multiple (p :: p' :: ps), .tup w ws, h, hb, x, hx => by
    simp only [Assigns] at h
    simp only [VarTuple.vars] at hx
    rw [VarTuple.varsList, List.mem_append] at hx
    rcases hx with hx | hx
    · exact target_blank h.1 (blank_tup.1 hb).1 x hx
    · exact targets_blank h.2 (blank_tup.1 hb).2 x hx
theorem targets_blank {Y : String → Nillable Scalar} : {ps : List VarTuple} → {vs : List Value} →
    AssignsList Y ps vs → (∀ v ∈ vs, Blank v) → ∀ x ∈ VarTuple.varsList ps, Y x = .nil
  | [], vs, h, hb, x, hx => by simp [VarTuple.varsList] at hx
  | _ :: _, [], h, hb, x, hx => by simp [AssignsList] at h
  | p :: ps, v :: vs, h, hb, x, hx => by
    simp only [AssignsList] at h
    rw [VarTuple.varsList, List.mem_append] at hx
    rcases hx with hx | hx
    · exact target_blank h.1 (hb v (List.mem_cons_self ..)) x hx
    · exact targets_blank h.2 (fun v hv => hb v (List.mem_cons_of_mem _ hv)) x hx
end

end

/-! ## Nodes -/

/-- What is known of a node with registers. -/
structure Surround (ms : List Machine) (n : Node) (K : String → Option Clk) (D : String → Clock) :
    Prop where
  idle : ∀ m ∈ ms, Idle m
  wired : WiredInOrder n
  clocked : NodeClocked false n K
  fetched : ∀ st ∈ n.stmts, ∀ p ∈ fetchesIn st, .updateRegister p.1 p.2 ∈ n.stmts
  regs : ∀ id f, .updateRegister id f ∈ n.stmts → ∀ i c, .initRegister id i c ∈ n.stmts →
    ∃ k, HasClock false K f k ∧ c = some (clockExpr k)
  known : ∀ x k, K x = some k → (D x).intoClk = k
  unknown : ∀ x, K x = none → D x = .implicit
  written : ∀ x, D x ≠ .adaptative

section
variable {A : Arith} {glob : Globals} {ms : List Machine} {F : Flow} {D : String → Clock} {n : Node}
  {K : String → Option Clk}

theorem isClock_active {k : Clk} {t : Nat} {v : Value} {b : Bool}
    (h : den A glob ms F 0 (clockExpr k) t = .ok v) (hb : IsClock v b) :
    b = true ↔ Active F.X k t := by
  cases k with
  | implicit =>
    cases h
    cases hb
    simp [Active]
  | adaptative =>
    cases h
    cases hb
    simp [Active]
  | on x =>
    have h0 : v = .leaf (F.X x t) := by
      simp only [clockExpr, den, Nat.not_lt_zero, if_false, Nat.sub_zero, Except.ok.injEq] at h
      exact h.symm
    simp only [Active]
    generalize F.X x t = a at h0
    cases hb <;> cases h0 <;> simp
  | off x =>
    simp only [clockExpr, den, Nat.not_lt_zero, if_false, Nat.sub_zero] at h
    simp only [Active]
    generalize F.X x t = a at h
    cases a with
    | nil =>
      have : v = .leaf .nil := by cases h; rfl
      subst this
      cases hb
      simp
    | defined a =>
      cases a with
      | bool c =>
        have : v = .leaf (.defined (.bool !c)) := by cases h; rfl
        subst this
        cases c <;> cases hb <;> simp
      | _ => first | (cases h; done) | (cases h; cases hb; done)

/-- The registers step when what they keep is present. -/
theorem Surround.steps (hs : Surround ms n K D) {t : Nat}
    (hh : ∀ st ∈ n.stmts, Holds A glob ms F t st) {id : Nat} {f : Expr}
    (hf : .updateRegister id f ∈ n.stmts) : F.C id t = onX F.X D f t := by
  obtain ⟨i, c, hi⟩ := mem_initialised'.1 ((hs.wired.paired id).2 (mem_updated.2 ⟨f, hf⟩))
  obtain ⟨k, hk, rfl⟩ := hs.regs id f hf i c hi
  obtain ⟨⟨e, v, he, hv, hc⟩, -⟩ := hh _ hi
  cases he
  rw [Bool.eq_iff_iff, isClock_active hv hc, on_active hs.known f hk]

/-- The expressions of equations and assertions. -/
def Stmt.source : Stmt → List Expr
  | .let_ _ e => [e]
  | .assert e => [e]
  | _ => []

theorem Surround.fit (hs : Surround ms n K D) {t : Nat}
    (hh : ∀ u, u ≤ t → ∀ st ∈ n.stmts, Holds A glob ms F u st)
    (hpast : ∀ u, u < t → ∀ x, Absent F.X D x u) {st : Stmt} (hst : st ∈ n.stmts) {e : Expr}
    (he : e ∈ Stmt.source st) (hnow : ∀ x ∈ nowVars e, Absent F.X D x t) :
    Fit A glob ms F D t (nowVars e) (Spec.fetches e) where
  clocks := by
    intro p hp u hu
    refine hs.steps (hh u hu) (hs.fetched st hst p ?_)
    cases st with
    | let_ q e' =>
      obtain rfl : e = e' := by simpa [Stmt.source] using he
      exact hp
    | assert e' =>
      obtain rfl : e = e' := by simpa [Stmt.source] using he
      exact hp
    | _ => cases he
  past := hpast
  now := hnow

/-- At an instant, variables are absent when they should be. -/
theorem Surround.stmts_absent (hs : Surround ms n K D) {t : Nat}
    (hh : ∀ u, u ≤ t → ∀ st ∈ n.stmts, Holds A glob ms F u st)
    (hp : ∀ st ∈ n.stmts, ∀ e ∈ Stmt.source st, ProperX A glob ms F.X D t e)
    (hpast : ∀ u, u < t → ∀ x, Absent F.X D x u) : ∀ {sts : List Stmt} {vars : List String}
    {regs : List Nat}, Sorted vars regs sts → (∀ st ∈ sts, st ∈ n.stmts) →
    (∀ x ∈ vars, Absent F.X D x t) →
    (∀ id ∈ regs, ∀ i c, .initRegister id (some i) c ∈ n.stmts →
      ∀ x ∈ nowVars i, Absent F.X D x t) →
    (∀ x ∈ sts.flatMap binds, Absent F.X D x t) ∧
      ∀ st ∈ sts, ∀ e ∈ Stmt.source st, Tidy A glob ms F D e t
  | [], vars, regs, ho, hn, hv, hr => by simp
  | st :: sts, vars, regs, ho, hn, hv, hr => by
    simp only [Sorted] at ho
    have hst := hn st (List.mem_cons_self ..)
    have hnow : ∀ e ∈ evaluated st, ∀ x ∈ nowVars e, Absent F.X D x t := by
      intro e he
      refine now_of_parts e (fun x hx => hv x ((ho.1 e he).1 x hx)) fun id i f hx => ?_
      obtain ⟨-, c, hc⟩ := hs.wired.fetchFby st hst e he id i f hx
      exact hr id ((ho.1 e he).2.2 id i f hx) i c hc
    have htidy : ∀ e ∈ Stmt.source st, Tidy A glob ms F D e t := by
      intro e he
      have hev : e ∈ evaluated st := by
        cases st <;> first | exact he | cases he
      have hk : ∃ k, HasClock false K e k := by
        have := hs.clocked.stmts st hst
        cases this with
        | let_ _ h _ => obtain rfl := List.mem_singleton.1 he; exact ⟨_, h⟩
        | assert h _ => obtain rfl := List.mem_singleton.1 he; exact ⟨_, h⟩
        | updateRegister => cases he
        | initRegister => cases he
      obtain ⟨k, hk⟩ := hk
      exact tidy_of_clock hs.known hs.written e hk (hp st hst e he)
        (hs.fit hh hpast hst he (hnow e hev))
    have hnew : ∀ x ∈ binds st, Absent F.X D x t := by
      cases st with
      | let_ p e =>
        obtain ⟨v, hd, ha⟩ := hh t (Nat.le_refl _) _ hst
        have hagree := den_clocked hs.idle e (htidy e (by simp [Stmt.source])) hd
        intro x hx hdue
        have := hs.clocked.stmts _ hst
        cases this with
        | @let_ _ _ k k' h h' hk =>
        obtain ⟨l, hl, hl'⟩ := target_clk h x hx
        have hoff : onX F.X D e t = false := by
          rw [← Bool.not_eq_true, on_active hs.known e h',
            ← active_same (hk (by rintro rfl; simp [binds, VarTuple.vars, VarTuple.varsList] at hx)),
            active_same hl', ← hs.known x l hl, ← due_active, hdue]
          simp
        exact target_blank ha (hagree.1 hoff) x hx
      | _ => simp [binds]
    have := hs.stmts_absent hh hp hpast ho.2 (fun s h => hn s (List.mem_cons_of_mem _ h))
      (fun x hx => by
        rcases List.mem_append.1 hx with hx | hx
        · exact hv x hx
        · exact hnew x hx)
      (fun id hid i c hi => by
        rcases List.mem_append.1 hid with hid | hid
        · exact hr id hid i c hi
        · obtain ⟨i', c', h1⟩ := mem_initialised'.1 hid
          rw [List.mem_singleton] at h1
          obtain ⟨rfl, rfl⟩ := init_unique hs.wired.inits hi (h1 ▸ hst)
          exact hnow i (by rw [← h1]; simp [evaluated]))
    refine ⟨fun x hx => ?_, fun s hm e he => ?_⟩
    · rw [List.flatMap_cons, List.mem_append] at hx
      rcases hx with hx | hx
      · exact hnew x hx
      · exact this.1 x hx
    · rcases List.mem_cons.1 hm with rfl | hm
      · exact htidy e he
      · exact this.2 s hm e he

/-- All the variables of a node are absent when they should be, and its expressions agree with the
reference. -/
theorem Surround.absent (hs : Surround ms n K D) {T : Nat}
    (hh : ∀ u, u ≤ T → ∀ st ∈ n.stmts, Holds A glob ms F u st)
    (hp : ∀ st ∈ n.stmts, ∀ e ∈ Stmt.source st, ProperX A glob ms F.X D T e) :
    ∀ t, t ≤ T → (∀ x, Absent F.X D x t) ∧
      ∀ st ∈ n.stmts, ∀ e ∈ Stmt.source st, Tidy A glob ms F D e t := by
  intro t
  induction t using Nat.strongRecOn with
  | ind t ih =>
    intro ht
    have hin : ∀ x ∈ n.inputs.map (·.name), Absent F.X D x t := by
      intro x hx
      obtain ⟨v, hv, rfl⟩ := List.mem_map.1 hx
      have hk := declared_clk hs.clocked.declared
        (List.mem_append_left _ (List.mem_append_left _ hv))
      have ha := hs.clocked.interface v (List.mem_append_left _ hv)
      intro hd
      have := (due_active (X := F.X) (D v.name) t).2 (by
        rw [hs.known _ _ hk]
        exact active_always ha)
      rw [this] at hd
      cases hd
    have hst := hs.stmts_absent (t := t) (fun u hu => hh u (by omega))
      (fun st hst e he => properX_mono ht e (hp st hst e he))
      (fun u hu => (ih u hu (by omega)).1) hs.wired.sorted (fun _ h => h) hin (by simp)
    refine ⟨fun x => ?_, hst.2⟩
    cases hk : K x with
    | none =>
      intro hd
      rw [hs.unknown x hk] at hd
      cases hd
    | some k =>
      obtain ⟨v, hv, rfl, hvk⟩ := (hs.clocked.declared _ _).1 hk
      rcases List.mem_append.1 hv with hv | hv
      · rcases List.mem_append.1 hv with hv | hv
        · exact hin _ (List.mem_map.2 ⟨v, hv, rfl⟩)
        · obtain ⟨st, h1, h2⟩ := hs.wired.defined v (List.mem_append_left _ hv)
          exact hst.1 _ (List.mem_flatMap.2 ⟨st, h1, h2⟩)
      · obtain ⟨st, h1, h2⟩ := hs.wired.defined v (List.mem_append_right _ hv)
        exact hst.1 _ (List.mem_flatMap.2 ⟨st, h1, h2⟩)

end

end Chandeliers.Uni
