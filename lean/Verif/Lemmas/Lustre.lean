import Verif.Spec.Lustre
import Verif.Lemmas.Translate

/-! The reference semantics agrees with Lustre wherever the latter is defined. -/

set_option autoImplicit false

namespace Chandeliers.Den
open Chandeliers.San Chandeliers.Spec Chandeliers.Syn

theorem some_bind {α β : Type} {o : Option α} {f : α → Option β} {b : β} :
    (o >>= f) = some b ↔ ∃ a, o = some a ∧ f a = some b := by
  cases o <;> simp

theorem mapM_agree {α β : Type} {f g : α → Option β} : ∀ {l : List α} {xs ys : List β},
    (∀ a ∈ l, ∀ x y, f a = some x → g a = some y → x = y) →
    l.mapM f = some xs → l.mapM g = some ys → xs = ys
  | [], xs, ys, _, h1, h2 => by
    rw [List.mapM_nil] at h1 h2
    cases h1
    cases h2
    rfl
  | a :: l, xs, ys, h, h1, h2 => by
    rw [List.mapM_cons] at h1 h2
    obtain ⟨x, e1, h1⟩ := some_bind.1 h1
    obtain ⟨xs', e1', h1⟩ := some_bind.1 h1
    obtain ⟨y, e2, h2⟩ := some_bind.1 h2
    obtain ⟨ys', e2', h2⟩ := some_bind.1 h2
    cases h1
    cases h2
    rw [h a (by simp) x y e1 e2, mapM_agree (fun b hb => h b (by simp [hb])) e1' e2']

theorem callAt_agree {m : Machine} {f g : Nat → Option Value} {t : Nat} {v w : Value}
    (h : ∀ u x y, f u = some x → g u = some y → x = y) (h1 : callAt m f t = some v)
    (h2 : callAt m g t = some w) : v = w := by
  unfold callAt at h1 h2
  obtain ⟨xs, e1, h1⟩ := some_bind.1 h1
  obtain ⟨ys, e2, h2⟩ := some_bind.1 h2
  have := mapM_agree (fun a _ => h a) e1 e2
  subst this
  rw [h1] at h2
  cases h2
  rfl

variable {W : World}

mutual
theorem lustre_ref : ∀ (e : Src) (t : Nat) (v w : Value), lustre W e t = some v →
    ref W e t = some w → v = w
  | .lit l, t, v, w, h1, h2 => by
    unfold lustre at h1
    unfold ref at h2
    rw [h1] at h2
    cases h2
    rfl
  | .var x, t, v, w, h1, h2 => by
    unfold lustre at h1
    unfold ref at h2
    split at h1
    · rename_i hx
      rw [if_pos hx, if_neg (by omega), Int.toNat_natCast] at h2
      rw [h1] at h2
      cases h2
      rfl
    · rename_i hx
      rw [if_neg hx, h1] at h2
      cases h2
      rfl
  | .paren es b, t, v, w, h1, h2 => by
    unfold lustre at h1
    unfold ref at h2
    obtain ⟨vs, e1, h1⟩ := some_bind.1 h1
    obtain ⟨ws, e2, h2⟩ := some_bind.1 h2
    cases h1
    cases h2
    rw [lustre_refList es t vs ws e1 e2]
  | .left first rest, t, v, w, h1, h2 => by
    unfold lustre at h1
    unfold ref at h2
    obtain ⟨a, e1, h1⟩ := some_bind.1 h1
    obtain ⟨b, e2, h2⟩ := some_bind.1 h2
    have := lustre_ref first t a b e1 e2
    subst this
    exact lustre_refLeft rest a t v w h1 h2
  | .cmp first rest, t, v, w, h1, h2 => by
    unfold lustre at h1
    unfold ref at h2
    obtain ⟨a, e1, h1⟩ := some_bind.1 h1
    obtain ⟨b, e2, h2⟩ := some_bind.1 h2
    have := lustre_ref first t a b e1 e2
    subst this
    exact lustre_refCmp rest a t v w h1 h2
  | .fby first rest, t, v, w, h1, h2 => by
    unfold lustre at h1
    unfold ref at h2
    obtain ⟨L, e2, h2⟩ := some_bind.1 h2
    have hne := refFby_ne W rest 1 _ L e2
    split at h1
    · rename_i hc
      rw [if_neg] at h2
      · exact lustre_ref first t v w h1 h2
      · rintro ⟨h3, h4⟩
        rcases hc with hc | hc
        · exact h3 (hne.2 (List.isEmpty_iff.1 hc))
        · omega
    · rename_i hc
      rw [not_or, List.isEmpty_iff] at hc
      rw [if_pos ⟨fun h => hc.1 (hne.1 h), by omega⟩] at h2
      refine lustre_refFby rest 1 (t - 1) v w L h1 ?_ h2
      rw [show ((t - 1 : Nat) : Int) + (1 : Nat) = t by omega]
      exact e2
  | .arrow first rest, t, v, w, h1, h2 => by
    unfold lustre at h1
    unfold ref at h2
    obtain ⟨L, e2, h2⟩ := some_bind.1 h2
    have hne := refThen_ne W rest 1 _ L e2
    split at h1
    · rename_i hc
      rw [if_neg] at h2
      · exact lustre_ref first t v w h1 h2
      · rintro ⟨h3, h4⟩
        rcases hc with hc | hc
        · exact h3 (hne.2 (List.isEmpty_iff.1 hc))
        · omega
    · rename_i hc
      rw [not_or, List.isEmpty_iff] at hc
      rw [if_pos ⟨fun h => hc.1 (hne.1 h), by omega⟩] at h2
      exact lustre_refArrow rest 1 t (by omega) v w L h1 e2 h2
  | .ifx b y n, t, v, w, h1, h2 => by
    unfold lustre at h1
    unfold ref at h2
    obtain ⟨c, e1, h1⟩ := some_bind.1 h1
    obtain ⟨c', e2, h2⟩ := some_bind.1 h2
    have := lustre_ref b t c c' e1 e2
    subst this
    obtain ⟨d, e3, h1⟩ := some_bind.1 h1
    obtain ⟨d', e4, h2⟩ := some_bind.1 h2
    rw [e3] at e4
    cases e4
    obtain ⟨y', e5, h2⟩ := some_bind.1 h2
    obtain ⟨n', e6, h2⟩ := some_bind.1 h2
    cases h2
    cases d with
    | nil =>
      obtain ⟨y₀, e7, h1⟩ := some_bind.1 h1
      cases h1
      rw [lustre_ref y t y₀ y' e7 e5]
      rfl
    | defined d =>
      cases d with
      | true => exact lustre_ref y t v y' h1 e5
      | false => exact lustre_ref n t v n' h1 e6
  | .merge b y n, t, v, w, h1, h2 => by
    unfold lustre at h1
    unfold ref at h2
    obtain ⟨c, e1, h1⟩ := some_bind.1 h1
    obtain ⟨c', e2, h2⟩ := some_bind.1 h2
    have := lustre_ref b t c c' e1 e2
    subst this
    obtain ⟨d, e3, h1⟩ := some_bind.1 h1
    obtain ⟨d', e4, h2⟩ := some_bind.1 h2
    rw [e3] at e4
    cases e4
    obtain ⟨y', e5, h2⟩ := some_bind.1 h2
    obtain ⟨n', e6, h2⟩ := some_bind.1 h2
    cases h2
    cases d with
    | nil =>
      obtain ⟨y₀, e7, h1⟩ := some_bind.1 h1
      cases h1
      rw [lustre_ref y t y₀ y' e7 e5]
      rfl
    | defined d =>
      cases d with
      | true => exact lustre_ref y t v y' h1 e5
      | false => exact lustre_ref n t v n' h1 e6
  | .call f args b, t, v, w, h1, h2 => by
    unfold lustre at h1
    unfold ref at h2
    cases hm : W.nodes f with
    | none => simp [hm] at h1
    | some m =>
      simp only [hm] at h1 h2
      rw [if_neg (by omega), Int.toNat_natCast] at h2
      refine callAt_agree ?_ h1 h2
      intro u x y hx hy
      obtain ⟨xs, e1, hx⟩ := some_bind.1 hx
      obtain ⟨ys, e2, hy⟩ := some_bind.1 hy
      cases hx
      cases hy
      rw [lustre_refList args u xs ys e1 e2]
  | .pre e, 0, v, w, h1, h2 => by simp [lustre] at h1
  | .pre e, t + 1, v, w, h1, h2 => by
    unfold lustre at h1
    unfold ref at h2
    rw [show ((t + 1 : Nat) : Int) - 1 = t by omega] at h2
    exact lustre_ref e t v w h1 h2
  | .neg e, t, v, w, h1, h2 => by
    unfold lustre at h1
    unfold ref at h2
    obtain ⟨a, e1, h1⟩ := some_bind.1 h1
    obtain ⟨b, e2, h2⟩ := some_bind.1 h2
    have := lustre_ref e t a b e1 e2
    subst this
    rw [h1] at h2
    cases h2
    rfl
  | .not e, t, v, w, h1, h2 => by
    unfold lustre at h1
    unfold ref at h2
    obtain ⟨a, e1, h1⟩ := some_bind.1 h1
    obtain ⟨b, e2, h2⟩ := some_bind.1 h2
    have := lustre_ref e t a b e1 e2
    subst this
    rw [h1] at h2
    cases h2
    rfl
theorem lustre_refList : ∀ (es : List Src) (t : Nat) (vs ws : List Value),
    lustreList W es t = some vs → refList W es t = some ws → vs = ws
  | [], t, vs, ws, h1, h2 => by
    cases h1
    cases h2
    rfl
  | e :: es, t, vs, ws, h1, h2 => by
    unfold lustreList at h1
    unfold refList at h2
    obtain ⟨a, e1, h1⟩ := some_bind.1 h1
    obtain ⟨as, e1', h1⟩ := some_bind.1 h1
    obtain ⟨b, e2, h2⟩ := some_bind.1 h2
    obtain ⟨bs, e2', h2⟩ := some_bind.1 h2
    cases h1
    cases h2
    rw [lustre_ref e t a b e1 e2, lustre_refList es t as bs e1' e2']
theorem lustre_refLeft : ∀ (rest : List (LOp × Src)) (acc : Value) (t : Nat) (v w : Value),
    lustreLeft W acc rest t = some v → refLeft W acc rest t = some w → v = w
  | [], acc, t, v, w, h1, h2 => by
    cases h1
    cases h2
    rfl
  | (op, e) :: rest, acc, t, v, w, h1, h2 => by
    unfold lustreLeft at h1
    unfold refLeft at h2
    obtain ⟨a, e1, h1⟩ := some_bind.1 h1
    obtain ⟨b, e2, h2⟩ := some_bind.1 h2
    have := lustre_ref e t a b e1 e2
    subst this
    obtain ⟨c, e3, h1⟩ := some_bind.1 h1
    obtain ⟨d, e4, h2⟩ := some_bind.1 h2
    rw [e3] at e4
    cases e4
    exact lustre_refLeft rest c t v w h1 h2
theorem lustre_refCmp : ∀ (rest : List (CmpOp × Src)) (acc : Value) (t : Nat) (v w : Value),
    lustreCmp W acc rest t = some v → refCmp W acc rest t = some w → v = w
  | [], acc, t, v, w, h1, h2 => by
    cases h1
    cases h2
    rfl
  | [(op, e)], acc, t, v, w, h1, h2 => by
    unfold lustreCmp at h1
    unfold refCmp at h2
    obtain ⟨a, e1, h1⟩ := some_bind.1 h1
    obtain ⟨b, e2, h2⟩ := some_bind.1 h2
    have := lustre_ref e t a b e1 e2
    subst this
    rw [h1] at h2
    cases h2
    rfl
  | _ :: _ :: _, acc, t, v, w, h1, h2 => by simp [lustreCmp] at h1
theorem lustre_refFby : ∀ (es : List Src) (i t : Nat) (v w : Value) (L : List Value),
    lustreFby W es t = some v → refFby W i es ((t : Int) + i) = some L → L.head? = some w → v = w
  | [], i, t, v, w, L, h1, h2, h3 => by simp [lustreFby] at h1
  | e :: es, i, t, v, w, L, h1, h2, h3 => by
    unfold lustreFby at h1
    unfold refFby at h2
    obtain ⟨L', e2, h2⟩ := some_bind.1 h2
    have hne := refFby_ne W es _ _ L' e2
    split at h1
    · rename_i hc
      rw [if_neg] at h2
      · obtain ⟨w', e3, h2⟩ := some_bind.1 h2
        cases h2
        cases h3
        rw [show (t : Int) + i - i = t by omega] at e3
        exact lustre_ref e t v w h1 e3
      · rintro ⟨h3, h4⟩
        rcases hc with hc | hc
        · exact h3 (hne.2 (List.isEmpty_iff.1 hc))
        · omega
    · rename_i hc
      rw [not_or, List.isEmpty_iff] at hc
      rw [if_pos ⟨fun h => hc.1 (hne.1 h), by omega⟩] at h2
      cases h2
      refine lustre_refFby es (i + 1) (t - 1) v w L h1 ?_ h3
      rw [show ((t - 1 : Nat) : Int) + (i + 1 : Nat) = t + i by omega]
      exact e2
theorem lustre_refArrow : ∀ (es : List Src) (i t : Nat), i ≤ t → ∀ (v w : Value) (L : List Value),
    lustreArrow W i es t = some v → refThen W i es t = some L → L.head? = some w → v = w
  | [], i, t, hi, v, w, L, h1, h2, h3 => by simp [lustreArrow] at h1
  | e :: es, i, t, hi, v, w, L, h1, h2, h3 => by
    unfold lustreArrow at h1
    unfold refThen at h2
    obtain ⟨L', e2, h2⟩ := some_bind.1 h2
    have hne := refThen_ne W es _ _ L' e2
    split at h1
    · rename_i hc
      rw [if_neg] at h2
      · obtain ⟨w', e3, h2⟩ := some_bind.1 h2
        cases h2
        cases h3
        exact lustre_ref e t v w h1 e3
      · rintro ⟨h3, h4⟩
        rcases hc with hc | hc
        · exact h3 (hne.2 (List.isEmpty_iff.1 hc))
        · omega
    · rename_i hc
      rw [not_or, List.isEmpty_iff] at hc
      rw [if_pos ⟨fun h => hc.1 (hne.1 h), by omega⟩] at h2
      cases h2
      exact lustre_refArrow es (i + 1) t (by omega) v w L h1 e2 h3
end

end Chandeliers.Den
