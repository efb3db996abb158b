import Verif.Spec.Refactor
import Verif.Lemmas.UniversalDen

/-!
# Exchanging equal expressions
-/

set_option autoImplicit false

namespace Chandeliers.Rep
open Chandeliers.San Chandeliers.Spec Chandeliers.Syn Chandeliers.Uni

section
variable {B : Bool → Src → Src → Prop} {W : World}

theorem exchanged_empty {late : Bool} {es es' : List Src} (h : ExchangedList B late es es') :
    es'.isEmpty = es.isEmpty := by
  cases h <;> rfl

/-! ## Without registers -/

/-- Instants that a place sees. -/
abbrev Sees (late : Bool) (t : Int) : Prop := late = true ∨ 0 ≤ t

mutual
theorem ref_exchanged {T : Int} (hB : ∀ {late e e'}, B late e e' → ∀ t, t < T → Sees late t →
    ref W e t = ref W e' t) : {late : Bool} → {e e' : Src} → Exchanged B late e e' →
    ∀ t, t < T → Sees late t → ref W e t = ref W e' t
  | _, _, _, .here h, t, ht, hs => hB h t ht hs
  | _, _, _, .lit, t, ht, hs => rfl
  | _, _, _, .var, t, ht, hs => rfl
  | _, _, _, .paren h, t, ht, hs => by
    rw [ref, ref, refList_exchanged hB h t ht hs]
  | _, _, _, .left h hr, t, ht, hs => by
    rw [ref, ref, ref_exchanged hB h t ht hs]
    congr 1
    funext v
    exact refLeft_exchanged hB hr v t ht hs
  | _, _, _, .cmp h hr, t, ht, hs => by
    rw [ref, ref, ref_exchanged hB h t ht hs]
    congr 1
    funext v
    exact refCmp_exchanged hB hr v t ht hs
  | _, _, _, .fby h hr, t, ht, hs => by
    rw [ref, ref, ref_exchanged hB h t ht hs, refFby_exchanged hB hr rfl 1 t ht]
  | _, _, _, .arrow h hr, t, ht, hs => by
    rw [ref, ref, ref_exchanged hB h t ht hs, refThen_exchanged hB hr 1 t ht hs]
  | _, _, _, .ifx hb hy hn, t, ht, hs => by
    rw [ref, ref, ref_exchanged hB hb t ht hs, ref_exchanged hB hy t ht hs,
      ref_exchanged hB hn t ht hs]
  | _, _, _, .merge hy hn, t, ht, hs => by
    rw [ref, ref, ref_exchanged hB hy t ht hs, ref_exchanged hB hn t ht hs]
  | _, _, _, .call h, t, ht, hs => by
    rw [ref, ref]
    split
    · rfl
    · by_cases h0 : t < 0
      · simp [h0]
      · simp only [h0, if_false]
        refine callAt_congr fun u hu => ?_
        rw [refList_exchanged hB h (u : Int) (by omega) (.inr (by omega))]
  | _, _, _, .pre h, t, ht, hs => by
    rw [ref, ref, ref_exchanged hB h (t - 1) (by omega) (.inl rfl)]
  | _, _, _, .neg h, t, ht, hs => by rw [ref, ref, ref_exchanged hB h t ht hs]
  | _, _, _, .not h, t, ht, hs => by rw [ref, ref, ref_exchanged hB h t ht hs]
theorem refList_exchanged {T : Int} (hB : ∀ {late e e'}, B late e e' → ∀ t, t < T → Sees late t →
    ref W e t = ref W e' t) : {late : Bool} → {es es' : List Src} → ExchangedList B late es es' →
    ∀ t, t < T → Sees late t → refList W es t = refList W es' t
  | _, _, _, .nil, t, ht, hs => rfl
  | _, _, _, .cons h h', t, ht, hs => by
    rw [refList, refList, ref_exchanged hB h t ht hs, refList_exchanged hB h' t ht hs]
theorem refLeft_exchanged {T : Int} (hB : ∀ {late e e'}, B late e e' → ∀ t, t < T → Sees late t →
    ref W e t = ref W e' t) : {late : Bool} → {r r' : List (LOp × Src)} → ExchangedOps B late r r' →
    ∀ v t, t < T → Sees late t → refLeft W v r t = refLeft W v r' t
  | _, _, _, .nil, v, t, ht, hs => rfl
  | _, _, _, .op h _ _ h', v, t, ht, hs => by
    rw [refLeft, refLeft, ref_exchanged hB h t ht hs]
    congr 1
    funext a
    congr 1
    funext b
    exact refLeft_exchanged hB h' b t ht hs
  | _, _, _, .guard h', v, t, ht, hs => by
    rw [refLeft, refLeft]
    congr 1
    funext a
    congr 1
    funext b
    exact refLeft_exchanged hB h' b t ht hs
theorem refCmp_exchanged {T : Int} (hB : ∀ {late e e'}, B late e e' → ∀ t, t < T → Sees late t →
    ref W e t = ref W e' t) : {late : Bool} → {r r' : List (CmpOp × Src)} → ExchangedCmp B late r r' →
    ∀ v t, t < T → Sees late t → refCmp W v r t = refCmp W v r' t
  | _, _, _, .nil, v, t, ht, hs => rfl
  | _, _, _, .cons h .nil, v, t, ht, hs => by
    rw [refCmp, refCmp, ref_exchanged hB h t ht hs]
  | _, _, _, .cons h (.cons h' h''), v, t, ht, hs => by rw [refCmp, refCmp]
theorem refFby_exchanged {T : Int} (hB : ∀ {late e e'}, B late e e' → ∀ t, t < T → Sees late t →
    ref W e t = ref W e' t) : {late : Bool} → {es es' : List Src} → ExchangedList B late es es' →
    late = true → ∀ i t, t < T → refFby W i es t = refFby W i es' t
  | _, _, _, .nil, hl, i, t, ht => rfl
  | _, _, _, .cons h h', hl, i, t, ht => by
    rw [refFby, refFby, ref_exchanged hB h (t - i) (by omega) (.inl hl),
      refFby_exchanged hB h' hl (i + 1) t ht]
theorem refThen_exchanged {T : Int} (hB : ∀ {late e e'}, B late e e' → ∀ t, t < T → Sees late t →
    ref W e t = ref W e' t) : {late : Bool} → {es es' : List Src} → ExchangedList B late es es' →
    ∀ i t, t < T → Sees late t → refThen W i es t = refThen W i es' t
  | _, _, _, .nil, i, t, ht, hs => rfl
  | _, _, _, .cons h h', i, t, ht, hs => by
    rw [refThen, refThen, ref_exchanged hB h t ht hs, refThen_exchanged hB h' (i + 1) t ht hs]
end

/-! ## With registers -/

/-- Not to be told apart until an instant. -/
structure UniSame (W : World) (D : String → Clock) (T : Nat) (e e' : Src) : Prop where
  value : ∀ t, t < T → uni W D e t = uni W D e' t
  on : ∀ t, t < T → uniOn W D e t = uniOn W D e' t
  shape : uniShape W e = uniShape W e'

theorem lastKept_congr {f g : Nat → Option Value} : ∀ {t : Nat}, (∀ u, u < t → f u = g u) →
    lastKept f t = lastKept g t
  | 0, _ => rfl
  | t + 1, h => by
    rw [lastKept, lastKept, lastKept_congr fun u hu => h u (by omega), h t (by omega)]

theorem uniBefore_congr {a a' : Option Bool} {f f' g g' : Nat → Option Value} {t : Nat}
    (ha : a = a') (hf : f t = f' t) (hg : ∀ u, u ≤ t → g u = g' u) :
    uniBefore a f g t = uniBefore a' f' g' t := by
  rw [uniBefore, uniBefore, ha, hf, hg t (by omega), lastKept_congr fun u hu => hg u (by omega)]

theorem uniThen_congr {f f' g g' : Nat → Option Value} {t : Nat}
    (hf : ∀ u, u ≤ t → f u = f' u) (hg : g t = g' t) :
    uniThen f g t = uniThen f' g' t := by
  rw [uniThen, uniThen, hg, hf t (by omega), lastKept_congr fun u hu => hf u (by omega)]

variable {D : String → Clock}

mutual
theorem uniShape_exchanged (hB : ∀ {late e e'}, B late e e' → uniShape W e = uniShape W e') :
    {late : Bool} → {e e' : Src} → Exchanged B late e e' → uniShape W e = uniShape W e'
  | _, _, _, .here h => hB h
  | _, _, _, .lit => rfl
  | _, _, _, .var => rfl
  | _, _, _, .paren (tr := tr) h => by
    have := uniShapes_exchanged hB h
    cases h with
    | nil => rfl
    | cons h h' =>
      cases h' with
      | nil =>
        cases tr with
        | true => rw [uniShape, uniShape, this] <;> simp
        | false => rw [uniShape, uniShape]; simpa [uniShapes] using this
      | cons h' h'' => rw [uniShape, uniShape, this] <;> simp
  | _, _, _, .left h hr => by
    rw [uniShape, uniShape, uniShape_exchanged hB h, shapeLeft_exchanged hr]
  | _, _, _, .cmp h hr => by
    rw [uniShape, uniShape, uniShape_exchanged hB h]
    cases hr <;> rfl
  | _, _, _, .fby h _ => by rw [uniShape, uniShape, uniShape_exchanged hB h]
  | _, _, _, .arrow h _ => by rw [uniShape, uniShape, uniShape_exchanged hB h]
  | _, _, _, .ifx _ h _ => by rw [uniShape, uniShape, uniShape_exchanged hB h]
  | _, _, _, .merge h _ => by rw [uniShape, uniShape, uniShape_exchanged hB h]
  | _, _, _, .call _ => by rw [uniShape, uniShape]
  | _, _, _, .pre h => by rw [uniShape, uniShape, uniShape_exchanged hB h]
  | _, _, _, .neg _ => by rw [uniShape, uniShape]
  | _, _, _, .not _ => by rw [uniShape, uniShape]
theorem uniShapes_exchanged (hB : ∀ {late e e'}, B late e e' → uniShape W e = uniShape W e') :
    {late : Bool} → {es es' : List Src} → ExchangedList B late es es' →
    uniShapes W es = uniShapes W es'
  | _, _, _, .nil => rfl
  | _, _, _, .cons h h' => by
    rw [uniShapes, uniShapes, uniShape_exchanged hB h, uniShapes_exchanged hB h']
theorem shapeLeft_exchanged : {late : Bool} → {r r' : List (LOp × Src)} →
    ExchangedOps B late r r' → ∀ {s : Tup Unit}, shapeLeft s r = shapeLeft s r'
  | _, _, _, .nil, s => rfl
  | _, _, _, .op (o := o) _ _ _ h', s => by
    cases o <;> simp only [shapeLeft] <;> exact shapeLeft_exchanged h'
  | _, _, _, .guard (o := o) h', s => by
    cases o <;> simp only [shapeLeft] <;> exact shapeLeft_exchanged h'
end

mutual
theorem uniOn_exchanged {t : Nat} (hB : ∀ {late e e'}, B late e e' → uniOn W D e t = uniOn W D e' t) :
    {late : Bool} → {e e' : Src} → Exchanged B late e e' → uniOn W D e t = uniOn W D e' t
  | _, _, _, .here h => hB h
  | _, _, _, .lit => rfl
  | _, _, _, .var => rfl
  | _, _, _, .paren h => by rw [uniOn, uniOn, uniOnAll_exchanged hB h]
  | _, _, _, .left h hr => by
    rw [uniOn, uniOn, uniOn_exchanged hB h, uniOnLeft_exchanged hB hr]
  | _, _, _, .cmp h hr => by
    rw [uniOn, uniOn, uniOn_exchanged hB h, uniOnCmp_exchanged hB hr]
  | _, _, _, .fby h _ => by rw [uniOn, uniOn, uniOn_exchanged hB h]
  | _, _, _, .arrow h _ => by rw [uniOn, uniOn, uniOn_exchanged hB h]
  | _, _, _, .ifx hb hy hn => by
    rw [uniOn, uniOn, uniOn_exchanged hB hb, uniOn_exchanged hB hy, uniOn_exchanged hB hn]
  | _, _, _, .merge _ _ => by rw [uniOn, uniOn]
  | _, _, _, .call h => by rw [uniOn, uniOn, uniOnAll_exchanged hB h]
  | _, _, _, .pre h => by rw [uniOn, uniOn, uniOn_exchanged hB h]
  | _, _, _, .neg h => by rw [uniOn, uniOn, uniOn_exchanged hB h]
  | _, _, _, .not h => by rw [uniOn, uniOn, uniOn_exchanged hB h]
theorem uniOnAll_exchanged {t : Nat}
    (hB : ∀ {late e e'}, B late e e' → uniOn W D e t = uniOn W D e' t) :
    {late : Bool} → {es es' : List Src} → ExchangedList B late es es' →
    uniOnAll W D es t = uniOnAll W D es' t
  | _, _, _, .nil => rfl
  | _, _, _, .cons h h' => by
    rw [uniOnAll, uniOnAll, uniOn_exchanged hB h, uniOnAll_exchanged hB h']
theorem uniOnLeft_exchanged {t : Nat}
    (hB : ∀ {late e e'}, B late e e' → uniOn W D e t = uniOn W D e' t) :
    {late : Bool} → {r r' : List (LOp × Src)} → ExchangedOps B late r r' → ∀ {a : Option Bool},
    uniOnLeft W D a r t = uniOnLeft W D a r' t
  | _, _, _, .nil, a => rfl
  | _, _, _, .op (o := o) h hw hn h', a => by
    have := uniOn_exchanged hB h
    cases o <;> first
      | exact absurd rfl hw
      | exact absurd rfl hn
      | (simp only [uniOnLeft, this]; exact uniOnLeft_exchanged hB h')
  | _, _, _, .guard (o := o) h', a => by
    cases o <;> simp only [uniOnLeft] <;> exact uniOnLeft_exchanged hB h'
theorem uniOnCmp_exchanged {t : Nat}
    (hB : ∀ {late e e'}, B late e e' → uniOn W D e t = uniOn W D e' t) :
    {late : Bool} → {r r' : List (CmpOp × Src)} → ExchangedCmp B late r r' →
    uniOnCmp W D r t = uniOnCmp W D r' t
  | _, _, _, .nil => rfl
  | _, _, _, .cons h h' => by
    rw [uniOnCmp, uniOnCmp, uniOn_exchanged hB h, uniOnCmp_exchanged hB h']
end

mutual
theorem uni_exchanged {T : Nat} (hB : ∀ {late e e'}, B late e e' → UniSame W D T e e') :
    {late : Bool} → {e e' : Src} → Exchanged B late e e' → ∀ t, t < T → uni W D e t = uni W D e' t
  | _, _, _, .here h, t, ht => (hB h).value t ht
  | _, _, _, .lit, t, ht => rfl
  | _, _, _, .var, t, ht => rfl
  | _, _, _, .paren h, t, ht => by rw [uni, uni, uniList_exchanged hB h t ht]
  | _, _, _, .left h hr, t, ht => by
    rw [uni, uni, uni_exchanged hB h t ht]
    congr 1
    funext v
    exact uniLeft_exchanged hB hr v t ht
  | _, _, _, .cmp h hr, t, ht => by
    rw [uni, uni, uni_exchanged hB h t ht]
    congr 1
    funext v
    exact uniCmp_exchanged hB hr v t ht
  | _, _, _, .fby h hr, t, ht => by
    rw [uni, uni, exchanged_empty hr, uni_exchanged hB h t ht]
    split
    · rfl
    · exact uniBefore_congr (uniOn_exchanged (fun h => (hB h).on t ht) h)
        (uni_exchanged hB h t ht) fun u hu => uniFby_exchanged hB hr u (by omega)
  | _, _, _, .arrow h hr, t, ht => by
    rw [uni, uni, exchanged_empty hr, uni_exchanged hB h t ht]
    split
    · rfl
    · exact uniThen_congr (fun u hu => uni_exchanged hB h u (by omega))
        (uniArrow_exchanged hB hr t ht)
  | _, _, _, .ifx hb hy hn, t, ht => by
    rw [uni, uni, uni_exchanged hB hb t ht, uni_exchanged hB hy t ht, uni_exchanged hB hn t ht]
  | _, _, _, .merge hy hn, t, ht => by
    rw [uni, uni, uni_exchanged hB hy t ht, uni_exchanged hB hn t ht]
  | _, _, _, .call h, t, ht => by
    rw [uni, uni]
    split
    · rfl
    · refine callAt_congr fun u hu => ?_
      rw [uniList_exchanged hB h u (by omega)]
  | _, _, _, .pre h, t, ht => by
    rw [uni, uni, uniOn_exchanged (fun h => (hB h).on t ht) h,
      uniShape_exchanged (fun h => (hB h).shape) h, uniPre, uniPre, uni_exchanged hB h t ht,
      lastKept_congr fun u hu => uni_exchanged hB h u (by omega)]
  | _, _, _, .neg h, t, ht => by rw [uni, uni, uni_exchanged hB h t ht]
  | _, _, _, .not h, t, ht => by rw [uni, uni, uni_exchanged hB h t ht]
theorem uniList_exchanged {T : Nat} (hB : ∀ {late e e'}, B late e e' → UniSame W D T e e') :
    {late : Bool} → {es es' : List Src} → ExchangedList B late es es' →
    ∀ t, t < T → uniList W D es t = uniList W D es' t
  | _, _, _, .nil, t, ht => rfl
  | _, _, _, .cons h h', t, ht => by
    rw [uniList, uniList, uni_exchanged hB h t ht, uniList_exchanged hB h' t ht]
theorem uniLeft_exchanged {T : Nat} (hB : ∀ {late e e'}, B late e e' → UniSame W D T e e') :
    {late : Bool} → {r r' : List (LOp × Src)} → ExchangedOps B late r r' →
    ∀ v t, t < T → uniLeft W D v r t = uniLeft W D v r' t
  | _, _, _, .nil, v, t, ht => rfl
  | _, _, _, .op h _ _ h', v, t, ht => by
    rw [uniLeft, uniLeft, uni_exchanged hB h t ht]
    congr 1
    funext a
    congr 1
    funext b
    exact uniLeft_exchanged hB h' b t ht
  | _, _, _, .guard h', v, t, ht => by
    rw [uniLeft, uniLeft]
    congr 1
    funext a
    congr 1
    funext b
    exact uniLeft_exchanged hB h' b t ht
theorem uniCmp_exchanged {T : Nat} (hB : ∀ {late e e'}, B late e e' → UniSame W D T e e') :
    {late : Bool} → {r r' : List (CmpOp × Src)} → ExchangedCmp B late r r' →
    ∀ v t, t < T → uniCmp W D v r t = uniCmp W D v r' t
  | _, _, _, .nil, v, t, ht => rfl
  | _, _, _, .cons h .nil, v, t, ht => by rw [uniCmp, uniCmp, uni_exchanged hB h t ht]
  | _, _, _, .cons h (.cons h' h''), v, t, ht => by rw [uniCmp, uniCmp]
theorem uniFby_exchanged {T : Nat} (hB : ∀ {late e e'}, B late e e' → UniSame W D T e e') :
    {late : Bool} → {es es' : List Src} → ExchangedList B late es es' →
    ∀ t, t < T → uniFby W D es t = uniFby W D es' t
  | _, _, _, .nil, t, ht => rfl
  | _, _, _, .cons h h', t, ht => by
    rw [uniFby, uniFby, exchanged_empty h', uni_exchanged hB h t ht]
    split
    · rfl
    · exact uniBefore_congr (uniOn_exchanged (fun h => (hB h).on t ht) h)
        (uni_exchanged hB h t ht) fun u hu => uniFby_exchanged hB h' u (by omega)
theorem uniArrow_exchanged {T : Nat} (hB : ∀ {late e e'}, B late e e' → UniSame W D T e e') :
    {late : Bool} → {es es' : List Src} → ExchangedList B late es es' →
    ∀ t, t < T → uniArrow W D es t = uniArrow W D es' t
  | _, _, _, .nil, t, ht => rfl
  | _, _, _, .cons h h', t, ht => by
    rw [uniArrow, uniArrow, exchanged_empty h', uni_exchanged hB h t ht]
    split
    · rfl
    · exact uniThen_congr (fun u hu => uni_exchanged hB h u (by omega))
        (uniArrow_exchanged hB h' t ht)
end

end

/-! ## Nothing is exchanged -/

section
variable {B : Bool → Src → Src → Prop}

mutual
theorem exchanged_same : (e : Src) → (late : Bool) → Exchanged B late e e
  | .lit _, _ => .lit
  | .var _, _ => .var
  | .paren es _, _ => .paren (exchangedList_same es _)
  | .left e r, _ => .left (exchanged_same e _) (exchangedOps_same r _)
  | .cmp e r, _ => .cmp (exchanged_same e _) (exchangedCmp_same r _)
  | .fby e r, _ => .fby (exchanged_same e _) (exchangedList_same r _)
  | .arrow e r, _ => .arrow (exchanged_same e _) (exchangedList_same r _)
  | .ifx b y n, _ => .ifx (exchanged_same b _) (exchanged_same y _) (exchanged_same n _)
  | .merge _ y n, _ => .merge (exchanged_same y _) (exchanged_same n _)
  | .call _ es _, _ => .call (exchangedList_same es _)
  | .pre e, _ => .pre (exchanged_same e _)
  | .neg e, _ => .neg (exchanged_same e _)
  | .not e, _ => .not (exchanged_same e _)
theorem exchangedList_same : (es : List Src) → (late : Bool) → ExchangedList B late es es
  | [], _ => .nil
  | e :: es, _ => .cons (exchanged_same e _) (exchangedList_same es _)
theorem exchangedOps_same : (es : List (LOp × Src)) → (late : Bool) → ExchangedOps B late es es
  | [], _ => .nil
  | (_, _) :: es, _ => .guard (exchangedOps_same es _)
theorem exchangedCmp_same : (es : List (CmpOp × Src)) → (late : Bool) → ExchangedCmp B late es es
  | [], _ => .nil
  | (_, e) :: es, _ => .cons (exchanged_same e _) (exchangedCmp_same es _)
end

end

end Chandeliers.Rep
