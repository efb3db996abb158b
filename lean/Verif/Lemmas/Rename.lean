import Verif.Spec.Rename
import Verif.Lemmas.Exchange

/-!
# Names do not matter
-/

set_option autoImplicit false

namespace Chandeliers.Rep
open Chandeliers.San Chandeliers.Spec Chandeliers.Syn Chandeliers.Uni Chandeliers.Spec.Static

/-- Variables have the same values under their other names, and so have constants. -/
structure Corr (ρ ν : String → String) (P : String → Prop) (W W' : World) : Prop where
  arith : W'.arith = W.arith
  nodes : ∀ f, W'.nodes (ν f) = W.nodes f
  locals : ∀ x, P x → (ρ x ∈ W'.locals ↔ x ∈ W.locals)
  X : ∀ x, P x → x ∈ W.locals → W'.X (ρ x) = W.X x
  glob : ∀ x, P x → x ∉ W.locals → W'.glob (ρ x) = W.glob x

section
variable {ρ ν : String → String} {P : String → Prop} {W W' : World}

theorem forall_append {xs ys : List String} :
    (∀ x ∈ xs ++ ys, P x) ↔ (∀ x ∈ xs, P x) ∧ ∀ x ∈ ys, P x := by
  simp only [List.mem_append, or_imp, forall_and]

mutual
theorem ref_rename (h : Corr ρ ν P W W') : (e : Src) → (∀ x ∈ names e, P x) → ∀ t : Int,
    ref W' (renameSrc ρ ν e) t = ref W e t
  | .lit l, hn, t => rfl
  | .var x, hn, t => by
    have hp : P x := hn x (by simp [names])
    rw [renameSrc, ref, ref]
    by_cases hx : x ∈ W.locals
    · simp only [(h.locals x hp).2 hx, hx, if_true, h.X x hp hx]
    · have : ρ x ∉ W'.locals := fun h' => hx ((h.locals x hp).1 h')
      simp only [this, hx, if_false, h.glob x hp hx]
  | .paren es b, hn, t => by rw [renameSrc, ref, ref, refList_rename h es hn t]
  | .left e r, hn, t => by
    rw [names, forall_append] at hn
    rw [renameSrc, ref, ref, ref_rename h e hn.1 t]
    congr 1
    funext v
    exact refLeft_rename h r hn.2 v t
  | .cmp e r, hn, t => by
    rw [names, forall_append] at hn
    rw [renameSrc, ref, ref, ref_rename h e hn.1 t]
    congr 1
    funext v
    exact refCmp_rename h r hn.2 v t
  | .fby e r, hn, t => by
    rw [names, forall_append] at hn
    rw [renameSrc, ref, ref, ref_rename h e hn.1 t, refFby_rename h r hn.2 1 t]
  | .arrow e r, hn, t => by
    rw [names, forall_append] at hn
    rw [renameSrc, ref, ref, ref_rename h e hn.1 t, refThen_rename h r hn.2 1 t]
  | .ifx b y n, hn, t => by
    rw [names, forall_append, forall_append] at hn
    rw [renameSrc, ref, ref, ref_rename h b hn.1 t, ref_rename h y hn.2.1 t,
      ref_rename h n hn.2.2 t]
  | .merge b y n, hn, t => by
    rw [names, forall_append, forall_append] at hn
    rw [renameSrc, ref, ref, ref_rename h b hn.1 t, ref_rename h y hn.2.1 t,
      ref_rename h n hn.2.2 t]
  | .call f es b, hn, t => by
    rw [names] at hn
    rw [renameSrc, ref, ref, h.nodes]
    split
    · rfl
    · simp only [refList_rename h es hn]
  | .pre e, hn, t => by
    rw [names] at hn
    rw [renameSrc, ref, ref, ref_rename h e hn]
  | .neg e, hn, t => by
    rw [names] at hn
    rw [renameSrc, ref, ref, ref_rename h e hn, h.arith]
  | .not e, hn, t => by
    rw [names] at hn
    rw [renameSrc, ref, ref, ref_rename h e hn, h.arith]
theorem refList_rename (h : Corr ρ ν P W W') : (es : List Src) → (∀ x ∈ namesList es, P x) →
    ∀ t : Int, refList W' (renameList ρ ν es) t = refList W es t
  | [], hn, t => rfl
  | e :: es, hn, t => by
    rw [namesList, forall_append] at hn
    rw [renameList, refList, refList, ref_rename h e hn.1 t, refList_rename h es hn.2 t]
theorem refLeft_rename (h : Corr ρ ν P W W') : (r : List (LOp × Src)) →
    (∀ x ∈ namesLeft r, P x) → ∀ v (t : Int), refLeft W' v (renameOps ρ ν r) t = refLeft W v r t
  | [], hn, v, t => rfl
  | (op, e) :: r, hn, v, t => by
    rw [namesLeft, forall_append] at hn
    rw [renameOps, refLeft, refLeft, ref_rename h e hn.1 t, h.arith]
    congr 1
    funext a
    congr 1
    funext b
    exact refLeft_rename h r hn.2 b t
theorem refCmp_rename (h : Corr ρ ν P W W') : (r : List (CmpOp × Src)) →
    (∀ x ∈ namesCmp r, P x) → ∀ v (t : Int), refCmp W' v (renameCmp ρ ν r) t = refCmp W v r t
  | [], hn, v, t => rfl
  | [(op, e)], hn, v, t => by
    rw [namesCmp, forall_append] at hn
    rw [renameCmp, renameCmp, refCmp, refCmp, ref_rename h e hn.1 t, h.arith]
  | (op, e) :: (op', e') :: r, hn, v, t => by
    rw [renameCmp, renameCmp, refCmp, refCmp]
theorem refFby_rename (h : Corr ρ ν P W W') : (es : List Src) → (∀ x ∈ namesList es, P x) →
    ∀ i (t : Int), refFby W' i (renameList ρ ν es) t = refFby W i es t
  | [], hn, i, t => rfl
  | e :: es, hn, i, t => by
    rw [namesList, forall_append] at hn
    rw [renameList, refFby, refFby, ref_rename h e hn.1, refFby_rename h es hn.2]
theorem refThen_rename (h : Corr ρ ν P W W') : (es : List Src) → (∀ x ∈ namesList es, P x) →
    ∀ i (t : Int), refThen W' i (renameList ρ ν es) t = refThen W i es t
  | [], hn, i, t => rfl
  | e :: es, hn, i, t => by
    rw [namesList, forall_append] at hn
    rw [renameList, refThen, refThen, ref_rename h e hn.1, refThen_rename h es hn.2]
end

/-! ## With registers -/

mutual
theorem uniShape_rename (h : ∀ f, W'.nodes (ν f) = W.nodes f) : (e : Src) →
    uniShape W' (renameSrc ρ ν e) = uniShape W e
  | .lit l => rfl
  | .var x => by rw [renameSrc, uniShape, uniShape]
  | .paren es b => by
    have := uniShapes_rename h es
    rw [renameSrc]
    match es, b with
    | [], b => rw [renameList, uniShape, uniShape, uniShapes, uniShapes] <;> simp
    | [e], true => rw [uniShape, uniShape, this] <;> simp
    | [e], false =>
      rw [renameList, renameList, uniShape, uniShape, uniShape_rename h e]
    | e :: e' :: es, b => rw [uniShape, uniShape, this] <;> simp [renameList]
  | .left e r => by rw [renameSrc, uniShape, uniShape, uniShape_rename h e, shapeLeft_rename r]
  | .cmp e r => by
    rw [renameSrc, uniShape, uniShape, uniShape_rename h e]
    cases r <;> rfl
  | .fby e r => by rw [renameSrc, uniShape, uniShape, uniShape_rename h e]
  | .arrow e r => by rw [renameSrc, uniShape, uniShape, uniShape_rename h e]
  | .ifx b y n => by rw [renameSrc, uniShape, uniShape, uniShape_rename h y]
  | .merge b y n => by rw [renameSrc, uniShape, uniShape, uniShape_rename h y]
  | .call f es b => by rw [renameSrc, uniShape, uniShape, h f]
  | .pre e => by rw [renameSrc, uniShape, uniShape, uniShape_rename h e]
  | .neg e => by rw [renameSrc, uniShape, uniShape]
  | .not e => by rw [renameSrc, uniShape, uniShape]
theorem uniShapes_rename (h : ∀ f, W'.nodes (ν f) = W.nodes f) : (es : List Src) →
    uniShapes W' (renameList ρ ν es) = uniShapes W es
  | [] => rfl
  | e :: es => by
    rw [renameList, uniShapes, uniShapes, uniShape_rename h e, uniShapes_rename h es]
theorem shapeLeft_rename : (r : List (LOp × Src)) → ∀ {s : Tup Unit},
    shapeLeft s (renameOps ρ ν r) = shapeLeft s r
  | [], s => rfl
  | (op, e) :: r, s => by
    rw [renameOps]
    cases op <;> simp only [shapeLeft] <;> exact shapeLeft_rename r
end

theorem uniOpened_rename (h : Corr ρ ν P W W') (b : Bool) (t : Nat) : (e : Src) →
    (∀ x ∈ names e, P x) → uniOpened W' b (renameSrc ρ ν e) t = uniOpened W b e t
  | .lit l, hn => by simp [renameSrc, uniOpened]
  | .var x, hn => by
    have hp : P x := hn x (by simp [names])
    rw [renameSrc, uniOpened, uniOpened]
    by_cases hx : x ∈ W.locals
    · simp only [(h.locals x hp).2 hx, hx, if_true, h.X x hp hx]
    · have : ρ x ∉ W'.locals := fun h' => hx ((h.locals x hp).1 h')
      simp only [this, hx, if_false]
  | .paren es b, hn => by simp [renameSrc, uniOpened]
  | .left e [], hn => by
    rw [names, forall_append] at hn
    rw [renameSrc, renameOps, uniOpened, uniOpened, uniOpened_rename h b t e hn.1]
  | .left e ((op, e') :: r), hn => by simp [renameSrc, renameOps, uniOpened]
  | .cmp e [], hn => by
    rw [names, forall_append] at hn
    rw [renameSrc, renameCmp, uniOpened, uniOpened, uniOpened_rename h b t e hn.1]
  | .cmp e ((op, e') :: r), hn => by simp [renameSrc, renameCmp, uniOpened]
  | .fby e [], hn => by
    rw [names, forall_append] at hn
    rw [renameSrc, renameList, uniOpened, uniOpened, uniOpened_rename h b t e hn.1]
  | .fby e (e' :: r), hn => by simp [renameSrc, renameList, uniOpened]
  | .arrow e [], hn => by
    rw [names, forall_append] at hn
    rw [renameSrc, renameList, uniOpened, uniOpened, uniOpened_rename h b t e hn.1]
  | .arrow e (e' :: r), hn => by simp [renameSrc, renameList, uniOpened]
  | .ifx b y n, hn => by simp [renameSrc, uniOpened]
  | .merge b y n, hn => by simp [renameSrc, uniOpened]
  | .call f es b, hn => by simp [renameSrc, uniOpened]
  | .pre e, hn => by simp [renameSrc, uniOpened]
  | .neg e, hn => by simp [renameSrc, uniOpened]
  | .not e, hn => by simp [renameSrc, uniOpened]

variable {D D' : String → Clock}

/-- Clocks of variables too. -/
structure CorrOn (ρ ν : String → String) (P : String → Prop) (W W' : World) (D D' : String → Clock) :
    Prop extends Corr ρ ν P W W' where
  due : ∀ x, P x → x ∈ W.locals → ∀ t, uniDue W'.X (D' (ρ x)) t = uniDue W.X (D x) t

mutual
theorem uniOn_rename (h : CorrOn ρ ν P W W' D D') : (e : Src) → (∀ x ∈ names e, P x) →
    ∀ t : Nat, uniOn W' D' (renameSrc ρ ν e) t = uniOn W D e t
  | .lit l, hn, t => rfl
  | .var x, hn, t => by
    have hp : P x := hn x (by simp [names])
    rw [renameSrc, uniOn, uniOn]
    by_cases hx : x ∈ W.locals
    · simp only [(h.locals x hp).2 hx, hx, if_true, h.due x hp hx]
    · have : ρ x ∉ W'.locals := fun h' => hx ((h.locals x hp).1 h')
      simp only [this, hx, if_false]
  | .paren es b, hn, t => by rw [renameSrc, uniOn, uniOn, uniOnAll_rename h es hn t]
  | .left e r, hn, t => by
    rw [names, forall_append] at hn
    rw [renameSrc, uniOn, uniOn, uniOn_rename h e hn.1 t, uniOnLeft_rename h r hn.2 _ t]
  | .cmp e r, hn, t => by
    rw [names, forall_append] at hn
    rw [renameSrc, uniOn, uniOn, uniOn_rename h e hn.1 t, uniOnCmp_rename h r hn.2 t]
  | .fby e r, hn, t => by
    rw [names, forall_append] at hn
    rw [renameSrc, uniOn, uniOn, uniOn_rename h e hn.1 t]
  | .arrow e r, hn, t => by
    rw [names, forall_append] at hn
    rw [renameSrc, uniOn, uniOn, uniOn_rename h e hn.1 t]
  | .ifx b y n, hn, t => by
    rw [names, forall_append, forall_append] at hn
    rw [renameSrc, uniOn, uniOn, uniOn_rename h b hn.1 t, uniOn_rename h y hn.2.1 t,
      uniOn_rename h n hn.2.2 t]
  | .merge b y n, hn, t => by
    rw [names, forall_append, forall_append] at hn
    rw [renameSrc, uniOn, uniOn, uniOn_rename h b hn.1 t]
  | .call f es b, hn, t => by
    rw [names] at hn
    rw [renameSrc, uniOn, uniOn, uniOnAll_rename h es hn t]
  | .pre e, hn, t => by
    rw [names] at hn
    rw [renameSrc, uniOn, uniOn, uniOn_rename h e hn]
  | .neg e, hn, t => by
    rw [names] at hn
    rw [renameSrc, uniOn, uniOn, uniOn_rename h e hn]
  | .not e, hn, t => by
    rw [names] at hn
    rw [renameSrc, uniOn, uniOn, uniOn_rename h e hn]
theorem uniOnAll_rename (h : CorrOn ρ ν P W W' D D') : (es : List Src) →
    (∀ x ∈ namesList es, P x) → ∀ t : Nat, uniOnAll W' D' (renameList ρ ν es) t = uniOnAll W D es t
  | [], hn, t => rfl
  | e :: es, hn, t => by
    rw [namesList, forall_append] at hn
    rw [renameList, uniOnAll, uniOnAll, uniOn_rename h e hn.1 t, uniOnAll_rename h es hn.2 t]
theorem uniOnLeft_rename (h : CorrOn ρ ν P W W' D D') : (r : List (LOp × Src)) →
    (∀ x ∈ namesLeft r, P x) → ∀ a (t : Nat),
    uniOnLeft W' D' a (renameOps ρ ν r) t = uniOnLeft W D a r t
  | [], hn, a, t => rfl
  | (op, e) :: r, hn, a, t => by
    rw [namesLeft, forall_append] at hn
    rw [renameOps]
    cases op <;> simp only [uniOnLeft, uniOn_rename h e hn.1 t,
      uniOpened_rename h.toCorr _ t e hn.1] <;> exact uniOnLeft_rename h r hn.2 _ t
theorem uniOnCmp_rename (h : CorrOn ρ ν P W W' D D') : (r : List (CmpOp × Src)) →
    (∀ x ∈ namesCmp r, P x) → ∀ (t : Nat), uniOnCmp W' D' (renameCmp ρ ν r) t = uniOnCmp W D r t
  | [], hn, t => rfl
  | (op, e) :: r, hn, t => by
    rw [namesCmp, forall_append] at hn
    rw [renameCmp, uniOnCmp, uniOnCmp, uniOn_rename h e hn.1 t, uniOnCmp_rename h r hn.2 t]
end

theorem renameList_empty : (es : List Src) → (renameList ρ ν es).isEmpty = es.isEmpty
  | [] => rfl
  | _ :: _ => rfl

mutual
theorem uni_rename (h : CorrOn ρ ν P W W' D D') : (e : Src) → (∀ x ∈ names e, P x) → ∀ t : Nat,
    uni W' D' (renameSrc ρ ν e) t = uni W D e t
  | .lit l, hn, t => rfl
  | .var x, hn, t => by
    have hp : P x := hn x (by simp [names])
    rw [renameSrc, uni, uni]
    by_cases hx : x ∈ W.locals
    · simp only [(h.locals x hp).2 hx, hx, if_true, h.X x hp hx]
    · have : ρ x ∉ W'.locals := fun h' => hx ((h.locals x hp).1 h')
      simp only [this, hx, if_false, h.glob x hp hx]
  | .paren es b, hn, t => by rw [renameSrc, uni, uni, uniList_rename h es hn t]
  | .left e r, hn, t => by
    rw [names, forall_append] at hn
    rw [renameSrc, uni, uni, uni_rename h e hn.1 t]
    congr 1
    funext v
    exact uniLeft_rename h r hn.2 v t
  | .cmp e r, hn, t => by
    rw [names, forall_append] at hn
    rw [renameSrc, uni, uni, uni_rename h e hn.1 t]
    congr 1
    funext v
    exact uniCmp_rename h r hn.2 v t
  | .fby e r, hn, t => by
    rw [names, forall_append] at hn
    rw [renameSrc, uni, uni, renameList_empty, uni_rename h e hn.1 t, uniOn_rename h e hn.1 t]
    split
    · rfl
    · exact uniBefore_congr rfl (uni_rename h e hn.1 t) fun u _ => uniFby_rename h r hn.2 u
  | .arrow e r, hn, t => by
    rw [names, forall_append] at hn
    rw [renameSrc, uni, uni, renameList_empty, uni_rename h e hn.1 t]
    split
    · rfl
    · exact uniThen_congr (fun u _ => uni_rename h e hn.1 u) (uniArrow_rename h r hn.2 t)
  | .ifx b y n, hn, t => by
    rw [names, forall_append, forall_append] at hn
    rw [renameSrc, uni, uni, uni_rename h b hn.1 t, uni_rename h y hn.2.1 t,
      uni_rename h n hn.2.2 t]
  | .merge b y n, hn, t => by
    rw [names, forall_append, forall_append] at hn
    rw [renameSrc, uni, uni, uni_rename h b hn.1 t, uni_rename h y hn.2.1 t,
      uni_rename h n hn.2.2 t]
  | .call f es b, hn, t => by
    rw [names] at hn
    rw [renameSrc, uni, uni, h.nodes]
    split
    · rfl
    · simp only [uniList_rename h es hn]
  | .pre e, hn, t => by
    rw [names] at hn
    rw [renameSrc, uni, uni, uniOn_rename h e hn, uniShape_rename h.nodes, uniPre, uniPre,
      uni_rename h e hn, lastKept_congr fun u _ => uni_rename h e hn u]
  | .neg e, hn, t => by
    rw [names] at hn
    rw [renameSrc, uni, uni, uni_rename h e hn, h.arith]
  | .not e, hn, t => by
    rw [names] at hn
    rw [renameSrc, uni, uni, uni_rename h e hn, h.arith]
theorem uniList_rename (h : CorrOn ρ ν P W W' D D') : (es : List Src) →
    (∀ x ∈ namesList es, P x) → ∀ t : Nat, uniList W' D' (renameList ρ ν es) t = uniList W D es t
  | [], hn, t => rfl
  | e :: es, hn, t => by
    rw [namesList, forall_append] at hn
    rw [renameList, uniList, uniList, uni_rename h e hn.1 t, uniList_rename h es hn.2 t]
theorem uniLeft_rename (h : CorrOn ρ ν P W W' D D') : (r : List (LOp × Src)) →
    (∀ x ∈ namesLeft r, P x) → ∀ v (t : Nat),
    uniLeft W' D' v (renameOps ρ ν r) t = uniLeft W D v r t
  | [], hn, v, t => rfl
  | (op, e) :: r, hn, v, t => by
    rw [namesLeft, forall_append] at hn
    rw [renameOps, uniLeft, uniLeft, uni_rename h e hn.1 t, h.arith]
    congr 1
    funext a
    congr 1
    funext b
    exact uniLeft_rename h r hn.2 b t
theorem uniCmp_rename (h : CorrOn ρ ν P W W' D D') : (r : List (CmpOp × Src)) →
    (∀ x ∈ namesCmp r, P x) → ∀ v (t : Nat), uniCmp W' D' v (renameCmp ρ ν r) t = uniCmp W D v r t
  | [], hn, v, t => rfl
  | [(op, e)], hn, v, t => by
    rw [namesCmp, forall_append] at hn
    rw [renameCmp, renameCmp, uniCmp, uniCmp, uni_rename h e hn.1 t, h.arith]
  | (op, e) :: (op', e') :: r, hn, v, t => by
    rw [renameCmp, renameCmp, uniCmp, uniCmp]
theorem uniFby_rename (h : CorrOn ρ ν P W W' D D') : (es : List Src) →
    (∀ x ∈ namesList es, P x) → ∀ (t : Nat), uniFby W' D' (renameList ρ ν es) t = uniFby W D es t
  | [], hn, t => rfl
  | e :: es, hn, t => by
    rw [namesList, forall_append] at hn
    rw [renameList, uniFby, uniFby, renameList_empty, uni_rename h e hn.1 t, uniOn_rename h e hn.1 t]
    split
    · rfl
    · exact uniBefore_congr rfl (uni_rename h e hn.1 t) fun u _ => uniFby_rename h es hn.2 u
theorem uniArrow_rename (h : CorrOn ρ ν P W W' D D') : (es : List Src) →
    (∀ x ∈ namesList es, P x) → ∀ (t : Nat), uniArrow W' D' (renameList ρ ν es) t = uniArrow W D es t
  | [], hn, t => rfl
  | e :: es, hn, t => by
    rw [namesList, forall_append] at hn
    rw [renameList, uniArrow, uniArrow, renameList_empty, uni_rename h e hn.1 t]
    split
    · rfl
    · exact uniThen_congr (fun u _ => uni_rename h e hn.1 u) (uniArrow_rename h es hn.2 t)
end

end

/-! ## Nothing is renamed -/

mutual
theorem renameSrc_id : (e : Src) → renameSrc id id e = e
  | .lit _ => rfl
  | .var _ => rfl
  | .paren es _ => by rw [renameSrc, renameList_id es]
  | .left e r => by rw [renameSrc, renameSrc_id e, renameOps_id r]
  | .cmp e r => by rw [renameSrc, renameSrc_id e, renameCmp_id r]
  | .fby e r => by rw [renameSrc, renameSrc_id e, renameList_id r]
  | .arrow e r => by rw [renameSrc, renameSrc_id e, renameList_id r]
  | .ifx b y n => by rw [renameSrc, renameSrc_id b, renameSrc_id y, renameSrc_id n]
  | .merge b y n => by rw [renameSrc, renameSrc_id b, renameSrc_id y, renameSrc_id n]
  | .call _ es _ => by rw [renameSrc, renameList_id es]; rfl
  | .pre e => by rw [renameSrc, renameSrc_id e]
  | .neg e => by rw [renameSrc, renameSrc_id e]
  | .not e => by rw [renameSrc, renameSrc_id e]
theorem renameList_id : (es : List Src) → renameList id id es = es
  | [] => rfl
  | e :: es => by rw [renameList, renameSrc_id e, renameList_id es]
theorem renameOps_id : (es : List (LOp × Src)) → renameOps id id es = es
  | [] => rfl
  | (_, e) :: es => by rw [renameOps, renameSrc_id e, renameOps_id es]
theorem renameCmp_id : (es : List (CmpOp × Src)) → renameCmp id id es = es
  | [] => rfl
  | (_, e) :: es => by rw [renameCmp, renameSrc_id e, renameCmp_id es]
end

mutual
theorem renameTarget_id : (p : Target) → renameTarget id p = p
  | .var _ => rfl
  | .tuple ps _ => by rw [renameTarget, renameTargets_id ps]
theorem renameTargets_id : (ps : List Target) → renameTargets id ps = ps
  | [] => rfl
  | p :: ps => by rw [renameTargets, renameTarget_id p, renameTargets_id ps]
end

theorem renameStmt_id (st : SrcStmt) : renameStmt id id st = st := by
  cases st <;> simp only [renameStmt, renameTarget_id, renameSrc_id]

end Chandeliers.Rep
