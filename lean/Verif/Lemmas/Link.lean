import Verif.Lemmas.Program
import Verif.Lemmas.Ready
import Verif.Props.Safety
import Verif.Props.Constants
import Verif.Props.Steps

/-!
# The items of a compiled program
-/

set_option autoImplicit false

namespace Chandeliers.Prg
open Chandeliers.San Chandeliers.Spec Chandeliers.Syn Chandeliers.Err

/-- The name that a declaration gives to a constant. -/
def constName : San.Decl → Option String
  | .const c => some c.name
  | .extConst c => some c.name
  | _ => none

theorem extend_none {α : Type} {f : String → Option α} {x y : String} {a : α}
    (h : extend f x a y = none) : y ≠ x ∧ f y = none := by
  unfold extend at h
  split at h
  · cases h
  · rename_i hne; exact ⟨hne, h⟩

/-- Names in scope are not defined again. -/
theorem passes_fresh {sigs : String → Option Sig} {consts : String → Option TyBase}
    {q : List SrcDecl} {ds : List San.Decl} (h : ProgPasses sigs consts q ds) :
    (∀ f ∈ ds.filterMap funName, sigs f = none) ∧
      ∀ x ∈ ds.filterMap constName, consts x = none := by
  induction h with
  | nil => simp
  | const ht h hn hs ih =>
    refine ⟨by rw [List.filterMap_cons]; exact ih.1, fun x hx => ?_⟩
    rw [List.filterMap_cons] at hx
    rcases List.mem_cons.1 hx with rfl | hx
    · exact hn
    · exact (extend_none (ih.2 x hx)).2
  | extConst hn hs ih =>
    refine ⟨by rw [List.filterMap_cons]; exact ih.1, fun x hx => ?_⟩
    rw [List.filterMap_cons] at hx
    rcases List.mem_cons.1 hx with rfl | hx
    · exact hn
    · exact (extend_none (ih.2 x hx)).2
  | node h hn hs ih =>
    refine ⟨fun f hf => ?_, by rw [List.filterMap_cons]; exact ih.2⟩
    rw [List.filterMap_cons] at hf
    rcases List.mem_cons.1 hf with rfl | hf
    · rw [(passes_sig h).1]; exact hn
    · exact (extend_none (ih.1 f hf)).2
  | extNode h hd hn hs ih =>
    refine ⟨fun f hf => ?_, by rw [List.filterMap_cons]; exact ih.2⟩
    rw [List.filterMap_cons] at hf
    rcases List.mem_cons.1 hf with rfl | hf
    · exact hn
    · exact (extend_none (ih.1 f hf)).2

/-! ## Constants -/

section
variable {A : Arith} {X : Extern}

theorem linkConsts_keep : {ds : List San.Decl} → {g g' : Globals} → linkConsts A X g ds = .ok g' →
    ∀ x, x ∉ ds.filterMap constName → g' x = g x
  | [], g, g', h, x, _ => by cases h; rfl
  | .const c :: ds, g, g', h, x, hx => by
    unfold linkConsts at h
    rw [List.filterMap_cons] at hx
    obtain ⟨h1, h2⟩ := not_or.1 (fun h => hx (List.mem_cons.2 h))
    split at h
    · rw [linkConsts_keep h x h2, if_neg h1]
    · cases h
  | .extConst c :: ds, g, g', h, x, hx => by
    unfold linkConsts at h
    rw [List.filterMap_cons] at hx
    obtain ⟨h1, h2⟩ := not_or.1 (fun h => hx (List.mem_cons.2 h))
    split at h
    · rw [linkConsts_keep h x h2, if_neg h1]
    · cases h
  | .node c :: ds, g, g', h, x, hx => by
    unfold linkConsts at h
    exact linkConsts_keep h x hx
  | .extNode c :: ds, g, g', h, x, hx => by
    unfold linkConsts at h
    exact linkConsts_keep h x hx

theorem cexpr_mono {g g' : Globals} (hg : ∀ x v, g x = some v → g' x = some v) :
    (e : CExpr) → {v : Scalar} → e.eval A g = .ok v → e.eval A g' = .ok v
  | .lit l, v, h => h
  | .ident x, v, h => by
    simp only [CExpr.eval] at h ⊢
    cases hx : g x with
    | none => simp [hx] at h
    | some w => rw [hg x w hx]; simpa [hx] using h
  | .bin op l r, v, h => by
    simp only [CExpr.eval, bind, Except.bind] at h ⊢
    cases hl : l.eval A g with
    | error e => simp [hl] at h
    | ok a =>
      cases hr : r.eval A g with
      | error e => simp [hl, hr] at h
      | ok b => rw [cexpr_mono hg l hl, cexpr_mono hg r hr]; simpa [hl, hr] using h
  | .un op e, v, h => by
    simp only [CExpr.eval, bind, Except.bind] at h ⊢
    cases hl : e.eval A g with
    | error e => simp [hl] at h
    | ok a => rw [cexpr_mono hg e hl]; simpa [hl] using h
  | .cmp op l r, v, h => by
    simp only [CExpr.eval, bind, Except.bind] at h ⊢
    cases hl : l.eval A g with
    | error e => simp [hl] at h
    | ok a =>
      cases hr : r.eval A g with
      | error e => simp [hl, hr] at h
      | ok b => rw [cexpr_mono hg l hl, cexpr_mono hg r hr]; simpa [hl, hr] using h
  | .tuple es, v, h => by simp [CExpr.eval] at h
  | .ite c y n, v, h => by
    simp only [CExpr.eval, bind, Except.bind] at h ⊢
    cases hl : c.eval A g with
    | error e => simp [hl] at h
    | ok a =>
      rw [cexpr_mono hg c hl]
      simp only [hl] at h ⊢
      split at h
      · exact cexpr_mono hg y h
      · exact cexpr_mono hg n h
      · cases h

theorem const_mono {g g' : Globals} (hg : ∀ x v, g x = some v → g' x = some v) {c : Const}
    {v : Scalar} (h : c.eval A g = .ok v) : c.eval A g' = .ok v := by
  unfold Const.eval at h ⊢
  split at h
  · exact cexpr_mono hg _ h
  · cases h

/-- Only what has been seen is defined. -/
def Within {α : Type*} {β : Type} (f : String → Option α) (g : String → Option β) : Prop :=
  ∀ x, g x = none → f x = none

theorem within_extend {α : Type*} {β : Type} {f : String → Option α} {g : String → Option β} {x : String}
    {a : α} {b : β} (h : Within f g) : Within (fun y => if y = x then some a else f y) (extend g x b) := by
  intro y hy
  obtain ⟨h1, h2⟩ := extend_none hy
  change (if y = x then some a else f y) = none
  rw [if_neg h1]
  exact h y h2

/-- What constants are worth. -/
theorem linkConsts_values {sigs : String → Option Sig} {consts : String → Option TyBase}
    {q : List SrcDecl} {ds : List San.Decl} (h : ProgPasses sigs consts q ds) : {g g' : Globals} →
    Within g consts → linkConsts A X g ds = .ok g' →
    (∀ x v, g x = some v → g' x = some v) ∧
    (∀ attrs c, ⟨attrs, .const c⟩ ∈ q → ∃ c' v, c.translate = .ok c' ∧
      c'.eval A g' = .ok v ∧ g' c.name = some v) ∧
    (∀ attrs x ty, ⟨attrs, .extConst x ty⟩ ∈ q → ∃ v, X.consts x = some v ∧ g' x = some v) := by
  have keep : ∀ {sigs : String → Option Sig} {consts : String → Option TyBase} {q : List SrcDecl}
      {ds : List San.Decl} {g g' : Globals} {x : String} {ty : TyBase} {v : Scalar},
      ProgPasses sigs (extend consts x ty) q ds →
      linkConsts A X (fun y => if y = x then some v else g y) ds = .ok g' → g' x = some v := by
    intro sigs consts q ds g g' x ty v h1 h2
    rw [linkConsts_keep h2 x fun hx => (extend_none ((passes_fresh h1).2 x hx)).1 rfl, if_pos rfl]
  induction h with
  | nil => intro g g' _ h; cases h; exact ⟨fun _ _ h => h, by simp, by simp⟩
  | @const sigs consts attrs c c' ds ds' ht h hn hs ih =>
    intro g g' hw hl
    unfold linkConsts at hl
    split at hl
    · rename_i v hv
      obtain ⟨i1, i2, i3⟩ := ih (within_extend hw) hl
      have hnew : ∀ x w, g x = some w → (if x = c'.name then some v else g x) = some w := by
        intro x w hx
        have : x ≠ c'.name := by
          rintro rfl
          rw [hw _ hn] at hx; cases hx
        rw [if_neg this]; exact hx
      have hmono : ∀ x w, g x = some w → g' x = some w := fun x w hx => i1 x w (hnew x w hx)
      refine ⟨hmono, ?_, ?_⟩
      · intro attrs' c₁ hc
        rcases List.mem_cons.1 hc with e | hc
        · cases e
          have e : c'.name = c.name := by
            unfold SrcConst.translate at ht
            simp only [bind, Except.bind] at ht
            split at ht
            · cases ht
            · split at ht <;> cases ht
              rfl
          exact ⟨c', v, ht, const_mono hmono hv, e ▸ keep hs hl⟩
        · exact i2 attrs' c₁ hc
      · intro attrs' x ty hc
        rcases List.mem_cons.1 hc with e | hc
        · cases e
        · exact i3 attrs' x ty hc
    · cases hl
  | @extConst sigs consts attrs x ty ds ds' hn hs ih =>
    intro g g' hw hl
    unfold linkConsts at hl
    split at hl
    · rename_i v hv
      obtain ⟨i1, i2, i3⟩ := ih (within_extend hw) hl
      have hnew : ∀ y w, g y = some w → (if y = x then some v else g y) = some w := by
        intro y w hx
        have : y ≠ x := by
          rintro rfl
          rw [hw _ hn] at hx; cases hx
        rw [if_neg this]; exact hx
      refine ⟨fun x w hx => i1 x w (hnew x w hx), ?_, ?_⟩
      · intro attrs' c₁ hc
        rcases List.mem_cons.1 hc with e | hc
        · cases e
        · exact i2 attrs' c₁ hc
      · intro attrs' y ty' hc
        rcases List.mem_cons.1 hc with e | hc
        · cases e; exact ⟨v, hv, keep hs hl⟩
        · exact i3 attrs' y ty' hc
    · cases hl
  | node h hn hs ih =>
    intro g g' hw hl
    unfold linkConsts at hl
    obtain ⟨i1, i2, i3⟩ := ih hw hl
    refine ⟨i1, fun a c hc => ?_, fun a x t hc => ?_⟩
    · rcases List.mem_cons.1 hc with e | hc
      · cases e
      · exact i2 a c hc
    · rcases List.mem_cons.1 hc with e | hc
      · cases e
      · exact i3 a x t hc
  | extNode h hd hn hs ih =>
    intro g g' hw hl
    unfold linkConsts at hl
    obtain ⟨i1, i2, i3⟩ := ih hw hl
    refine ⟨i1, fun a c hc => ?_, fun a x t hc => ?_⟩
    · rcases List.mem_cons.1 hc with e | hc
      · cases e
      · exact i2 a c hc
    · rcases List.mem_cons.1 hc with e | hc
      · cases e
      · exact i3 a x t hc

/-! ## Nodes -/

theorem subnodes_linked {N : String → Option Machine} : {bs : List NodeInstance} →
    {ms : List Machine} → subnodes N bs = some ms → Linked ms N bs ∧ ∀ b ∈ bs, N b.name ≠ none
  | [], ms, h => by
    cases h
    exact ⟨fun i b hb => by simp at hb, by simp⟩
  | b :: bs, ms, h => by
    unfold subnodes at h
    split at h
    · rename_i m ms' h1 h2
      cases h
      obtain ⟨i1, i2⟩ := subnodes_linked h2
      refine ⟨fun i b' hb => ?_, fun b' hb => ?_⟩
      · cases i with
        | zero => simp at hb; subst hb; simp [h1]
        | succ i => simp at hb ⊢; exact i1 i b' hb
      · rcases List.mem_cons.1 hb with rfl | hb
        · rw [h1]; simp
        · exact i2 b' hb
    · cases h

theorem subnodes_length {N : String → Option Machine} : {bs : List NodeInstance} →
    {ms : List Machine} → subnodes N bs = some ms → ms.length = bs.length
  | [], ms, h => by cases h; rfl
  | b :: bs, ms, h => by
    unfold subnodes at h
    split at h
    · rename_i m ms' h1 h2
      cases h
      simp [subnodes_length h2]
    · cases h

theorem subnodes_some {N : String → Option Machine} : {bs : List NodeInstance} →
    (∀ b ∈ bs, N b.name ≠ none) → ∃ ms, subnodes N bs = some ms
  | [], _ => ⟨[], rfl⟩
  | b :: bs, h => by
    obtain ⟨ms, i⟩ := subnodes_some fun b' hb => h b' (List.mem_cons_of_mem _ hb)
    have h0 := h b (List.mem_cons_self ..)
    cases hb : N b.name with
    | none => exact absurd hb h0
    | some m => exact ⟨m :: ms, by simp [subnodes, hb, i]⟩

theorem linkNodes_keep {g : Globals} : {ds : List San.Decl} → {N N' : String → Option Machine} →
    linkNodes A X g N ds = .ok N' → ∀ x, x ∉ ds.filterMap funName → N' x = N x
  | [], N, N', h, x, _ => by cases h; rfl
  | .node c :: ds, N, N', h, x, hx => by
    unfold linkNodes at h
    rw [List.filterMap_cons] at hx
    obtain ⟨h1, h2⟩ := not_or.1 (fun h => hx (List.mem_cons.2 h))
    split at h
    · rw [linkNodes_keep h x h2, if_neg h1]
    · cases h
  | .extNode c :: ds, N, N', h, x, hx => by
    unfold linkNodes at h
    rw [List.filterMap_cons] at hx
    obtain ⟨h1, h2⟩ := not_or.1 (fun h => hx (List.mem_cons.2 h))
    split at h
    · rw [linkNodes_keep h x h2, if_neg h1]
    · cases h
  | .const c :: ds, N, N', h, x, hx => by
    unfold linkNodes at h
    exact linkNodes_keep h x hx
  | .extConst c :: ds, N, N', h, x, hx => by
    unfold linkNodes at h
    exact linkNodes_keep h x hx

/-- What nodes do. -/
theorem linkNodes_values {g : Globals} {sigs : String → Option Sig}
    {consts : String → Option TyBase} {q : List SrcDecl} {ds : List San.Decl}
    (h : ProgPasses sigs consts q ds) : {N N' : String → Option Machine} →
    Within N sigs → linkNodes A X g N ds = .ok N' →
    (∀ x, N x ≠ none → N' x = N x) ∧
    (∀ attrs src, ⟨attrs, .node src⟩ ∈ q → ∃ n ms sigs' consts',
      Passes (meaning attrs).universalPre (tyOpts (meaning attrs)) sigs' consts' src n ∧
      .node n ∈ ds ∧ N' src.name = some (n.machine A g ms) ∧ Linked ms N' n.blocks ∧
      ms.length = n.blocks.length) ∧
    (∀ attrs f ins outs, ⟨attrs, .extNode f ins outs⟩ ∈ q → ∃ m, X.nodes f = some m ∧
      N' f = some (wrapExtern m)) := by
  have keep : ∀ {sigs : String → Option Sig} {consts : String → Option TyBase} {q : List SrcDecl}
      {ds : List San.Decl} {N N' : String → Option Machine} {x : String} {ty : Sig} {m : Machine},
      ProgPasses (extend sigs x ty) consts q ds →
      linkNodes A X g (fun y => if y = x then some m else N y) ds = .ok N' → N' x = some m := by
    intro sigs consts q ds N N' x ty v h1 h2
    rw [linkNodes_keep h2 x fun hx => (extend_none ((passes_fresh h1).1 x hx)).1 rfl, if_pos rfl]
  induction h with
  | nil => intro N N' _ h; cases h; exact ⟨fun _ _ => rfl, by simp, by simp⟩
  | const ht h hn hs ih =>
    intro N N' hw hl
    unfold linkNodes at hl
    obtain ⟨i1, i2, i3⟩ := ih hw hl
    refine ⟨i1, fun a src hc => ?_, fun a f ins outs hc => ?_⟩
    · rcases List.mem_cons.1 hc with e | hc
      · cases e
      · obtain ⟨n, ms, s', c', k1, k2, k3⟩ := i2 a src hc
        exact ⟨n, ms, s', c', k1, List.mem_cons_of_mem _ k2, k3⟩
    · rcases List.mem_cons.1 hc with e | hc
      · cases e
      · exact i3 a f ins outs hc
  | extConst hn hs ih =>
    intro N N' hw hl
    unfold linkNodes at hl
    obtain ⟨i1, i2, i3⟩ := ih hw hl
    refine ⟨i1, fun a src hc => ?_, fun a f ins outs hc => ?_⟩
    · rcases List.mem_cons.1 hc with e | hc
      · cases e
      · obtain ⟨n, ms, s', c', k1, k2, k3⟩ := i2 a src hc
        exact ⟨n, ms, s', c', k1, List.mem_cons_of_mem _ k2, k3⟩
    · rcases List.mem_cons.1 hc with e | hc
      · cases e
      · exact i3 a f ins outs hc
  | @node sigs consts attrs src n ds ds' h hn hs ih =>
    intro N N' hw hl
    have hname := (passes_sig h).1
    unfold linkNodes at hl
    split at hl
    · rename_i ms hms
      rw [hname] at hl
      obtain ⟨i1, i2, i3⟩ := ih (within_extend hw) hl
      have hkeep : ∀ x, N x ≠ none → N' x = N x := by
        intro x hx
        have hne : x ≠ src.name := by
          rintro rfl
          exact hx (hw _ hn)
        rw [i1 x (by rw [if_neg hne]; exact hx), if_neg hne]
      refine ⟨hkeep, fun a src' hc => ?_, fun a f ins outs hc => ?_⟩
      · rcases List.mem_cons.1 hc with e | hc
        · cases e
          obtain ⟨l1, l2⟩ := subnodes_linked hms
          refine ⟨n, ms, sigs, consts, h, List.mem_cons_self .., keep hs hl, ?_, subnodes_length hms⟩
          intro i b hb
          rw [l1 i b hb, hkeep b.name (l2 b (List.mem_of_getElem? hb))]
        · obtain ⟨n, ms, s', c', k1, k2, k3⟩ := i2 a src' hc
          exact ⟨n, ms, s', c', k1, List.mem_cons_of_mem _ k2, k3⟩
      · rcases List.mem_cons.1 hc with e | hc
        · cases e
        · exact i3 a f ins outs hc
    · cases hl
  | @extNode sigs consts attrs f ins outs ds ds' h hd hn hs ih =>
    intro N N' hw hl
    unfold linkNodes at hl
    split at hl
    · rename_i m hm
      obtain ⟨i1, i2, i3⟩ := ih (within_extend hw) hl
      refine ⟨fun x hx => ?_, fun a src' hc => ?_, fun a f' ins' outs' hc => ?_⟩
      · have hne : x ≠ f := by
          rintro rfl
          exact hx (hw _ hn)
        rw [i1 x (by rw [if_neg hne]; exact hx), if_neg hne]
      · rcases List.mem_cons.1 hc with e | hc
        · cases e
        · obtain ⟨n, ms, s', c', k1, k2, k3⟩ := i2 a src' hc
          exact ⟨n, ms, s', c', k1, List.mem_cons_of_mem _ k2, k3⟩
      · rcases List.mem_cons.1 hc with e | hc
        · cases e
          exact ⟨m, hm, keep hs hl⟩
        · exact i3 a f' ins' outs' hc
    · cases hl

/-! ## Types -/

theorem translateArgs_ty (as : List ArgsTy) : (translateArgs as).map (·.ty) = argTypes as := by
  simp [translateArgs, argTypes, List.map_flatMap, Function.comp_def]

theorem const_basic {consts : String → Option TyBase}
    (hc : ∀ x t, consts x = some t → ∀ g, t ≠ .other g) {e : Expr} (he : ConstExpr e) :
    ∀ {t : TyBase}, HasType (constEnv consts) e (.single t) → ∀ g, t ≠ .other g := by
  induction he with
  | @lit l => intro t h g; cases h; cases l <;> simp [litType]
  | global => intro t h g; cases h with | global h => exact hc _ _ h g
  | paren _ ih => intro t h g; cases h with | dummyParen h => exact ih h g
  | un _ ih => intro t h g; cases h with | un h _ => exact ih h g
  | bin _ _ ih _ => intro t h g; cases h with | bin h _ _ => exact ih h g
  | cmp _ _ _ _ => intro t h g; cases h; simp
  | ifx _ _ _ _ ih _ => intro t h g; cases h with | ifx _ h _ => exact ih h g

/-- The constant has a value of its type. -/
def ConstOk (g : Globals) (x : String) (t : TyBase) : Prop :=
  (∀ y, t ≠ .other y) ∧ ∃ v, g x = some v ∧ ScalarTy t v

theorem constsOk_extend {consts : String → Option TyBase} {g : Globals} {x : String} {t : TyBase}
    {v : Scalar} (h : ConstsOk consts g) (ht : ∀ y, t ≠ .other y) (hv : ScalarTy t v) :
    ConstsOk (extend consts x t) (fun y => if y = x then some v else g y) := by
  intro y u hy
  unfold extend at hy
  by_cases he : y = x
  · rw [if_pos he] at hy
    cases hy
    exact ⟨ht, v, if_pos he, hv⟩
  · rw [if_neg he] at hy
    obtain ⟨h1, w, h2, h3⟩ := h y u hy
    exact ⟨h1, w, (if_neg he).trans h2, h3⟩

theorem linkConsts_typed {sigs : String → Option Sig} {consts : String → Option TyBase}
    {q : List SrcDecl} {ds : List San.Decl} (h : ProgPasses sigs consts q ds) :
    (∀ attrs x ty, ⟨attrs, .extConst x ty⟩ ∈ q → (∀ g, ty ≠ .other g) ∧
      ∃ v, X.consts x = some v ∧ ScalarTy ty v) → {g : Globals} → ConstsOk consts g →
    linkConsts A X g ds = .error .arith ∨ ∃ g', linkConsts A X g ds = .ok g' ∧
      ConstsOk consts g' ∧ (∀ c, .const c ∈ ds → ConstOk g' c.name c.ty) ∧
      ∀ c, .extConst c ∈ ds → ConstOk g' c.name c.ty := by
  induction h with
  | nil => exact fun _ g hc => .inr ⟨g, rfl, hc, by simp, by simp⟩
  | @const sigs consts attrs c c' ds ds' ht h hn hs ih =>
    intro hX g hc
    have hb : ∀ y, c'.ty ≠ .other y := const_basic (fun x t hx => (hc x t hx).1) h.const h.type
    rcases Props.C29_value (A := A) hc h with ⟨v, hv, hty⟩ | he
    · rcases ih (fun a x t hm => hX a x t (List.mem_cons_of_mem _ hm))
        (constsOk_extend hc hb hty) with he | ⟨g', h1, h2, h3, h4⟩
      · exact .inl (by simp only [linkConsts, hv]; exact he)
      · refine .inr ⟨g', by simp only [linkConsts, hv]; exact h1, ?_, ?_, ?_⟩
        · intro x t hx
          refine h2 x t ?_
          unfold extend
          rw [if_neg, hx]
          rintro rfl
          rw [hn] at hx; cases hx
        · intro c₁ hm
          rcases List.mem_cons.1 hm with e | hm
          · cases e
            exact h2 c'.name c'.ty (by simp [extend])
          · exact h3 c₁ hm
        · intro c₁ hm
          rcases List.mem_cons.1 hm with e | hm
          · cases e
          · exact h4 c₁ hm
    · exact .inl (by simp only [linkConsts, he])
  | @extConst sigs consts attrs x ty ds ds' hn hs ih =>
    intro hX g hc
    obtain ⟨hb, v, hv, hty⟩ := hX attrs x ty (List.mem_cons_self ..)
    rcases ih (fun a x t hm => hX a x t (List.mem_cons_of_mem _ hm))
        (constsOk_extend hc hb hty) with he | ⟨g', h1, h2, h3, h4⟩
    · exact .inl (by simp only [linkConsts, hv]; exact he)
    · refine .inr ⟨g', by simp only [linkConsts, hv]; exact h1, ?_, ?_, ?_⟩
      · intro y t hx
        refine h2 y t ?_
        unfold extend
        rw [if_neg, hx]
        rintro rfl
        rw [hn] at hx; cases hx
      · intro c₁ hm
        rcases List.mem_cons.1 hm with e | hm
        · cases e
        · exact h3 c₁ hm
      · intro c₁ hm
        rcases List.mem_cons.1 hm with e | hm
        · cases e
          exact h2 x ty (by simp [extend])
        · exact h4 c₁ hm
  | node h hn hs ih =>
    intro hX g hc
    rcases ih (fun a x t hm => hX a x t (List.mem_cons_of_mem _ hm)) hc with
      he | ⟨g', h1, h2, h3, h4⟩
    · exact .inl (by simp only [linkConsts]; exact he)
    · refine .inr ⟨g', by simp only [linkConsts]; exact h1, h2, fun c hm => ?_, fun c hm => ?_⟩
      · rcases List.mem_cons.1 hm with e | hm
        · cases e
        · exact h3 c hm
      · rcases List.mem_cons.1 hm with e | hm
        · cases e
        · exact h4 c hm
  | extNode h hd hn hs ih =>
    intro hX g hc
    rcases ih (fun a x t hm => hX a x t (List.mem_cons_of_mem _ hm)) hc with
      he | ⟨g', h1, h2, h3, h4⟩
    · exact .inl (by simp only [linkConsts]; exact he)
    · refine .inr ⟨g', by simp only [linkConsts]; exact h1, h2, fun c hm => ?_, fun c hm => ?_⟩
      · rcases List.mem_cons.1 hm with e | hm
        · cases e
        · exact h3 c hm
      · rcases List.mem_cons.1 hm with e | hm
        · cases e
        · exact h4 c hm

/-- The wrapper of an external node has the type of the node. -/
theorem wrapExtern_respects {m : Machine} {t u : TyTuple} (h : Respects m t u) :
    Respects (wrapExtern m) t u := by
  refine ⟨?_, h.absent⟩
  have key : ∀ (is : List Value) (s : m.σ) (k : Nat), Safe m t u s → (∀ i ∈ is, ValTy t i) →
      (∀ p, (wrapExtern m).runFrom (s, k) is = .error p → ¬ Faulty p) ∧
      ∀ os s', (wrapExtern m).runFrom (s, k) is = .ok (os, s') → ∀ o ∈ os, ValTy u o := by
    intro is
    induction is with
    | nil =>
      intro s k _ _
      refine ⟨fun p hp => (by cases hp), fun os s' ho => (by cases ho; simp)⟩
    | cons i is ih =>
      intro s k hs hi
      have hi0 := hi i (by simp)
      have hi1 : ∀ j ∈ is, ValTy t j := fun j hj => hi j (by simp [hj])
      have hstep : ∀ (s' : m.σ) (k' : Nat) (o : Value), Safe m t u s' → ValTy u o →
          (wrapExtern m).step (s, k) i = .ok (o, (s', k')) →
          (∀ p, (wrapExtern m).runFrom (s, k) (i :: is) = .error p → ¬ Faulty p) ∧
          ∀ os s', (wrapExtern m).runFrom (s, k) (i :: is) = .ok (os, s') → ∀ o ∈ os, ValTy u o := by
        intro s' k' o hs' ho he
        obtain ⟨j1, j2⟩ := ih s' k' hs' hi1
        have e : (wrapExtern m).runFrom (s, k) (i :: is) =
            ((wrapExtern m).runFrom (s', k') is).bind fun r => .ok (o :: r.1, r.2) := by
          simp only [Machine.runFrom, he, bind, Except.bind]
        rw [e]
        cases hr : (wrapExtern m).runFrom (s', k') is with
        | error p =>
          refine ⟨fun p' hp => ?_, fun os s'' h => by cases h⟩
          cases hp
          exact j1 p hr
        | ok r =>
          refine ⟨fun p' hp => (by cases hp), fun os s'' h => ?_⟩
          cases h
          intro o' ho'
          rcases List.mem_cons.1 ho' with rfl | ho'
          · exact ho
          · exact j2 r.1 r.2 hr o' ho'
      by_cases hn : i.firstIsNil = true
      · exact hstep s k _ hs h.absent (by simp [wrapExtern, Candle.implicitClock, hn])
      · have hf := safe_step hs hi0
        cases hm : m.step s i with
        | error p =>
          rw [hm] at hf
          have e : (wrapExtern m).runFrom (s, k) (i :: is) = .error p := by
            simp [Machine.runFrom, wrapExtern, Candle.implicitClock, hn, hm, bind, Except.bind]
          rw [e]
          refine ⟨fun p' hp => (by cases hp; exact hf), fun os s'' h => by cases h⟩
        | ok r =>
          obtain ⟨o, s'⟩ := r
          rw [hm] at hf
          exact hstep s' (k + 1) o hf.2 hf.1 (by
            simp [wrapExtern, Candle.implicitClock, hn, hm])
  intro is hi
  exact key is m.init 0 h.safe hi

/-- The node is there and has the property at its type. -/
def NodeHas (P : Machine → TyTuple → TyTuple → Prop) (N : String → Option Machine) (f : String)
    (s : Sig) : Prop :=
  ∃ m, N f = some m ∧ P m (flatTuple s.2.1) (flatTuple s.2.2)

/-- The machines given to a node are those of the nodes it calls, and have the property. -/
def SubsHave (P : Machine → TyTuple → TyTuple → Prop) (sigs : String → Option Sig) (n : Node)
    (ms : List Machine) : Prop :=
  ∀ (i : Nat) (b : NodeInstance), n.blocks[i]? = some b → ∃ m gens ins outs, ms[i]? = some m ∧
    sigs b.name = some (gens, ins, outs) ∧ P m (flatTuple ins) (flatTuple outs)

/-- A property that goes from the subnodes to the node holds of all nodes. -/
theorem linkNodes_have {P : Machine → TyTuple → TyTuple → Prop} {g : Globals}
    (hnode : ∀ {sigs : String → Option Sig} {consts : String → Option TyBase} {n : Node}
      {ms : List Machine}, (∀ f s, sigs f = some s → s.Wf) → CodegenReady sigs consts n →
      ConstsOk consts g → SubsHave P sigs n ms →
      P (n.machine A g ms) (flatTuple (n.inputs.map (·.ty))) (flatTuple (n.outputs.map (·.ty))))
    (hext : ∀ {m : Machine} {t u : TyTuple}, P m t u → P (wrapExtern m) t u)
    {sigs : String → Option Sig}
    {consts : String → Option TyBase} {q : List SrcDecl} {ds : List San.Decl}
    (h : ProgPasses sigs consts q ds) : DistinctGenerics q →
    (∀ attrs f ins outs, ⟨attrs, .extNode f ins outs⟩ ∈ q → ∃ m, X.nodes f = some m ∧
      P m (flatTuple (argTypes ins)) (flatTuple (argTypes outs))) →
    ConstsOk consts g → (∀ c, .const c ∈ ds → ConstOk g c.name c.ty) →
    (∀ c, .extConst c ∈ ds → ConstOk g c.name c.ty) →
    (∀ n, .node n ∈ ds → InputClocks n ∧ FlatRegisters n) →
    {N : String → Option Machine} → (∀ f s, sigs f = some s → s.Wf ∧ NodeHas P N f s) →
    ∃ N', linkNodes A X g N ds = .ok N' ∧ (∀ f s, sigs f = some s → NodeHas P N' f s) ∧
      ∀ attrs src, ⟨attrs, .node src⟩ ∈ q → NodeHas P N' src.name
        ((meaning attrs).generics, argTypes src.inputs, argTypes src.outputs) := by
  have lift : ∀ {sigs : String → Option Sig} {f : String} {s : Sig} {N : String → Option Machine}
      {m : Machine}, (∀ f s, sigs f = some s → s.Wf ∧ NodeHas P N f s) → s.Wf →
      P m (flatTuple s.2.1) (flatTuple s.2.2) →
      ∀ f' s', extend sigs f s f' = some s' →
        s'.Wf ∧ NodeHas P (fun y => if y = f then some m else N y) f' s' := by
    intro sigs f s N m h1 h2 h3 f' s' he
    unfold extend at he
    by_cases e : f' = f
    · rw [if_pos e] at he
      cases he
      exact ⟨h2, m, if_pos e, h3⟩
    · rw [if_neg e] at he
      obtain ⟨k1, m', k2, k3⟩ := h1 f' s' he
      exact ⟨k1, m', (if_neg e).trans k2, k3⟩
  have back : ∀ {sigs : String → Option Sig} {f : String} {s : Sig} {N' : String → Option Machine},
      sigs f = none → (∀ f' s', extend sigs f s f' = some s' → NodeHas P N' f' s') →
      ∀ f' s', sigs f' = some s' → NodeHas P N' f' s' := by
    intro sigs f s N' hn h1 f' s' h2
    refine h1 f' s' ?_
    unfold extend
    rw [if_neg, h2]
    rintro rfl
    rw [hn] at h2; cases h2
  induction h with
  | nil => exact fun _ _ _ _ _ _ N hN => ⟨N, rfl, fun f s h => (hN f s h).2, by simp⟩
  | @const sigs consts attrs c c' ds ds' ht h hn hs ih =>
    intro hd hX hc h1 h2 h3 N hN
    have hc' : ConstsOk (extend consts c'.name c'.ty) g := by
      intro x t hx
      unfold extend at hx
      by_cases e : x = c'.name
      · rw [if_pos e] at hx; cases hx
        rw [e]
        exact h1 c' (List.mem_cons_self ..)
      · rw [if_neg e] at hx; exact hc x t hx
    obtain ⟨N', k1, k2, k3⟩ := ih (fun d hm => hd d (List.mem_cons_of_mem _ hm))
      (fun a f i o hm => hX a f i o (List.mem_cons_of_mem _ hm)) hc'
      (fun c hm => h1 c (List.mem_cons_of_mem _ hm)) (fun c hm => h2 c (List.mem_cons_of_mem _ hm))
      (fun c hm => h3 c (List.mem_cons_of_mem _ hm)) hN
    refine ⟨N', by simp only [linkNodes]; exact k1, k2, fun a src hm => ?_⟩
    rcases List.mem_cons.1 hm with e | hm
    · cases e
    · exact k3 a src hm
  | @extConst sigs consts attrs x ty ds ds' hn hs ih =>
    intro hd hX hc h1 h2 h3 N hN
    have hc' : ConstsOk (extend consts x ty) g := by
      intro y t hx
      unfold extend at hx
      by_cases e : y = x
      · rw [if_pos e] at hx; cases hx
        rw [e]
        exact h2 ⟨x, ty⟩ (List.mem_cons_self ..)
      · rw [if_neg e] at hx; exact hc y t hx
    obtain ⟨N', k1, k2, k3⟩ := ih (fun d hm => hd d (List.mem_cons_of_mem _ hm))
      (fun a f i o hm => hX a f i o (List.mem_cons_of_mem _ hm)) hc'
      (fun c hm => h1 c (List.mem_cons_of_mem _ hm)) (fun c hm => h2 c (List.mem_cons_of_mem _ hm))
      (fun c hm => h3 c (List.mem_cons_of_mem _ hm)) hN
    refine ⟨N', by simp only [linkNodes]; exact k1, k2, fun a src hm => ?_⟩
    rcases List.mem_cons.1 hm with e | hm
    · cases e
    · exact k3 a src hm
  | @node sigs consts attrs src n ds ds' h hn hs ih =>
    intro hd hX hc h1 h2 h3 N hN
    obtain ⟨p1, p2, p3⟩ := passes_sig h
    have hg : (meaning attrs).generics.Nodup := hd _ (List.mem_cons_self ..)
    obtain ⟨n₁, n₂, c, ctx, clk, m, K, hf⟩ := Den.passes_final h
    have hbl : ∀ b ∈ n.blocks, ∃ s, sigs b.name = some s := by
      intro b hb
      have hnames : n.blocks.map (·.name) = n₂.blocks.map (·.name) := by
        rw [hf.final]
        simp only [Node.withDepths, Node.withClocks, Node.fill]
        apply List.ext_getElem?
        intro i
        simp
        cases n₂.blocks[i]? <;> rfl
      have : b.name ∈ n₂.blocks.map (·.name) := by
        rw [← hnames]; exact List.mem_map_of_mem hb
      obtain ⟨b', hb', e⟩ := List.mem_map.1 this
      rw [← e]
      exact hf.blocks b' hb'
    obtain ⟨ms, hms⟩ := subnodes_some (N := N) (bs := n.blocks) (by
      intro b hb
      obtain ⟨s, hs⟩ := hbl b hb
      obtain ⟨-, m, hm, -⟩ := hN _ _ hs
      rw [hm]; simp)
    obtain ⟨hi, hr⟩ := h3 n (List.mem_cons_self ..)
    have hw : ∀ f s, sigs f = some s → s.Wf := fun f s h => (hN f s h).1
    have hsub : SubsHave P sigs n ms := by
      intro i b hb
      obtain ⟨⟨gens, ins, outs⟩, hsig⟩ := hbl b (List.mem_of_getElem? hb)
      obtain ⟨-, m, hm, hres⟩ := hN _ _ hsig
      exact ⟨m, gens, ins, outs, by rw [(subnodes_linked hms).1 i b hb, hm], hsig, hres⟩
    have hres := hnode hw (hf.ready hw hi hr) hc hsub
    rw [p2, p3, translateArgs_ty, translateArgs_ty] at hres
    have hwf : Sig.Wf (sigOf (meaning attrs).generics n.inputs n.outputs) := by
      have hsig := hf.sig
      have := sigOf_wf hg hsig
      have e : sigOf (meaning attrs).generics n.inputs n.outputs =
          sigOf (tyOpts (meaning attrs)).generics n₂.inputs n₂.outputs := by
        rw [hf.final]
        simp [sigOf, Node.withDepths, setDepths, Node.withClocks, Node.fill, Function.comp_def,
          tyOpts]
      rw [e]; exact this
    have hN' := lift (f := src.name) (s := sigOf (meaning attrs).generics n.inputs n.outputs)
      (m := n.machine A g ms) hN hwf (by
        simp only [sigOf, p2, p3, translateArgs_ty]; exact hres)
    obtain ⟨N', k1, k2, k3⟩ := ih (fun d hm => hd d (List.mem_cons_of_mem _ hm))
      (fun a f i o hm => hX a f i o (List.mem_cons_of_mem _ hm)) hc
      (fun c hm => h1 c (List.mem_cons_of_mem _ hm)) (fun c hm => h2 c (List.mem_cons_of_mem _ hm))
      (fun c hm => h3 c (List.mem_cons_of_mem _ hm)) hN'
    refine ⟨N', by simp only [linkNodes, hms, p1]; exact k1, back hn k2, fun a src' hm => ?_⟩
    rcases List.mem_cons.1 hm with e | hm
    · cases e
      have := k2 src.name _ (by unfold extend; rw [if_pos rfl])
      simp only [sigOf, p2, p3, translateArgs_ty] at this
      exact this
    · exact k3 a src' hm
  | @extNode sigs consts attrs f ins outs ds ds' h hdt hn hs ih =>
    intro hd hX hc h1 h2 h3 N hN
    have hg : (meaning attrs).generics.Nodup := hd _ (List.mem_cons_self ..)
    obtain ⟨m, hm, hres⟩ := hX attrs f ins outs (List.mem_cons_self ..)
    have hN' := lift (f := f) (s := sigOf (meaning attrs).generics (translateArgs ins)
      (translateArgs outs)) (m := wrapExtern m) hN (sigOf_wf hg h) (by
        simp only [sigOf, translateArgs_ty]
        exact hext hres)
    obtain ⟨N', k1, k2, k3⟩ := ih (fun d hm => hd d (List.mem_cons_of_mem _ hm))
      (fun a f i o hm => hX a f i o (List.mem_cons_of_mem _ hm)) hc
      (fun c hm => h1 c (List.mem_cons_of_mem _ hm)) (fun c hm => h2 c (List.mem_cons_of_mem _ hm))
      (fun c hm => h3 c (List.mem_cons_of_mem _ hm)) hN'
    refine ⟨N', by simp only [linkNodes, hm]; exact k1, back hn k2, fun a src' hm => ?_⟩
    rcases List.mem_cons.1 hm with e | hm
    · cases e
    · exact k3 a src' hm

/-- The node has its type. -/
abbrev NodeOk (N : String → Option Machine) (f : String) (s : Sig) : Prop :=
  NodeHas (fun m t u => ∀ θ, Respects m (substTy θ t) (substTy θ u)) N f s

theorem linkNodes_typed {g : Globals} {sigs : String → Option Sig}
    {consts : String → Option TyBase} {q : List SrcDecl} {ds : List San.Decl}
    (h : ProgPasses sigs consts q ds) : DistinctGenerics q →
    (∀ attrs f ins outs, ⟨attrs, .extNode f ins outs⟩ ∈ q → ∃ m, X.nodes f = some m ∧
      ∀ θ, Respects m (substTy θ (flatTuple (argTypes ins))) (substTy θ (flatTuple (argTypes outs)))) →
    ConstsOk consts g → (∀ c, .const c ∈ ds → ConstOk g c.name c.ty) →
    (∀ c, .extConst c ∈ ds → ConstOk g c.name c.ty) →
    (∀ n, .node n ∈ ds → InputClocks n ∧ FlatRegisters n) →
    {N : String → Option Machine} → (∀ f s, sigs f = some s → s.Wf ∧ NodeOk N f s) →
    ∃ N', linkNodes A X g N ds = .ok N' ∧ (∀ f s, sigs f = some s → NodeOk N' f s) ∧
      ∀ attrs src, ⟨attrs, .node src⟩ ∈ q → NodeOk N' src.name
        ((meaning attrs).generics, argTypes src.inputs, argTypes src.outputs) :=
  linkNodes_have (P := fun m t u => ∀ θ, Respects m (substTy θ t) (substTy θ u))
    (fun hw hr hc hs θ => Props.C28_node hw hr hc hs θ)
    (fun h θ => wrapExtern_respects (h θ)) h

/-! ## Back to the source -/

theorem const_translate_name {c : SrcConst} {c' : Const} (ht : c.translate = .ok c') :
    c'.name = c.name ∧ c'.ty = c.ty := by
  unfold SrcConst.translate at ht
  simp only [bind, Except.bind] at ht
  split at ht
  · cases ht
  · split at ht <;> cases ht
    exact ⟨rfl, rfl⟩

theorem passes_of_const {sigs : String → Option Sig} {consts : String → Option TyBase}
    {q : List SrcDecl} {ds : List San.Decl} (h : ProgPasses sigs consts q ds)
    {attrs : List Attribute} {c : SrcConst} (hm : ⟨attrs, .const c⟩ ∈ q) :
    ∃ c' consts', c.translate = .ok c' ∧ .const c' ∈ ds ∧ ConstTyped consts' c' ∧
      ∀ {g : Globals}, ConstsOk consts g → (∀ c, .const c ∈ ds → ConstOk g c.name c.ty) →
        (∀ c, .extConst c ∈ ds → ConstOk g c.name c.ty) → ConstsOk consts' g := by
  have ext : ∀ {consts : String → Option TyBase} {g : Globals} {x : String} {t : TyBase},
      ConstsOk consts g → ConstOk g x t → ConstsOk (extend consts x t) g := by
    intro consts g x t h1 h2 y u hy
    unfold extend at hy
    by_cases e : y = x
    · rw [if_pos e] at hy; cases hy; rw [e]; exact h2
    · rw [if_neg e] at hy; exact h1 y u hy
  induction h with
  | nil => cases hm
  | @const sigs consts a c₁ c' ds ds' ht h hn hs ih =>
    rcases List.mem_cons.1 hm with e | hm
    · cases e
      exact ⟨c', consts, ht, List.mem_cons_self .., h, fun h _ _ => h⟩
    · obtain ⟨c'', k, h1, h2, h3, h4⟩ := ih hm
      exact ⟨c'', k, h1, List.mem_cons_of_mem _ h2, h3, fun g1 g2 g3 =>
        h4 (ext g1 (g2 _ (List.mem_cons_self ..))) (fun c h => g2 c (List.mem_cons_of_mem _ h))
          (fun c h => g3 c (List.mem_cons_of_mem _ h))⟩
  | @extConst sigs consts a x t ds ds' hn hs ih =>
    rcases List.mem_cons.1 hm with e | hm
    · cases e
    · obtain ⟨c'', k, h1, h2, h3, h4⟩ := ih hm
      exact ⟨c'', k, h1, List.mem_cons_of_mem _ h2, h3, fun g1 g2 g3 =>
        h4 (ext g1 (g3 ⟨x, t⟩ (List.mem_cons_self ..)))
          (fun c h => g2 c (List.mem_cons_of_mem _ h))
          (fun c h => g3 c (List.mem_cons_of_mem _ h))⟩
  | node h hn hs ih =>
    rcases List.mem_cons.1 hm with e | hm
    · cases e
    · obtain ⟨c'', k, h1, h2, h3, h4⟩ := ih hm
      exact ⟨c'', k, h1, List.mem_cons_of_mem _ h2, h3, fun g1 g2 g3 =>
        h4 g1 (fun c h => g2 c (List.mem_cons_of_mem _ h))
          (fun c h => g3 c (List.mem_cons_of_mem _ h))⟩
  | extNode h hd hn hs ih =>
    rcases List.mem_cons.1 hm with e | hm
    · cases e
    · obtain ⟨c'', k, h1, h2, h3, h4⟩ := ih hm
      exact ⟨c'', k, h1, List.mem_cons_of_mem _ h2, h3, fun g1 g2 g3 =>
        h4 g1 (fun c h => g2 c (List.mem_cons_of_mem _ h))
          (fun c h => g3 c (List.mem_cons_of_mem _ h))⟩

theorem passes_to_node {sigs : String → Option Sig} {consts : String → Option TyBase}
    {q : List SrcDecl} {ds : List San.Decl} (h : ProgPasses sigs consts q ds) {n : Node}
    (hm : .node n ∈ ds) : ∃ attrs src sigs' consts', ⟨attrs, .node src⟩ ∈ q ∧
      Passes (meaning attrs).universalPre (tyOpts (meaning attrs)) sigs' consts' src n := by
  induction h with
  | nil => cases hm
  | const ht h hn hs ih =>
    rcases List.mem_cons.1 hm with e | hm
    · cases e
    · obtain ⟨a, src, s, c, h1, h2⟩ := ih hm
      exact ⟨a, src, s, c, List.mem_cons_of_mem _ h1, h2⟩
  | extConst hn hs ih =>
    rcases List.mem_cons.1 hm with e | hm
    · cases e
    · obtain ⟨a, src, s, c, h1, h2⟩ := ih hm
      exact ⟨a, src, s, c, List.mem_cons_of_mem _ h1, h2⟩
  | node h hn hs ih =>
    rcases List.mem_cons.1 hm with e | hm
    · cases e
      exact ⟨_, _, _, _, List.mem_cons_self .., h⟩
    · obtain ⟨a, src, s, c, h1, h2⟩ := ih hm
      exact ⟨a, src, s, c, List.mem_cons_of_mem _ h1, h2⟩
  | extNode h hd hn hs ih =>
    rcases List.mem_cons.1 hm with e | hm
    · cases e
    · obtain ⟨a, src, s, c, h1, h2⟩ := ih hm
      exact ⟨a, src, s, c, List.mem_cons_of_mem _ h1, h2⟩

/-- Constant expressions mean the same at all instants and change nothing. -/
theorem const_den {glob : Globals} {ms : List Machine} {env : Env} {s : NodeState ms} {F : Flow}
    {lo t : Nat} {e : Expr} (h : ConstExpr e) :
    eval A glob ms env e s = (den A glob ms F lo e t).bind fun v => .ok (v, s) := by
  induction h with
  | lit => simp [eval, den, Except.bind]
  | @global x => simp only [eval, den]; cases glob x <;> rfl
  | paren _ ih => simp only [eval, den]; exact ih
  | @un op e _ ih =>
    simp only [eval, den, ih, bind]
    cases den A glob ms F lo e t with
    | error => rfl
    | ok v =>
      simp only [Except.bind]
      cases asLeaf v with
      | error => rfl
      | ok a => simp only []; cases a.unop (scalarUn A op) <;> rfl
  | @bin op e e' _ _ ih ih' =>
    simp only [eval, den, ih, bind]
    cases den A glob ms F lo e t with
    | error => rfl
    | ok v =>
      simp only [Except.bind, ih']
      cases den A glob ms F lo e' t with
      | error => rfl
      | ok w =>
        simp only [Except.bind]
        cases asLeaf v with
        | error => rfl
        | ok a =>
          simp only []
          cases asLeaf w with
          | error => rfl
          | ok b => simp only []; cases a.binop (scalarBin A op) b <;> rfl
  | @cmp op e e' _ _ ih ih' =>
    simp only [eval, den, ih, bind]
    cases den A glob ms F lo e t with
    | error => rfl
    | ok v =>
      simp only [Except.bind, ih']
      cases den A glob ms F lo e' t with
      | error => rfl
      | ok w =>
        simp only [Except.bind]
        cases asLeaf v with
        | error => rfl
        | ok a =>
          simp only []
          cases asLeaf w with
          | error => rfl
          | ok b => simp only []; cases scalarCmp A op a b <;> rfl
  | @ifx c y n _ _ _ ih ih' ih'' =>
    simp only [eval, den, ih', bind]
    cases den A glob ms F lo y t with
    | error => rfl
    | ok w =>
      simp only [Except.bind, ih'']
      cases den A glob ms F lo n t with
      | error => rfl
      | ok u =>
        simp only [Except.bind, ih]
        cases den A glob ms F lo c t with
        | error => rfl
        | ok v => simp only [Except.bind]; cases asBool v <;> rfl

theorem const_blocks {c : SrcConst} {c' : Const} (ht : c.translate = .ok c') :
    ∃ s, c.value.translate ⟨[], 0, false⟩ {} = .ok (c'.value, s) ∧ s.blocks = [] := by
  unfold SrcConst.translate at ht
  simp only [bind, Except.bind] at ht
  split at ht
  · cases ht
  · rename_i v hv
    split at ht
    · cases ht
    · rename_i hb
      cases ht
      have hb' : v.2.stmts = [] ∧ v.2.blocks = [] := by simpa using hb
      exact ⟨v.2, hv, hb'.2⟩

end

end Chandeliers.Prg
