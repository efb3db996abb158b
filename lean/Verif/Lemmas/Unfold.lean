import Verif.Lemmas.Exchange
import Verif.Lemmas.Refactor

/-!
# Variables and their definitions
-/

set_option autoImplicit false

namespace Chandeliers.Rep
open Chandeliers.San Chandeliers.Spec Chandeliers.Syn Chandeliers.Uni Chandeliers.Prg Chandeliers.Den
  Chandeliers.Props Chandeliers.Pres Chandeliers.Err

/-! ## Solutions -/

section
variable {B : Bool → Src → Src → Prop} {A : Arith} {g : Globals} {N : String → Option Machine}
  {S : String → Nat → Nillable Scalar} {src src' : SrcNode} {is : List Value}

theorem _root_.Chandeliers.Spec.ExchangedNode.vars (hn : ExchangedNode B src src') : SrcNode.vars src' = SrcNode.vars src := by
  rw [SrcNode.vars, SrcNode.vars, hn.inputs, hn.outputs, hn.locals]

theorem _root_.Chandeliers.Spec.ExchangedNode.clocks (hn : ExchangedNode B src src') :
    SrcNode.clocks src' = SrcNode.clocks src := by
  funext x
  rw [SrcNode.clocks, SrcNode.clocks, hn.inputs, hn.outputs, hn.locals]

theorem forall2_left {α β : Type} {R : α → β → Prop} {l : List α} {l' : List β}
    (h : List.Forall₂ R l l') : ∀ a ∈ l, ∃ b ∈ l', R a b := by
  induction h with
  | nil => intro a ha; cases ha
  | cons h _ ih =>
    intro a ha
    rcases List.mem_cons.1 ha with rfl | ha
    · exact ⟨_, List.mem_cons_self .., h⟩
    · obtain ⟨b, h1, h2⟩ := ih a ha
      exact ⟨b, List.mem_cons_of_mem _ h1, h2⟩

theorem forall2_right {α β : Type} {R : α → β → Prop} {l : List α} {l' : List β}
    (h : List.Forall₂ R l l') : ∀ b ∈ l', ∃ a ∈ l, R a b := by
  intro b hb
  obtain ⟨a, h1, h2⟩ := forall2_left h.flip b hb
  exact ⟨a, h1, h2⟩

theorem srcSolution_exchanged (hn : ExchangedNode B src src')
    (hB : 0 < is.length → ∀ {late e e'}, B late e e' → ∀ t : Int, t < is.length → Sees late t →
      ref ⟨A, SrcNode.vars src, S, g, N⟩ e t = ref ⟨A, SrcNode.vars src, S, g, N⟩ e' t) :
    SrcSolution ⟨A, SrcNode.vars src, S, g, N⟩ src is ↔
      SrcSolution ⟨A, SrcNode.vars src', S, g, N⟩ src' is := by
  have key : ∀ t, t < is.length → ∀ st st', ExchangedStmt B st st' →
      (SrcHolds ⟨A, SrcNode.vars src, S, g, N⟩ t st ↔ SrcHolds ⟨A, SrcNode.vars src, S, g, N⟩ t st') := by
    intro t ht st st' h
    cases h with
    | def_ h =>
      simp only [SrcHolds]
      rw [ref_exchanged (fun h => hB (by omega) h) h t (by omega) (.inr (by omega))]
    | assert h =>
      simp only [SrcHolds]
      rw [ref_exchanged (fun h => hB (by omega) h) h t (by omega) (.inr (by omega))]
  rw [hn.vars]
  constructor
  · intro h
    refine ⟨by rw [hn.inputs]; exact h.inputs, fun t ht st' hst' => ?_⟩
    obtain ⟨st, h1, h2⟩ := forall2_right hn.defs st' hst'
    exact (key t ht st st' h2).1 (h.defs t ht st h1)
  · intro h
    refine ⟨by have := h.inputs; rw [hn.inputs] at this; exact this, fun t ht st hst => ?_⟩
    obtain ⟨st', h1, h2⟩ := forall2_left hn.defs st hst
    exact (key t ht st st' h2).2 (h.defs t ht st' h1)

theorem uniSolution_exchanged (hn : ExchangedNode B src src')
    (hB : ∀ {late e e'}, B late e e' →
      UniSame ⟨A, SrcNode.vars src, S, g, N⟩ (SrcNode.clocks src) is.length e e') :
    UniSolution ⟨A, SrcNode.vars src, S, g, N⟩ (SrcNode.clocks src) src is ↔
      UniSolution ⟨A, SrcNode.vars src', S, g, N⟩ (SrcNode.clocks src') src' is := by
  have key : ∀ t, t < is.length → ∀ st st', ExchangedStmt B st st' →
      (UniHolds ⟨A, SrcNode.vars src, S, g, N⟩ (SrcNode.clocks src) t st ↔
        UniHolds ⟨A, SrcNode.vars src, S, g, N⟩ (SrcNode.clocks src) t st') := by
    intro t ht st st' h
    cases h with
    | def_ h =>
      simp only [UniHolds]
      rw [uni_exchanged hB h t ht]
    | assert h =>
      simp only [UniHolds]
      rw [uni_exchanged hB h t ht]
  rw [hn.vars, hn.clocks]
  constructor
  · intro h
    refine ⟨by rw [hn.inputs]; exact h.inputs, fun t ht st' hst' => ?_⟩
    obtain ⟨st, h1, h2⟩ := forall2_right hn.defs st' hst'
    exact (key t ht st st' h2).1 (h.defs t ht st h1)
  · intro h
    refine ⟨by have := h.inputs; rw [hn.inputs] at this; exact this, fun t ht st hst => ?_⟩
    obtain ⟨st', h1, h2⟩ := forall2_left hn.defs st hst
    exact (key t ht st st' h2).2 (h.defs t ht st' h1)

theorem outputs_exchanged (hn : ExchangedNode B src src') (k : Nat) :
    srcOutputs S src' k = srcOutputs S src k := by
  rw [srcOutputs, srcOutputs, hn.outputs]

end

/-! ## Before the first instant -/

section
variable {W : World}

mutual
/-- Before the first instant nothing changes. -/
theorem ref_past : (e : Src) → ∀ {t t' : Int}, t < 0 → t' < 0 → ref W e t = ref W e t'
  | .lit _, t, t', _, _ => rfl
  | .var x, t, t', h, h' => by rw [ref, ref]; simp [h, h']
  | .paren es _, t, t', h, h' => by rw [ref, ref, refList_past es h h']
  | .left a r, t, t', h, h' => by
    rw [ref, ref, ref_past a h h']
    congr 1
    funext v
    exact refLeft_past r v h h'
  | .cmp a r, t, t', h, h' => by
    rw [ref, ref, ref_past a h h']
    congr 1
    funext v
    exact refCmp_past r v h h'
  | .fby a r, t, t', h, h' => by
    rw [ref, ref, ref_past a h h', refFby_past r 1 (by omega) (by omega : t ≤ 0) (by omega : t' ≤ 0)]
    simp [show ¬ t > 0 by omega, show ¬ t' > 0 by omega]
  | .arrow a r, t, t', h, h' => by
    rw [ref, ref, ref_past a h h', refThen_past r 1 h h']
    simp [show ¬ t > 0 by omega, show ¬ t' > 0 by omega]
  | .ifx b y n, t, t', h, h' => by
    rw [ref, ref, ref_past b h h', ref_past y h h', ref_past n h h']
  | .merge b y n, t, t', h, h' => by
    rw [ref, ref, ref_past b h h', ref_past y h h', ref_past n h h']
  | .call f es _, t, t', h, h' => by rw [ref, ref]; simp [h, h']
  | .pre e, t, t', h, h' => by
    rw [ref, ref]
    exact ref_past e (by omega) (by omega)
  | .neg e, t, t', h, h' => by rw [ref, ref, ref_past e h h']
  | .not e, t, t', h, h' => by rw [ref, ref, ref_past e h h']
theorem refList_past : (es : List Src) → ∀ {t t' : Int}, t < 0 → t' < 0 →
    refList W es t = refList W es t'
  | [], t, t', h, h' => rfl
  | e :: es, t, t', h, h' => by rw [refList, refList, ref_past e h h', refList_past es h h']
theorem refLeft_past : (r : List (LOp × Src)) → ∀ v {t t' : Int}, t < 0 → t' < 0 →
    refLeft W v r t = refLeft W v r t'
  | [], v, t, t', h, h' => rfl
  | (op, e) :: r, v, t, t', h, h' => by
    rw [refLeft, refLeft, ref_past e h h']
    congr 1
    funext a
    congr 1
    funext b
    exact refLeft_past r b h h'
theorem refCmp_past : (r : List (CmpOp × Src)) → ∀ v {t t' : Int}, t < 0 → t' < 0 →
    refCmp W v r t = refCmp W v r t'
  | [], v, t, t', h, h' => rfl
  | [(op, e)], v, t, t', h, h' => by rw [refCmp, refCmp, ref_past e h h']
  | _ :: _ :: _, v, t, t', h, h' => by rw [refCmp, refCmp]
theorem refFby_past : (es : List Src) → ∀ i {t t' : Int}, 0 < i → t ≤ 0 → t' ≤ 0 →
    refFby W i es t = refFby W i es t'
  | [], i, t, t', hi, h, h' => rfl
  | e :: es, i, t, t', hi, h, h' => by
    rw [refFby, refFby, ref_past e (by omega : t - i < 0) (by omega : t' - i < 0),
      refFby_past es (i + 1) (by omega) h h']
    simp [show ¬ t > i by omega, show ¬ t' > i by omega]
theorem refThen_past : (es : List Src) → ∀ i {t t' : Int}, t < 0 → t' < 0 →
    refThen W i es t = refThen W i es t'
  | [], i, t, t', h, h' => rfl
  | e :: es, i, t, t', h, h' => by
    rw [refThen, refThen, ref_past e h h', refThen_past es (i + 1) h h']
    simp [show ¬ t > i by omega, show ¬ t' > i by omega]
end

/-- What `before` promises. -/
def Was (W : World) (e : Src) (b : Bool) : Prop :=
  ∀ t : Int, t < 0 → ∃ v, ref W e t = some (.leaf v) ∧ (b = true → v = .nil)

theorem eitherNil_some {a b : Option Bool} {c : Bool} (h : eitherNil a b = some c) :
    c = true ∧ ∃ x y, a = some x ∧ b = some y ∧ (x = true ∨ y = true) := by
  unfold eitherNil at h
  split at h
  · cases h; exact ⟨rfl, _, _, rfl, rfl, .inl rfl⟩
  · cases h; exact ⟨rfl, _, _, rfl, rfl, .inr rfl⟩
  · cases h

theorem beforeLeft_none {vars : List String} : ∀ (r : List (LOp × Src)), beforeLeft vars none r = none
  | [] => by rw [beforeLeft]
  | (op, e) :: r => by
    rw [beforeLeft, show beforeOp op none (before vars e) = none by cases op <;> rfl]
    exact beforeLeft_none r

theorem beforeOp_some {op : LOp} {a b : Option Bool} {c : Bool} (h : beforeOp op a b = some c) :
    c = true ∧ ∃ x y, a = some x ∧ b = some y ∧ (x = true ∨ y = true) ∧
      (op = .when ∨ op = .whenot → y = true) := by
  unfold beforeOp at h
  split at h
  · cases h; exact ⟨rfl, _, _, rfl, rfl, .inr rfl, fun _ => rfl⟩
  · cases h
  · cases h; exact ⟨rfl, _, _, rfl, rfl, .inr rfl, fun _ => rfl⟩
  · cases h
  · rename_i h0 h1 _ _
    obtain ⟨rfl, x, y, e1, e2, e3⟩ := eitherNil_some h
    refine ⟨rfl, x, y, e1, e2, e3, fun h => ?_⟩
    rcases h with h | h
    · exact (h0 h).elim
    · exact (h1 h).elim

theorem applyBin_nil {A : Arith} {op : BinOp} {v w : Nillable Scalar} (h : v = .nil ∨ w = .nil) :
    applyBin A op (.leaf v) (.leaf w) = some (.leaf .nil) := by
  rcases h with rfl | rfl
  · rfl
  · cases v <;> rfl

theorem applyCmp_nil {A : Arith} {op : CmpOp} {v w : Nillable Scalar} (h : v = .nil ∨ w = .nil) :
    applyCmp A op (.leaf v) (.leaf w) = some (.leaf .nil) := by
  rcases h with rfl | rfl
  · cases op <;> cases w <;> rfl
  · cases v with
    | nil => cases op <;> rfl
    | defined s => cases op <;> cases s <;> rfl

theorem bind_some' {α β : Type} {x : Option α} {f : α → Option β} {b : β}
    (h : (x >>= f) = some b) : ∃ a, x = some a ∧ f a = some b := by
  cases x with
  | none => cases h
  | some a => exact ⟨a, rfl, h⟩

mutual
theorem before_was : (e : Src) → ∀ {b : Bool} {t : Int} {w : Value}, t ≤ 0 → ref W e t = some w →
    before W.locals e = some b → Was W e b
  | .lit l, b, t, w, ht, hw, hb => by
    intro u hu
    rw [ref] at hw ⊢
    cases hb
    unfold Spec.litValue at hw ⊢
    cases l with
    | bool => exact ⟨_, rfl, fun h => by cases h⟩
    | int n =>
      by_cases hn : -2 ^ 63 ≤ n ∧ n < 2 ^ 63
      · exact ⟨_, if_pos hn, fun h => by cases h⟩
      · simp only [if_neg hn] at hw; cases hw
    | float o =>
      cases o with
      | none => cases hw
      | some f => exact ⟨_, rfl, fun h => by cases h⟩
    | other => cases hw
  | .var x, b, t, w, ht, hw, hb => by
    intro u hu
    rw [ref] at hw ⊢
    rw [before] at hb
    by_cases hx : x ∈ W.locals
    · exact ⟨.nil, by simp [hx, hu], fun _ => rfl⟩
    · simp only [hx, if_false, decide_false] at hw hb ⊢
      cases hb
      cases hg : W.glob x with
      | none => rw [hg] at hw; cases hw
      | some v => exact ⟨_, rfl, fun h => by cases h⟩
  | .paren [e] _, b, t, w, ht, hw, hb => by
    intro u hu
    rw [ref, refList, refList] at hw ⊢
    rw [before] at hb
    obtain ⟨vs, h1, -⟩ := bind_some' hw
    obtain ⟨v, h1, -⟩ := bind_some' h1
    obtain ⟨v', h2, h3⟩ := before_was e ht h1 hb u hu
    exact ⟨v', by rw [h2]; rfl, h3⟩
  | .paren [] _, b, t, w, ht, hw, hb => by simp [before] at hb
  | .paren (_ :: _ :: _) _, b, t, w, ht, hw, hb => by simp [before] at hb
  | .left a r, b, t, w, ht, hw, hb => by
    intro u hu
    rw [ref] at hw ⊢
    rw [before] at hb
    obtain ⟨v, h1, h2⟩ := bind_some' hw
    cases hba : before W.locals a with
    | none => rw [hba] at hb; rw [beforeLeft_none] at hb; cases hb
    | some c =>
      rw [hba] at hb
      obtain ⟨v', k1, k2⟩ := before_was a ht h1 hba u hu
      obtain ⟨v'', k3, k4⟩ := before_left r ht h2 hb hu (v' := v') k2
      exact ⟨v'', by rw [k1]; exact k3, k4⟩
  | .cmp a [], b, t, w, ht, hw, hb => by
    intro u hu
    rw [ref] at hw ⊢
    rw [before] at hb
    obtain ⟨v, h1, -⟩ := bind_some' hw
    obtain ⟨v', h2, h3⟩ := before_was a ht h1 hb u hu
    exact ⟨v', by rw [h2]; rfl, h3⟩
  | .cmp a [(op, e)], b, t, w, ht, hw, hb => by
    intro u hu
    rw [ref] at hw ⊢
    rw [before] at hb
    obtain ⟨v, h1, h2⟩ := bind_some' hw
    rw [refCmp] at h2
    obtain ⟨v₂, h2, -⟩ := bind_some' h2
    obtain ⟨rfl, x, y, e1, e2, e3⟩ := eitherNil_some hb
    obtain ⟨w₁, k1, k2⟩ := before_was a ht h1 e1 u hu
    obtain ⟨w₂, k3, k4⟩ := before_was e ht h2 e2 u hu
    refine ⟨.nil, ?_, fun _ => rfl⟩
    rw [k1]
    show refCmp W (.leaf w₁) [(op, e)] u = _
    rw [refCmp, k3]
    exact applyCmp_nil (e3.imp k2 k4)
  | .cmp a (_ :: _ :: _), b, t, w, ht, hw, hb => by simp [before] at hb
  | .fby a r, b, t, w, ht, hw, hb => by
    intro u hu
    rw [ref] at hw ⊢
    rw [before] at hb
    obtain ⟨vs, h1, h2⟩ := bind_some' hw
    rw [if_neg (by omega)] at h2
    obtain ⟨v', k1, k2⟩ := before_was a ht h2 hb u hu
    refine ⟨v', ?_, k2⟩
    rw [refFby_past r 1 (by omega) (by omega : u ≤ 0) ht, h1]
    show (if _ then _ else _) = _
    rw [if_neg (by omega), k1]
  | .arrow a r, b, t, w, ht, hw, hb => by
    intro u hu
    rw [ref] at hw ⊢
    rw [before] at hb
    obtain ⟨vs, h1, h2⟩ := bind_some' hw
    rw [if_neg (by omega)] at h2
    split at hb
    · rename_i hr
      obtain ⟨v', k1, k2⟩ := before_was a ht h2 hb u hu
      refine ⟨v', ?_, k2⟩
      obtain ⟨vs', k3⟩ := before_then r (i := 1) (by omega) ht h1 hr hu
      rw [k3]
      show (if _ then _ else _) = _
      rw [if_neg (by omega), k1]
    · cases hb
  | .ifx c y n, b, t, w, ht, hw, hb => by
    intro u hu
    rw [ref] at hw ⊢
    rw [before] at hb
    obtain ⟨cv, h1, hw⟩ := bind_some' hw
    obtain ⟨v₁, -, hw⟩ := bind_some' hw
    obtain ⟨v₂, h2, hw⟩ := bind_some' hw
    obtain ⟨v₃, h3, -⟩ := bind_some' hw
    split at hb
    · rename_i x y e1 e2 e3
      cases hb
      obtain ⟨w₁, k1, k2⟩ := before_was c ht h1 e1 u hu
      obtain ⟨w₂, k3, -⟩ := before_was _ ht h2 e2 u hu
      obtain ⟨w₃, k4, -⟩ := before_was n ht h3 e3 u hu
      cases k2 rfl
      refine ⟨.nil, ?_, fun _ => rfl⟩
      rw [k1, k3, k4]
      rfl
    · cases hb
  | .merge _ _ _, b, t, w, ht, hw, hb => by simp [before] at hb
  | .call _ _ _, b, t, w, ht, hw, hb => by simp [before] at hb
  | .pre e, b, t, w, ht, hw, hb => by
    intro u hu
    rw [ref] at hw ⊢
    rw [before] at hb
    exact before_was e (by omega) hw hb (u - 1) (by omega)
  | .neg e, b, t, w, ht, hw, hb => by
    intro u hu
    rw [ref] at hw ⊢
    rw [before] at hb
    obtain ⟨v, h1, -⟩ := bind_some' hw
    split at hb
    · rename_i e1
      cases hb
      obtain ⟨w₁, k1, k2⟩ := before_was e ht h1 e1 u hu
      cases k2 rfl
      exact ⟨.nil, by rw [k1]; rfl, fun _ => rfl⟩
    · cases hb
  | .not e, b, t, w, ht, hw, hb => by
    intro u hu
    rw [ref] at hw ⊢
    rw [before] at hb
    obtain ⟨v, h1, -⟩ := bind_some' hw
    split at hb
    · rename_i e1
      cases hb
      obtain ⟨w₁, k1, k2⟩ := before_was e ht h1 e1 u hu
      cases k2 rfl
      exact ⟨.nil, by rw [k1]; rfl, fun _ => rfl⟩
    · cases hb
theorem before_left : (r : List (LOp × Src)) → ∀ {b c : Bool} {t u : Int} {v w : Value}, t ≤ 0 →
    refLeft W v r t = some w → beforeLeft W.locals (some c) r = some b → u < 0 →
    ∀ {v' : Nillable Scalar}, (c = true → v' = .nil) →
    ∃ w', refLeft W (.leaf v') r u = some (.leaf w') ∧ (b = true → w' = .nil)
  | [], b, c, t, u, v, w, ht, hw, hb, hu, v', hv => by
    rw [beforeLeft] at hb
    cases hb
    exact ⟨v', rfl, hv⟩
  | (op, e) :: r, b, c, t, u, v, w, ht, hw, hb, hu, v', hv => by
    rw [refLeft] at hw ⊢
    obtain ⟨ve, h1, hw⟩ := bind_some' hw
    obtain ⟨va, -, hw⟩ := bind_some' hw
    rw [beforeLeft] at hb
    cases hx : beforeOp op (some c) (before W.locals e) with
    | none => rw [hx, beforeLeft_none] at hb; cases hb
    | some y =>
      rw [hx] at hb
      obtain ⟨rfl, c', x, e1, e2, hcx, hop⟩ := beforeOp_some hx
      cases e1
      obtain ⟨w₁, k1, k2⟩ := before_was e ht h1 e2 u hu
      obtain ⟨w', k3, k4⟩ := before_left r ht hw hb hu (v' := .nil) (fun _ => rfl)
      refine ⟨w', ?_, k4⟩
      have : applyLOp W.arith op (.leaf v') (.leaf w₁) = some (.leaf .nil) := by
        have h : v' = .nil ∨ w₁ = .nil := hcx.imp hv k2
        cases op with
        | when => cases k2 (hop (.inl rfl)); rfl
        | whenot => cases k2 (hop (.inr rfl)); rfl
        | _ => exact applyBin_nil h
      rw [k1]
      show (applyLOp W.arith op (.leaf v') (.leaf w₁) >>= fun a => refLeft W a r u) = _
      rw [this]
      exact k3
theorem before_then : (es : List Src) → ∀ {i : Nat} {t u : Int} {ws : List Value}, 0 < i → t ≤ 0 →
    refThen W i es t = some ws → beforeAll W.locals es = true → u < 0 →
    ∃ ws', refThen W i es u = some ws'
  | [], i, t, u, ws, hi, ht, hw, hb, hu => ⟨[], rfl⟩
  | e :: es, i, t, u, ws, hi, ht, hw, hb, hu => by
    rw [refThen] at hw ⊢
    rw [beforeAll, Bool.and_eq_true] at hb
    obtain ⟨later, h1, hw⟩ := bind_some' hw
    rw [if_neg (by omega)] at hw
    obtain ⟨v, h2, -⟩ := bind_some' hw
    obtain ⟨x, hx⟩ := Option.isSome_iff_exists.1 hb.1
    obtain ⟨v', k1, -⟩ := before_was e ht h2 hx u hu
    obtain ⟨ws', k2⟩ := before_then es (by omega) ht h1 hb.2 hu
    refine ⟨.leaf v' :: ws', ?_⟩
    rw [k2]
    show (if _ then _ else _) = _
    rw [if_neg (by omega), k1]
    rfl
end

end

/-! ## Equations -/

section
variable {A : Arith} {g : Globals} {N : String → Option Machine}
  {S : String → Nat → Nillable Scalar} {src : SrcNode}

/-- Without registers, a variable is what its equation says, from the first instant on; and before if
the definition is nil. -/
theorem ref_equation {x : String} {d : Src} {k : Nat} (hx : x ∈ SrcNode.vars src)
    (hd : ∀ t, t < k → SrcHolds ⟨A, SrcNode.vars src, S, g, N⟩ t (.def_ (.var x) d)) (hk : 0 < k)
    {late : Bool} (hl : late = true → before (SrcNode.vars src) d = some true) :
    ∀ t : Int, t < k → Sees late t →
      ref ⟨A, SrcNode.vars src, S, g, N⟩ (.var x) t =
        ref ⟨A, SrcNode.vars src, S, g, N⟩ (.paren [d] false) t := by
  intro t ht hs
  have hp : ref ⟨A, SrcNode.vars src, S, g, N⟩ (.paren [d] false) t =
      ref ⟨A, SrcNode.vars src, S, g, N⟩ d t := by
    rw [ref, refList, refList]
    cases ref ⟨A, SrcNode.vars src, S, g, N⟩ d t <;> rfl
  rw [hp, ref]
  simp only [hx, if_true]
  by_cases h0 : t < 0
  · rw [if_pos h0]
    have hlate : late = true := by
      rcases hs with h | h
      · exact h
      · omega
    obtain ⟨v, hv, -⟩ := hd 0 hk
    obtain ⟨w, h1, h2⟩ := before_was (W := ⟨A, SrcNode.vars src, S, g, N⟩) d (t := 0) (by omega) hv
      (hl hlate) t h0
    rw [h1, h2 rfl]
  · obtain ⟨u, rfl⟩ := Int.eq_ofNat_of_zero_le (by omega : 0 ≤ t)
    obtain ⟨v, hv, hg⟩ := hd u (by omega)
    rw [if_neg h0]
    cases v with
    | tup a l => exact hg.elim
    | leaf v =>
      have hg : S x u = v := hg
      rw [hv, Int.toNat_natCast, hg]

/-- With registers, the clock of a variable is that of its definition, and the definition is not a
tuple. -/
theorem clock_equation {o : TyOpts} {sigs : String → Option Sig} {consts : String → Option TyBase}
    {n : Node} {ms : List Machine} (h : Passes true o sigs consts src n)
    (hw : ∀ f s, sigs f = some s → s.Wf)
    (hc : ∀ (i : Nat) b, n.blocks[i]? = some b → ∃ m s, ms[i]? = some m ∧ sigs b.name = some s ∧
      m.outTy = flatShape s.2.2.length)
    (hL : Linked ms N n.blocks) {x : String} {d : Src} (hd : .def_ (.var x) d ∈ src.defs) :
    (∀ t, uniOn ⟨A, SrcNode.vars src, S, g, N⟩ (SrcNode.clocks src) d t =
      uniDue S (SrcNode.clocks src x) t) ∧
    uniShape ⟨A, SrcNode.vars src, S, g, N⟩ d = .leaf () := by
  obtain ⟨n₁, n₂, c, ctx, clk, m, K, hf⟩ := passes_final h
  have hLc := final_linked hf hL
  have hW : (⟨A, SrcNode.vars src, S, g, N⟩ : World) = worldX A g N S (src.view true) := by
    simp only [worldX, SrcNode.view, SrcNode.vars, List.map_append, args_names]
  obtain ⟨new, e1, e2, e3⟩ := Uni.stmts_come hf.stmts
  simp only [List.nil_append] at e1
  subst e1
  obtain ⟨st', h1, h2⟩ := e2 _ hd
  obtain ⟨c₀, c₁, y, g1, g2, rfl⟩ := h2
  have hmem : ∀ s, Stmt.withClocks clk s = s → s ∈ c.stmts → s ∈ n.stmts := by
    intro s h0 hs'
    rw [hf.final_stmts]
    exact List.mem_map.2 ⟨s, hf.perm.mem_iff.2 hs', h0⟩
  have h3 := hmem _ rfl h1
  rw [hW]
  constructor
  · intro t
    rw [← translate_tick (A := A) (glob := g) (nodes := N) (X := S) (D := SrcNode.clocks src) rfl d g1]
    have := (final_clocked hf).stmts _ h3
    cases this with
    | let_ k1 k2 k3 =>
      rw [tick_clock (final_known hf) y k2, due_clk]
      cases k1 with
      | single k1 =>
        rw [final_known hf _ _ k1]
        exact (clkOn_same (k3 (by simp [Target.translate])) t).symm
  · rw [← translate_shape (A := A) (glob := g) (nodes := N) (X := S) (ms := ms) rfl d g1
      (linked_of_prefix hLc g2)]
    have := hf.runTyped hw _ h3
    cases this with
    | let_ k1 k2 =>
      cases k1 with
      | single k1 =>
        refine (shape_typed (Γ := runEnv sigs consts n) ?_ k2).symm
        rintro i t u ⟨b, gens, ins, outs, θ, j1, j2, -, -, rfl⟩
        obtain ⟨m, s, j3, j4, j5⟩ := hc i b j1
        rw [j2] at j4
        cases j4
        exact ⟨m, j3, by rw [j5, shape_flat]⟩

/-- With registers, a variable and its definition are not to be told apart. -/
theorem uni_equation {o : TyOpts} {sigs : String → Option Sig} {consts : String → Option TyBase}
    {n : Node} {ms : List Machine} (h : Passes true o sigs consts src n)
    (hw : ∀ f s, sigs f = some s → s.Wf)
    (hc : ∀ (i : Nat) b, n.blocks[i]? = some b → ∃ m s, ms[i]? = some m ∧ sigs b.name = some s ∧
      m.outTy = flatShape s.2.2.length)
    (hL : Linked ms N n.blocks) {x : String} {d : Src} (hd : .def_ (.var x) d ∈ src.defs)
    {k : Nat} (hx : x ∈ SrcNode.vars src)
    (hh : ∀ t, t < k → UniHolds ⟨A, SrcNode.vars src, S, g, N⟩ (SrcNode.clocks src) t
      (.def_ (.var x) d)) :
    UniSame ⟨A, SrcNode.vars src, S, g, N⟩ (SrcNode.clocks src) k (.var x) (.paren [d] false) := by
  obtain ⟨h1, h2⟩ := clock_equation (A := A) (g := g) (S := S) h hw hc hL hd
  refine ⟨fun t ht => ?_, fun t ht => ?_, ?_⟩
  · obtain ⟨v, hv, hg⟩ := hh t ht
    rw [uni, uni, uniList, uniList, hv]
    simp only [hx, if_true]
    cases v with
    | tup a l => exact hg.elim
    | leaf v =>
      have hg : S x t = v := hg
      rw [hg]
      rfl
  · rw [uniOn, uniOn, uniOnAll, uniOnAll, both_true, h1]
    simp only [hx, if_true]
  · rw [uniShape, uniShape, h2]

/-! ## Nodes -/

theorem answers_unfolded {attrs : List Attribute} {src' : SrcNode} {n : Node} {ms : List Machine}
    {sigs : String → Option Sig} {consts : String → Option TyBase}
    (hr : UnfoldedNode (meaning attrs).universalPre src src')
    (hin : InProg Flat g sigs consts attrs src n ms) (hL : Linked ms N n.blocks)
    (is outs : List Value) :
    Answers A g N (meaning attrs).universalPre src is outs ↔
      Answers A g N (meaning attrs).universalPre src' is outs := by
  obtain ⟨-, x, d, hx, hd, hd', hn⟩ := hr
  have hp := hin.passes
  unfold Answers
  simp only [outputs_exchanged hn]
  refine exists_congr fun S => and_congr_left fun _ => ?_
  have hx' : x ∈ SrcNode.vars src' := hn.vars ▸ hx
  cases hu : (meaning attrs).universalPre with
  | false =>
    rw [hu] at hn
    simp only [Bool.false_eq_true, if_false]
    have go : (∀ t, t < is.length →
        SrcHolds ⟨A, SrcNode.vars src, S, g, N⟩ t (.def_ (.var x) d)) →
        (SrcSolution ⟨A, SrcNode.vars src, S, g, N⟩ src is ↔
          SrcSolution ⟨A, SrcNode.vars src', S, g, N⟩ src' is) := by
      intro hh
      refine srcSolution_exchanged hn ?_
      rintro hk late e e' ⟨rfl, rfl, hl⟩ t ht hs
      exact ref_equation hx hh hk (hl rfl) t ht hs
    constructor
    · intro h
      exact (go fun t ht => h.defs t ht _ hd).1 h
    · intro h
      refine (go fun t ht => ?_).2 h
      have := h.defs t ht _ hd'
      rw [hn.vars] at this
      exact this
  | true =>
    rw [hu] at hn hp
    simp only [if_true]
    have go : (∀ t, t < is.length → UniHolds ⟨A, SrcNode.vars src, S, g, N⟩ (SrcNode.clocks src) t
          (.def_ (.var x) d)) →
        (UniSolution ⟨A, SrcNode.vars src, S, g, N⟩ (SrcNode.clocks src) src is ↔
          UniSolution ⟨A, SrcNode.vars src', S, g, N⟩ (SrcNode.clocks src') src' is) := by
      intro hh
      refine uniSolution_exchanged hn ?_
      rintro late e e' ⟨rfl, rfl, -⟩
      exact uni_equation hp hin.wf hin.subs hL hd hx hh
    constructor
    · intro h
      exact (go fun t ht => h.defs t ht _ hd).1 h
    · intro h
      refine (go fun t ht => ?_).2 h
      have := h.defs t ht _ hd'
      rw [hn.vars, hn.clocks] at this
      exact this

theorem answers_equal {universal : Bool} {src' : SrcNode} {B : Bool → Src → Src → Prop}
    (hn : ExchangedNode B src src')
    (hB : ∀ {late e e'}, B late e e' → SameValue universal A (SrcNode.vars src) (SrcNode.clocks src) e e')
    (is outs : List Value) :
    Answers A g N universal src is outs ↔ Answers A g N universal src' is outs := by
  unfold Answers
  simp only [outputs_exchanged hn]
  refine exists_congr fun S => and_congr_left fun _ => ?_
  cases universal with
  | false =>
    simp only [Bool.false_eq_true, if_false]
    exact srcSolution_exchanged hn fun _ _ _ _ h t _ _ => (hB h).default rfl S g N t
  | true =>
    simp only [if_true]
    exact uniSolution_exchanged hn fun h => ⟨fun t _ => ((hB h).universal rfl S g N t).1,
      fun t _ => ((hB h).universal rfl S g N t).2.1, ((hB h).universal rfl S g N 0).2.2⟩

theorem wraps_equal {late universal : Bool} {vars : List String} {D : String → Clock} {e e' : Src}
    (h : Wraps late e e') : SameValue universal A vars D e e' := by
  cases h
  constructor
  · intro _ S g N t
    rw [Spec.ref, refList, refList]
    cases Spec.ref ⟨A, vars, S, g, N⟩ e t <;> rfl
  · intro _ S g N t
    refine ⟨?_, ?_, ?_⟩
    · rw [Spec.uni, uniList, uniList]
      cases Spec.uni ⟨A, vars, S, g, N⟩ D e t <;> rfl
    · rw [uniOn, uniOnAll, uniOnAll, both_true]
    · rw [uniShape]

/-! ## Programs -/

theorem rewritten_redone {R : Bool → SrcNode → SrcNode → Prop} {p r : SrcProg}
    (h : List.Forall₂ (Rewritten R) p r) : Redone (fun u n n' => n' = n ∨ R u n n') p r := by
  intro d hd
  obtain ⟨d', hd', hr⟩ := forall2_left h d hd
  cases hr with
  | same =>
    match d with
    | ⟨a, .node n⟩ => exact ⟨n, .inl rfl, hd'⟩
    | ⟨a, .const _⟩ => exact hd'
    | ⟨a, .extConst _ _⟩ => exact hd'
    | ⟨a, .extNode _ _ _⟩ => exact hd'
  | node hr => exact ⟨_, .inr hr, hd'⟩

theorem rewritten_back {R : Bool → SrcNode → SrcNode → Prop} {p r : SrcProg}
    (h : List.Forall₂ (Rewritten R) p r) : Redone (Back fun u n n' => n' = n ∨ R u n n') r p := by
  intro d hd
  obtain ⟨d', hd', hr⟩ := forall2_right h d hd
  cases hr with
  | same =>
    match d with
    | ⟨a, .node n⟩ => exact ⟨n, .inl rfl, hd'⟩
    | ⟨a, .const _⟩ => exact hd'
    | ⟨a, .extConst _ _⟩ => exact hd'
    | ⟨a, .extNode _ _ _⟩ => exact hd'
  | node hr => exact ⟨_, .inr hr, hd'⟩

theorem relItems_alike {I I' : Items} (h : RelItems (Alike Any) I I') :
    AlikeItems (fun _ _ => True) I.consts I'.consts I.nodes I'.nodes :=
  ⟨h.consts, h.none, h.nodes⟩

/-- What to prove of nodes, for programs to be the same. -/
theorem link_rewritten {X : Extern} {R : Bool → SrcNode → SrcNode → Prop} (hF : Faced R)
    (hA : ∀ (attrs : List Attribute) (src src' : SrcNode) (n n' : Node) (ms ms' : List Machine) sigs
      sigs' consts consts' (g : Globals) (N : String → Option Machine),
      R (meaning attrs).universalPre src src' → InProg Flat g sigs consts attrs src n ms →
      InProg Flat g sigs' consts' attrs src' n' ms' → Linked ms N n.blocks → Linked ms' N n'.blocks →
      ∀ is outs, Answers A g N (meaning attrs).universalPre src is outs ↔
        Answers A g N (meaning attrs).universalPre src' is outs)
    {p r : SrcProg} {p' r' : Prog} {w w' : List Report}
    (hr : List.Forall₂ (Rewritten R) p r) (h : decl (compile p) = .done w (some p'))
    (h' : decl (compile r) = .done w' (some r')) (hX : ExternOk X p) (hg : DistinctGenerics p)
    (ht : TidyProg p) (ht' : TidyProg r) :
    Both (· = ·) (fun I I' : Items => AlikeItems (fun _ _ => True) I.consts I'.consts I.nodes I'.nodes)
      (link A X p'.decls) (link A X r'.decls) := by
  have hF' : Faced (fun u n n' => n' = n ∨ R u n n') :=
    ⟨by rintro u n n' (rfl | h); exacts [rfl, hF.name h],
      by rintro u n n' (rfl | h); exacts [rfl, hF.outs h]⟩
  have := link_redone (A := A) (X := X) (congr_alike A) hF' (lifts_alike hF' ?_)
    (rewritten_redone hr) (rewritten_back hr) h h' hX hg ht ht'
  · revert this
    cases link A X p'.decls <;> cases link A X r'.decls <;> intro this
    · exact this
    · exact this
    · exact this
    · exact relItems_alike this
  · rintro attrs src src' n n' ms ms' s s' c c' g N (rfl | hr) h1 h2 l1 l2 is outs
    · exact Iff.rfl
    · exact hA attrs src src' n n' ms ms' s s' c c' g N hr h1 h2 l1 l2 is outs

theorem exchanged_faced {B : Bool → SrcNode → Bool → Src → Src → Prop} :
    Faced (fun u n n' => ExchangedNode (B u n) n n') :=
  ⟨fun h => h.name, fun h => by rw [h.outputs]⟩

theorem unfolded_faced : Faced UnfoldedNode :=
  ⟨fun ⟨_, _, _, _, _, _, h⟩ => h.name, fun ⟨_, _, _, _, _, _, h⟩ => by rw [h.outputs]⟩

end

end Chandeliers.Rep
