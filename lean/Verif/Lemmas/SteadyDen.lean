import Verif.Lemmas.Steady
import Verif.Spec.Guards

/-! # Expressions that are late by some instants of their clock -/

set_option autoImplicit false
set_option linter.unusedSectionVars false

namespace Chandeliers.Std
open Chandeliers.San Chandeliers.Spec Chandeliers.Syn Chandeliers.Den Chandeliers.Pres Chandeliers.Uni
open Chandeliers.Spec.Static

/-- What is around the expressions of a node. -/
structure Around (S : Scope) (W : World) (D : String → Clock) : Prop where
  universal : S.universalPre = true
  locals : ∀ x, x ∈ W.locals ↔ (S.var x).isSome = true
  clocks : ∀ x v, S.var x = some v → (D x).intoClk = v.clk
  written : ∀ x v, S.var x = some v → v.clk ≠ .adaptative
  consts : ConstsOk S.consts W.glob
  nodes : ∀ f s, S.nodes f = some s → ∃ m, W.nodes f = some m ∧ Pres.Good m s

section
variable {S : Scope} {W : World} {D : String → Clock}

theorem var_name {x : String} {v : Var} (h : S.var x = some v) : v.name = x := by
  have := List.find?_some h
  simpa using this

theorem Around.local (ha : Around S W D) {x : String} {v : Var} (h : S.var x = some v) :
    x ∈ W.locals := (ha.locals x).2 (by simp [h])

/-! ## Variables -/

theorem isVar_opened (ha : Around S W D) {v : Var} (b : Bool) (t : Nat) : (e : Src) → IsVar S v e →
    uniOpened W b e t = isOn b (W.X v.name t)
  | .var x, h => by
    simp only [IsVar] at h
    rw [uniOpened, if_pos (ha.local h), var_name h]
  | .left e rest, h => by
    obtain ⟨rfl, h⟩ := h
    rw [uniOpened]; exact isVar_opened ha b t e h
  | .cmp e rest, h => by
    obtain ⟨rfl, h⟩ := h
    rw [uniOpened]; exact isVar_opened ha b t e h
  | .fby e rest, h => by
    obtain ⟨rfl, h⟩ := h
    rw [uniOpened]; exact isVar_opened ha b t e h
  | .arrow e rest, h => by
    obtain ⟨rfl, h⟩ := h
    rw [uniOpened]; exact isVar_opened ha b t e h
  | .lit _, h => h.elim
  | .paren _ _, h => h.elim
  | .ifx _ _ _, h => h.elim
  | .merge _ _ _, h => h.elim
  | .call _ _ _, h => h.elim
  | .pre _, h => h.elim
  | .neg _, h => h.elim
  | .not _, h => h.elim

theorem isVar_on (ha : Around S W D) {v : Var} (t : Nat) : (e : Src) → IsVar S v e →
    uniOn W D e t = clkOn W.X v.clk t
  | .var x, h => by
    simp only [IsVar] at h
    rw [uniOn, if_pos (ha.local h), due_clk, ha.clocks x v h]
  | .left e rest, h => by
    obtain ⟨rfl, h⟩ := h
    rw [uniOn, uniOnLeft]; exact isVar_on ha t e h
  | .cmp e rest, h => by
    obtain ⟨rfl, h⟩ := h
    rw [uniOn, uniOnCmp, both_true]; exact isVar_on ha t e h
  | .fby e rest, h => by
    obtain ⟨rfl, h⟩ := h
    rw [uniOn]; exact isVar_on ha t e h
  | .arrow e rest, h => by
    obtain ⟨rfl, h⟩ := h
    rw [uniOn]; exact isVar_on ha t e h
  | .lit _, h => h.elim
  | .paren _ _, h => h.elim
  | .ifx _ _ _, h => h.elim
  | .merge _ _ _, h => h.elim
  | .call _ _ _, h => h.elim
  | .pre _, h => h.elim
  | .neg _, h => h.elim
  | .not _, h => h.elim

theorem isVar_uni (ha : Around S W D) {v : Var} (t : Nat) : (e : Src) → IsVar S v e →
    uni W D e t = some (.leaf (W.X v.name t)) ∧ v.name ∈ instant e ∧ S.var v.name = some v
  | .var x, h => by
    simp only [IsVar] at h
    rw [uni, if_pos (ha.local h), var_name h]
    exact ⟨rfl, by simp [instant], h⟩
  | .left e rest, h => by
    obtain ⟨rfl, h⟩ := h
    obtain ⟨h1, h2, h3⟩ := isVar_uni ha t e h
    rw [uni, h1]
    exact ⟨rfl, by simp [instant, h2], h3⟩
  | .cmp e rest, h => by
    obtain ⟨rfl, h⟩ := h
    obtain ⟨h1, h2, h3⟩ := isVar_uni ha t e h
    rw [uni, h1]
    exact ⟨rfl, by simp [instant, h2], h3⟩
  | .fby e rest, h => by
    obtain ⟨rfl, h⟩ := h
    obtain ⟨h1, h2, h3⟩ := isVar_uni ha t e h
    rw [uni]
    exact ⟨h1, by simp [instant, h2], h3⟩
  | .arrow e rest, h => by
    obtain ⟨rfl, h⟩ := h
    obtain ⟨h1, h2, h3⟩ := isVar_uni ha t e h
    rw [uni]
    exact ⟨h1, by simp [instant, h2], h3⟩
  | .lit _, h => h.elim
  | .paren _ _, h => h.elim
  | .ifx _ _ _, h => h.elim
  | .merge _ _ _, h => h.elim
  | .call _ _ _, h => h.elim
  | .pre _, h => h.elim
  | .neg _, h => h.elim
  | .not _, h => h.elim

/-! ## Clocks -/

mutual
theorem uniOn_clk (ha : Around S W D) (t : Nat) : (e : Src) → {τ : TyTuple} → {k : Clk} →
    HasTy S e τ → HasClk S e k → uniOn W D e t = clkOn W.X k t
  | .lit l, τ, k, hτ, h => by rw [HasClk] at h; subst h; rw [uniOn]; rfl
  | .var x, τ, k, hτ, h => by
    rw [HasClk] at h
    rw [uniOn]
    cases hv : S.var x with
    | some v =>
      rw [hv] at h
      simp only at h
      rw [if_pos (ha.local hv), due_clk, ha.clocks x v hv, h]
    | none =>
      rw [hv] at h
      simp only at h
      rw [if_neg (by rw [ha.locals, hv]; simp), h]
      rfl
  | .paren es b, τ, k, hτ, h => by
    rw [HasClk] at h
    rw [HasTy] at hτ
    obtain ⟨ts, hτ, -⟩ := hτ
    rw [uniOn]
    exact uniOnAll_clk ha t es hτ h
  | .left e rest, τ, k, hτ, h => by
    rw [HasClk] at h
    rw [HasTy] at hτ
    obtain ⟨u, hτ, hτ'⟩ := hτ
    obtain ⟨k₀, h1, h2⟩ := h
    rw [uniOn, uniOn_clk ha t e hτ h1]
    exact uniOnLeft_clk ha t rest hτ' h2
  | .cmp e rest, τ, k, hτ, h => by
    rw [HasClk] at h
    rw [HasTy] at hτ
    obtain ⟨u, hτ, hτ'⟩ := hτ
    obtain ⟨k₀, h1, h2⟩ := h
    rw [uniOn, uniOn_clk ha t e hτ h1]
    exact uniOnCmp_clk ha t rest hτ' h2
  | .fby e rest, τ, k, hτ, h => by
    rw [HasClk] at h
    rw [HasTy] at hτ
    obtain ⟨k₀, h1, h2⟩ := h
    rw [uniOn, uniOn_clk ha t e hτ.1 h1]
    cases rest with
    | nil => rw [ChainClk] at h2; rw [h2]
    | cons e' es =>
      rw [ChainClk] at h2
      obtain ⟨k₁, k₂, -, -, h2⟩ := h2
      rw [if_pos ha.universal] at h2
      obtain ⟨h2, rfl⟩ := h2
      exact (clkOn_same h2 t).symm
  | .arrow e rest, τ, k, hτ, h => by
    rw [HasClk] at h
    rw [HasTy] at hτ
    obtain ⟨k₀, h1, h2⟩ := h
    rw [uniOn, uniOn_clk ha t e hτ.1 h1]
    cases rest with
    | nil => rw [ChainClk] at h2; rw [h2]
    | cons e' es =>
      rw [ChainClk] at h2
      obtain ⟨k₁, k₂, -, -, h2⟩ := h2
      rw [if_pos ha.universal] at h2
      obtain ⟨h2, rfl⟩ := h2
      exact (clkOn_same h2 t).symm
  | .ifx c y n, τ, k, hτ, h => by
    rw [HasClk] at h
    rw [HasTy] at hτ
    obtain ⟨k₁, k₂, k₃, h1, h2, h3, h4, h5, rfl⟩ := h
    rw [uniOn, uniOn_clk ha t c hτ.1 h1, uniOn_clk ha t y hτ.2.1 h2, uniOn_clk ha t n hτ.2.2 h3,
      clkOn_meet h5, clkOn_meet h4, both_assoc]
  | .merge c y n, τ, k, hτ, h => by
    rw [HasClk] at h
    obtain ⟨v, k₁, k₂, h1, -, -, -, -, rfl⟩ := h
    rw [uniOn]
    exact isVar_on ha t c h1
  | .call f args b, τ, k, hτ, h => by
    rw [HasClk] at h
    rw [HasTy] at hτ
    obtain ⟨ts, gens, ins, outs, θ, hτ, -⟩ := hτ
    rw [uniOn]
    exact uniOnAll_clk ha t args hτ h
  | .pre e, τ, k, hτ, h => by
    rw [HasClk] at h
    rw [HasTy] at hτ
    rw [uniOn]
    exact uniOn_clk ha t e hτ h.1
  | .neg e, τ, k, hτ, h => by
    rw [HasClk] at h
    rw [HasTy] at hτ
    rw [uniOn]
    exact uniOn_clk ha t e hτ.1 h
  | .not e, τ, k, hτ, h => by
    rw [HasClk] at h
    rw [HasTy] at hτ
    rw [uniOn]
    exact uniOn_clk ha t e hτ.1 h
theorem uniOnAll_clk (ha : Around S W D) (t : Nat) : (es : List Src) → {ts : List TyTuple} →
    {k : Clk} → HasTys S es ts → TupleClk S es k → uniOnAll W D es t = clkOn W.X k t
  | [], ts, k, hτ, h => by rw [TupleClk] at h; subst h; rw [uniOnAll]; rfl
  | e :: es, ts, k, hτ, h => by
    rw [TupleClk] at h
    rw [HasTys] at hτ
    obtain ⟨τ, us, -, hτ, hτ'⟩ := hτ
    rw [uniOnAll, uniOn_clk ha t e hτ h.1]
    rcases uniOnSame_clk ha t es hτ' h.2 with h0 | h0
    · rw [h0, both_true]
    · rw [h0, both_self]
theorem uniOnSame_clk (ha : Around S W D) (t : Nat) : (es : List Src) → {ts : List TyTuple} →
    {k : Clk} → HasTys S es ts → SameClks S k es →
    uniOnAll W D es t = some true ∨ uniOnAll W D es t = clkOn W.X k t
  | [], ts, k, hτ, h => .inl (by rw [uniOnAll])
  | e :: es, ts, k, hτ, h => by
    rw [SameClks] at h
    rw [HasTys] at hτ
    obtain ⟨τ, us, -, hτ, hτ'⟩ := hτ
    obtain ⟨⟨k', h1, h2⟩, h3⟩ := h
    refine .inr ?_
    rw [uniOnAll, uniOn_clk ha t e hτ h1, ← clkOn_same h2]
    rcases uniOnSame_clk ha t es hτ' h3 with h0 | h0
    · rw [h0, both_true]
    · rw [h0, both_self]
theorem uniOnLeft_clk (ha : Around S W D) (t : Nat) : (rest : List (LOp × Src)) →
    {u τ : TyTuple} → {k₀ k : Clk} → LeftTy S u rest τ → LeftClk S k₀ rest k →
    uniOnLeft W D (clkOn W.X k₀ t) rest t = clkOn W.X k t
  | [], u, τ, k₀, k, hτ, h => by rw [LeftClk] at h; rw [uniOnLeft, h]
  | (op, e) :: rest, u, τ, k₀, k, hτ, h => by
    rw [LeftClk] at h
    rw [LeftTy] at hτ
    obtain ⟨w, r, hτ, -, hτ'⟩ := hτ
    cases op with
    | when =>
      obtain ⟨v, h1, h2, h3⟩ := h
      have := uniOnLeft_clk ha t rest hτ' h3
      simp only [guardClk, clkOn] at this
      rw [uniOnLeft, isVar_opened ha true t e h1]
      exact this
    | whenot =>
      obtain ⟨v, h1, h2, h3⟩ := h
      have := uniOnLeft_clk ha t rest hτ' h3
      simp only [guardClk, clkOn] at this
      rw [uniOnLeft, isVar_opened ha false t e h1]
      exact this
    | _ =>
      obtain ⟨k₁, h1, h2, h3⟩ := h
      have := uniOnLeft_clk ha t rest hτ' h3
      rw [clkOn_meet h2] at this
      rw [uniOnLeft, uniOn_clk ha t e hτ h1]
      · exact this
      all_goals simp
theorem uniOnCmp_clk (ha : Around S W D) (t : Nat) : (rest : List (CmpOp × Src)) →
    {u τ : TyTuple} → {k₀ k : Clk} → CmpTy S u rest τ → CmpClk S k₀ rest k →
    both (clkOn W.X k₀ t) (uniOnCmp W D rest t) = clkOn W.X k t
  | [], u, τ, k₀, k, hτ, h => by rw [CmpClk] at h; rw [uniOnCmp, both_true, h]
  | (op, e) :: rest, u, τ, k₀, k, hτ, h => by
    rw [CmpClk] at h
    rw [CmpTy] at hτ
    obtain ⟨rfl, b, -, -, hτ, -⟩ := hτ
    obtain ⟨k₁, h1, h2, rfl⟩ := h
    rw [uniOnCmp, uniOnCmp, both_true, uniOn_clk ha t e hτ h1, clkOn_meet h2]
end

/-! ## Components -/

theorem valTy_leafNil (b : TyBase) : ValTy (.single b) (.leaf .nil) := leafTy_nil b

theorem allNil_leaf : Tup.allNil Scalar (.leaf ()) = .leaf .nil := rfl

theorem shapeLeft_ty (θ : Subst) : (rest : List (LOp × Src)) → {u τ : TyTuple} → {s : Tup Unit} →
    LeftTy S u rest τ → ValTy (substTy θ u) (Tup.allNil Scalar s) →
    ValTy (substTy θ τ) (Tup.allNil Scalar (shapeLeft s rest))
  | [], u, τ, s, h, hs => by rw [LeftTy] at h; rw [shapeLeft, h]; exact hs
  | (op, e) :: rest, u, τ, s, h, hs => by
    rw [LeftTy] at h
    obtain ⟨w, r, -, ho, h⟩ := h
    cases op with
    | when =>
      obtain ⟨-, rfl⟩ := ho
      rw [shapeLeft]
      exact shapeLeft_ty θ rest h hs
    | whenot =>
      obtain ⟨-, rfl⟩ := ho
      rw [shapeLeft]
      exact shapeLeft_ty θ rest h hs
    | _ =>
      obtain ⟨b, -, -, rfl, -⟩ := ho
      rw [shapeLeft]
      · exact shapeLeft_ty θ rest h (valTy_leafNil _)
      all_goals simp

theorem allNil_list (ss : List (Tup Unit)) :
    Tup.mapList (fun _ => (Nillable.nil : Nillable Scalar)) ss = ss.map (Tup.allNil Scalar) := by
  induction ss with
  | nil => rfl
  | cons s ss ih => rw [Tup.mapList, ih]; rfl

mutual
theorem shape_ty (ha : Around S W D) (θ : Subst) : (e : Src) → {τ : TyTuple} → HasTy S e τ →
    noOneTuple e = true → ValTy (substTy θ τ) (Tup.allNil Scalar (uniShape W e))
  | .lit l, τ, h, hn => by
    rw [HasTy] at h
    obtain ⟨b, -, rfl⟩ := h
    rw [uniShape]
    exact valTy_leafNil _
  | .var x, τ, h, hn => by
    rw [HasTy] at h
    rw [uniShape]
    split at h
    · subst h; exact valTy_leafNil _
    · obtain ⟨b, -, rfl⟩ := h; exact valTy_leafNil _
  | .paren es b, τ, h, hn => by
    rw [HasTy] at h
    obtain ⟨ts, h, rfl⟩ := h
    rw [noOneTuple, Bool.and_eq_true] at hn
    have := shapes_ty ha θ es h hn.2
    rcases es with _ | ⟨e, _ | ⟨e', es⟩⟩
    · rw [HasTys] at h
      subst h
      simp [uniShape, uniShapes, shapeTuple, group, substTy, substTys, allNil_leaf, ValTy]
    · rw [HasTys] at h
      obtain ⟨τ, us, rfl, h1, h2⟩ := h
      rw [HasTys] at h2
      subst h2
      cases b with
      | true => simp at hn
      | false =>
        rw [uniShape]
        simp only [group]
        simp only [uniShapes, substTys, List.map_cons, List.map_nil, ValTys, and_true] at this
        exact this
    · rw [HasTys] at h
      obtain ⟨τ, us, rfl, h1, h2⟩ := h
      rw [HasTys] at h2
      obtain ⟨τ', us, rfl, h3, h4⟩ := h2
      rw [uniShape, uniShapes, uniShapes, shapeTuple]
      · simp only [group, substTy, substTys, Tup.allNil, Tup.map, ValTy, allNil_list]
        simpa [substTys, uniShapes, ValTys, Tup.allNil] using this
      · simp
  | .left e rest, τ, h, hn => by
    rw [HasTy] at h
    obtain ⟨u, h, h'⟩ := h
    rw [noOneTuple, Bool.and_eq_true] at hn
    rw [uniShape]
    exact shapeLeft_ty θ rest h' (shape_ty ha θ e h hn.1)
  | .cmp e rest, τ, h, hn => by
    rw [HasTy] at h
    obtain ⟨u, h, h'⟩ := h
    rw [noOneTuple, Bool.and_eq_true] at hn
    rw [uniShape]
    cases rest with
    | nil =>
      rw [CmpTy] at h'
      subst h'
      exact shape_ty ha θ e h hn.1
    | cons c rest =>
      obtain ⟨op, e'⟩ := c
      rw [CmpTy] at h'
      obtain ⟨-, b, -, -, -, rfl⟩ := h'
      exact valTy_leafNil _
  | .fby e rest, τ, h, hn => by
    rw [HasTy] at h
    rw [noOneTuple, Bool.and_eq_true] at hn
    rw [uniShape]
    exact shape_ty ha θ e h.1 hn.1
  | .arrow e rest, τ, h, hn => by
    rw [HasTy] at h
    rw [noOneTuple, Bool.and_eq_true] at hn
    rw [uniShape]
    exact shape_ty ha θ e h.1 hn.1
  | .ifx c y n, τ, h, hn => by
    rw [HasTy] at h
    rw [noOneTuple, Bool.and_eq_true, Bool.and_eq_true] at hn
    rw [uniShape]
    exact shape_ty ha θ y h.2.1 hn.1.2
  | .merge c y n, τ, h, hn => by
    rw [HasTy] at h
    rw [noOneTuple, Bool.and_eq_true, Bool.and_eq_true] at hn
    rw [uniShape]
    exact shape_ty ha θ y h.2.1 hn.1.2
  | .call f args b, τ, h, hn => by
    rw [HasTy] at h
    obtain ⟨ts, gens, ins, outs, θ', -, h2, -, rfl⟩ := h
    obtain ⟨m, h3, h4⟩ := ha.nodes f _ h2
    rw [uniShape, h3, substTy_comp]
    exact (h4.1 _).absent
  | .pre e, τ, h, hn => by
    rw [HasTy] at h
    rw [noOneTuple] at hn
    rw [uniShape]
    exact shape_ty ha θ e h hn
  | .neg e, τ, h, hn => by
    rw [HasTy] at h
    rw [uniShape]
    rcases h.2 with rfl | rfl <;> exact valTy_leafNil _
  | .not e, τ, h, hn => by
    rw [HasTy] at h
    rw [uniShape]
    rcases h.2 with rfl | rfl <;> exact valTy_leafNil _
theorem shapes_ty (ha : Around S W D) (θ : Subst) : (es : List Src) → {ts : List TyTuple} →
    HasTys S es ts → noOneTuples es = true →
    ValTys (substTys θ ts) ((uniShapes W es).map (Tup.allNil Scalar))
  | [], ts, h, hn => by
    rw [HasTys] at h
    subst h
    simp [substTys, uniShapes, ValTys]
  | e :: es, ts, h, hn => by
    rw [HasTys] at h
    obtain ⟨τ, us, rfl, h1, h2⟩ := h
    rw [noOneTuples, Bool.and_eq_true] at hn
    simp only [substTys, uniShapes, List.map_cons, ValTys]
    exact ⟨shape_ty ha θ e h1 hn.1, shapes_ty ha θ es h2 hn.2⟩
end

end
end Chandeliers.Std
