import Verif.Lemmas.SteadyDen
import Verif.Lemmas.RenameLegal

/-! # The values of expressions that are late by some instants of their clock -/

set_option autoImplicit false
set_option linter.unusedSectionVars false

namespace Chandeliers.Std
open Chandeliers.San Chandeliers.Spec Chandeliers.Syn Chandeliers.Den Chandeliers.Pres Chandeliers.Uni
open Chandeliers.Spec.Static

/-! ## Operations -/

theorem toOption_some {α : Type} {m : R α} {a : α} : m.toOption = some a ↔ m = .ok a := by
  cases m <;> simp [Except.toOption]

theorem lit_value {l : Syn.Lit} {b : TyBase} {v : Value} (θ : Subst) (h : literalType l = some b)
    (hv : Spec.litValue l = some v) : ValTy (substTy θ (.single b)) v ∧ Full v := by
  cases l with
  | bool x =>
    cases h; cases hv
    exact ⟨leafTy_defined.2 trivial, full_leaf.2 (by simp)⟩
  | int n =>
    simp only [literalType] at h
    simp only [Spec.litValue] at hv
    split at h
    · cases h
      rw [if_pos (by assumption)] at hv
      cases hv
      exact ⟨leafTy_defined.2 trivial, full_leaf.2 (by simp)⟩
    · cases h
  | float f =>
    cases f with
    | none => cases h
    | some f =>
      simp only [literalType] at h
      split at h
      · cases h
        cases hv
        exact ⟨leafTy_defined.2 trivial, full_leaf.2 (by simp)⟩
      · cases h
  | other => cases h

theorem bin_value {A : Arith} {op : BinOp} {b : TyBase} {x y z : Value} (hb : b ∈ binTypes op)
    (hx : ValTy (.single b) x) (hy : ValTy (.single b) y) (h : applyBin A op x y = some z) :
    ValTy (.single b) z ∧ (Full x → Full y → Full z) ∧ (Blank x ∨ Blank y → Blank z) := by
  obtain ⟨x, rfl, hx⟩ := valTy_single.1 hx
  obtain ⟨y, rfl, hy⟩ := valTy_single.1 hy
  simp only [applyBin, Option.map_eq_some_iff, toOption_some] at h
  obtain ⟨z, h, rfl⟩ := h
  refine ⟨(fine_iff.1 (binop_fine hb hx hy)).1 z h, fun f1 f2 => ?_, fun f => ?_⟩
  · have f1 := full_leaf.1 f1
    have f2 := full_leaf.1 f2
    cases x with
    | nil => exact absurd rfl f1
    | defined x =>
    cases y with
    | nil => exact absurd rfl f2
    | defined y =>
      simp only [Nillable.binop] at h
      cases hu : scalarBin A op x y with
      | error => rw [hu] at h; cases h
      | ok y => rw [hu] at h; cases h; exact full_leaf.2 (by simp)
  · rcases f with f | f
    · cases blank_leaf.1 f
      cases h
      exact blank_leaf.2 rfl
    · cases blank_leaf.1 f
      cases x <;> cases h <;> exact blank_leaf.2 rfl

theorem un_value {A : Arith} {op : UnOp} {b : TyBase} {x z : Value} (hb : b ∈ unTypes op)
    (hx : ValTy (.single b) x) (h : applyUn A op x = some z) :
    ValTy (.single b) z ∧ (Full x → Full z) ∧ (Blank x → Blank z) := by
  obtain ⟨x, rfl, hx⟩ := valTy_single.1 hx
  simp only [applyUn, Option.map_eq_some_iff, toOption_some] at h
  obtain ⟨z, h, rfl⟩ := h
  refine ⟨(fine_iff.1 (unop_fine hb hx)).1 z h, fun f1 => ?_, fun f => ?_⟩
  · have f1 := full_leaf.1 f1
    cases x with
    | nil => exact absurd rfl f1
    | defined x =>
      simp only [Nillable.unop] at h
      cases hu : scalarUn A op x with
      | error => rw [hu] at h; cases h
      | ok y => rw [hu] at h; cases h; exact full_leaf.2 (by simp)
  · cases blank_leaf.1 f
    cases h
    exact blank_leaf.2 rfl

theorem cmp_value {A : Arith} {op : CmpOp} {b : TyBase} {x y z : Value} (hb : b ∈ cmpTypes op)
    (hx : ValTy (.single b) x) (hy : ValTy (.single b) y) (hf : b ≠ .float)
    (h : applyCmp A op x y = some z) :
    ValTy (.single .bool) z ∧ (Full x → Full y → Full z) ∧ (Blank x ∨ Blank y → Blank z) := by
  obtain ⟨x, rfl, hx⟩ := valTy_single.1 hx
  obtain ⟨y, rfl, hy⟩ := valTy_single.1 hy
  simp only [applyCmp, Option.map_eq_some_iff, toOption_some] at h
  obtain ⟨z, h, rfl⟩ := h
  refine ⟨(fine_iff.1 (cmp_fine hb hx hy)).1 z h, fun f1 f2 => ?_, fun f => ?_⟩
  · refine full_leaf.2 (cmp_full (fun a c e1 e2 => ?_) h (full_leaf.1 f1) (full_leaf.1 f2))
    subst e1
    have := leafTy_defined.1 hx
    cases b with
    | float => exact absurd rfl hf
    | int => exact this.elim
    | bool => exact this.elim
    | other => cases op <;> simp [cmpTypes] at hb
  · refine blank_leaf.2 (cmp_blank h ?_)
    rcases f with f | f
    · exact .inl (blank_leaf.1 f)
    · exact .inr (blank_leaf.1 f)

theorem condition_eq {v : Value} {b : Nillable Bool} (h : condition v = some b) :
    v = .leaf (b.map .bool) := by
  cases v with
  | tup => cases h
  | leaf x =>
    cases x with
    | nil => cases h; rfl
    | defined y => cases y <;> cases h; rfl

theorem op_value {A : Arith} (θ : Subst) {op : LOp} {u w r : TyTuple} {x y z : Value}
    (hg : Static.guard op = none) (ho : OpTy op u w r) (hx : ValTy (substTy θ u) x)
    (hy : ValTy (substTy θ w) y) (h : applyLOp A op x y = some z) :
    ValTy (substTy θ r) z ∧ (Full x → Full y → Full z) ∧ (Blank x ∨ Blank y → Blank z) := by
  have key : ∀ bop, (∀ b ∈ OpTy.allowed op, b ∈ binTypes bop ∧ substBase θ b = b) →
      (∃ b, u = .single b ∧ w = .single b ∧ r = .single b ∧ b ∈ OpTy.allowed op) →
      applyBin A bop x y = some z →
      ValTy (substTy θ r) z ∧ (Full x → Full y → Full z) ∧ (Blank x ∨ Blank y → Blank z) := by
    rintro bop h1 ⟨b, rfl, rfl, rfl, hb⟩ h2
    obtain ⟨h3, h4⟩ := h1 b hb
    simp only [substTy, h4] at hx hy ⊢
    exact bin_value h3 hx hy h2
  cases op with
  | when => cases hg
  | whenot => cases hg
  | _ =>
    refine key _ ?_ ho h
    intro b hb
    simp only [OpTy.allowed, List.mem_cons, List.not_mem_nil, or_false] at hb
    rcases hb with rfl | rfl <;> exact ⟨by simp [binTypes], rfl⟩

/-! ## Calls -/

theorem mapM_at {α β : Type} {f : α → Option β} : ∀ {l : List α} {bs : List β},
    l.mapM f = some bs → bs.length = l.length ∧ ∀ b ∈ bs, ∃ a ∈ l, f a = some b
  | [], bs, h => by cases h; simp
  | a :: l, bs, h => by
    rw [List.mapM_cons] at h
    obtain ⟨b, h1, h⟩ := some_bind.1 h
    obtain ⟨bs', h2, h⟩ := some_bind.1 h
    cases h
    obtain ⟨i1, i2⟩ := mapM_at h2
    refine ⟨by simp [i1], fun c hc => ?_⟩
    rcases List.mem_cons.1 hc with rfl | hc
    · exact ⟨a, by simp, h1⟩
    · obtain ⟨a', ha', e⟩ := i2 c hc
      exact ⟨a', List.mem_cons_of_mem _ ha', e⟩

theorem call_value {m : Machine} {τ υ : TyTuple} (hr : Respects m τ υ) (ha : Answers m τ)
    {args : Nat → Option Value} {t : Nat} {o : Value}
    (hargs : ∀ u, u ≤ t → ∀ i, args u = some i → ValTy τ i ∧ (Full i ∨ Blank i))
    (h : callAt m args t = some o) :
    ValTy υ o ∧ ∀ i, args t = some i → (Full i → Full o) ∧ (Blank i → Blank o) := by
  unfold callAt at h
  rw [List.range_succ, List.mapM_append] at h
  obtain ⟨as, h1, h⟩ := some_bind.1 h
  obtain ⟨bs, h2, h1⟩ := some_bind.1 h1
  obtain ⟨cs, h3, h1⟩ := some_bind.1 h1
  rw [List.mapM_cons] at h3
  obtain ⟨i, h4, h3⟩ := some_bind.1 h3
  cases h3
  cases h1
  obtain ⟨os, h5, h6⟩ := some_bind.1 h
  rw [toOption_some] at h5
  obtain ⟨hl, hb⟩ := mapM_at h2
  have hi : ∀ a ∈ bs ++ [i], ValTy τ a ∧ (Full a ∨ Blank a) := by
    intro a ha
    rcases List.mem_append.1 ha with ha | ha
    · obtain ⟨u, hu, e⟩ := hb a ha
      exact hargs u (by have := List.mem_range.1 hu; omega) a e
    · cases List.mem_singleton.1 ha
      exact hargs t (Nat.le_refl _) i h4
  replace h5 : m.run (bs ++ [i]) = .ok os := h5
  unfold Machine.run at h5
  cases h7 : m.runFrom m.init (bs ++ [i]) with
  | error => rw [h7] at h5; cases h5
  | ok p =>
  obtain ⟨os', s'⟩ := p
  rw [h7] at h5
  cases h5
  have ho : o ∈ os := List.mem_of_getLast? h6
  refine ⟨(hr.safe _ (fun a ha => (hi a ha).1)).2 _ _ h7 o ho, ?_⟩
  intro j hj
  rw [h4] at hj
  cases hj
  constructor
  · intro hf
    refine ha.full (bs ++ [i]) os (fun a h => ⟨(hi a h).1, ?_⟩) ?_ bs.length i o (by simp) ?_
      (full_present hf)
    · rcases (hi a h).2 with h | h
      · exact .inr h
      · exact .inl (blank_absent h)
    · unfold Machine.run; rw [h7]; rfl
    · have := runFrom_length h7
      simp only [List.length_append, List.length_cons, List.length_nil] at this
      rw [List.getLast?_eq_getElem?, this] at h6
      exact h6
  · intro hb
    rw [runFrom_append] at h7
    obtain ⟨⟨o1, s1⟩, h8, h7⟩ := ok_bind.1 h7
    obtain ⟨⟨o2, s2⟩, h9, h7⟩ := ok_bind.1 h7
    rw [runFrom_single, ha.idle _ _ (blank_absent hb)] at h9
    cases h9
    cases h7
    rw [List.getLast?_append] at h6
    simp at h6
    subst h6
    exact blank_allNil _

/-! ## Variables -/

/-- The variable has its type and is present exactly on its clock. -/
def VarGood (S : Scope) (W : World) (θ : Subst) (x : String) (t : Nat) : Prop :=
  ∀ v, S.var x = some v →
    LeafTy (substBase θ v.ty) (W.X x t) ∧ PresentOn W.X v.clk t (.leaf (W.X x t))

/-- All these variables until now, and some of them now. -/
def Known (S : Scope) (W : World) (θ : Subst) (ns is : List String) (t : Nat) : Prop :=
  (∀ u, u < t → ∀ x ∈ ns, VarGood S W θ x u) ∧ ∀ x ∈ is, VarGood S W θ x t

section
variable {S : Scope} {W : World} {D : String → Clock} {θ : Subst}

theorem Known.mono {ns ns' is is' : List String} {t : Nat} (h : Known S W θ ns is t)
    (h1 : ns' ⊆ ns) (h2 : is' ⊆ is) : Known S W θ ns' is' t :=
  ⟨fun u hu x hx => h.1 u hu x (h1 hx), fun x hx => h.2 x (h2 hx)⟩

theorem Known.past {ns ns' is is' : List String} {t u : Nat} (h : Known S W θ ns is t) (hu : u < t)
    (h1 : ns' ⊆ ns) (h2 : is' ⊆ ns') : Known S W θ ns' is' u :=
  ⟨fun w hw x hx => h.1 w (by omega) x (h1 hx), fun x hx => h.1 u hu x (h1 (h2 hx))⟩

theorem Known.upto {ns ns' is is' : List String} {t u : Nat} (h : Known S W θ ns is t) (hu : u ≤ t)
    (h1 : ns' ⊆ ns) (h2 : is' ⊆ is) (h3 : is' ⊆ ns') : Known S W θ ns' is' u := by
  rcases Nat.lt_or_eq_of_le hu with hu | rfl
  · exact h.past hu h1 h3
  · exact h.mono h1 h2

/-! ## Expressions -/

theorem sub_l {α : Type} {a b : List α} : a ⊆ a ++ b := List.subset_append_left a b
theorem sub_r {α : Type} {a b : List α} : b ⊆ a ++ b := List.subset_append_right a b

theorem mixes_clk {e : Src} {r : Nat} {k : Clk} (h : Mixes S e r) (hk : HasClk S e k) :
    r = 0 ∨ k ≠ .adaptative :=
  h.imp_right fun hn he => hn (he ▸ hk)

theorem sameClk_refl (k : Clk) : SameClk k k := .inl rfl

theorem tuple_same {e : Src} {es : List Src} {k : Clk} (h : TupleClk S (e :: es) k) :
    SameClks S k (e :: es) := by
  rw [TupleClk] at h
  rw [SameClks]
  exact ⟨⟨k, h.1, sameClk_refl k⟩, h.2⟩

theorem timely_tuple {k : Clk} {r t : Nat} {vs : List Value} (hne : vs = [] → r = 0 ∧ Always k)
    (h : ∀ v ∈ vs, Timely W.X k r t v) : Timely W.X k r t (tupleValue vs) := by
  cases vs with
  | nil =>
    obtain ⟨rfl, hk⟩ := hne rfl
    exact timely_always hk (full_tupleValue (by simp))
  | cons v vs =>
    exact ⟨fun hr => full_tupleValue fun w hw => (h w hw).1 hr,
      fun hr => blank_tupleValue fun w hw => (h w hw).2 hr⟩

theorem timely_unary {k : Clk} {r t : Nat} {v w : Value} (h : Timely W.X k r t v)
    (h1 : Full v → Full w) (h2 : Blank v → Blank w) : Timely W.X k r t w :=
  ⟨fun hr => h1 (h.1 hr), fun hr => h2 (h.2 hr)⟩

theorem timely_binary {k k' : Clk} {s s' t : Nat} {v w z : Value} (hc : Compatible k k')
    (m : s = 0 ∨ k ≠ .adaptative) (m' : s' = 0 ∨ k' ≠ .adaptative) (h : Timely W.X k s t v)
    (h' : Timely W.X k' s' t w) (h1 : Full v → Full w → Full z) (h2 : Blank v ∨ Blank w → Blank z) :
    Timely W.X (Clk.meet k k') (max s s') t z := by
  unfold Timely
  rw [ripe_meet hc m m']
  refine ⟨fun hr => h1 (h.1 hr.1) (h'.1 hr.2), fun hr => h2 ?_⟩
  by_cases hv : Ripe W.X k s t
  · exact .inr (h'.2 fun hw => hr ⟨hv, hw⟩)
  · exact .inl (h.2 hv)

theorem timely_ifx {k1 k2 k3 : Clk} {rc ry rn r t : Nat} {c : Nillable Bool} {y n : Value}
    (hc : Compatible k1 k2) (hc' : Compatible (Clk.meet k1 k2) k3)
    (m1 : rc = 0 ∨ k1 ≠ .adaptative) (m2 : ry = 0 ∨ k2 ≠ .adaptative)
    (m3 : rn = 0 ∨ k3 ≠ .adaptative) (e1 : r = max rc ry) (e2 : r = max rc rn)
    (hs : k1 = .adaptative → SameClk k2 k3)
    (h1 : Timely W.X k1 rc t (.leaf (c.map .bool))) (h2 : Timely W.X k2 ry t y)
    (h3 : Timely W.X k3 rn t n) :
    Timely W.X (Clk.meet (Clk.meet k1 k2) k3) r t (Candle.ifx c y n) := by
  by_cases hne : k1 = .adaptative
  · subst hne
    have : rc = 0 := m1.resolve_right (by simp)
    subst this
    have hsame := hs rfl
    have e : Clk.meet .adaptative k2 = k2 := rfl
    rw [e]
    have hm : SameClk k2 (Clk.meet k2 k3) := by
      rcases hsame with rfl | ⟨ha, ha'⟩
      · exact .inl (by cases k2 <;> rfl)
      · exact .inr ⟨ha, by cases k2 <;> first | exact ha' | exact ha⟩
    have hm' : SameClk k3 (Clk.meet k2 k3) := by
      rcases hsame with rfl | ⟨ha, ha'⟩
      · exact hm
      · exact .inr ⟨ha', by cases k2 <;> first | exact ha' | exact ha⟩
    have ey : r = ry := by omega
    have en : r = rn := by omega
    have hf := h1.1 (ripe_zero.2 trivial)
    rcases c with ⟨⟨⟩⟩ | _
    · rw [en]; exact h3.same hm'
    · rw [ey]; exact h2.same hm
    · exact absurd rfl (full_leaf.1 hf)
  · have e3 : Clk.meet k1 k2 = k1 := by cases k1 <;> simp_all [Clk.meet]
    rw [e3] at hc' ⊢
    have e4 : Clk.meet k1 k3 = k1 := by cases k1 <;> simp_all [Clk.meet]
    have p2 := ripe_meet (X := W.X) (t := t) hc m1 m2
    have p3 := ripe_meet (X := W.X) (t := t) hc' m1 m3
    rw [e3, ← e1] at p2
    rw [e4, ← e2] at p3
    rw [e4]
    constructor
    · intro hr
      have hf := h1.1 (p2.1 hr).1
      rcases c with ⟨⟨⟩⟩ | _
      · exact h3.1 (p3.1 hr).2
      · exact h2.1 (p2.1 hr).2
      · exact absurd rfl (full_leaf.1 hf)
    · intro hr
      by_cases hc1 : Ripe W.X k1 rc t
      · rcases c with ⟨⟨⟩⟩ | _
        · exact h3.2 fun h => hr (p3.2 ⟨hc1, h⟩)
        · exact h2.2 fun h => hr (p2.2 ⟨hc1, h⟩)
        · exact blank_nilLike _
      · have := blank_leaf.1 (h1.2 hc1)
        rcases c with _ | _
        · cases this
        · exact blank_nilLike _

theorem timely_guard {x : String} {t : Nat} {k k' : Clk} {v : Value} {op : ClockOp}
    {b : Nillable Bool} (hx : PresentOn W.X k' t (.leaf (W.X x t))) (hK : k' ≠ .adaptative)
    (hc : Compatible k k') (hv : Timely W.X k 0 t v) (hb : b.map Scalar.bool = W.X x t) :
    Timely W.X (guardClk op x) 0 t
      (match op with | .when => Candle.when b v | .whenot => Candle.whenot b v) := by
  rw [timely_zero] at hv ⊢
  have := guard_present (n := 0) (X := W.X) (K := fun y => if y = x then some k' else none)
    (x := x) (op := op) (b := b) (v := v) (k := k) (k' := k') (t := t)
    (Nat.zero_le _)
    (fun k hk => by simp at hk; subst hk; exact hx) (by simp) (by simpa using hK) hc
    (presentAt_zero.2 hv) hb
  exact presentAt_zero.1 this

theorem timely_merge {x : String} {t : Nat} {k k1 k2 : Clk} {y n : Value} {b : Nillable Bool}
    (hx : PresentOn W.X k t (.leaf (W.X x t)))
    (hc1 : Compatible k1 (.on x)) (hc2 : Compatible k2 (.off x))
    (h1 : Timely W.X k1 0 t y) (h2 : Timely W.X k2 0 t n) (hb : b.map Scalar.bool = W.X x t) :
    Timely W.X k 0 t (Candle.merge b y n) := by
  rw [timely_zero] at *
  constructor
  · intro ha
    have := full_leaf.1 (hx.1 ha)
    rw [← hb] at this
    rcases b with ⟨⟨⟩⟩ | _
    · refine h2.1 ?_
      rcases hc2 with rfl | h | rfl
      · trivial
      · cases h
      · exact hb.symm
    · refine h1.1 ?_
      rcases hc1 with rfl | h | rfl
      · trivial
      · cases h
      · exact hb.symm
    · exact absurd rfl this
  · intro ha
    have := blank_leaf.1 (hx.2 ha)
    rw [← hb] at this
    rcases b with _ | _
    · cases this
    · exact blank_nilLike _

variable (θ) in
/-- A value of its type, at the right instants. -/
def At (X : String → Nat → Nillable Scalar) (τ : TyTuple) (k : Clk) (r t : Nat) (v : Value) : Prop :=
  ValTy (substTy θ τ) v ∧ Timely X k r t v

mutual
theorem uni_at (ha : Around S W D) : (e : Src) → ∀ {τ : TyTuple} {k : Clk} {r t : Nat} {v : Value},
    HasTy S e τ → HasClk S e k → Steady S e r → noOneTuple e = true →
    Known S W θ (names e) (instant e) t → uni W D e t = some v → At θ W.X τ k r t v
  | .lit l, τ, k, r, t, v, hτ, hk, hr, hn, hx, h => by
    rw [HasTy] at hτ; rw [HasClk] at hk; rw [Steady] at hr; rw [uni] at h
    obtain ⟨b, hb, rfl⟩ := hτ
    subst hk hr
    obtain ⟨h1, h2⟩ := lit_value θ hb h
    exact ⟨h1, timely_always trivial h2⟩
  | .var x, τ, k, r, t, v, hτ, hk, hr, hn, hx, h => by
    rw [HasTy] at hτ; rw [HasClk] at hk; rw [Steady] at hr; rw [uni] at h
    subst hr
    cases hv : S.var x with
    | some w =>
      rw [hv] at hτ hk
      simp only at hτ hk
      subst hτ hk
      rw [if_pos (ha.local hv)] at h
      cases h
      obtain ⟨h1, h2⟩ := hx.2 x (by simp [instant]) w hv
      exact ⟨h1, timely_zero.2 h2⟩
    | none =>
      rw [hv] at hτ hk
      simp only at hτ hk
      obtain ⟨b, hb, rfl⟩ := hτ
      subst hk
      rw [if_neg (by rw [ha.locals, hv]; simp), Option.map_eq_some_iff] at h
      obtain ⟨c, hc, rfl⟩ := h
      obtain ⟨h1, c', h2, h3⟩ := ha.consts x b hb
      rw [hc] at h2
      cases h2
      refine ⟨?_, timely_always trivial (full_leaf.2 (by simp))⟩
      have : substBase θ b = b := by
        cases b with
        | other g => exact absurd rfl (h1 g)
        | _ => rfl
      simp only [substTy, this]
      exact leafTy_defined.2 h3
  | .paren es b, τ, k, r, t, v, hτ, hk, hr, hn, hx, h => by
    rw [HasTy] at hτ; rw [HasClk] at hk; rw [Steady] at hr; rw [uni] at h
    rw [names, instant] at hx
    rw [noOneTuple, Bool.and_eq_true] at hn
    obtain ⟨ts, hτ, rfl⟩ := hτ
    obtain ⟨vs, h1, h⟩ := some_bind.1 h
    cases h
    have hs : SameClks S k es := by
      cases es with
      | nil => trivial
      | cons e es => exact tuple_same hk
    obtain ⟨i1, i2⟩ := uniList_at ha es hτ hs hr.1 hn.2 hx h1
    refine ⟨?_, timely_tuple (fun he => ?_) i2⟩
    · rcases es with _ | ⟨e, _ | ⟨e', es⟩⟩
      · rw [HasTys] at hτ
        subst hτ
        exact valTy_tuple i1
      · rw [HasTys] at hτ
        obtain ⟨τ, us, rfl, -, hτ⟩ := hτ
        rw [HasTys] at hτ
        subst hτ
        cases b with
        | true => simp at hn
        | false =>
          have := valTy_tuple i1
          simpa [substTys, ValTy, group] using this
      · rw [HasTys] at hτ
        obtain ⟨τ, us, rfl, -, hτ⟩ := hτ
        rw [HasTys] at hτ
        obtain ⟨τ', us, rfl, -, hτ⟩ := hτ
        exact valTy_tuple i1
    · subst he
      cases es with
      | nil => rw [TupleClk] at hk; subst hk; exact ⟨hr.2 rfl, trivial⟩
      | cons e es =>
        rw [uniList] at h1
        obtain ⟨_, -, h1⟩ := some_bind.1 h1
        obtain ⟨_, -, h1⟩ := some_bind.1 h1
        cases h1
  | .left e rest, τ, k, r, t, v, hτ, hk, hr, hn, hx, h => by
    rw [HasTy] at hτ; rw [HasClk] at hk; rw [Steady] at hr; rw [uni] at h
    rw [names, instant] at hx
    rw [noOneTuple, Bool.and_eq_true] at hn
    obtain ⟨u, hτ, hτ'⟩ := hτ
    obtain ⟨k₀, hk, hk'⟩ := hk
    obtain ⟨s, hr, hm, hr'⟩ := hr
    obtain ⟨w, h1, h⟩ := some_bind.1 h
    exact uniLeft_at ha rest hτ' hk' hr' (hm.imp_right fun hm => mixes_clk hm hk) hn.2
      (hx.mono sub_r sub_r) (uni_at ha e hτ hk hr hn.1 (hx.mono sub_l sub_l) h1) h
  | .cmp e rest, τ, k, r, t, v, hτ, hk, hr, hn, hx, h => by
    rw [HasTy] at hτ; rw [HasClk] at hk; rw [Steady] at hr; rw [uni] at h
    rw [names, instant] at hx
    rw [noOneTuple, Bool.and_eq_true] at hn
    obtain ⟨u, hτ, hτ'⟩ := hτ
    obtain ⟨k₀, hk, hk'⟩ := hk
    obtain ⟨s, hr, hr'⟩ := hr
    obtain ⟨w, h1, h⟩ := some_bind.1 h
    exact uniCmp_at ha rest hτ hk hτ' hk' hr' hn.2 (hx.mono sub_r sub_r)
      (uni_at ha e hτ hk hr hn.1 (hx.mono sub_l sub_l) h1) h
  | .fby e rest, τ, k, r, t, v, hτ, hk, hr, hn, hx, h => by
    rw [HasTy] at hτ; rw [HasClk] at hk; rw [Steady] at hr; rw [uni] at h
    rw [names, instant] at hx
    rw [noOneTuple, Bool.and_eq_true] at hn
    obtain ⟨k₀, hk, hk'⟩ := hk
    obtain ⟨s, hr, hr'⟩ := hr
    cases rest with
    | nil =>
      rw [ChainClk] at hk'
      subst hk'
      rcases hr' with ⟨-, rfl⟩ | ⟨r', hr', -⟩
      · exact uni_at ha e hτ.1 hk hr hn.1 (hx.mono sub_l (List.Subset.refl _)) h
      · rw [FbySteady] at hr'; exact hr'.elim
    | cons e' es =>
      rcases hr' with ⟨he, -⟩ | ⟨r', hr', rfl⟩
      · cases he
      rw [if_neg (by simp), uniOn_clk ha t e hτ.1 hk] at h
      have hks : SameClk k₀ k := by
        rw [ChainClk] at hk'
        obtain ⟨k₁, k₂, -, -, hk'⟩ := hk'
        rw [if_pos ha.universal] at hk'
        obtain ⟨hk', rfl⟩ := hk'
        exact hk'.elim (fun e => .inl e.symm) fun e => .inr ⟨e.2, e.1⟩
      rw [clkOn_same hks] at h
      exact timely_before (P := ValTy (substTy θ τ))
        (fun w hw => by
          obtain ⟨i1, i2⟩ := uni_at ha e hτ.1 hk hr hn.1 (hx.mono sub_l (List.Subset.refl _)) hw
          exact ⟨i1, i2.same hks⟩)
        (fun u hu w hw => uniFby_at ha (e' :: es) hτ.2 hk' hr' hn.2
          (hx.past hu sub_r (Rep.instants_names _)) hw)
        (fun v hv => valTy_nilLike _ hv) h
  | .arrow e rest, τ, k, r, t, v, hτ, hk, hr, hn, hx, h => by
    rw [HasTy] at hτ; rw [HasClk] at hk; rw [Steady] at hr; rw [uni] at h
    rw [names, instant] at hx
    rw [noOneTuple, Bool.and_eq_true] at hn
    obtain ⟨k₀, hk, hk'⟩ := hk
    obtain ⟨hr, hr'⟩ := hr
    cases rest with
    | nil =>
      rw [ChainClk] at hk'
      subst hk'
      exact uni_at ha e hτ.1 hk hr hn.1 (hx.mono sub_l sub_l) h
    | cons e' es =>
      rcases hr' with he | ⟨r', hr', hle⟩
      · cases he
      rw [if_neg (by simp)] at h
      have hks : SameClk k₀ k := by
        rw [ChainClk] at hk'
        obtain ⟨k₁, k₂, -, -, hk'⟩ := hk'
        rw [if_pos ha.universal] at hk'
        obtain ⟨hk', rfl⟩ := hk'
        exact hk'.elim (fun e => .inl e.symm) fun e => .inr ⟨e.2, e.1⟩
      exact timely_then (P := ValTy (substTy θ τ))
        (fun u hu w hw => by
          obtain ⟨i1, i2⟩ := uni_at ha e hτ.1 hk hr hn.1
            (hx.upto hu sub_l sub_l (Rep.instant_names _)) hw
          exact ⟨i1, i2.same hks⟩)
        (fun w hw => uniArrow_at ha (e' :: es) hτ.2 hk' hr' hn.2 (hx.mono sub_r sub_r) hw)
        hle (fun v hv => valTy_nilLike _ hv) h
  | .ifx c y n, τ, k, r, t, v, hτ, hk, hr, hn, hx, h => by
    rw [HasTy] at hτ; rw [HasClk] at hk; rw [Steady] at hr; rw [uni] at h
    rw [names, instant] at hx
    rw [noOneTuple, Bool.and_eq_true, Bool.and_eq_true] at hn
    obtain ⟨k1, k2, k3, hk1, hk2, hk3, hc1, hc2, rfl⟩ := hk
    obtain ⟨rc, ry, rn, r1, r2, r3, m1, m2, m3, e1, e2, hs⟩ := hr
    obtain ⟨wc, h1, h⟩ := some_bind.1 h
    obtain ⟨b, h2, h⟩ := some_bind.1 h
    obtain ⟨wy, h3, h⟩ := some_bind.1 h
    obtain ⟨wn, h4, h⟩ := some_bind.1 h
    cases h
    obtain ⟨-, i1⟩ := uni_at ha c hτ.1 hk1 r1 hn.1.1 (hx.mono sub_l sub_l) h1
    obtain ⟨j2, i2⟩ := uni_at ha y hτ.2.1 hk2 r2 hn.1.2
      (hx.mono (List.Subset.trans sub_l sub_r) (List.Subset.trans sub_l sub_r)) h3
    obtain ⟨j3, i3⟩ := uni_at ha n hτ.2.2 hk3 r3 hn.2
      (hx.mono (List.Subset.trans sub_r sub_r) (List.Subset.trans sub_r sub_r)) h4
    rw [condition_eq h2] at i1
    exact ⟨valTy_ifx j2 j3, timely_ifx hc1 hc2 (mixes_clk m1 hk1) (mixes_clk m2 hk2)
      (mixes_clk m3 hk3) e1 e2 (fun e => hs (e ▸ hk1) k2 k3 hk2 hk3) i1 i2 i3⟩
  | .merge c y n, τ, k, r, t, v, hτ, hk, hr, hn, hx, h => by
    rw [HasTy] at hτ; rw [HasClk] at hk; rw [Steady] at hr; rw [uni] at h
    rw [names, instant] at hx
    rw [noOneTuple, Bool.and_eq_true, Bool.and_eq_true] at hn
    obtain ⟨w, k1, k2, hv, hk1, hk2, hc1, hc2, rfl⟩ := hk
    obtain ⟨r1, r2, r3, rfl⟩ := hr
    obtain ⟨wc, h1, h⟩ := some_bind.1 h
    obtain ⟨b, h2, h⟩ := some_bind.1 h
    obtain ⟨wy, h3, h⟩ := some_bind.1 h
    obtain ⟨wn, h4, h⟩ := some_bind.1 h
    cases h
    obtain ⟨j2, i2⟩ := uni_at ha y hτ.2.1 hk1 r2 hn.1.2
      (hx.mono (List.Subset.trans sub_l sub_r) (List.Subset.trans sub_l sub_r)) h3
    obtain ⟨j3, i3⟩ := uni_at ha n hτ.2.2 hk2 r3 hn.2
      (hx.mono (List.Subset.trans sub_r sub_r) (List.Subset.trans sub_r sub_r)) h4
    obtain ⟨e1, e2, e3⟩ := isVar_uni ha t c hv
    rw [e1] at h1
    cases h1
    have hb := Tup.leaf.inj (condition_eq h2)
    exact ⟨valTy_merge j2 j3, timely_merge (hx.2 _ (sub_l e2) w e3).2 hc1 hc2 i2 i3 hb.symm⟩
  | .call f args b, τ, k, r, t, v, hτ, hk, hr, hn, hx, h => by
    rw [HasTy] at hτ; rw [HasClk] at hk; rw [Steady] at hr; rw [uni] at h
    rw [names, instant] at hx
    rw [noOneTuple, Bool.and_eq_true] at hn
    obtain ⟨ts, gens, ins, outs, θ', hτ, hf, hg, rfl⟩ := hτ
    obtain ⟨m, hm, hgood⟩ := ha.nodes f _ hf
    rw [hm] at h
    simp only at h
    have hs : SameClks S k args := by
      cases args with
      | nil => trivial
      | cons e es => exact tuple_same hk
    have key : ∀ u, u ≤ t → ∀ i, (do return tupleValue (← uniList W D args u)) = some i →
        ValTy (substTy θ (group ts b)) i ∧ Timely W.X k r u i := by
      intro u hu i hi
      obtain ⟨vs, h1, hi⟩ := some_bind.1 hi
      cases hi
      obtain ⟨i1, i2⟩ := uniList_at ha args hτ hs hr.1 hn.2
        (hx.upto hu (List.Subset.refl _) (List.Subset.refl _) (Rep.instants_names _)) h1
      refine ⟨?_, timely_tuple (fun he => ?_) i2⟩
      · rcases args with _ | ⟨e, _ | ⟨e', es⟩⟩
        · rw [HasTys] at hτ
          subst hτ
          exact valTy_tuple i1
        · rw [HasTys] at hτ
          obtain ⟨τ, us, rfl, -, hτ⟩ := hτ
          rw [HasTys] at hτ
          subst hτ
          cases b with
          | true => simp at hn
          | false =>
            have := valTy_tuple i1
            simpa [substTys, ValTy, group] using this
        · rw [HasTys] at hτ
          obtain ⟨τ, us, rfl, -, hτ⟩ := hτ
          rw [HasTys] at hτ
          obtain ⟨τ', us, rfl, -, hτ⟩ := hτ
          exact valTy_tuple i1
      · subst he
        cases args with
        | nil => rw [TupleClk] at hk; subst hk; exact ⟨hr.2 rfl, trivial⟩
        | cons e es =>
          rw [uniList] at h1
          obtain ⟨_, -, h1⟩ := some_bind.1 h1
          obtain ⟨_, -, h1⟩ := some_bind.1 h1
          cases h1
    rw [hg, substTy_comp] at key
    obtain ⟨i, hi⟩ := callAt_args h
    obtain ⟨c1, c2⟩ := call_value (hgood.1 _) (hgood.2 _) (fun u hu i hi => by
      obtain ⟨k1, k2⟩ := key u hu i hi
      refine ⟨k1, ?_⟩
      by_cases hp : Ripe W.X k r u
      · exact .inl (k2.1 hp)
      · exact .inr (k2.2 hp)) h
    obtain ⟨c3, c4⟩ := c2 i hi
    refine ⟨by rw [substTy_comp]; exact c1, timely_unary (key t (Nat.le_refl _) i hi).2 c3 c4⟩
  | .pre e, τ, k, r, t, v, hτ, hk, hr, hn, hx, h => by
    rw [HasTy] at hτ; rw [HasClk] at hk; rw [Steady] at hr; rw [uni] at h
    rw [names, instant] at hx
    rw [noOneTuple] at hn
    obtain ⟨s, hr, rfl⟩ := hr
    rw [uniOn_clk ha t e hτ hk.1] at h
    exact timely_pre (P := ValTy (substTy θ τ))
      (fun u hu w hw => uni_at ha e hτ hk.1 hr hn
        (hx.past hu (List.Subset.refl _) (Rep.instant_names _)) hw)
      (fun v hv => valTy_nilLike _ hv) (shape_ty ha θ e hτ hn) (blank_allNil _) h
  | .neg e, τ, k, r, t, v, hτ, hk, hr, hn, hx, h => by
    rw [HasTy] at hτ; rw [HasClk] at hk; rw [Steady] at hr; rw [uni] at h
    rw [names, instant] at hx
    rw [noOneTuple] at hn
    obtain ⟨w, h1, h⟩ := some_bind.1 h
    obtain ⟨i1, i2⟩ := uni_at ha e hτ.1 hk hr hn hx h1
    rcases hτ.2 with rfl | rfl <;>
    · obtain ⟨u1, u2, u3⟩ := un_value (by simp [unTypes, substBase]) i1 h
      exact ⟨u1, timely_unary i2 u2 u3⟩
  | .not e, τ, k, r, t, v, hτ, hk, hr, hn, hx, h => by
    rw [HasTy] at hτ; rw [HasClk] at hk; rw [Steady] at hr; rw [uni] at h
    rw [names, instant] at hx
    rw [noOneTuple] at hn
    obtain ⟨w, h1, h⟩ := some_bind.1 h
    obtain ⟨i1, i2⟩ := uni_at ha e hτ.1 hk hr hn hx h1
    rcases hτ.2 with rfl | rfl <;>
    · obtain ⟨u1, u2, u3⟩ := un_value (by simp [unTypes, substBase]) i1 h
      exact ⟨u1, timely_unary i2 u2 u3⟩
theorem uniList_at (ha : Around S W D) : (es : List Src) → ∀ {ts : List TyTuple} {k : Clk}
    {r t : Nat} {vs : List Value}, HasTys S es ts → SameClks S k es → AllSteady S es r →
    noOneTuples es = true → Known S W θ (namesList es) (instants es) t →
    uniList W D es t = some vs →
    ValTys (substTys θ ts) vs ∧ ∀ v ∈ vs, Timely W.X k r t v
  | [], ts, k, r, t, vs, hτ, hk, hr, hn, hx, h => by
    rw [HasTys] at hτ; rw [uniList] at h
    cases h
    subst hτ
    simp [substTys, ValTys]
  | e :: es, ts, k, r, t, vs, hτ, hk, hr, hn, hx, h => by
    rw [HasTys] at hτ; rw [SameClks] at hk; rw [AllSteady] at hr; rw [uniList] at h
    rw [namesList, instants] at hx
    rw [noOneTuples, Bool.and_eq_true] at hn
    obtain ⟨τ, us, rfl, hτ, hτ'⟩ := hτ
    obtain ⟨⟨k', hk, hk'⟩, hks⟩ := hk
    obtain ⟨v, h1, h⟩ := some_bind.1 h
    obtain ⟨vs', h2, h⟩ := some_bind.1 h
    cases h
    obtain ⟨i1, i2⟩ := uni_at ha e hτ hk hr.1 hn.1 (hx.mono sub_l sub_l) h1
    obtain ⟨j1, j2⟩ := uniList_at ha es hτ' hks hr.2 hn.2 (hx.mono sub_r sub_r) h2
    refine ⟨by rw [substTys, ValTys]; exact ⟨i1, j1⟩, fun w hw => ?_⟩
    rcases List.mem_cons.1 hw with rfl | hw
    · exact i2.same (hk'.elim (fun e => .inl e.symm) fun e => .inr ⟨e.2, e.1⟩)
    · exact j2 w hw
theorem uniLeft_at (ha : Around S W D) : (rest : List (LOp × Src)) → ∀ {u τ : TyTuple} {k₀ k : Clk}
    {s r t : Nat} {acc v : Value}, LeftTy S u rest τ → LeftClk S k₀ rest k → LeftSteady S s rest r →
    (rest = [] ∨ s = 0 ∨ k₀ ≠ .adaptative) → noOneTupleLeft rest = true →
    Known S W θ (namesLeft rest) (instantLeft rest) t → At θ W.X u k₀ s t acc →
    uniLeft W D acc rest t = some v → At θ W.X τ k r t v
  | [], u, τ, k₀, k, s, r, t, acc, v, hτ, hk, hr, hm, hn, hx, hacc, h => by
    rw [LeftTy] at hτ; rw [LeftClk] at hk; rw [LeftSteady] at hr; rw [uniLeft] at h
    cases h
    subst hτ hk hr
    exact hacc
  | (op, e) :: rest, u, τ, k₀, k, s, r, t, acc, v, hτ, hk, hr, hm, hn, hx, hacc, h => by
    rw [LeftTy] at hτ; rw [LeftClk] at hk; rw [LeftSteady] at hr; rw [uniLeft] at h
    rw [namesLeft, instantLeft] at hx
    rw [noOneTupleLeft, Bool.and_eq_true] at hn
    obtain ⟨w, r', hτ, ho, hτ'⟩ := hτ
    obtain ⟨x, h1, h⟩ := some_bind.1 h
    obtain ⟨z, h2, h'⟩ := some_bind.1 h
    clear h
    have hx1 := hx.mono sub_l sub_l
    have hx2 := hx.mono sub_r sub_r
    cases hg : Static.guard op with
    | none =>
      rw [hg] at hk hr
      obtain ⟨k₁, hk, hc, hk'⟩ := hk
      obtain ⟨s', hr, hm', hr'⟩ := hr
      have hm := hm.resolve_left (by simp)
      have hm' := mixes_clk hm' hk
      obtain ⟨i1, i2⟩ := uni_at ha e hτ hk hr hn.1 hx1 h1
      obtain ⟨o1, o2, o3⟩ := op_value θ hg ho hacc.1 i1 h2
      exact uniLeft_at ha rest hτ' hk' hr' (.inr (mixes_meet hm hm')) hn.2 hx2
        ⟨o1, timely_binary hc hm hm' hacc.2 i2 o2 o3⟩ h'
    | some g =>
      rw [hg] at hk hr
      obtain ⟨y, hv, hc, hk'⟩ := hk
      obtain ⟨rfl, hr'⟩ := hr
      obtain ⟨e1, e2, e3⟩ := isVar_uni ha t e hv
      rw [e1] at h1
      cases h1
      have hp := (hx1.2 _ e2 y e3).2
      have hr : r' = u := by
        cases op <;> first | exact ho.2 | cases hg
      subst hr
      refine uniLeft_at ha rest hτ' hk' hr' (.inr (.inl rfl)) hn.2 hx2 ?_ h'
      cases op with
      | when =>
        cases hg
        obtain ⟨b, h3, h2⟩ := some_bind.1 h2
        cases h2
        exact ⟨valTy_when hacc.1, timely_guard (op := .when) hp (ha.written _ _ e3) hc hacc.2
          (Tup.leaf.inj (condition_eq h3)).symm⟩
      | whenot =>
        cases hg
        obtain ⟨b, h3, h2⟩ := some_bind.1 h2
        cases h2
        exact ⟨valTy_whenot hacc.1, timely_guard (op := .whenot) hp (ha.written _ _ e3) hc hacc.2
          (Tup.leaf.inj (condition_eq h3)).symm⟩
      | _ => cases hg
theorem uniCmp_at (ha : Around S W D) : (rest : List (CmpOp × Src)) → ∀ {a : Src} {u τ : TyTuple}
    {k₀ k : Clk} {s r t : Nat} {acc v : Value}, HasTy S a u → HasClk S a k₀ → CmpTy S u rest τ →
    CmpClk S k₀ rest k → CmpSteady S a s rest r → noOneTupleCmp rest = true →
    Known S W θ (namesCmp rest) (instantCmp rest) t → At θ W.X u k₀ s t acc →
    uniCmp W D acc rest t = some v → At θ W.X τ k r t v
  | [], a, u, τ, k₀, k, s, r, t, acc, v, hau, hak, hτ, hk, hr, hn, hx, hacc, h => by
    rw [CmpTy] at hτ; rw [CmpClk] at hk; rw [CmpSteady] at hr; rw [uniCmp] at h
    cases h
    subst hτ hk hr
    exact hacc
  | (op, e) :: rest, a, u, τ, k₀, k, s, r, t, acc, v, hau, hak, hτ, hk, hr, hn, hx, hacc, h => by
    rw [CmpTy] at hτ; rw [CmpClk] at hk; rw [CmpSteady] at hr
    rw [namesCmp, instantCmp] at hx
    rw [noOneTupleCmp, Bool.and_eq_true] at hn
    obtain ⟨rfl, b, hb, rfl, hτ, rfl⟩ := hτ
    obtain ⟨k₁, hk, hc, rfl⟩ := hk
    obtain ⟨s', hr, m1, m2, rfl, hfl⟩ := hr
    rw [uniCmp] at h
    obtain ⟨x, h1, h⟩ := some_bind.1 h
    obtain ⟨i1, i2⟩ := uni_at ha e hτ hk hr hn.1 (hx.mono sub_l sub_l) h1
    obtain ⟨j1, j2⟩ := hacc
    simp only [substTy, cmpTypes_subst hb] at i1 j1
    obtain ⟨o1, o2, o3⟩ := cmp_value hb j1 i1
      (fun hf => by subst hf; exact hfl S rfl ⟨hau, hτ⟩) h
    exact ⟨o1, timely_binary hc (mixes_clk m1 hak) (mixes_clk m2 hk) j2 i2 o2 o3⟩
theorem uniFby_at (ha : Around S W D) : (es : List Src) → ∀ {τ : TyTuple} {k₀ k : Clk} {r t : Nat}
    {v : Value}, AllTy S es τ → ChainClk S k₀ es k → FbySteady S es r →
    noOneTuples es = true → Known S W θ (namesList es) (instants es) t →
    uniFby W D es t = some v → At θ W.X τ k r t v
  | [], τ, k₀, k, r, t, v, hτ, hk, hr, hn, hx, h => by
    rw [FbySteady] at hr; exact hr.elim
  | e :: es, τ, k₀, k, r, t, v, hτ, hk, hr, hn, hx, h => by
    rw [AllTy] at hτ; rw [ChainClk] at hk; rw [FbySteady] at hr; rw [uniFby] at h
    rw [namesList, instants] at hx
    rw [noOneTuples, Bool.and_eq_true] at hn
    obtain ⟨k₁, k₂, hk, hk', hk''⟩ := hk
    rw [if_pos ha.universal] at hk''
    obtain ⟨-, rfl⟩ := hk''
    obtain ⟨s, hr, hr'⟩ := hr
    cases es with
    | nil =>
      rw [ChainClk] at hk'
      subst hk'
      rcases hr' with ⟨-, rfl⟩ | ⟨r', hr', -⟩
      · exact uni_at ha e hτ.1 hk hr hn.1 (hx.mono sub_l sub_l) h
      · rw [FbySteady] at hr'; exact hr'.elim
    | cons e' es =>
      rcases hr' with ⟨he, -⟩ | ⟨r', hr', rfl⟩
      · cases he
      rw [if_neg (by simp), uniOn_clk ha t e hτ.1 hk] at h
      have hks : SameClk k₁ k := by
        have hk'' := hk'
        rw [ChainClk] at hk''
        obtain ⟨k₁, k₂, -, -, hk''⟩ := hk''
        rw [if_pos ha.universal] at hk''
        obtain ⟨hk'', rfl⟩ := hk''
        exact hk''.elim (fun e => .inl e.symm) fun e => .inr ⟨e.2, e.1⟩
      rw [clkOn_same hks] at h
      exact timely_before (P := ValTy (substTy θ τ))
        (fun w hw => by
          obtain ⟨i1, i2⟩ := uni_at ha e hτ.1 hk hr hn.1 (hx.mono sub_l sub_l) hw
          exact ⟨i1, i2.same hks⟩)
        (fun u hu w hw => uniFby_at ha (e' :: es) hτ.2 hk' hr' hn.2
          (hx.past hu sub_r (Rep.instants_names _)) hw)
        (fun v hv => valTy_nilLike _ hv) h
theorem uniArrow_at (ha : Around S W D) : (es : List Src) → ∀ {τ : TyTuple} {k₀ k : Clk} {r t : Nat}
    {v : Value}, AllTy S es τ → ChainClk S k₀ es k → ArrowSteady S es r →
    noOneTuples es = true → Known S W θ (namesList es) (instants es) t →
    uniArrow W D es t = some v → At θ W.X τ k r t v
  | [], τ, k₀, k, r, t, v, hτ, hk, hr, hn, hx, h => by
    rw [ArrowSteady] at hr; exact hr.elim
  | e :: es, τ, k₀, k, r, t, v, hτ, hk, hr, hn, hx, h => by
    rw [AllTy] at hτ; rw [ChainClk] at hk; rw [ArrowSteady] at hr; rw [uniArrow] at h
    rw [namesList, instants] at hx
    rw [noOneTuples, Bool.and_eq_true] at hn
    obtain ⟨k₁, k₂, hk, hk', hk''⟩ := hk
    rw [if_pos ha.universal] at hk''
    obtain ⟨-, rfl⟩ := hk''
    obtain ⟨hr, hr'⟩ := hr
    cases es with
    | nil =>
      rw [ChainClk] at hk'
      subst hk'
      exact uni_at ha e hτ.1 hk hr hn.1 (hx.mono sub_l sub_l) h
    | cons e' es =>
      rcases hr' with he | ⟨r', hr', hle⟩
      · cases he
      rw [if_neg (by simp)] at h
      have hks : SameClk k₁ k := by
        have hk'' := hk'
        rw [ChainClk] at hk''
        obtain ⟨k₁, k₂, -, -, hk''⟩ := hk''
        rw [if_pos ha.universal] at hk''
        obtain ⟨hk'', rfl⟩ := hk''
        exact hk''.elim (fun e => .inl e.symm) fun e => .inr ⟨e.2, e.1⟩
      exact timely_then (P := ValTy (substTy θ τ))
        (fun u hu w hw => by
          obtain ⟨i1, i2⟩ := uni_at ha e hτ.1 hk hr hn.1
            (hx.upto hu sub_l sub_l (Rep.instant_names _)) hw
          exact ⟨i1, i2.same hks⟩)
        (fun w hw => uniArrow_at ha (e' :: es) hτ.2 hk' hr' hn.2 (hx.mono sub_r sub_r) hw)
        hle (fun v hv => valTy_nilLike _ hv) h
end

end
end Chandeliers.Std
