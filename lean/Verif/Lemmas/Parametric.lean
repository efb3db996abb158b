import Verif.Spec.Parametric
import Verif.Lemmas.Replace
import Verif.Lemmas.NodeSafety
import Mathlib.Data.Option.Basic

/-!
# Executions of a node on related inputs
-/

set_option autoImplicit false

namespace Chandeliers.Par
open Chandeliers.San Chandeliers.Spec Chandeliers.Rep

/-- Both return related results or panic in the same way. -/
abbrev RelR {α β : Type} (Q : α → β → Prop) : R α → R β → Prop := Upto Rep.None Eq Q

theorem rel_refl {α : Type} (x : R α) : RelR (· = ·) x x := both_refl (fun _ => rfl) x

theorem rel_err {α β : Type} {Q : α → β → Prop} (p : Panic) : RelR Q (.error p) (.error p) := .inr rfl

variable {η : Interp}

/-! ## Values -/

theorem leafRel_nil {t : TyBase} : LeafRel η t .nil .nil := trivial

theorem leafRel_base {t : TyBase} (ht : ∀ g, t ≠ .other g) {v w : Nillable Scalar} :
    LeafRel η t v w ↔ v = w ∧ LeafTy t v := by
  cases t with
  | other g => exact absurd rfl (ht g)
  | _ =>
    cases v <;> cases w <;> simp [LeafRel, ScalarRel, LeafTy]

theorem leafRel_of_ty {t : TyBase} (ht : ∀ g, t ≠ .other g) {v : Nillable Scalar} (h : LeafTy t v) :
    LeafRel η t v v := (leafRel_base ht).2 ⟨rfl, h⟩

theorem binTypes_base {op : BinOp} {t : TyBase} (h : t ∈ binTypes op) (g : String) :
    t ≠ .other g := by
  rintro rfl; cases op <;> simp [binTypes] at h

theorem unTypes_base {op : UnOp} {t : TyBase} (h : t ∈ unTypes op) (g : String) :
    t ≠ .other g := by
  rintro rfl; cases op <;> simp [unTypes] at h

theorem cmpTypes_base {op : CmpOp} {t : TyBase} (h : t ∈ cmpTypes op) (g : String) :
    t ≠ .other g := by
  rintro rfl; cases op <;> simp [cmpTypes] at h

theorem valRel_single {t : TyBase} {v w : Value} :
    ValRel η (.single t) v w ↔ ∃ l k, v = .leaf l ∧ w = .leaf k ∧ LeafRel η t l k := by
  cases v <;> cases w <;> simp [ValRel]

theorem asLeaf_rel {t : TyBase} {v w : Value} (h : ValRel η (.single t) v w) :
    RelR (LeafRel η t) (asLeaf v) (asLeaf w) := by
  obtain ⟨l, k, rfl, rfl, h⟩ := valRel_single.1 h
  exact h

theorem asBool_rel {v w : Value} (h : ValRel η (.single .bool) v w) :
    RelR (· = ·) (asBool v) (asBool w) := by
  obtain ⟨l, k, rfl, rfl, h⟩ := valRel_single.1 h
  obtain ⟨rfl, -⟩ := (leafRel_base (by simp)).1 h
  exact rel_refl _

/-- The same computation, whose results are of a type without variables. -/
theorem rel_of_fine {α : Type} {P : α → Prop} {x : R α} (h : Fine P x) :
    RelR (fun a b => a = b ∧ P a) x x := by
  cases x with
  | ok a => exact ⟨rfl, h⟩
  | error p => exact .inr rfl

theorem binop_rel {A : Arith} {op : BinOp} {t : TyBase} {x y x' y' : Nillable Scalar}
    (ht : t ∈ binTypes op) (hx : LeafRel η t x x') (hy : LeafRel η t y y') :
    RelR (LeafRel η t) (x.binop (scalarBin A op) y) (x'.binop (scalarBin A op) y') := by
  have hb := binTypes_base ht
  obtain ⟨rfl, tx⟩ := (leafRel_base hb).1 hx
  obtain ⟨rfl, ty⟩ := (leafRel_base hb).1 hy
  exact both_mono (rel_of_fine (binop_fine ht tx ty)) fun a b h => (leafRel_base hb).2 h

theorem unop_rel {A : Arith} {op : UnOp} {t : TyBase} {x x' : Nillable Scalar}
    (ht : t ∈ unTypes op) (hx : LeafRel η t x x') :
    RelR (LeafRel η t) (x.unop (scalarUn A op)) (x'.unop (scalarUn A op)) := by
  have hb := unTypes_base ht
  obtain ⟨rfl, tx⟩ := (leafRel_base hb).1 hx
  exact both_mono (rel_of_fine (unop_fine ht tx)) fun a b h => (leafRel_base hb).2 h

theorem cmp_rel {A : Arith} {op : CmpOp} {t : TyBase} {x y x' y' : Nillable Scalar}
    (ht : t ∈ cmpTypes op) (hx : LeafRel η t x x') (hy : LeafRel η t y y') :
    RelR (LeafRel η .bool) (scalarCmp A op x y) (scalarCmp A op x' y') := by
  have hb := cmpTypes_base ht
  obtain ⟨rfl, tx⟩ := (leafRel_base hb).1 hx
  obtain ⟨rfl, ty⟩ := (leafRel_base hb).1 hy
  exact both_mono (rel_of_fine (cmp_fine ht tx ty)) fun a b h => (leafRel_base (by simp)).2 h

mutual
theorem valRel_nilLike : (t : TyTuple) → {v w : Value} → ValRel η t v w →
    ValRel η t v.nilLike w.nilLike
  | .single t, .leaf v, .leaf w, h => by simp only [Tup.nilLike, Tup.map, ValRel, LeafRel]
  | .single _, .tup _ _, _, h => by simp [ValRel] at h
  | .single _, .leaf _, .tup _ _, h => by simp [ValRel] at h
  | .multiple [], .leaf v, .leaf w, h => by simp [Tup.nilLike, Tup.map, ValRel]
  | .multiple [], .tup _ _, _, h => by simp [ValRel] at h
  | .multiple [], .leaf _, .tup _ _, h => by simp [ValRel] at h
  | .multiple [t], v, w, h => by
    simp only [ValRel] at h ⊢
    exact valRel_nilLike t h
  | .multiple (t :: u :: ts), .tup a l, .tup b k, h => by
    simp only [ValRel] at h
    simp only [Tup.nilLike, Tup.map, ValRel]
    exact ⟨valRel_nilLike t h.1, valRels_nilLike (u :: ts) h.2⟩
  | .multiple (_ :: _ :: _), .leaf _, _, h => by simp [ValRel] at h
  | .multiple (_ :: _ :: _), .tup _ _, .leaf _, h => by simp [ValRel] at h
theorem valRels_nilLike : (ts : List TyTuple) → {vs ws : List Value} → ValRels η ts vs ws →
    ValRels η ts (Tup.mapList (fun _ => .nil) vs) (Tup.mapList (fun _ => .nil) ws)
  | [], [], [], _ => by simp [Tup.mapList, ValRels]
  | t :: ts, v :: vs, w :: ws, h => by
    simp only [ValRels] at h
    simp only [Tup.mapList, ValRels]
    exact ⟨valRel_nilLike t h.1, valRels_nilLike ts h.2⟩
  | [], _ :: _, _, h => by simp [ValRels] at h
  | [], [], _ :: _, h => by simp [ValRels] at h
  | _ :: _, [], _, h => by simp [ValRels] at h
  | _ :: _, _ :: _, [], h => by simp [ValRels] at h
end

theorem valRel_first : (t : TyTuple) → {v w : Value} → ValRel η t v w → v.firstIsNil = w.firstIsNil
  | .single t, .leaf v, .leaf w, h => by
    simp only [ValRel] at h
    cases v <;> cases w <;> first | rfl | exact h.elim
  | .single _, .tup _ _, _, h => by simp [ValRel] at h
  | .single _, .leaf _, .tup _ _, h => by simp [ValRel] at h
  | .multiple [], .leaf v, .leaf w, h => by
    simp only [ValRel] at h
    rw [h.1]
  | .multiple [], .tup _ _, _, h => by simp [ValRel] at h
  | .multiple [], .leaf _, .tup _ _, h => by simp [ValRel] at h
  | .multiple [t], v, w, h => by
    simp only [ValRel] at h
    exact valRel_first t h
  | .multiple (t :: u :: ts), .tup a l, .tup b k, h => by
    simp only [ValRel] at h
    have := valRel_first t h.1
    simpa only [Tup.firstIsNil, Tup.first] using this
  | .multiple (_ :: _ :: _), .leaf _, _, h => by simp [ValRel] at h
  | .multiple (_ :: _ :: _), .tup _ _, .leaf _, h => by simp [ValRel] at h

theorem valRel_tuple {ts : List TyTuple} {vs ws : List Value} (h : ValRels η ts vs ws) :
    ValRel η (.multiple ts) (tupleValue vs) (tupleValue ws) := by
  rcases ts with _ | ⟨t, _ | ⟨u, ts⟩⟩ <;> rcases vs with _ | ⟨v, _ | ⟨v', vs⟩⟩ <;>
    rcases ws with _ | ⟨w, _ | ⟨w', ws⟩⟩ <;> simp only [ValRels, and_false] at h
  · simp [tupleValue, ValRel]
  · simpa [tupleValue, ValRel] using h.1
  · simp only [tupleValue, ValRel, ValRels]; exact h

theorem valRel_ifx {t : TyTuple} {b : Nillable Bool} {y n y' n' : Value} (hy : ValRel η t y y')
    (hn : ValRel η t n n') : ValRel η t (Candle.ifx b y n) (Candle.ifx b y' n') := by
  unfold Candle.ifx
  split
  · exact hy
  · exact hn
  · exact valRel_nilLike t hy

theorem valRel_merge {t : TyTuple} {b : Nillable Bool} {y n y' n' : Value} (hy : ValRel η t y y')
    (hn : ValRel η t n n') : ValRel η t (Candle.merge b y n) (Candle.merge b y' n') := by
  unfold Candle.merge
  split
  · exact hy
  · exact hn
  · exact valRel_nilLike t hy

theorem valRel_when {t : TyTuple} {b : Nillable Bool} {y y' : Value} (hy : ValRel η t y y') :
    ValRel η t (Candle.when b y) (Candle.when b y') := by
  unfold Candle.when
  split
  · exact hy
  · exact valRel_nilLike t hy

theorem valRel_whenot {t : TyTuple} {b : Nillable Bool} {y y' : Value} (hy : ValRel η t y y') :
    ValRel η t (Candle.whenot b y) (Candle.whenot b y') := by
  unfold Candle.whenot
  split
  · exact hy
  · exact valRel_nilLike t hy

mutual
theorem valRel_subst (θ : Subst) : (t : TyTuple) → {v w : Value} →
    (ValRel η (substTy θ t) v w ↔ ValRel (fun g => ScalarRel η (θ g)) t v w)
  | .single t, v, w => by
    simp only [substTy]
    cases v <;> cases w <;> simp only [ValRel]
    rename_i v w
    cases t with
    | other g => cases v <;> cases w <;> exact Iff.rfl
    | _ => cases v <;> cases w <;> exact Iff.rfl
  | .multiple [], v, w => by
    simp only [substTy, substTys]
    cases v <;> cases w <;> simp only [ValRel]
  | .multiple [t], v, w => by
    simp only [substTy, substTys, ValRel]
    exact valRel_subst θ t
  | .multiple (t :: u :: ts), v, w => by
    have h1 := fun {v w : Value} => valRel_subst θ t (v := v) (w := w)
    have h2 := fun {v w : List Value} => valRels_subst θ (u :: ts) (vs := v) (ws := w)
    cases v <;> cases w <;> simp only [substTy, substTys, ValRel] at h2 ⊢
    exact and_congr h1 h2
theorem valRels_subst (θ : Subst) : (ts : List TyTuple) → {vs ws : List Value} →
    (ValRels η (substTys θ ts) vs ws ↔ ValRels (fun g => ScalarRel η (θ g)) ts vs ws)
  | [], vs, ws => by
    cases vs <;> cases ws <;> simp only [substTys, ValRels]
  | t :: ts, vs, ws => by
    cases vs <;> cases ws <;> simp only [substTys, ValRels]
    exact and_congr (valRel_subst θ t) (valRels_subst θ ts)
end

mutual
theorem valRel_allNil : (t : TyTuple) → NoSingleton t →
    ValRel η t (Tup.allNil Scalar t.shape) (Tup.allNil Scalar t.shape)
  | .single t, _ => by simp [TyTuple.shape, Tup.allNil, Tup.map, ValRel, LeafRel]
  | .multiple [], _ => by simp [TyTuple.shape, Tup.allNil, Tup.map, ValRel]
  | .multiple [t], h => by simp [NoSingleton] at h
  | .multiple (t :: u :: ts), h => by
    simp only [NoSingleton, NoSingletons] at h
    have h1 := valRel_allNil t h.1
    have h2 := valRel_allNil u h.2.1
    have h3 := valRels_allNil ts h.2.2
    simp only [Tup.allNil] at h1 h2 h3
    simp only [TyTuple.shape, TyTuple.shapeList, Tup.allNil, Tup.map, Tup.mapList, ValRel, ValRels]
    exact ⟨h1, h2, h3⟩
theorem valRels_allNil : (ts : List TyTuple) → NoSingletons ts →
    ValRels η ts (Tup.mapList (fun _ => .nil) (TyTuple.shapeList ts))
      (Tup.mapList (fun _ => .nil) (TyTuple.shapeList ts))
  | [], _ => by simp [TyTuple.shapeList, Tup.mapList, ValRels]
  | t :: ts, h => by
    simp only [NoSingletons] at h
    have h1 := valRel_allNil t h.1
    simp only [Tup.allNil] at h1
    simp only [TyTuple.shapeList, Tup.mapList, ValRels]
    exact ⟨h1, valRels_allNil ts h.2⟩
end

/-! ## Machines -/

/-- From these two states, the machine answers related histories alike. -/
def RunRel (η : Interp) (m : Machine) (t u : TyTuple) (s s' : m.σ) : Prop :=
  ∀ is is', List.Forall₂ (ValRel η t) is is' →
    RelR (fun a b => List.Forall₂ (ValRel η u) a.1 b.1) (m.runFrom s is) (m.runFrom s' is')

theorem runRel_init {m : Machine} {t u : TyTuple} : RunRel η m t u m.init m.init ↔
    ∀ is is', List.Forall₂ (ValRel η t) is is' →
      Both (· = ·) (List.Forall₂ (ValRel η u)) (m.run is) (m.run is') := by
  refine forall_congr' fun is => forall_congr' fun is' => imp_congr_right fun _ => ?_
  unfold RelR
  rw [upto_none]
  unfold Machine.run
  cases m.runFrom m.init is <;> cases m.runFrom m.init is' <;> rfl

theorem runRel_step {m : Machine} {t u : TyTuple} {s s' : m.σ} (h : RunRel η m t u s s')
    {v w : Value} (hv : ValRel η t v w) :
    RelR (fun a b => ValRel η u a.1 b.1 ∧ RunRel η m t u a.2 b.2) (m.step s v) (m.step s' w) := by
  have h1 := h [v] [w] (.cons hv .nil)
  simp only [Machine.runFrom] at h1
  cases hs : m.step s v with
  | error p =>
    cases hs' : m.step s' w with
    | error q => rw [hs, hs'] at h1; exact h1
    | ok b => rw [hs, hs'] at h1; exact h1
  | ok a =>
    cases hs' : m.step s' w with
    | error q => rw [hs, hs'] at h1; exact h1.elim
    | ok b =>
      rw [hs, hs'] at h1
      have ho : ValRel η u a.1 b.1 := by
        have : List.Forall₂ (ValRel η u) [a.1] [b.1] := h1
        cases this; assumption
      refine ⟨ho, fun is is' hi => ?_⟩
      have h2 := h (v :: is) (w :: is') (.cons hv hi)
      simp only [Machine.runFrom, hs, hs', bind, Except.bind] at h2
      cases hr : m.runFrom a.2 is <;> cases hr' : m.runFrom b.2 is' <;>
        rw [hr, hr'] at h2
      · exact h2
      · exact h2
      · exact h2.elim
      · change List.Forall₂ (ValRel η u) (_ :: _) (_ :: _) at h2
        cases h2; assumption

theorem runRel_of_inv {m : Machine} {t u : TyTuple} (B : m.σ → m.σ → Prop)
    (hB : ∀ s s' v w, B s s' → ValRel η t v w →
      RelR (fun a b => ValRel η u a.1 b.1 ∧ B a.2 b.2) (m.step s v) (m.step s' w)) :
    ∀ s s', B s s' → RunRel η m t u s s' := by
  intro s s' h is is' hi
  induction hi generalizing s s' with
  | nil => exact List.Forall₂.nil
  | cons hv hi ih =>
    simp only [Machine.runFrom]
    refine both_bind (hB s s' _ _ h hv) fun a b hab => ?_
    refine both_bind (ih a.2 b.2 hab.2) fun c d hcd => ?_
    exact .cons hab.1 hcd

/-- Related states of subnodes. -/
def AllI2 : (P : Nat → (m : Machine) → m.σ → m.σ → Prop) → (ms : List Machine) → States ms →
    States ms → Prop
  | _, [], _, _ => True
  | P, m :: ms, (s, ss), (s', ss') => P 0 m s s' ∧ AllI2 (fun i => P (i + 1)) ms ss ss'

theorem allI2_init : ∀ {ms : List Machine} {P : Nat → (m : Machine) → m.σ → m.σ → Prop},
    (∀ i m, ms[i]? = some m → P i m m.init m.init) →
    AllI2 P ms (States.init ms) (States.init ms)
  | [], _, _ => trivial
  | m :: ms, P, h => ⟨h 0 m rfl, allI2_init fun i m' hm => h (i + 1) m' (by simpa using hm)⟩

theorem stepAt_rel : ∀ {ms : List Machine} {P : Nat → (m : Machine) → m.σ → m.σ → Prop}
    {ss ss' : States ms} {i : Nat} {v w : Value} {Q : Value → Value → Prop},
    AllI2 P ms ss ss' →
    (∀ m s s', ms[i]? = some m → P i m s s' →
      RelR (fun a b => Q a.1 b.1 ∧ P i m a.2 b.2) (m.step s v) (m.step s' w)) →
    RelR (fun a b => Q a.1 b.1 ∧ AllI2 P ms a.2 b.2) (States.stepAt ms ss i v)
      (States.stepAt ms ss' i w)
  | [], _, _, _, _, _, _, _, _, _ => .inr rfl
  | m :: ms, P, (s, ss), (s', ss'), 0, v, w, Q, ha, hs => by
    have := hs m s s' rfl ha.1
    simp only [States.stepAt]
    cases h : m.step s v <;> cases h' : m.step s' w <;> rw [h, h'] at this
    · exact this
    · exact this
    · exact this.elim
    · exact ⟨this.1, this.2, ha.2⟩
  | m :: ms, P, (s, ss), (s', ss'), i + 1, v, w, Q, ha, hs => by
    have := stepAt_rel (P := fun i => P (i + 1)) (i := i) (v := v) (w := w) (Q := Q) ha.2
      fun m' s s' hm => hs m' s s' (by simpa using hm)
    simp only [States.stepAt]
    cases h : States.stepAt ms ss i v <;> cases h' : States.stepAt ms ss' i w <;> rw [h, h'] at this
    · exact this
    · exact this
    · exact this.elim
    · exact ⟨this.1, ha.1, this.2⟩

/-! ## Expressions -/

/-- Related histories: as long, with related elements. -/
abbrev HistRel (η : Interp) (t : TyBase) (h h' : AnyHist) : Prop :=
  List.Forall₂ (LeafRel η t) h.2.toList h'.2.toList

/-- Related registers. -/
structure RegRel (η : Interp) (t : TyTuple) (r r' : Register Scalar) : Prop where
  inner : ValRel η t r.inner r'.inner
  next : ValRel η t r.next r'.next
  clock : r.onClock = r'.onClock

/-- Related local variables. -/
def EnvRel (η : Interp) (Γ : TyEnv) (env env' : Env) : Prop :=
  ∀ x t, Γ.vars x = some t → Option.Rel (LeafRel η t) (env x) (env' x)

/-- Related states. -/
structure StRel (η : Interp) (Γ : TyEnv) (ms : List Machine) (s s' : NodeState ms) : Prop where
  clock : s.clock = s'.clock
  hist : ∀ x t, Γ.vars x = some t → Option.Rel (HistRel η t) (s.hist x) (s'.hist x)
  nodes : AllI2 (fun i m σ σ' => ∀ t u, Γ.call i t u → RunRel η m t u σ σ') ms s.nodes s'.nodes
  flips : s.flips = s'.flips
  regs : ∀ i t, Γ.regs i t → Option.Rel (RegRel η t) s.regs[i]? s'.regs[i]?

/-- The subnodes that are there have absent values of the right shape. -/
def SubsRel (η : Interp) (ms : List Machine) (Γ : TyEnv) : Prop :=
  ∀ i t u m, Γ.call i t u → ms[i]? = some m →
    ValRel η u (Tup.allNil Scalar m.outTy) (Tup.allNil Scalar m.outTy)

/-- Constants are of a type without variables. -/
def GlobRel (Γ : TyEnv) (glob : Globals) : Prop :=
  ∀ x t, Γ.global x = some t → (∀ g, t ≠ .other g) ∧ ∃ v, glob x = some v ∧ ScalarTy t v

section
variable {A : Arith} {glob : Globals} {ms : List Machine} {Γ : TyEnv} {env env' : Env}

theorem readVar_rel {s s' : NodeState ms} {x : String} {d : Nat} {t : TyBase}
    (hv : Γ.vars x = some t) (he : EnvRel η Γ env env') (hs : StRel η Γ ms s s') :
    RelR (ValRel η (.single t)) (readVar ms env s x d) (readVar ms env' s' x d) := by
  cases d with
  | zero =>
    have := he x t hv
    simp only [readVar]
    cases h : env x <;> cases h' : env' x <;> rw [h, h'] at this
    · exact rel_err _
    · cases this
    · cases this
    · cases this; assumption
  | succ d =>
    have := hs.hist x t hv
    simp only [readVar]
    cases h : s.hist x <;> cases h' : s'.hist x <;> rw [h, h'] at this
    · exact rel_err _
    · cases this
    · cases this
    · rename_i q q'
      cases this
      rename_i hq
      simp only [Hist.ago_eq]
      have hl := hq.length_eq
      by_cases hd : d < q.2.toList.length
      · have hd' : d < q'.2.toList.length := hl ▸ hd
        rw [List.getElem?_eq_getElem hd, List.getElem?_eq_getElem hd']
        exact List.Forall₂.get hq hd hd'
      · rw [List.getElem?_eq_none (by omega), List.getElem?_eq_none (by omega)]
        exact rel_err _

/-- Related results and states. -/
abbrev ResRel (η : Interp) (Γ : TyEnv) (ms : List Machine) (t : TyTuple)
    (a b : Value × NodeState ms) : Prop := ValRel η t a.1 b.1 ∧ StRel η Γ ms a.2 b.2

mutual
theorem eval_rel (hx : Exact Γ) (hg : GlobRel Γ glob) (hm : SubsRel η ms Γ)
    (he : EnvRel η Γ env env') : {e : Expr} → {t : TyTuple} → HasType Γ e t →
    ∀ {s s' : NodeState ms}, StRel η Γ ms s s' →
      RelR (ResRel η Γ ms t) (eval A glob ms env e s) (eval A glob ms env' e s')
  | _, _, .lit (l := l), s, s', hs => by
    simp only [eval]
    refine ⟨?_, hs⟩
    cases l <;> exact ⟨rfl, trivial⟩
  | _, _, .global h, s, s', hs => by
    obtain ⟨h0, v, h1, h2⟩ := hg _ _ h
    simp only [eval, h1]
    exact ⟨leafRel_of_ty h0 (leafTy_defined.2 h2), hs⟩
  | _, _, .var h, s, s', hs => by
    simp only [eval]
    exact both_bind (readVar_rel h he hs) fun v w hv => ⟨hv, hs⟩
  | _, _, .dummyPre h, s, s', hs => by
    simp only [eval]
    exact eval_rel hx hg hm he h hs
  | _, _, .dummyParen h, s, s', hs => by
    simp only [eval]
    exact eval_rel hx hg hm he h hs
  | _, _, .tuple h, s, s', hs => by
    simp only [eval]
    refine both_bind (evalList_rel hx hg hm he h hs) fun a b hab => ?_
    exact ⟨valRel_tuple hab.1, hab.2⟩
  | _, _, .bin hl hr h, s, s', hs => by
    simp only [eval]
    refine both_bind (eval_rel hx hg hm he hl hs) fun a b hab => ?_
    refine both_bind (eval_rel hx hg hm he hr hab.2) fun c d hcd => ?_
    refine both_bind (asLeaf_rel hab.1) fun l l' hl => both_bind (asLeaf_rel hcd.1) fun k k' hk => ?_
    exact both_bind (binop_rel h hl hk) fun v w hv => ⟨hv, hcd.2⟩
  | _, _, .un he' h, s, s', hs => by
    simp only [eval]
    refine both_bind (eval_rel hx hg hm he he' hs) fun a b hab => ?_
    refine both_bind (asLeaf_rel hab.1) fun l l' hl => ?_
    exact both_bind (unop_rel h hl) fun v w hv => ⟨hv, hab.2⟩
  | _, _, .cmp hl hr h, s, s', hs => by
    simp only [eval]
    refine both_bind (eval_rel hx hg hm he hl hs) fun a b hab => ?_
    refine both_bind (eval_rel hx hg hm he hr hab.2) fun c d hcd => ?_
    refine both_bind (asLeaf_rel hab.1) fun l l' hl => both_bind (asLeaf_rel hcd.1) fun k k' hk => ?_
    exact both_bind (cmp_rel h hl hk) fun v w hv => ⟨hv, hcd.2⟩
  | _, _, .clock (op := op) he' hb, s, s', hs => by
    simp only [eval]
    refine both_bind (eval_rel hx hg hm he hb hs) fun a b hab => ?_
    refine both_bind (asBool_rel hab.1) ?_
    rintro c _ rfl
    refine both_bind (eval_rel hx hg hm he he' hab.2) fun d e hde => ?_
    cases op
    · exact ⟨valRel_when hde.1, hde.2⟩
    · exact ⟨valRel_whenot hde.1, hde.2⟩
  | _, _, .later he' he'', s, s', hs => by
    simp only [eval]
    refine both_bind (eval_rel hx hg hm he he'' hs) fun a b hab => ?_
    rw [← hab.2.clock]
    split
    · exact hab
    · exact eval_rel hx hg hm he he' hab.2
  | _, _, .flip (i := i) he' he'', s, s', hs => by
    simp only [eval]
    refine both_bind (eval_rel hx hg hm he he' hs) fun a b hab => ?_
    refine both_bind (eval_rel hx hg hm he he'' hab.2) fun c d hcd => ?_
    rw [valRel_first _ hab.1, hcd.2.flips]
    split
    · exact ⟨valRel_nilLike _ hab.1, hcd.2⟩
    · cases d.2.flips[i]? with
      | none => exact rel_err _
      | some f =>
        refine ⟨?_, ⟨hcd.2.clock, hcd.2.hist, hcd.2.nodes, rfl, hcd.2.regs⟩⟩
        dsimp only
        split
        · exact hab.1
        · exact hcd.1
  | _, _, .ifx hb hy hn, s, s', hs => by
    simp only [eval]
    refine both_bind (eval_rel hx hg hm he hy hs) fun a b hab => ?_
    refine both_bind (eval_rel hx hg hm he hn hab.2) fun c d hcd => ?_
    refine both_bind (eval_rel hx hg hm he hb hcd.2) fun e f hef => ?_
    refine both_bind (asBool_rel hef.1) ?_
    rintro g _ rfl
    exact ⟨valRel_ifx hab.1 hcd.1, hef.2⟩
  | _, _, .merge hb hy hn, s, s', hs => by
    simp only [eval]
    refine both_bind (eval_rel hx hg hm he hb hs) fun e f hef => ?_
    refine both_bind (asBool_rel hef.1) ?_
    rintro g _ rfl
    refine both_bind (eval_rel hx hg hm he hy hef.2) fun a b hab => ?_
    refine both_bind (eval_rel hx hg hm he hn hab.2) fun c d hcd => ?_
    exact ⟨valRel_merge hab.1 hcd.1, hcd.2⟩
  | _, _, .substep (i := i) (t := t) (u := u) he' h, s, s', hs => by
    simp only [eval, hs.clock]
    split
    · refine both_bind (eval_rel hx hg hm he he' hs) fun a b hab => ?_
      refine both_bind (stepAt_rel (Q := ValRel η u) (v := a.1) (w := b.1) hab.2.nodes
        fun m σ σ' hm' hσ => ?_) fun c d hcd => ?_
      · refine both_mono (runRel_step (hσ t u h) hab.1) fun p q hp => ⟨hp.1, fun t' u' hc => ?_⟩
        obtain ⟨rfl, rfl⟩ := hx.call i t u t' u' h hc
        exact hp.2
      · exact ⟨hcd.1, ⟨hab.2.clock, hab.2.hist, hcd.2, hab.2.flips, hab.2.regs⟩⟩
    · cases hi : ms[i]? with
      | none => exact rel_err _
      | some m => exact ⟨hm i t u m h hi, hs⟩
  | _, _, .fetchPre (i := i) he' h, s, s', hs => by
    have := hs.regs _ _ h
    simp only [eval]
    cases h1 : s.regs[i]? <;> cases h2 : s'.regs[i]? <;> rw [h1, h2] at this
    · exact rel_err _
    · cases this
    · cases this
    · cases this
      rename_i hr
      refine ⟨?_, hs⟩
      unfold Register.get
      dsimp only
      rw [hr.clock]
      split
      · exact hr.inner
      · exact valRel_nilLike _ hr.inner
  | _, _, .fetchFby (i := i) he' he'' h, s, s', hs => by
    have := hs.regs _ _ h
    simp only [eval]
    cases h1 : s.regs[i]? <;> cases h2 : s'.regs[i]? <;> rw [h1, h2] at this
    · exact rel_err _
    · cases this
    · cases this
    · cases this
      rename_i hr
      refine ⟨?_, hs⟩
      unfold Register.get
      dsimp only
      rw [hr.clock]
      split
      · exact hr.inner
      · exact valRel_nilLike _ hr.inner
theorem evalList_rel (hx : Exact Γ) (hg : GlobRel Γ glob) (hm : SubsRel η ms Γ)
    (he : EnvRel η Γ env env') : {es : List Expr} → {ts : List TyTuple} → HasTypes Γ es ts →
    ∀ {s s' : NodeState ms}, StRel η Γ ms s s' →
      RelR (fun a b => ValRels η ts a.1 b.1 ∧ StRel η Γ ms a.2 b.2) (evalList A glob ms env es s)
        (evalList A glob ms env' es s')
  | _, _, .nil, s, s', hs => by
    simp only [evalList]
    exact ⟨by simp [ValRels], hs⟩
  | _, _, .cons h h', s, s', hs => by
    simp only [evalList]
    refine both_bind (eval_rel hx hg hm he h hs) fun a b hab => ?_
    refine both_bind (evalList_rel hx hg hm he h' hab.2) fun c d hcd => ?_
    exact ⟨⟨hab.1, hcd.1⟩, hcd.2⟩
end

/-! ## Statements -/

theorem envRel_set (he : EnvRel η Γ env env') {x : String} {t : TyBase} (hx : Γ.vars x = some t)
    {v w : Nillable Scalar} (h : LeafRel η t v w) : EnvRel η Γ (env.set x v) (env'.set x w) := by
  intro y u hy
  unfold Env.set
  by_cases e : y = x
  · subst e
    rw [hx] at hy; cases hy
    rw [if_pos rfl, if_pos rfl]
    exact .some h
  · rw [if_neg e, if_neg e]
    exact he y u hy

mutual
theorem bindTarget_rel : {x : VarTuple} → {t : TyTuple} → {v w : Value} → {env env' : Env} →
    TargetType Γ.vars x t → ValRel η t v w → EnvRel η Γ env env' →
    RelR (EnvRel η Γ) (bindTarget x v env) (bindTarget x w env')
  | _, _, .leaf v, .leaf w, env, env', .single (x := x) (t := t) h, hv, he => by
    simp only [bindTarget]
    exact envRel_set he h (by simpa only [ValRel] using hv)
  | _, _, .tup _ _, _, _, _, .single h, hv, he => by simp [ValRel] at hv
  | _, _, .leaf _, .tup _ _, _, _, .single h, hv, he => by simp [ValRel] at hv
  | _, _, v, w, env, env', .multiple .nil, hv, he => by
    simp only [bindTarget]
    exact he
  | _, _, v, w, env, env', .multiple (.cons h .nil), hv, he => by
    simp only [bindTarget]
    simp only [ValRel] at hv
    exact bindTarget_rel h hv he
  | _, _, .tup a l, .tup b k, env, env', .multiple (.cons h (.cons h' hs)), hv, he => by
    simp only [bindTarget]
    simp only [ValRel] at hv
    exact both_bind (bindTarget_rel h hv.1 he) fun e e' he => bindTargets_rel (.cons h' hs) hv.2 he
  | _, _, .leaf _, _, _, _, .multiple (.cons h (.cons h' hs)), hv, he => by simp [ValRel] at hv
  | _, _, .tup _ _, .leaf _, _, _, .multiple (.cons h (.cons h' hs)), hv, he => by simp [ValRel] at hv
theorem bindTargets_rel : {xs : List VarTuple} → {ts : List TyTuple} → {vs ws : List Value} →
    {env env' : Env} → TargetTypes Γ.vars xs ts → ValRels η ts vs ws → EnvRel η Γ env env' →
    RelR (EnvRel η Γ) (bindTargets xs vs env) (bindTargets xs ws env')
  | _, _, [], [], env, env', .nil, hv, he => by
    simp only [bindTargets]
    exact he
  | _, _, _ :: _, _, _, _, .nil, hv, he => by simp [ValRels] at hv
  | _, _, [], _ :: _, _, _, .nil, hv, he => by simp [ValRels] at hv
  | _, _, [], _, _, _, .cons h hs, hv, he => by simp [ValRels] at hv
  | _, _, _ :: _, [], _, _, .cons h hs, hv, he => by simp [ValRels] at hv
  | _, _, v :: vs, w :: ws, env, env', .cons h hs, hv, he => by
    simp only [bindTargets]
    simp only [ValRels] at hv
    exact both_bind (bindTarget_rel h hv.1 he) fun e e' he => bindTargets_rel hs hv.2 he
end

theorem updReg_rel {s s' : NodeState ms} {i : Nat} {t : TyTuple}
    {f f' : Register Scalar → Register Scalar} (hx : Exact Γ) (hs : StRel η Γ ms s s')
    (hr : Γ.regs i t) (hf : ∀ r r', RegRel η t r r' → RegRel η t (f r) (f' r')) :
    RelR (StRel η Γ ms) (updReg ms s i f) (updReg ms s' i f') := by
  have := hs.regs i t hr
  unfold updReg
  cases h1 : s.regs[i]? <;> cases h2 : s'.regs[i]? <;> rw [h1, h2] at this
  · exact rel_err _
  · cases this
  · cases this
  · rename_i r r'
    cases this
    rename_i hrr
    refine ⟨hs.clock, hs.hist, hs.nodes, hs.flips, fun j u hj => ?_⟩
    dsimp only
    by_cases hij : i = j
    · subst hij
      have := hx.regs i t u hr hj
      subst this
      have hlt : i < s.regs.length := (List.getElem?_eq_some_iff.1 h1).1
      have hlt' : i < s'.regs.length := (List.getElem?_eq_some_iff.1 h2).1
      rw [List.getElem?_set_self hlt, List.getElem?_set_self hlt']
      exact .some (hf r r' hrr)
    · rw [List.getElem?_set_ne hij, List.getElem?_set_ne hij]
      exact hs.regs j u hj

theorem schedule_rel {t : TyTuple} {v w : Value} (hv : ValRel η t v w) {r r' : Register Scalar}
    (h : RegRel η t r r') : RegRel η t (r.schedule v) (r'.schedule w) := by
  unfold Register.schedule
  rw [valRel_first _ hv]
  split
  · exact ⟨h.inner, hv, h.clock⟩
  · exact h

theorem tryInitialize_rel {t : TyTuple} {v w : Value} (hv : ValRel η t v w)
    {r r' : Register Scalar} (h : RegRel η t r r') :
    RegRel η t (r.tryInitialize v) (r'.tryInitialize w) := by
  unfold Register.tryInitialize
  rw [valRel_first _ h.inner]
  split
  · exact ⟨hv, h.next, h.clock⟩
  · exact h

theorem exec_rel (hx : Exact Γ) (hg : GlobRel Γ glob) (hm : SubsRel η ms Γ) {st : Stmt}
    (ht : RunTyped Γ st) (he : EnvRel η Γ env env') {s s' : NodeState ms}
    (hs : StRel η Γ ms s s') :
    RelR (fun a b => EnvRel η Γ a.1 b.1 ∧ StRel η Γ ms a.2 b.2) (exec A glob ms st (env, s))
      (exec A glob ms st (env', s')) := by
  cases ht with
  | let_ h1 h2 =>
    simp only [exec]
    refine both_bind (eval_rel hx hg hm he h2 hs) fun a b hab => ?_
    exact both_bind (bindTarget_rel h1 hab.1 he) fun e e' he => ⟨he, hab.2⟩
  | assert h =>
    simp only [exec]
    refine both_bind (eval_rel hx hg hm he h hs) fun a b hab => ?_
    refine both_bind (asBool_rel hab.1) ?_
    rintro c _ rfl
    exact both_bind (rel_refl _) fun _ _ _ => ⟨he, hab.2⟩
  | update h hr =>
    simp only [exec]
    refine both_bind (eval_rel hx hg hm he h hs) fun a b hab => ?_
    exact both_bind (updReg_rel hx hab.2 hr fun r r' h => schedule_rel hab.1 h)
      fun _ _ h => ⟨he, h⟩
  | initPre hr hc =>
    simp only [exec]
    refine both_bind (eval_rel hx hg hm he hc hs) fun a b hab => ?_
    refine both_bind (asBool_rel hab.1) ?_
    rintro c _ rfl
    exact both_bind (updReg_rel (f := fun r => r.withClock c) (f' := fun r => r.withClock c) hx
      hab.2 hr fun r r' h => ⟨h.inner, h.next, rfl⟩) fun _ _ h => ⟨he, h⟩
  | initFby h hr hc =>
    simp only [exec]
    refine both_bind (eval_rel hx hg hm he hc hs) fun a b hab => ?_
    refine both_bind (asBool_rel hab.1) ?_
    rintro c _ rfl
    refine both_bind (updReg_rel (f := fun r => r.withClock c) (f' := fun r => r.withClock c) hx
      hab.2 hr fun r r' h => ⟨h.inner, h.next, rfl⟩) fun d e hde => ?_
    refine both_bind (eval_rel hx hg hm he h hde) fun a b hab => ?_
    exact both_bind (updReg_rel hx hab.2 hr fun r r' h => tryInitialize_rel hab.1 h)
      fun _ _ h => ⟨he, h⟩

theorem execAll_rel (hx : Exact Γ) (hg : GlobRel Γ glob) (hm : SubsRel η ms Γ) :
    ∀ {sts : List Stmt} {env env' : Env} {s s' : NodeState ms},
    (∀ st ∈ sts, RunTyped Γ st) → EnvRel η Γ env env' → StRel η Γ ms s s' →
    RelR (fun a b => EnvRel η Γ a.1 b.1 ∧ StRel η Γ ms a.2 b.2) (execAll A glob ms sts (env, s))
      (execAll A glob ms sts (env', s'))
  | [], env, env', s, s', _, he, hs => by
    simp only [execAll]
    exact ⟨he, hs⟩
  | st :: sts, env, env', s, s', ht, he, hs => by
    simp only [execAll]
    refine both_bind (exec_rel hx hg hm (ht st (by simp)) he hs) ?_
    rintro ⟨e1, s1⟩ ⟨e2, s2⟩ ⟨h1, h2⟩
    exact execAll_rel hx hg hm (fun st h => ht st (by simp [h])) h1 h2

theorem forall₂_dropLast {α β : Type} {Q : α → β → Prop} {l : List α} {k : List β}
    (h : List.Forall₂ Q l k) : List.Forall₂ Q l.dropLast k.dropLast := by
  rw [List.dropLast_eq_take, List.dropLast_eq_take, h.length_eq]
  exact List.forall₂_take _ h

theorem updHists_rel (he : EnvRel η Γ env env') : ∀ {xs : List String} {s s' : NodeState ms},
    (∀ x ∈ xs, ∃ t, Γ.vars x = some t) → StRel η Γ ms s s' →
    RelR (StRel η Γ ms) (updHists ms env xs s) (updHists ms env' xs s')
  | [], s, s', _, hs => by simp only [updHists]; exact hs
  | x :: xs, s, s', hxs, hs => by
    obtain ⟨t, ht⟩ := hxs x (by simp)
    simp only [updHists]
    refine both_bind (Q := StRel η Γ ms) ?_ fun a b hab =>
      updHists_rel he (fun y hy => hxs y (by simp [hy])) hab
    have h1 := hs.hist x t ht
    have h2 := he x t ht
    unfold updHist
    cases g1 : s.hist x <;> cases g2 : s'.hist x <;> rw [g1, g2] at h1
    · exact rel_err _
    · cases h1
    · cases h1
    · cases h1
      rename_i h1
      cases g3 : env x <;> cases g4 : env' x <;> rw [g3, g4] at h2
      · exact rel_err _
      · cases h2
      · cases h2
      · cases h2
        rename_i h2
        refine ⟨hs.clock, fun y u hy => ?_, hs.nodes, hs.flips, hs.regs⟩
        dsimp only
        by_cases e : y = x
        · subst e
          rw [ht] at hy; cases hy
          rw [if_pos rfl, if_pos rfl]
          refine .some ?_
          simp only [HistRel, Hist.toList_update]
          exact .cons h2 (forall₂_dropLast h1)
        · rw [if_neg e, if_neg e]
          exact hs.hist y u hy

theorem readOutputs_rel (he : EnvRel η Γ env env') : ∀ {xs : List TyVar},
    (∀ x ∈ xs, Γ.vars x.name = some x.ty) →
    RelR (ValRels η ((xs.map (·.ty)).map .single)) (readOutputs env xs) (readOutputs env' xs)
  | [], _ => by simp [readOutputs, Upto, ValRels]
  | x :: xs, hxs => by
    have h := he x.name x.ty (hxs x (by simp))
    simp only [readOutputs]
    cases g3 : env x.name <;> cases g4 : env' x.name <;> rw [g3, g4] at h
    · exact rel_err _
    · cases h
    · cases h
    · cases h
      rename_i h
      refine both_bind (readOutputs_rel he (xs := xs) fun y hy => hxs y (by simp [hy]))
        fun a b hab => ?_
      show ValRels η _ (_ :: _) (_ :: _)
      exact ⟨by simpa only [ValRel] using h, hab⟩

theorem valRel_flat {ts : List TyBase} {v w : Value} :
    ValRel η (flatTuple ts) v w ↔ ValRel η (.multiple (ts.map .single)) v w := by
  rcases ts with _ | ⟨t, _ | ⟨u, ts⟩⟩
  · rfl
  · simp [flatTuple, ValRel]
  · rfl

/-! ## Nodes -/

variable {sigs : String → Option Sig} {consts : String → Option TyBase} {n : Node}

/-- The machines given to a node are those of the nodes it calls. -/
def SubsPar (sigs : String → Option Sig) (n : Node) (ms : List Machine) : Prop :=
  ∀ (i : Nat) (b : NodeInstance), n.blocks[i]? = some b → ∃ m gens ins outs, ms[i]? = some m ∧
    sigs b.name = some (gens, ins, outs) ∧ Parametric m (flatTuple ins) (flatTuple outs)

theorem init_rel (η : Interp) (h : CodegenReady sigs consts n) (hs : SubsPar sigs n ms) :
    StRel η (runEnv sigs consts n) ms (n.initState ms) (n.initState ms) := by
  refine ⟨rfl, ?_, ?_, rfl, ?_⟩
  · intro x t _
    simp only [Node.initState, initHist]
    split
    · refine .some ?_
      simp only [HistRel, Hist.toList_default]
      rw [List.forall₂_same]
      intro v hv
      rw [(List.mem_replicate.1 hv).2]
      exact leafRel_nil
    · exact .none
  · refine allI2_init ?_
    rintro i m hm t u ⟨b, gens, ins, outs, θ', h1, h2, h3, rfl, rfl⟩
    obtain ⟨m', gens', ins', outs', g1, g2, g3⟩ := hs i b h1
    rw [h2] at g2; cases g2
    rw [hm] at g1; cases g1
    have := runRel_init.2 (g3.runs fun g => ScalarRel η (θ' g))
    intro is is' hi
    refine both_mono (this is is' (hi.imp fun _ _ => (valRel_subst θ' _).1)) fun a b hab => ?_
    exact hab.imp fun _ _ => (valRel_subst θ' _).2
  · intro i t h1
    simp only [runEnv] at h1
    simp only [Node.initState, List.getElem?_map, h1, Option.map_some]
    have := valRel_allNil (η := η) t (h.shapes t (List.mem_of_getElem? h1))
    exact .some ⟨this, this, rfl⟩

theorem subsRel (η : Interp) (hs : SubsPar sigs n ms) : SubsRel η ms (runEnv sigs consts n) := by
  rintro i t u m ⟨b, gens, ins, outs, θ', h1, h2, h3, rfl, rfl⟩ hm
  obtain ⟨m', gens', ins', outs', g1, g2, g3⟩ := hs i b h1
  rw [h2] at g2; cases g2
  rw [hm] at g1; cases g1
  exact (valRel_subst θ' _).2 (g3.absent _)

theorem body_rel (hw : ∀ f s, sigs f = some s → s.Wf) (h : CodegenReady sigs consts n)
    (hc : ConstsOk consts glob) (hs : SubsPar sigs n ms) {s s' : NodeState ms}
    (hb : StRel η (runEnv sigs consts n) ms s s') {v w : Value}
    (hv : ValRel η (flatTuple (n.inputs.map (·.ty))) v w) :
    RelR (ResRel η (runEnv sigs consts n) ms (flatTuple (n.outputs.map (·.ty))))
      (n.body A glob ms s v) (n.body A glob ms s' w) := by
  have hx := runEnv_exact (consts := consts) (n := n) hw
  have hm := subsRel (consts := consts) η hs
  have hvars : ∀ w ∈ declared n, (runEnv sigs consts n).vars w.name = some w.ty :=
    fun w hw => typeIn_of_mem h.names hw
  have hpos : ∀ vs : List TyVar, (∀ w ∈ vs, w ∈ declared n) → ∀ x ∈ posNames vs,
      ∃ t, (runEnv sigs consts n).vars x = some t := by
    intro vs hvs x hx
    obtain ⟨w, h1, rfl, h3⟩ := mem_posNames hx
    exact ⟨_, hvars w (hvs w h1)⟩
  unfold Node.body
  rw [valRel_flat] at hv
  have htin : TargetType (runEnv sigs consts n).vars (inputPattern n.inputs)
      (.multiple ((n.inputs.map (·.ty)).map .single)) :=
    .multiple (targets_inputs (vs := n.inputs) (vars := (runEnv sigs consts n).vars) fun w hw =>
      hvars w (by simp [declared, hw]))
  refine both_bind (bindTarget_rel htin hv (env := fun _ => none) (env' := fun _ => none)
    fun _ _ _ => .none) fun e e' he => ?_
  refine both_bind (execAll_rel hx hc hm h.typed he hb) ?_
  rintro ⟨e1, s1⟩ ⟨e2, s2⟩ ⟨h1, h2⟩
  refine both_bind (updHists_rel (s := { s1 with clock := s1.clock + 1 })
    (s' := { s2 with clock := s2.clock + 1 }) h1 (hpos n.inputs fun w hw => by simp [declared, hw])
    ⟨congrArg (· + 1) h2.clock, h2.hist, h2.nodes, h2.flips, h2.regs⟩) fun a b hab => ?_
  refine both_bind (updHists_rel h1 (hpos n.outputs fun w hw => by simp [declared, hw]) hab)
    fun c d hcd => ?_
  refine both_bind (updHists_rel h1 (hpos n.locals fun w hw => by simp [declared, hw]) hcd)
    fun p q hpq => ?_
  refine both_bind (readOutputs_rel h1 fun w hw => hvars w (by simp [declared, hw]))
    fun o o' ho => ?_
  refine ⟨valRel_flat.2 (valRel_tuple ho), hpq.clock, hpq.hist, hpq.nodes, hpq.flips,
    fun i t hr => ?_⟩
  have := hpq.regs i t hr
  simp only [List.getElem?_map]
  cases g1 : p.regs[i]? <;> cases g2 : q.regs[i]? <;> rw [g1, g2] at this
  · exact .none
  · cases this
  · cases this
  · cases this
    rename_i hr
    exact .some ⟨hr.next, hr.next, hr.clock⟩

theorem valRel_absent (η : Interp) (ts : List TyBase) :
    ValRel η (flatTuple ts) (Tup.allNil Scalar (flatShape ts.length))
      (Tup.allNil Scalar (flatShape ts.length)) := by
  have key : ∀ ts : List TyBase, ValRels η (ts.map .single)
      (Tup.mapList (fun _ => .nil) (List.replicate ts.length (.leaf ())))
      (Tup.mapList (fun _ => .nil) (List.replicate ts.length (.leaf ()))) := by
    intro ts
    induction ts with
    | nil => simp [Tup.mapList, ValRels]
    | cons t ts ih =>
      simp only [List.length_cons, List.replicate_succ, List.map_cons, Tup.mapList, ValRels, Tup.map]
      exact ⟨by simp [ValRel, LeafRel], ih⟩
  rcases ts with _ | ⟨t, _ | ⟨u, ts⟩⟩
  · simp [flatTuple, flatShape, Tup.allNil, Tup.map, ValRel]
  · simp [flatTuple, flatShape, Tup.allNil, Tup.map, ValRel, LeafRel]
  · simp only [flatTuple, List.length_cons, flatShape, Tup.allNil, Tup.map, List.map_cons, ValRel]
    exact ⟨by simp [LeafRel], key (u :: ts)⟩

theorem node_parametric (hw : ∀ f s, sigs f = some s → s.Wf) (h : CodegenReady sigs consts n)
    (hc : ConstsOk consts glob) (hs : SubsPar sigs n ms) :
    Parametric (n.machine A glob ms) (flatTuple (n.inputs.map (·.ty)))
      (flatTuple (n.outputs.map (·.ty))) := by
  have habs : ∀ η, ValRel η (flatTuple (n.outputs.map (·.ty))) (Tup.allNil Scalar n.outTy)
      (Tup.allNil Scalar n.outTy) := by
    intro η
    have := valRel_absent η (n.outputs.map (·.ty))
    simpa [Node.outTy] using this
  refine ⟨fun η => ?_, habs⟩
  refine runRel_init.1 (runRel_of_inv (m := n.machine A glob ms)
    (fun s s' : NodeState ms => StRel η (runEnv sigs consts n) ms s s') (fun s s' v w hb hv => ?_)
    _ _ (init_rel η h hs))
  change RelR _ (n.step A glob ms s v) (n.step A glob ms s' w)
  unfold Node.step Candle.implicitClock
  rw [valRel_first _ hv]
  split
  · exact ⟨habs η, hb⟩
  · exact body_rel hw h hc hs hb hv

end

theorem clock_rel {σ : Type} {v w : Value} {ty : Tup Unit} {s s' : σ} {x y : R (Value × σ)}
    {Q : Value × σ → Value × σ → Prop} (hv : v.firstIsNil = w.firstIsNil)
    (h : Q (Tup.allNil Scalar ty, s) (Tup.allNil Scalar ty, s')) (hxy : RelR Q x y) :
    RelR Q (Candle.implicitClock v ty s x) (Candle.implicitClock w ty s' y) := by
  unfold Candle.implicitClock
  rw [hv]
  by_cases hi : w.firstIsNil = true
  · rw [if_pos hi, if_pos hi]; exact h
  · rw [if_neg hi, if_neg hi]; exact hxy

theorem wrapExtern_parametric {m : Machine} {t u : TyTuple} (h : Parametric m t u) :
    Parametric (wrapExtern m) t u := by
  refine ⟨fun η => ?_, h.absent⟩
  refine runRel_init.1 (runRel_of_inv (m := wrapExtern m) (fun s s' => RunRel η m t u s.1 s'.1)
    (fun s s' v w hb hv => ?_) _ _ (runRel_init.2 (h.runs η)))
  refine clock_rel (s := s) (s' := s') (valRel_first _ hv) ⟨h.absent η, hb⟩ ?_
  have := runRel_step hb hv
  cases h1 : m.step s.1 v <;> cases h2 : m.step s'.1 w <;> rw [h1, h2] at this
  · exact this
  · exact this
  · exact this.elim
  · exact this

end Chandeliers.Par
