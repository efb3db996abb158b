import Verif.Spec.Values
import Verif.Spec.Typing
import Verif.Lemmas.NoAgo
import Verif.Lemmas.Tup

/-! Outcomes that are not faulty, and values of a type. -/

set_option autoImplicit false

namespace Chandeliers.San
open Chandeliers.Spec

/-- The computation ends with a value that has the property, or stops without being faulty. -/
def Fine {α : Type} (P : α → Prop) : R α → Prop
  | .ok a => P a
  | .error p => ¬ Faulty p

theorem Fine.bind {α β : Type} {P : α → Prop} {Q : β → Prop} {m : R α} {f : α → R β}
    (hm : Fine P m) (hf : ∀ a, P a → Fine Q (f a)) : Fine Q (m >>= f) := by
  cases m with
  | ok a => exact hf a hm
  | error p => exact hm

theorem Fine.mono {α : Type} {P Q : α → Prop} {m : R α} (hm : Fine P m) (h : ∀ a, P a → Q a) :
    Fine Q m := by
  cases m with
  | ok a => exact h a hm
  | error p => exact hm

theorem fine_iff {α : Type} {P : α → Prop} {m : R α} :
    Fine P m ↔ (∀ a, m = .ok a → P a) ∧ ∀ p, m = .error p → ¬ Faulty p := by
  cases m with
  | ok a =>
    constructor
    · intro h; exact ⟨fun b hb => by cases hb; exact h, fun p hp => by cases hp⟩
    · intro h; exact h.1 a rfl
  | error q =>
    constructor
    · intro h
      refine ⟨?_, ?_⟩
      · intro b hb; cases hb
      · intro p hp; cases hp; exact h
    · intro h; exact h.2 q rfl

theorem not_faulty_arith {p : Panic} (h : p = .arith) : ¬ Faulty p := by
  subst h; simp [Faulty]

/-! ## Values -/

theorem leafTy_nil (t : TyBase) : LeafTy t .nil := by intro x h; cases h

theorem leafTy_defined {t : TyBase} {x : Scalar} : LeafTy t (.defined x) ↔ ScalarTy t x :=
  ⟨fun h => h x rfl, fun h y hy => by cases hy; exact h⟩

theorem valTy_single {t : TyBase} {v : Value} : ValTy (.single t) v ↔ ∃ l, v = .leaf l ∧ LeafTy t l := by
  cases v with
  | leaf l => simp [ValTy]
  | tup h l => simp [ValTy]

theorem asLeaf_fine {t : TyBase} {v : Value} (h : ValTy (.single t) v) :
    Fine (fun l => LeafTy t l) (asLeaf v) := by
  obtain ⟨l, rfl, hl⟩ := valTy_single.1 h
  exact hl

theorem asBool_fine {v : Value} (h : ValTy (.single .bool) v) :
    Fine (fun _ => True) (asBool v) := by
  obtain ⟨l, rfl, hl⟩ := valTy_single.1 h
  cases l with
  | nil => trivial
  | defined x =>
    have := leafTy_defined.1 hl
    cases x <;> simp [ScalarTy] at this
    trivial

theorem binop_fine {A : Arith} {op : BinOp} {t : TyBase} {x y : Nillable Scalar}
    (ht : t ∈ binTypes op) (hx : LeafTy t x) (hy : LeafTy t y) :
    Fine (fun l => LeafTy t l) (x.binop (scalarBin A op) y) := by
  cases x with
  | nil => exact leafTy_nil t
  | defined a =>
    cases y with
    | nil => exact leafTy_nil t
    | defined b =>
      have ha := leafTy_defined.1 hx
      have hb := leafTy_defined.1 hy
      have key : Fine (fun c => ScalarTy t c) (scalarBin A op a b) := by
        cases a <;> cases t <;> simp only [ScalarTy] at ha <;>
          cases b <;> simp only [ScalarTy] at hb
        case int.int.int i j =>
          simp only [scalarBin]
          cases h : intBin A op i j with
          | ok r => trivial
          | error p => exact not_faulty_arith (intBin_err h)
        case float.float.float i j =>
          cases op <;> simp [binTypes] at ht <;> trivial
        case bool.bool.bool i j =>
          cases op <;> simp [binTypes] at ht <;> trivial
        case other.other.other i j k l m =>
          cases op <;> simp [binTypes] at ht
      unfold Nillable.binop
      dsimp only
      cases h : scalarBin A op a b with
      | ok r => rw [h] at key; exact leafTy_defined.2 key
      | error p => rw [h] at key; exact key

theorem unop_fine {A : Arith} {op : UnOp} {t : TyBase} {x : Nillable Scalar}
    (ht : t ∈ unTypes op) (hx : LeafTy t x) :
    Fine (fun l => LeafTy t l) (x.unop (scalarUn A op)) := by
  cases x with
  | nil => exact leafTy_nil t
  | defined a =>
    have ha := leafTy_defined.1 hx
    have key : Fine (fun c => ScalarTy t c) (scalarUn A op a) := by
      cases a <;> cases t <;> simp only [ScalarTy] at ha
      case int.int i =>
        cases op
        · simp only [scalarUn]
          cases h : checked A (-i.toInt) with
          | ok r => trivial
          | error p => exact not_faulty_arith (checked_err h)
        · trivial
      case float.float i => cases op <;> simp [unTypes] at ht; trivial
      case bool.bool i => cases op <;> simp [unTypes] at ht; trivial
      case other.other i j k => cases op <;> simp [unTypes] at ht
    unfold Nillable.unop
    dsimp only
    cases h : scalarUn A op a with
    | ok r => rw [h] at key; exact leafTy_defined.2 key
    | error p => rw [h] at key; exact key

theorem cmp_fine {A : Arith} {op : CmpOp} {t : TyBase} {x y : Nillable Scalar}
    (ht : t ∈ cmpTypes op) (hx : LeafTy t x) (hy : LeafTy t y) :
    Fine (fun l => LeafTy .bool l) (scalarCmp A op x y) := by
  have hc : comparable x y = true := by
    cases x with
    | nil => cases y <;> rfl
    | defined a =>
      cases y with
      | nil => cases a <;> rfl
      | defined b =>
        have ha := leafTy_defined.1 hx
        have hb := leafTy_defined.1 hy
        cases a <;> cases t <;> simp only [ScalarTy] at ha <;>
          cases b <;> simp only [ScalarTy] at hb
        case other.other.other i j k l m => cases op <;> simp [cmpTypes] at ht
        all_goals rfl
  unfold scalarCmp
  rw [if_pos hc]
  intro z hz
  cases h : Candle.cmp (scalarEq A) (scalarPcmp A) op x y with
  | nil => rw [h] at hz; cases hz
  | defined b => rw [h] at hz; cases hz; trivial

mutual
theorem valTy_nilLike : (t : TyTuple) → {v : Value} → ValTy t v → ValTy t v.nilLike
  | .single t, .leaf v, h => by
    simp only [Tup.nilLike, Tup.map, ValTy]; exact leafTy_nil t
  | .single _, .tup _ _, h => by simp [ValTy] at h
  | .multiple [], .leaf v, h => by simp [Tup.nilLike, Tup.map, ValTy]
  | .multiple [], .tup _ _, h => by simp [ValTy] at h
  | .multiple [t], v, h => by
    simp only [ValTy] at h ⊢
    exact valTy_nilLike t h
  | .multiple (t :: u :: ts), .tup a l, h => by
    simp only [ValTy] at h
    simp only [Tup.nilLike, Tup.map, ValTy]
    exact ⟨valTy_nilLike t h.1, valTys_nilLike (u :: ts) h.2⟩
  | .multiple (_ :: _ :: _), .leaf _, h => by simp [ValTy] at h
theorem valTys_nilLike : (ts : List TyTuple) → {vs : List Value} → ValTys ts vs →
    ValTys ts (Tup.mapList (fun _ => .nil) vs)
  | [], [], _ => by simp [Tup.mapList, ValTys]
  | t :: ts, v :: vs, h => by
    simp only [ValTys] at h
    simp only [Tup.mapList, ValTys]
    exact ⟨valTy_nilLike t h.1, valTys_nilLike ts h.2⟩
  | [], _ :: _, h => by simp [ValTys] at h
  | _ :: _, [], h => by simp [ValTys] at h
end

theorem valTy_ifx {t : TyTuple} {b : Nillable Bool} {y n : Value} (hy : ValTy t y)
    (hn : ValTy t n) : ValTy t (Candle.ifx b y n) := by
  unfold Candle.ifx
  split
  · exact hy
  · exact hn
  · exact valTy_nilLike t hy

theorem valTy_merge {t : TyTuple} {b : Nillable Bool} {y n : Value} (hy : ValTy t y)
    (hn : ValTy t n) : ValTy t (Candle.merge b y n) := by
  unfold Candle.merge
  split
  · exact hy
  · exact hn
  · exact valTy_nilLike t hy

theorem valTy_when {t : TyTuple} {b : Nillable Bool} {y : Value} (hy : ValTy t y) :
    ValTy t (Candle.when b y) := by
  unfold Candle.when
  split
  · exact hy
  · exact valTy_nilLike t hy

theorem valTy_whenot {t : TyTuple} {b : Nillable Bool} {y : Value} (hy : ValTy t y) :
    ValTy t (Candle.whenot b y) := by
  unfold Candle.whenot
  split
  · exact hy
  · exact valTy_nilLike t hy

theorem valTy_tuple {ts : List TyTuple} {vs : List Value} (h : ValTys ts vs) :
    ValTy (.multiple ts) (tupleValue vs) := by
  rcases ts with _ | ⟨t, _ | ⟨u, ts⟩⟩
  · cases vs with
    | nil => simp [tupleValue, ValTy]
    | cons v vs => simp [ValTys] at h
  · rcases vs with _ | ⟨v, _ | ⟨w, vs⟩⟩
    · simp [ValTys] at h
    · simp only [ValTys] at h; simpa [tupleValue, ValTy] using h.1
    · simp [ValTys] at h
  · rcases vs with _ | ⟨v, _ | ⟨w, vs⟩⟩
    · simp [ValTys] at h
    · simp [ValTys] at h
    · simp only [ValTys] at h; simpa [tupleValue, ValTy, ValTys] using h

/-! ## Machines -/

theorem safe_step {m : Machine} {t u : TyTuple} {s : m.σ} (h : Safe m t u s) {v : Value}
    (hv : ValTy t v) : Fine (fun p => ValTy u p.1 ∧ Safe m t u p.2) (m.step s v) := by
  cases hs : m.step s v with
  | error p =>
    have := (h [v] (by simpa using hv)).1 p
    rw [runFrom_single, hs] at this
    exact this rfl
  | ok q =>
    obtain ⟨o, s'⟩ := q
    refine ⟨?_, fun is his => ?_⟩
    · have := (h [v] (by simpa using hv)).2 [o] s'
      rw [runFrom_single, hs] at this
      exact this rfl o (by simp)
    · have h' := h (v :: is) (by simpa using ⟨hv, his⟩)
      simp only [Machine.runFrom, hs] at h'
      refine ⟨fun p hp => h'.1 p ?_, fun os s'' ho => ?_⟩
      · change (m.runFrom s' is >>= _) = _
        rw [hp]; rfl
      · have := h'.2 (o :: os) s'' (by
          change (m.runFrom s' is >>= _) = _
          rw [ho]; rfl)
        exact fun x hx => this x (by simp [hx])

/-- An invariant kept by every step makes a machine safe. -/
theorem safe_of_inv {m : Machine} {t u : TyTuple} (inv : m.σ → Prop)
    (hstep : ∀ s v, inv s → ValTy t v → Fine (fun p => ValTy u p.1 ∧ inv p.2) (m.step s v))
    {s : m.σ} (hs : inv s) : Safe m t u s := by
  have key : ∀ (is : List Value) (s : m.σ), inv s → (∀ i ∈ is, ValTy t i) →
      Fine (fun p => ∀ o ∈ p.1, ValTy u o) (m.runFrom s is) := by
    intro is
    induction is with
    | nil => intro s _ _; simp [Machine.runFrom, Fine]
    | cons i is ih =>
      intro s hs his
      simp only [Machine.runFrom]
      refine (hstep s i hs (his i (by simp))).bind ?_
      rintro ⟨o, s1⟩ ⟨ho, h1⟩
      refine (ih s1 h1 fun j hj => his j (by simp [hj])).bind ?_
      rintro ⟨os, s2⟩ h2
      intro x hx
      rcases List.mem_cons.1 hx with rfl | hx
      · exact ho
      · exact h2 x hx
  intro is his
  have := fine_iff.1 (key is s hs his)
  exact ⟨this.2, fun os s' h => this.1 (os, s') h⟩

theorem States.allI_init : ∀ {ms : List Machine} {P : Nat → (m : Machine) → m.σ → Prop},
    (∀ i m, ms[i]? = some m → P i m m.init) → States.AllI P ms (States.init ms)
  | [], _, _ => trivial
  | m :: ms, P, h => ⟨h 0 m rfl, States.allI_init fun i m' hm => h (i + 1) m' (by simpa using hm)⟩

theorem States.stepAt_fine : ∀ {ms : List Machine} {P : Nat → (m : Machine) → m.σ → Prop}
    {ss : States ms} {i : Nat} {m : Machine} {v : Value} {Q : Value → Prop},
    States.AllI P ms ss → ms[i]? = some m →
    (∀ s, P i m s → Fine (fun p => Q p.1 ∧ P i m p.2) (m.step s v)) →
    Fine (fun p => Q p.1 ∧ States.AllI P ms p.2) (States.stepAt ms ss i v)
  | [], _, _, _, _, _, _, _, hm, _ => by simp at hm
  | m :: ms, P, (s, ss), 0, m', v, Q, ha, hm, hs => by
    simp only [List.getElem?_cons_zero, Option.some.injEq] at hm
    subst hm
    have := hs s ha.1
    simp only [States.stepAt]
    cases h : m.step s v with
    | error p => rw [h] at this; exact this
    | ok q => rw [h] at this; exact ⟨this.1, this.2, ha.2⟩
  | m :: ms, P, (s, ss), i + 1, m', v, Q, ha, hm, hs => by
    simp only [List.getElem?_cons_succ] at hm
    have := States.stepAt_fine (P := fun i => P (i + 1)) (i := i) (Q := Q) ha.2 hm hs
    simp only [States.stepAt]
    cases h : States.stepAt ms ss i v with
    | error p => rw [h] at this; exact this
    | ok q => rw [h] at this; exact ⟨this.1, ha.1, this.2⟩

end Chandeliers.San
