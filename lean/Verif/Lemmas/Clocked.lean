import Verif.Spec.Clocked
import Verif.Lemmas.Presence
import Verif.Lemmas.Lustre

/-! # Clocked streams: the compiled expressions of the universal mode -/

set_option autoImplicit false
set_option linter.unusedSectionVars false

namespace Chandeliers.Uni
open Chandeliers.San Chandeliers.Spec Chandeliers.Den Chandeliers.Pres

/-! ## Reference semantics of compiled expressions -/

/-- Whether a guard is open. -/
def openedX (X : String → Nat → Nillable Scalar) (b : Bool) : Expr → Nat → Bool
  | .var x _, t => Nillable.isBool b (X x t)
  | _, _ => false

mutual
/-- `clockedOn` of compiled expressions. -/
def onX (X : String → Nat → Nillable Scalar) (D : String → Clock) : Expr → Nat → Bool
  | .lit _, _ => true
  | .global _, _ => true
  | .var x _, t => due X (D x) t
  | .tuple es, t => onXs X D es t
  | .dummyPre e, t => onX X D e t
  | .dummyParen e, t => onX X D e t
  | .bin _ l r, t => onX X D l t && onX X D r t
  | .un _ e, t => onX X D e t
  | .cmp _ l r, t => onX X D l t && onX X D r t
  | .clock op _ b, t => openedX X (op == .when) b t
  | .later _ b _, t => onX X D b t
  | .fetchPre _ f, t => onX X D f t
  | .fetchFby _ i _, t => onX X D i t
  | .flip _ i _, t => onX X D i t
  | .ifx b y n, t => onX X D b t && (onX X D y t && onX X D n t)
  | .merge b _ _, t => onX X D b t
  | .substep _ _ a, t => onX X D a t
/-- All of them. -/
def onXs (X : String → Nat → Nillable Scalar) (D : String → Clock) : List Expr → Nat → Bool
  | [], _ => true
  | e :: es, t => onX X D e t && onXs X D es t
end

section
variable (A : Arith) (glob : Globals) (ms : List Machine) (X : String → Nat → Nillable Scalar)
  (D : String → Clock)

mutual
/-- `clocked` of compiled expressions. -/
def valX : Expr → Nat → Option Value
  | .lit l, _ => some (.leaf (.defined l.scalar))
  | .global x, _ => (glob x).map fun v => .leaf (.defined v)
  | .var x _, t => whole (.leaf (X x t))
  | .tuple es, t => do return tupleValue (← valXs es t)
  | .dummyPre e, t => valX e t
  | .dummyParen e, t => valX e t
  | .bin op l r, t => do applyBin A op (← valX l t) (← valX r t)
  | .un op e, t => do applyUn A op (← valX e t)
  | .cmp op l r, t => do whole (← applyCmp A op (← valX l t) (← valX r t))
  | .clock op e b, t => if openedX X (op == .when) b t then valX e t else none
  | .later _ _ _, _ => none
  | .fetchPre _ f, t =>
    match lastBefore (onX X D f) t with
    | none => none
    | some u => valX f u
  | .fetchFby _ i f, t =>
    match lastBefore (onX X D i) t with
    | none => valX i t
    | some u => valX f u
  | .flip _ i c, t =>
    match lastBefore (onX X D i) t with
    | none => valX i t
    | some _ => valX c t
  | .ifx b y n, t => do
    match ← condition (← valX b t) with
    | .defined true => valX y t
    | .defined false => valX n t
    | .nil => none
  | .merge b y n, t => do
    match ← condition (← valX b t) with
    | .defined true => valX y t
    | .defined false => valX n t
    | .nil => none
  | .substep _ i args, t =>
    match ms[i]? with
    | none => none
    | some m => clockedCall m (onX X D args) (valX args) t
/-- Component-wise. -/
def valXs : List Expr → Nat → Option (List Value)
  | [], _ => some []
  | e :: es, t => do return (← valX e t) :: (← valXs es t)
end

end

/-- A variable is nil when it is not due. -/
def Absent (X : String → Nat → Nillable Scalar) (D : String → Clock) (x : String) (t : Nat) : Prop :=
  due X (D x) t = false → X x t = .nil

section
variable (A : Arith) (glob : Globals) (ms : List Machine) (F : Flow) (D : String → Clock)

mutual
/-- What is asked of an expression at instant `t`, for its code to agree with the reference: it
has no past but in registers and flips; registers step when what they keep is present; guards are
variables; operands are present together where they should; and the left-hand side of a `->` is
initialised.  What is kept in a register is only asked this at the instants before. -/
def Tidy : Expr → Nat → Prop
  | .lit _, _ => True
  | .global _, _ => True
  | .var x d, t => d = 0 ∧ Absent F.X D x t
  | .tuple es, t => TidyList es t ∧ ∀ e ∈ es, onX F.X D e t = onXs F.X D es t
  | .dummyPre e, t => Tidy e t
  | .dummyParen e, t => Tidy e t
  | .bin _ l r, t => Tidy l t ∧ Tidy r t
  | .un _ e, t => Tidy e t
  | .cmp _ l r, t => Tidy l t ∧ Tidy r t
  | .clock op e b, t => (∃ x, b = .var x 0) ∧ Tidy e t ∧
      (openedX F.X (op == .when) b t = true → onX F.X D e t = true)
  | .later _ _ _, _ => False
  | .fetchPre id f, t => (∀ u, u ≤ t → F.C id u = onX F.X D f u) ∧ ∀ u, u < t → Tidy f u
  | .fetchFby id i f, t => (∀ u, u ≤ t → F.C id u = onX F.X D f u) ∧
      (∀ u, u ≤ t → onX F.X D i u = onX F.X D f u) ∧ (∀ u, u ≤ t → Tidy i u) ∧
      ∀ u, u < t → Tidy f u
  | .flip _ i c, t => (∀ u, u ≤ t → Tidy i u) ∧
      (∀ u, u ≤ t → onX F.X D i u = true → (valX A glob ms F.X D i u).isSome) ∧ Tidy c t ∧
      onX F.X D c t = onX F.X D i t
  | .ifx b y n, t => Tidy b t ∧ Tidy y t ∧ Tidy n t ∧
      (onX F.X D b t = true → onX F.X D y t = onX F.X D n t)
  | .merge b y n, t => (∃ x, b = .var x 0 ∧ Absent F.X D x t) ∧ Tidy y t ∧ Tidy n t ∧
      (openedX F.X true b t = true → onX F.X D y t = true) ∧
      (openedX F.X false b t = true → onX F.X D n t = true)
  | .substep d _ a, t => d = 0 ∧ ∀ u, u ≤ t → Tidy a u
/-- All of them. -/
def TidyList : List Expr → Nat → Prop
  | [], _ => True
  | e :: es, t => Tidy e t ∧ TidyList es t
end

end

/-! ## Values -/

theorem whole_some {v w : Value} : whole v = some w ↔ v = w ∧ Full v := by
  have : (v.leaves.all Nillable.has = true) ↔ Full v := by
    rw [List.all_eq_true]
    refine forall₂_congr fun l _ => ?_
    cases l <;> simp [Nillable.has]
  unfold whole
  by_cases h : Full v
  · rw [if_pos (this.2 h)]; simp [h]
  · rw [if_neg (fun h' => h (this.1 h'))]; simp [h]

theorem applyBin_full {A : Arith} {op : BinOp} {a b w : Value} (ha : Full a) (hb : Full b)
    (h : applyBin A op a b = some w) : Full w := by
  cases a with
  | tup => cases h
  | leaf a =>
    cases b with
    | tup => cases h
    | leaf b =>
      have ha := full_leaf.1 ha
      have hb := full_leaf.1 hb
      simp only [applyBin] at h
      cases a with
      | nil => exact absurd rfl ha
      | defined a =>
        cases b with
        | nil => exact absurd rfl hb
        | defined b =>
          simp only [Nillable.binop] at h
          obtain ⟨c, h1, rfl⟩ := Option.map_eq_some_iff.1 h
          cases hs : scalarBin A op a b with
          | error p => rw [hs] at h1; cases h1
          | ok c' => rw [hs] at h1; cases h1; exact full_leaf.2 (by simp)

theorem applyUn_full {A : Arith} {op : UnOp} {a w : Value} (ha : Full a)
    (h : applyUn A op a = some w) : Full w := by
  cases a with
  | tup => cases h
  | leaf a =>
    have ha := full_leaf.1 ha
    simp only [applyUn] at h
    cases a with
    | nil => exact absurd rfl ha
    | defined a =>
      simp only [Nillable.unop] at h
      obtain ⟨c, h1, rfl⟩ := Option.map_eq_some_iff.1 h
      cases hs : scalarUn A op a with
      | error p => rw [hs] at h1; cases h1
      | ok c' => rw [hs] at h1; cases h1; exact full_leaf.2 (by simp)

section
variable {A : Arith} {glob : Globals} {ms : List Machine} {X : String → Nat → Nillable Scalar}
  {D : String → Clock}

mutual
/-- The reference only has complete values. -/
theorem valX_full : (e : Expr) → ∀ {t : Nat} {v : Value}, valX A glob ms X D e t = some v → Full v
  | .lit l, t, v, h => by cases h; exact full_leaf.2 (by simp)
  | .global x, t, v, h => by
    obtain ⟨a, -, rfl⟩ := Option.map_eq_some_iff.1 h
    exact full_leaf.2 (by simp)
  | .var x d, t, v, h => by
    obtain ⟨rfl, hw⟩ := whole_some.1 h
    exact hw
  | .tuple es, t, v, h => by
    obtain ⟨vs, h1, h2⟩ := some_bind.1 h
    cases h2
    exact full_tupleValue (valXs_full es h1)
  | .dummyPre e, t, v, h => valX_full e (t := t) h
  | .dummyParen e, t, v, h => valX_full e (t := t) h
  | .bin op l r, t, v, h => by
    obtain ⟨a, h1, h⟩ := some_bind.1 h
    obtain ⟨b, h2, h⟩ := some_bind.1 h
    exact applyBin_full (valX_full l h1) (valX_full r h2) h
  | .un op e, t, v, h => by
    obtain ⟨a, h1, h⟩ := some_bind.1 h
    exact applyUn_full (valX_full e h1) h
  | .cmp op l r, t, v, h => by
    obtain ⟨a, h1, h⟩ := some_bind.1 h
    obtain ⟨b, h2, h⟩ := some_bind.1 h
    obtain ⟨c, h3, h⟩ := some_bind.1 h
    obtain ⟨rfl, hw⟩ := whole_some.1 h
    exact hw
  | .clock op e b, t, v, h => by
    unfold valX at h
    split at h
    · exact valX_full e h
    · cases h
  | .later _ _ _, t, v, h => by cases h
  | .fetchPre _ f, t, v, h => by
    unfold valX at h
    split at h
    · cases h
    · exact valX_full f h
  | .fetchFby _ i f, t, v, h => by
    unfold valX at h
    split at h
    · exact valX_full i h
    · exact valX_full f h
  | .flip _ i c, t, v, h => by
    unfold valX at h
    split at h
    · exact valX_full i h
    · exact valX_full c h
  | .ifx b y n, t, v, h => by
    unfold valX at h
    obtain ⟨b', h1, h⟩ := some_bind.1 h
    obtain ⟨c, h2, h⟩ := some_bind.1 h
    split at h
    · exact valX_full y h
    · exact valX_full n h
    · cases h
  | .merge b y n, t, v, h => by
    unfold valX at h
    obtain ⟨b', h1, h⟩ := some_bind.1 h
    obtain ⟨c, h2, h⟩ := some_bind.1 h
    split at h
    · exact valX_full y h
    · exact valX_full n h
    · cases h
  | .substep _ i a, t, v, h => by
    unfold valX at h
    split at h
    · cases h
    · unfold clockedCall at h
      obtain ⟨_, h1, h⟩ := some_bind.1 h
      obtain ⟨_, h2, h⟩ := some_bind.1 h
      obtain ⟨_, h3, h⟩ := some_bind.1 h
      obtain ⟨rfl, hw⟩ := whole_some.1 h
      exact hw
/-- Component-wise. -/
theorem valXs_full : (es : List Expr) → ∀ {t : Nat} {vs : List Value},
    valXs A glob ms X D es t = some vs → ∀ v ∈ vs, Full v
  | [], t, vs, h => by cases h; simp
  | e :: es, t, vs, h => by
    obtain ⟨v, h1, h⟩ := some_bind.1 h
    obtain ⟨vs', h2, h⟩ := some_bind.1 h
    cases h
    intro w hw
    rcases List.mem_cons.1 hw with rfl | hw
    · exact valX_full e h1
    · exact valXs_full es h2 w hw
end

end

/-! ## Registers, flips and calls -/

/-- Nil when off, and equal to the reference, where it is initialised, when on. -/
def Agrees (on : Bool) (ref : Option Value) (v : Value) : Prop :=
  (on = false → Blank v) ∧ (on = true → ∀ w, ref = some w → v = w)

theorem lastBefore_some {on : Nat → Bool} : ∀ {t u : Nat}, lastBefore on t = some u →
    u < t ∧ on u = true
  | 0, u, h => by cases h
  | t + 1, u, h => by
    unfold lastBefore at h
    split at h
    · cases h; exact ⟨by omega, by assumption⟩
    · obtain ⟨h1, h2⟩ := lastBefore_some h
      exact ⟨by omega, h2⟩

theorem lastBefore_none {on : Nat → Bool} : ∀ {t : Nat}, lastBefore on t = none →
    ∀ u, u < t → on u = false
  | 0, _, u, hu => by omega
  | t + 1, h, u, hu => by
    unfold lastBefore at h
    split at h
    · cases h
    · rename_i hn
      by_cases e : u = t
      · subst e; simpa using hn
      · exact lastBefore_none h u (by omega)

theorem lastBefore_congr {on on' : Nat → Bool} : ∀ {t : Nat}, (∀ u, u < t → on u = on' u) →
    lastBefore on t = lastBefore on' t
  | 0, _ => rfl
  | t + 1, h => by
    unfold lastBefore
    rw [h t (by omega), lastBefore_congr fun u hu => h u (by omega)]

section
variable {F : Flow} {id : Nat} {on : Nat → Bool} {ref : Nat → Option Value}
  {next init : Nat → R Value}

theorem preReg_clocked (hv : ∀ u v, ref u = some v → Full v) :
    ∀ {t : Nat} {r : Register Scalar}, preReg F id next t = .ok r →
    (∀ u, u < t → ∀ v, next u = .ok v → Agrees (on u) (ref u) v) →
    ∀ u, lastBefore on t = some u → ∀ w, ref u = some w → r.inner = w ∧ r.next = w
  | 0, r, _, _, u, h, _, _ => by cases h
  | t + 1, r, h, hn, u, hl, w, hw => by
    unfold preReg at h
    rw [iter_succ (by omega)] at h
    obtain ⟨r₁, h1, h⟩ := ok_bind.1 h
    obtain ⟨v, h2, h⟩ := ok_bind.1 h
    cases h
    have hag := hn t (by omega) v h2
    unfold lastBefore at hl
    by_cases ho : on t = true
    · rw [if_pos ho] at hl
      cases hl
      have := hag.2 ho w hw
      subst this
      have hf := full_present (hv t v hw)
      simp [Register.preStep, Register.schedule, Register.commit, hf]
    · rw [if_neg ho] at hl
      have hb := blank_absent (hag.1 (by simpa using ho))
      obtain ⟨k1, k2⟩ := preReg_clocked hv h1 (fun u hu => hn u (by omega)) u hl w hw
      simp [Register.preStep, Register.schedule, Register.commit, Register.clocked, hb, k2]

theorem fbyReg_clocked (hv : ∀ u v, ref u = some v → Full v) :
    ∀ {t : Nat} {r : Register Scalar}, fbyReg F id init next t = .ok r →
    (∀ u, u < t → ∀ v, next u = .ok v → Agrees (on u) (ref u) v) →
    (lastBefore on t = none → r.inner.firstIsNil = true ∧ r.next.firstIsNil = true) ∧
    ∀ u, lastBefore on t = some u → ∀ w, ref u = some w → r.inner = w ∧ r.next = w
  | 0, r, h, _ => by
    cases h
    exact ⟨fun _ => ⟨blank_absent (blank_allNil _), blank_absent (blank_allNil _)⟩,
      fun u h => by cases h⟩
  | t + 1, r, h, hn => by
    unfold fbyReg at h
    rw [iter_succ (by omega)] at h
    obtain ⟨r₁, h1, h⟩ := ok_bind.1 h
    obtain ⟨i, h3, h⟩ := ok_bind.1 h
    obtain ⟨v, h2, h⟩ := ok_bind.1 h
    cases h
    have hag := hn t (by omega) v h2
    obtain ⟨k1, k2⟩ := fbyReg_clocked hv h1 (fun u hu => hn u (by omega))
    have hin : (Register.fbyStep (F.C id t) i v r₁).inner =
        (Register.fbyStep (F.C id t) i v r₁).next := by
      simp [Register.fbyStep, Register.commit]
    have hnx : (Register.fbyStep (F.C id t) i v r₁).next =
        if v.firstIsNil then r₁.next else v := by
      unfold Register.fbyStep Register.commit Register.schedule Register.tryInitialize
        Register.clocked
      by_cases hv : v.firstIsNil = true <;> by_cases hi : r₁.inner.firstIsNil = true <;> simp [hv, hi]
    rw [hin, hnx]
    unfold lastBefore
    by_cases ho : on t = true
    · rw [if_pos ho]
      refine ⟨fun h => by (cases h), fun u hu w hw => ?_⟩
      cases hu
      have := hag.2 ho w hw
      subst this
      rw [full_present (hv t v hw)]
      exact ⟨rfl, rfl⟩
    · rw [if_neg ho, blank_absent (hag.1 (by simpa using ho))]
      exact ⟨fun h => ⟨(k1 h).2, (k1 h).2⟩, fun u hu w hw => ⟨(k2 u hu w hw).2, (k2 u hu w hw).2⟩⟩

theorem flipFresh_clocked : ∀ {t : Nat} {b : Bool}, flipFresh init 0 t = .ok b →
    (∀ u, u < t → ∀ v, init u = .ok v → v.firstIsNil = !on u) →
    b = (lastBefore on t).isNone
  | 0, b, h, _ => by cases h; rfl
  | t + 1, b, h, hn => by
    unfold flipFresh at h
    rw [iter_succ (by omega)] at h
    obtain ⟨b₁, h1, h⟩ := ok_bind.1 h
    obtain ⟨v, h2, h⟩ := ok_bind.1 h
    cases h
    have := flipFresh_clocked h1 (fun u hu => hn u (by omega))
    rw [hn t (by omega) v h2, this]
    rw [show lastBefore on (t + 1) = if on t then some t else lastBefore on t from rfl]
    cases on t <;> simp

theorem subState_clocked {m : Machine} (hm : Idle m) : ∀ {t : Nat} {s : m.σ},
    subState m next 0 t = .ok s → (∀ u, u < t → ∀ v, next u = .ok v → Agrees (on u) (ref u) v) →
    ∀ as, pastValues on ref t = some as → ∃ os, m.runFrom m.init as = .ok (os, s)
  | 0, s, h, _, as, ha => by
    cases h
    cases ha
    exact ⟨[], rfl⟩
  | t + 1, s, h, hn, as, ha => by
    unfold subState at h
    rw [iter_succ (by omega)] at h
    obtain ⟨s₁, h1, h⟩ := ok_bind.1 h
    obtain ⟨v, h2, h⟩ := ok_bind.1 h
    obtain ⟨⟨o, s₂⟩, h3, h⟩ := ok_bind.1 h
    cases h
    have hag := hn t (by omega) v h2
    unfold pastValues at ha
    obtain ⟨as₁, e1, ha⟩ := some_bind.1 ha
    obtain ⟨os, ih⟩ := subState_clocked hm h1 (fun u hu => hn u (by omega)) as₁ e1
    by_cases ho : on t = true
    · rw [if_pos ho] at ha
      obtain ⟨w, e2, ha⟩ := some_bind.1 ha
      cases ha
      have := hag.2 ho w e2
      subst this
      refine ⟨os ++ [o], ?_⟩
      rw [runFrom_append, ih]
      simp only [bind, Except.bind]
      rw [runFrom_single, h3]
      rfl
    · rw [if_neg ho] at ha
      cases ha
      rw [hm _ _ (blank_absent (hag.1 (by simpa using ho)))] at h3
      cases h3
      exact ⟨os, ih⟩

theorem call_clocked {m : Machine} (hm : Idle m) {t : Nat} {s s' : m.σ} {v o : Value}
    (hs : subState m next 0 t = .ok s) (hv : next t = .ok v) (ho : m.step s v = .ok (o, s'))
    (hn : ∀ u, u ≤ t → ∀ v, next u = .ok v → Agrees (on u) (ref u) v) :
    Agrees (on t) (clockedCall m on ref t) o := by
  have hag := hn t (Nat.le_refl _) v hv
  refine ⟨fun h => ?_, fun h w hw => ?_⟩
  · rw [hm _ _ (blank_absent (hag.1 h))] at ho
    cases ho
    exact blank_allNil _
  · unfold clockedCall at hw
    obtain ⟨as, e1, hw⟩ := some_bind.1 hw
    obtain ⟨os, e2, hw⟩ := some_bind.1 hw
    obtain ⟨o', e3, hw⟩ := some_bind.1 hw
    obtain ⟨rfl, -⟩ := whole_some.1 hw
    unfold pastValues at e1
    obtain ⟨as₁, e4, e1⟩ := some_bind.1 e1
    rw [if_pos h] at e1
    obtain ⟨v', e5, e1⟩ := some_bind.1 e1
    cases e1
    have := hag.2 h v' e5
    subst this
    obtain ⟨os₁, e6⟩ := subState_clocked hm hs (fun u hu => hn u (by omega)) as₁ e4
    rw [toOption_some] at e2
    unfold Machine.run at e2
    rw [runFrom_append, e6] at e2
    simp only [bind, Except.bind] at e2
    rw [runFrom_single, ho] at e2
    cases e2
    simpa using e3

end

/-! ## Operators -/

theorem applyBin_agrees {A : Arith} {op : BinOp} {o o' : Bool} {r r' : Option Value} {a b v : Value}
    (ha : Agrees o r a) (hb : Agrees o' r' b) (h : applyBin A op a b = some v) :
    Agrees (o && o') (do applyBin A op (← r) (← r')) v := by
  constructor
  · intro ho
    cases a with
    | tup => cases h
    | leaf a =>
    cases b with
    | tup => cases h
    | leaf b =>
    have : a = .nil ∨ b = .nil := by
      cases o with
      | false => exact .inl (blank_leaf.1 (ha.1 rfl))
      | true => exact .inr (blank_leaf.1 (hb.1 (by simpa using ho)))
    rcases this with rfl | rfl
    · cases b <;> cases h <;> exact blank_leaf.2 rfl
    · cases a <;> cases h <;> exact blank_leaf.2 rfl
  · intro ho w hw
    obtain ⟨a', h1, hw⟩ := some_bind.1 hw
    obtain ⟨b', h2, hw⟩ := some_bind.1 hw
    simp only [Bool.and_eq_true] at ho
    have e1 := ha.2 ho.1 a' h1
    have e2 := hb.2 ho.2 b' h2
    subst e1
    subst e2
    rw [h] at hw
    cases hw
    rfl

theorem applyCmp_agrees {A : Arith} {op : CmpOp} {o o' : Bool} {r r' : Option Value} {a b v : Value}
    (ha : Agrees o r a) (hb : Agrees o' r' b) (h : applyCmp A op a b = some v) :
    Agrees (o && o') (do whole (← applyCmp A op (← r) (← r'))) v := by
  constructor
  · intro ho
    cases a with
    | tup => cases h
    | leaf a =>
    cases b with
    | tup => cases h
    | leaf b =>
    have hn : a = .nil ∨ b = .nil := by
      cases o with
      | false => exact .inl (blank_leaf.1 (ha.1 rfl))
      | true => exact .inr (blank_leaf.1 (hb.1 (by simpa using ho)))
    simp only [applyCmp] at h
    obtain ⟨c, h1, rfl⟩ := Option.map_eq_some_iff.1 h
    exact blank_leaf.2 (cmp_blank (toOption_some.1 h1) hn)
  · intro ho w hw
    obtain ⟨a', h1, hw⟩ := some_bind.1 hw
    obtain ⟨b', h2, hw⟩ := some_bind.1 hw
    obtain ⟨c, h3, hw⟩ := some_bind.1 hw
    obtain ⟨rfl, -⟩ := whole_some.1 hw
    simp only [Bool.and_eq_true] at ho
    have e1 := ha.2 ho.1 a' h1
    have e2 := hb.2 ho.2 b' h2
    subst e1
    subst e2
    rw [h] at h3
    cases h3
    rfl

theorem applyUn_agrees {A : Arith} {op : UnOp} {o : Bool} {r : Option Value} {a v : Value}
    (ha : Agrees o r a) (h : applyUn A op a = some v) :
    Agrees o (do applyUn A op (← r)) v := by
  constructor
  · intro ho
    cases a with
    | tup => cases h
    | leaf a =>
    cases blank_leaf.1 (ha.1 ho)
    cases h
    exact blank_leaf.2 rfl
  · intro ho w hw
    obtain ⟨a', h1, hw⟩ := some_bind.1 hw
    have e1 := ha.2 ho a' h1
    subst e1
    rw [h] at hw
    cases hw
    rfl

theorem isBool_true {v : Nillable Scalar} {b : Bool} :
    Nillable.isBool b v = true ↔ v = .defined (.bool b) := by
  unfold Nillable.isBool
  split
  · rename_i c
    simp
  · rename_i h
    simp only [Bool.false_eq_true, false_iff]
    exact h b

theorem asBool_leaf {l : Nillable Scalar} {b : Nillable Bool} (h : asBool (.leaf l) = .ok b) :
    (l = .nil ∧ b = .nil) ∨ ∃ c, l = .defined (.bool c) ∧ b = .defined c := by
  unfold asBool at h
  split at h
  · rename_i e
    cases h; cases e; exact .inl ⟨rfl, rfl⟩
  · rename_i c e
    cases h; cases e; exact .inr ⟨c, rfl, rfl⟩
  · cases h

/-! ## Expressions -/

section
variable {A : Arith} {glob : Globals} {ms : List Machine} {F : Flow} {D : String → Clock}

mutual
/-- The code of an expression agrees with the reference. -/
theorem den_clocked (hm : ∀ m ∈ ms, Idle m) : (e : Expr) → ∀ {t : Nat} {v : Value},
    Tidy A glob ms F D e t → den A glob ms F 0 e t = .ok v →
    Agrees (onX F.X D e t) (valX A glob ms F.X D e t) v
  | .lit l, t, v, _, h => by
    cases h
    exact ⟨fun h => (by cases h), fun _ w hw => (by cases hw; rfl)⟩
  | .global x, t, v, _, h => by
    unfold den at h
    refine ⟨fun h => (by cases h), fun _ w hw => ?_⟩
    obtain ⟨a, h1, rfl⟩ := Option.map_eq_some_iff.1 hw
    rw [h1] at h
    cases h
    rfl
  | .var x d, t, v, ht, h => by
    obtain ⟨rfl, ha⟩ := ht
    cases h
    simp only [Nat.not_lt_zero, if_false, Nat.sub_zero]
    refine ⟨fun h => blank_leaf.2 (ha h), fun _ w hw => ?_⟩
    exact (whole_some.1 hw).1
  | .tuple es, t, v, ht, h => by
    unfold den at h
    obtain ⟨vs, h1, h⟩ := ok_bind.1 h
    cases h
    obtain ⟨ht1, ht2⟩ := ht
    obtain ⟨k1, k2⟩ := denList_clocked hm es ht1 h1
    refine ⟨fun ho => ?_, fun ho w hw => ?_⟩
    · have hb := k1 fun e he => (ht2 e he).trans ho
      cases es with
      | nil => cases ho
      | cons e es =>
        unfold denList at h1
        obtain ⟨v, _, h1⟩ := ok_bind.1 h1
        obtain ⟨vs', _, h1⟩ := ok_bind.1 h1
        cases h1
        exact blank_tupleValue hb
    · obtain ⟨ws, h2, hw⟩ := some_bind.1 hw
      cases hw
      rw [k2 (fun e he => (ht2 e he).trans ho) ws h2]
  | .dummyPre e, t, v, ht, h => by
    have := den_clocked hm e (t := t) (v := v) ht (by simpa [den] using h)
    simpa [onX, valX] using this
  | .dummyParen e, t, v, ht, h => by
    have := den_clocked hm e (t := t) (v := v) ht (by simpa [den] using h)
    simpa [onX, valX] using this
  | .bin op l r, t, v, ht, h => by
    unfold den at h
    obtain ⟨a, h1, h⟩ := ok_bind.1 h
    obtain ⟨b, h2, h⟩ := ok_bind.1 h
    have h3 : applyBin A op a b = some v := by rw [← toOption_bin, toOption_some]; exact h
    have := applyBin_agrees (den_clocked hm l ht.1 h1) (den_clocked hm r ht.2 h2) h3
    simpa [onX, valX] using this
  | .un op e, t, v, ht, h => by
    unfold den at h
    obtain ⟨a, h1, h⟩ := ok_bind.1 h
    have h3 : applyUn A op a = some v := by rw [← toOption_un, toOption_some]; exact h
    have := applyUn_agrees (den_clocked hm e (t := t) (v := a) ht h1) h3
    simpa [onX, valX] using this
  | .cmp op l r, t, v, ht, h => by
    unfold den at h
    obtain ⟨a, h1, h⟩ := ok_bind.1 h
    obtain ⟨b, h2, h⟩ := ok_bind.1 h
    have h3 : applyCmp A op a b = some v := by rw [← toOption_cmp, toOption_some]; exact h
    have := applyCmp_agrees (den_clocked hm l ht.1 h1) (den_clocked hm r ht.2 h2) h3
    simpa [onX, valX] using this
  | .clock op e b, t, v, ht, h => by
    obtain ⟨⟨x, rfl⟩, ht1, ht2⟩ := ht
    unfold den at h
    obtain ⟨b', h1, h⟩ := ok_bind.1 h
    obtain ⟨c, h2, h⟩ := ok_bind.1 h
    obtain ⟨a, h3, h⟩ := ok_bind.1 h
    cases h1
    simp only [Nat.not_lt_zero, if_false, Nat.sub_zero] at h2
    have ih := den_clocked hm e ht1 h3
    simp only [openedX] at ht2
    simp only [onX, valX, openedX]
    refine ⟨fun ho => ?_, fun ho w hw => ?_⟩
    · have hne : F.X x t ≠ .defined (.bool (op == .when)) := fun e => by
        rw [isBool_true.2 e] at ho; cases ho
      rcases asBool_leaf h2 with ⟨e1, rfl⟩ | ⟨c', e1, rfl⟩
      · cases op <;> cases h <;> exact blank_nilLike _
      · rw [e1] at hne
        cases op <;> cases c'
        · cases h; exact blank_nilLike _
        · exact absurd rfl hne
        · exact absurd rfl hne
        · cases h; exact blank_nilLike _
    · simp only [ho, if_true] at hw
      have e1 := isBool_true.1 ho
      rw [e1] at h2
      have := ih.2 (ht2 ho) w hw
      subst this
      cases op <;> cases h2 <;> cases h <;> rfl
  | .later _ _ _, t, v, ht, h => ht.elim
  | .fetchPre id f, t, v, ht, h => by
    obtain ⟨ht1, ht2⟩ := ht
    unfold den at h
    obtain ⟨r, h1, h⟩ := ok_bind.1 h
    cases h
    have hr := preReg_clocked (on := onX F.X D f) (ref := valX A glob ms F.X D f)
      (fun u v h => valX_full f h) h1 (fun u hu v hv => den_clocked hm f (ht2 u hu) hv)
    simp only [onX, valX]
    rw [ht1 t (Nat.le_refl _)]
    refine ⟨fun ho => ?_, fun ho w hw => ?_⟩
    · rw [ho]
      exact blank_nilLike _
    · rw [ho]
      split at hw
      · cases hw
      · rename_i u hu
        exact (hr u hu w hw).1
  | .fetchFby id i f, t, v, ht, h => by
    obtain ⟨ht1, ht2, ht3, ht4⟩ := ht
    unfold den at h
    obtain ⟨r, h1, h⟩ := ok_bind.1 h
    obtain ⟨a, h2, h⟩ := ok_bind.1 h
    cases h
    have hr := fbyReg_clocked (on := onX F.X D f) (ref := valX A glob ms F.X D f)
      (fun u v h => valX_full f h) h1 (fun u hu v hv => den_clocked hm f (ht4 u hu) hv)
    have hi := den_clocked hm i (ht3 t (Nat.le_refl _)) h2
    simp only [onX, valX]
    rw [ht1 t (Nat.le_refl _), ← ht2 t (Nat.le_refl _),
      lastBefore_congr fun u hu => ht2 u (Nat.le_of_lt hu)]
    refine ⟨fun ho => ?_, fun ho w hw => ?_⟩
    · rw [ho]
      have : ((Register.clocked false r).tryInitialize a).onClock = false := by
        unfold Register.tryInitialize Register.clocked
        split <;> rfl
      unfold Register.get
      rw [this]
      exact blank_nilLike _
    · rw [ho]
      have hon : ((Register.clocked true r).tryInitialize a).onClock = true := by
        unfold Register.tryInitialize Register.clocked
        split <;> rfl
      unfold Register.get
      rw [if_pos hon]
      unfold Register.tryInitialize Register.clocked
      split at hw
      · rename_i hu
        rw [if_pos (hr.1 hu).1]
        exact hi.2 ho w hw
      · rename_i u hu
        have := (hr.2 u hu w hw).1
        rw [if_neg (by simp [this, full_present (valX_full f hw)])]
        exact this
  | .flip _ i c, t, v, ht, h => by
    obtain ⟨ht1, ht2, ht3, ht4⟩ := ht
    unfold den at h
    obtain ⟨a, h1, h⟩ := ok_bind.1 h
    obtain ⟨b, h2, h⟩ := ok_bind.1 h
    have hi : ∀ u, u ≤ t → ∀ v, den A glob ms F 0 i u = .ok v →
        v.firstIsNil = !onX F.X D i u := by
      intro u hu v hv
      have := den_clocked hm i (ht1 u hu) hv
      cases ho : onX F.X D i u with
      | false => exact blank_absent (this.1 ho)
      | true =>
        obtain ⟨w, hw⟩ := Option.isSome_iff_exists.1 (ht2 u hu ho)
        have e := this.2 ho w hw
        subst e
        exact full_present (valX_full i hw)
    have ha := den_clocked hm i (ht1 t (Nat.le_refl _)) h1
    have hc := den_clocked hm c ht3 h2
    simp only [onX, valX]
    have hnil := hi t (Nat.le_refl _) a h1
    refine ⟨fun ho => ?_, fun ho w hw => ?_⟩
    · rw [ho] at hnil
      rw [hnil] at h
      cases h
      exact blank_nilLike _
    · rw [ho] at hnil
      rw [hnil] at h
      simp only [Bool.not_true, Bool.false_eq_true, if_false] at h
      obtain ⟨fr, h3, h⟩ := ok_bind.1 h
      cases h
      rw [flipFresh_clocked h3 fun u hu => hi u (Nat.le_of_lt hu)]
      split at hw
      · rename_i hu
        rw [hu]
        exact ha.2 ho w hw
      · rename_i u hu
        rw [hu]
        exact hc.2 (ht4.trans ho) w hw
  | .ifx b y n, t, v, ht, h => by
    obtain ⟨ht1, ht2, ht3, ht4⟩ := ht
    unfold den at h
    obtain ⟨y', h2, h⟩ := ok_bind.1 h
    obtain ⟨n', h3, h⟩ := ok_bind.1 h
    obtain ⟨b', h1, h⟩ := ok_bind.1 h
    obtain ⟨c, h4, h⟩ := ok_bind.1 h
    cases h
    have hb := den_clocked hm b ht1 h1
    have hy := den_clocked hm y ht2 h2
    have hn := den_clocked hm n ht3 h3
    simp only [onX, valX]
    refine ⟨fun ho => ?_, fun ho w hw => ?_⟩
    · cases hob : onX F.X D b t with
      | false =>
        have hbl := hb.1 hob
        cases b' with
        | tup => cases h4
        | leaf l =>
          cases blank_leaf.1 hbl
          cases h4
          exact blank_nilLike _
      | true =>
        have hyn := ht4 hob
        rw [hob, ← hyn] at ho
        have hoy : onX F.X D y t = false := by simpa using ho
        unfold Candle.ifx
        split
        · exact hy.1 hoy
        · exact hn.1 (hyn ▸ hoy)
        · exact blank_nilLike _
    · simp only [Bool.and_eq_true] at ho
      obtain ⟨bw, e1, hw⟩ := some_bind.1 hw
      obtain ⟨cw, e2, hw⟩ := some_bind.1 hw
      have := hb.2 ho.1 bw e1
      subst this
      rw [← toOption_asBool, h4] at e2
      cases e2
      unfold Candle.ifx
      split at hw
      · exact hy.2 ho.2.1 w hw
      · exact hn.2 ho.2.2 w hw
      · cases hw
  | .merge b y n, t, v, ht, h => by
    obtain ⟨⟨x, rfl, ht1⟩, ht2, ht3, ht4, ht5⟩ := ht
    unfold den at h
    obtain ⟨b', h1, h⟩ := ok_bind.1 h
    obtain ⟨c, h4, h⟩ := ok_bind.1 h
    obtain ⟨y', h2, h⟩ := ok_bind.1 h
    obtain ⟨n', h3, h⟩ := ok_bind.1 h
    cases h
    cases h1
    simp only [Nat.not_lt_zero, if_false, Nat.sub_zero] at h4
    have hy := den_clocked hm y ht2 h2
    have hn := den_clocked hm n ht3 h3
    simp only [openedX] at ht4 ht5
    simp only [onX, valX]
    refine ⟨fun ho => ?_, fun ho w hw => ?_⟩
    · rw [ht1 ho] at h4
      cases h4
      exact blank_nilLike _
    · obtain ⟨bw, e1, hw⟩ := some_bind.1 hw
      obtain ⟨cw, e2, hw⟩ := some_bind.1 hw
      obtain ⟨rfl, -⟩ := whole_some.1 e1
      rw [← toOption_asBool, h4] at e2
      cases e2
      unfold Candle.merge
      rcases asBool_leaf h4 with ⟨e3, rfl⟩ | ⟨c', e3, rfl⟩
      · cases hw
      · cases c' with
        | true => exact hy.2 (ht4 (isBool_true.2 e3)) w hw
        | false => exact hn.2 (ht5 (isBool_true.2 e3)) w hw
  | .substep d i a, t, v, ht, h => by
    obtain ⟨rfl, ht1⟩ := ht
    unfold den at h
    rw [if_pos (Nat.zero_le _)] at h
    simp only [Nat.max_self] at h
    obtain ⟨a', h1, h⟩ := ok_bind.1 h
    simp only [onX, valX]
    cases hi : ms[i]? with
    | none => rw [hi] at h; cases h
    | some m =>
      rw [hi] at h
      simp only at h ⊢
      obtain ⟨s, h2, h⟩ := ok_bind.1 h
      obtain ⟨⟨o, s'⟩, h3, h⟩ := ok_bind.1 h
      cases h
      exact call_clocked (hm m (List.mem_of_getElem? hi)) h2 h1 h3
        fun u hu v hv => den_clocked hm a (ht1 u hu) hv
/-- Component-wise. -/
theorem denList_clocked (hm : ∀ m ∈ ms, Idle m) : (es : List Expr) → ∀ {t : Nat} {vs : List Value},
    TidyList A glob ms F D es t → denList A glob ms F 0 es t = .ok vs →
    ((∀ e ∈ es, onX F.X D e t = false) → ∀ v ∈ vs, Blank v) ∧
    ((∀ e ∈ es, onX F.X D e t = true) → ∀ ws, valXs A glob ms F.X D es t = some ws → vs = ws)
  | [], t, vs, _, h => by
    cases h
    exact ⟨fun _ => by simp, fun _ ws hw => by cases hw; rfl⟩
  | e :: es, t, vs, ht, h => by
    unfold denList at h
    obtain ⟨v, h1, h⟩ := ok_bind.1 h
    obtain ⟨vs', h2, h⟩ := ok_bind.1 h
    cases h
    have he := den_clocked hm e ht.1 h1
    obtain ⟨k1, k2⟩ := denList_clocked hm es ht.2 h2
    refine ⟨fun ho w hw => ?_, fun ho ws hw => ?_⟩
    · rcases List.mem_cons.1 hw with rfl | hw
      · exact he.1 (ho e (by simp))
      · exact k1 (fun e h => ho e (by simp [h])) w hw
    · obtain ⟨w, e1, hw⟩ := some_bind.1 hw
      obtain ⟨ws', e2, hw⟩ := some_bind.1 hw
      cases hw
      rw [he.2 (ho e (by simp)) w e1, k2 (fun e h => ho e (by simp [h])) ws' e2]
end

end

end Chandeliers.Uni
