import Verif.Lemmas.Universal
import Verif.Lemmas.Ready

/-! # With registers, what compiled expressions mean and what they compute -/

set_option autoImplicit false
set_option linter.unusedSectionVars false

namespace Chandeliers.Uni
open Chandeliers.San Chandeliers.Spec Chandeliers.Syn Chandeliers.Den Chandeliers.Pres

theorem lacks_first (v : Value) : lacks v = v.firstIsNil := by
  have h : ∀ v : Value, ∃ l, v.leaves = v.first :: l := by
    intro v
    induction v using Tup.rec (motive_2 := fun _ => True) with
    | leaf a => exact ⟨[], rfl⟩
    | tup h t ih _ =>
      obtain ⟨l, hl⟩ := ih
      exact ⟨l ++ Tup.leavesList t, by simp [Tup.leaves, Tup.first, hl]⟩
    | nil => trivial
    | cons => trivial
  obtain ⟨l, hl⟩ := h v
  unfold lacks Tup.firstIsNil
  rw [hl]
  cases v.first <;> rfl

/-! ## Clocks -/

/-- Whether a clock is on. -/
def clkOn (X : String → Nat → Nillable Scalar) : Clk → Nat → Option Bool
  | .implicit, _ => some true
  | .adaptative, _ => some true
  | .on x, t => isOn true (X x t)
  | .off x, t => isOn false (X x t)

section
variable {X : String → Nat → Nillable Scalar} {D : String → Clock}

theorem due_clk (k : Clock) (t : Nat) : uniDue X k t = clkOn X k.intoClk t := by
  cases k with
  | explicit b x => cases b <;> rfl
  | _ => rfl

theorem clkOn_same {k k' : Clk} (h : SameClk k k') (t : Nat) : clkOn X k t = clkOn X k' t := by
  rcases h with rfl | ⟨h1, h2⟩
  · rfl
  · cases k <;> cases k' <;> first | exact h1.elim | exact h2.elim | rfl

theorem clkOn_meet {k k' : Clk} (h : Compatible k k') (t : Nat) :
    clkOn X (Clk.meet k k') t = both (clkOn X k t) (clkOn X k' t) := by
  rcases h with rfl | rfl | rfl
  · simp [Clk.meet, clkOn, true_both]
  · cases k <;> simp [Clk.meet, clkOn, both_true]
  · cases k <;> simp [Clk.meet, both_self]

mutual
/-- What the clock of an expression is. -/
theorem tick_clock {strict : Bool} {K : String → Option Clk}
    (hK : ∀ x k, K x = some k → (D x).intoClk = k) {t : Nat} : (e : Expr) → ∀ {k : Clk},
    HasClock strict K e k → tickX X D e t = clkOn X k t
  | .lit _, k, h => by cases h; simp [tickX, clkOn]
  | .global _, k, h => by cases h; simp [tickX, clkOn]
  | .var x d, k, h => by
    cases h with
    | var h => rw [tickX, due_clk, hK x k h]
  | .tuple es, k, h => by
    cases h with
    | empty => simp [tickX, tickXs, clkOn]
    | tuple h h' =>
      rw [tickX, tickXs, tick_clock hK _ h]
      rcases ticks_clock hK (t := t) _ h' with h0 | h0
      · rw [h0, both_true]
      · rw [h0, both_self]
  | .dummyPre e, k, h => by
    cases h with
    | dummyPre h _ => have := tick_clock hK (t := t) e h; simpa [tickX] using this
  | .dummyParen e, k, h => by
    cases h with
    | dummyParen h => have := tick_clock hK (t := t) e h; simpa [tickX] using this
  | .bin _ l r, k, h => by
    cases h with
    | bin h h' hk => rw [tickX, tick_clock hK l h, tick_clock hK r h', clkOn_meet hk]
  | .un _ e, k, h => by
    cases h with
    | un h => have := tick_clock hK (t := t) e h; simpa [tickX] using this
  | .cmp _ l r, k, h => by
    cases h with
    | cmp h h' hk => rw [tickX, tick_clock hK l h, tick_clock hK r h', clkOn_meet hk]
  | .clock op e b, k, h => by
    cases h with
    | clock h h' hk => cases op <;> rfl
  | .later _ b a, k, h => by
    cases h with
    | later h h' hs => have := tick_clock hK (t := t) b h; simpa [tickX] using this
  | .fetchPre _ f, k, h => by
    cases h with
    | fetchPre h => have := tick_clock hK (t := t) f h; simpa [tickX] using this
  | .fetchFby _ i f, k, h => by
    cases h with
    | fetchFby h h' hk =>
      have := tick_clock hK (t := t) i h'
      rw [clkOn_same hk]
      simpa [tickX] using this
  | .flip _ i c, k, h => by
    cases h with
    | flip h h' hk =>
      have := tick_clock hK (t := t) i h
      rw [clkOn_same hk]
      simpa [tickX] using this
  | .ifx b y n, k, h => by
    cases h with
    | ifx h h' h'' hk hk' =>
      rw [tickX, tick_clock hK b h, tick_clock hK y h', tick_clock hK n h'', clkOn_meet hk',
        clkOn_meet hk, both_assoc]
  | .merge b y n, k, h => by
    cases h with
    | merge h h' h'' hk hk' => rw [tickX, tickX, due_clk, hK _ _ h]
  | .substep _ _ a, k, h => by
    cases h with
    | substep h => have := tick_clock hK (t := t) a h; simpa [tickX] using this
theorem ticks_clock {strict : Bool} {K : String → Option Clk}
    (hK : ∀ x k, K x = some k → (D x).intoClk = k) {t : Nat} : (es : List Expr) → ∀ {k : Clk},
    HaveClock strict K es k → tickXs X D es t = some true ∨ tickXs X D es t = clkOn X k t
  | [], k, h => .inl rfl
  | e :: es, k, h => by
    cases h with
    | cons h hk h' =>
      refine .inr ?_
      rw [tickXs, tick_clock hK e h, ← clkOn_same hk]
      rcases ticks_clock hK (t := t) es h' with h0 | h0
      · rw [h0, both_true]
      · rw [h0, both_self]
end

variable {A : Arith} {glob : Globals} {ms : List Machine} {F : Flow}

/-- The code of a clock computes whether it is on. -/
theorem clock_code (k : Clk) (t : Nat) (b : Bool) :
    (∃ v, den A glob ms F 0 (clockExpr k) t = .ok v ∧ IsClock v b) ↔ clkOn F.X k t = some b := by
  cases k with
  | implicit =>
    constructor
    · rintro ⟨v, h, hb⟩
      cases h
      cases hb
      rfl
    · intro h
      cases h
      exact ⟨_, rfl, .on⟩
  | adaptative =>
    constructor
    · rintro ⟨v, h, hb⟩
      cases h
      cases hb
      rfl
    · intro h
      cases h
      exact ⟨_, rfl, .on⟩
  | on x =>
    simp only [clockExpr, den, Nat.not_lt_zero, if_false, Nat.sub_zero, Except.ok.injEq, clkOn,
      exists_eq_left']
    generalize F.X x t = a
    constructor
    · intro h
      cases h <;> rfl
    · intro h
      cases a with
      | nil => cases h; exact .absent
      | defined a =>
        cases a with
        | bool c => cases c <;> cases h <;> first | exact .on | exact .off
        | _ => cases h
  | off x =>
    simp only [clockExpr, den, Nat.not_lt_zero, if_false, Nat.sub_zero, clkOn]
    generalize F.X x t = a
    constructor
    · rintro ⟨v, h, hb⟩
      cases a with
      | nil =>
        have : v = .leaf .nil := by cases h; rfl
        subst this
        cases hb
        rfl
      | defined a =>
        cases a with
        | bool c =>
          have : v = .leaf (.defined (.bool !c)) := by cases h; rfl
          subst this
          cases c <;> cases hb <;> rfl
        | _ => first | (cases h; done) | (cases h; cases hb)
    · intro h
      cases a with
      | nil => cases h; exact ⟨_, rfl, .absent⟩
      | defined a =>
        cases a with
        | bool c => cases c <;> cases h <;> first | exact ⟨_, rfl, .on⟩ | exact ⟨_, rfl, .off⟩
        | _ => cases h

end

/-! ## Registers -/

section
variable {F : Flow} {id : Nat} {next init : Nat → R Value} {val : Nat → Option Value}

/-- The value that a register keeps. -/
theorem preReg_kept : ∀ {t : Nat}, (∀ u, u < t → val u = (next u).toOption) →
    (preReg F id next t).toOption.map (·.inner) =
      (lastKept val t).map (·.getD (Tup.allNil Scalar (F.shape id))) ∧
    (preReg F id next t).toOption.map (·.next) =
      (lastKept val t).map (·.getD (Tup.allNil Scalar (F.shape id)))
  | 0, _ => ⟨rfl, rfl⟩
  | t + 1, h => by
    obtain ⟨i1, i2⟩ := preReg_kept (t := t) fun u hu => h u (by omega)
    unfold preReg at i1 i2 ⊢
    rw [iter_succ (by omega)]
    simp only [lastKept, toOption_bind, Option.bind_eq_bind, h t (by omega)]
    cases hr : (iter (fun u r => do return Register.preStep (F.C id u) (← next u) r)
        (Register.default Scalar (F.shape id)) 0 t).toOption with
    | none =>
      rw [hr] at i1
      cases hk : lastKept val t with
      | none => exact ⟨rfl, rfl⟩
      | some k => rw [hk] at i1; cases i1
    | some r =>
      rw [hr] at i1 i2
      cases hk : lastKept val t with
      | none => rw [hk] at i1; cases i1
      | some k =>
        rw [hk] at i2
        simp only [Option.map_some, Option.some.injEq] at i2
        cases hv : (next t).toOption with
        | none => exact ⟨rfl, rfl⟩
        | some v =>
          simp only [Option.bind_some, toOption_pure, Option.map_some, Option.some.injEq,
            Option.pure_def, lacks_first]
          cases hl : v.firstIsNil
          · simp [Register.preStep, Register.schedule, Register.commit, hl]
          · simp [Register.preStep, Register.schedule, Register.commit, Register.clocked, hl, i2]

/-- The value that a register with an initial value keeps: nil until there is one. -/
theorem fbyReg_kept : ∀ {t : Nat}, (∀ u, u < t → val u = (next u).toOption) →
    (∀ u, u < t → ∃ v, init u = .ok v) →
    (fbyReg F id init next t).toOption.map (·.inner) =
      (lastKept val t).map (·.getD (Tup.allNil Scalar (F.shape id))) ∧
    (fbyReg F id init next t).toOption.map (·.next) =
      (lastKept val t).map (·.getD (Tup.allNil Scalar (F.shape id)))
  | 0, _, _ => ⟨rfl, rfl⟩
  | t + 1, h, h' => by
    obtain ⟨i1, i2⟩ := fbyReg_kept (t := t) (fun u hu => h u (by omega)) fun u hu => h' u (by omega)
    obtain ⟨i, hi⟩ := h' t (by omega)
    unfold fbyReg at i1 i2 ⊢
    rw [iter_succ (by omega)]
    simp only [lastKept, toOption_bind, Option.bind_eq_bind, h t (by omega), hi]
    cases hr : (iter (fun u r => do return Register.fbyStep (F.C id u) (← init u) (← next u) r)
        (Register.default Scalar (F.shape id)) 0 t).toOption with
    | none =>
      rw [hr] at i1
      cases hk : lastKept val t with
      | none => exact ⟨rfl, rfl⟩
      | some k => rw [hk] at i1; cases i1
    | some r =>
      rw [hr] at i1 i2
      cases hk : lastKept val t with
      | none => rw [hk] at i1; cases i1
      | some k =>
        rw [hk] at i2
        simp only [Option.map_some, Option.some.injEq] at i2
        have hnx : ∀ v : Value, (Register.fbyStep (F.C id t) i v r).next =
            if v.firstIsNil then r.next else v := by
          intro v
          unfold Register.fbyStep Register.commit Register.schedule Register.tryInitialize
            Register.clocked
          by_cases hv : v.firstIsNil = true <;> by_cases hi : r.inner.firstIsNil = true <;> simp [hv, hi]
        have hin : ∀ v : Value, (Register.fbyStep (F.C id t) i v r).inner =
            (Register.fbyStep (F.C id t) i v r).next := by
          intro v
          simp [Register.fbyStep, Register.commit]
        cases hv : (next t).toOption with
        | none => exact ⟨rfl, rfl⟩
        | some v =>
          simp only [Option.bind_some, toOption_pure, toOption_ok, Option.map_some, Option.some.injEq,
            Option.pure_def, lacks_first, hin, hnx]
          cases hl : v.firstIsNil
          · simp
          · simp [i2]

/-- What is kept is not nil. -/
theorem lastKept_present : ∀ {t : Nat} {v : Value}, lastKept val t = some (some v) →
    v.firstIsNil = false
  | 0, v, h => by cases h
  | t + 1, v, h => by
    simp only [lastKept] at h
    obtain ⟨old, h1, h⟩ := some_bind.1 h
    obtain ⟨w, h2, h⟩ := some_bind.1 h
    simp only [Option.pure_def, Option.some.injEq] at h
    split at h
    · subst h
      exact lastKept_present h1
    · rename_i hl
      cases h
      rw [lacks_first] at hl
      simpa using hl

theorem flipFresh_kept : ∀ {t : Nat}, (∀ u, u < t → val u = (init u).toOption) →
    (flipFresh init 0 t).toOption = (lastKept val t).map (·.isNone)
  | 0, _ => rfl
  | t + 1, h => by
    have ih := flipFresh_kept (t := t) fun u hu => h u (by omega)
    unfold flipFresh at ih ⊢
    rw [iter_succ (by omega)]
    simp only [lastKept, toOption_bind, Option.bind_eq_bind, h t (by omega), ih]
    cases lastKept val t with
    | none => rfl
    | some k =>
      simp only [Option.map_some, Option.bind_some]
      cases (init t).toOption with
      | none => rfl
      | some v =>
        simp only [Option.bind_some, toOption_pure, Option.pure_def, Option.map_some, lacks_first]
        cases v.firstIsNil <;> simp

end

/-! ## Expressions -/

section
variable (A : Arith) (glob : Globals) (ms : List Machine) (F : Flow) (D : String → Clock)

/-- What a register needs can be computed, and its clock is that of the expression. -/
def SoundAt (t : Nat) : Expr → Prop
  | .fetchPre id f => (∃ v, den A glob ms F 0 f t = .ok v) ∧ tickX F.X D f t = some (F.C id t)
  | .fetchFby id i f => (∃ v, den A glob ms F 0 i t = .ok v) ∧ (∃ v, den A glob ms F 0 f t = .ok v) ∧
      tickX F.X D i t = some (F.C id t)
  | _ => True

/-- Expressions made by translation with registers, in streams that follow their clocks. -/
def AptAt (T : Nat) : Expr → Prop
  | .later _ _ _ => False
  | .substep d _ _ => d = 0
  | .fetchPre id f => F.shape id = shapeX ms f ∧
      ∀ u, u < T → ∀ b, tickX F.X D f u = some b → F.C id u = b
  | .fetchFby id i _ => ∀ u, u < T → ∀ b, tickX F.X D i u = some b → F.C id u = b
  | _ => True

end

section
variable {A : Arith} {glob : Globals} {ms : List Machine} {F : Flow} {D : String → Clock}

theorem callAt_congr {m : Machine} {g g' : Nat → Option Value} {t : Nat}
    (h : ∀ u, u ≤ t → g u = g' u) : callAt m g t = callAt m g' t := by
  have : ∀ (l : List Nat), (∀ u ∈ l, g u = g' u) → l.mapM g = l.mapM g' := by
    intro l hl
    induction l with
    | nil => rfl
    | cons a l ih =>
      rw [List.mapM_cons, List.mapM_cons, hl a (by simp), ih fun u hu => hl u (by simp [hu])]
  unfold callAt
  rw [this _ fun u hu => h u (by have := List.mem_range.1 hu; omega)]

theorem callAt_args {m : Machine} {g : Nat → Option Value} {t : Nat} {v : Value}
    (h : callAt m g t = some v) : ∃ w, g t = some w := by
  unfold callAt at h
  rw [List.range_succ, List.mapM_append] at h
  obtain ⟨as, h1, h⟩ := some_bind.1 h
  obtain ⟨_, -, h1⟩ := some_bind.1 h1
  obtain ⟨bs, h2, -⟩ := some_bind.1 h1
  rw [List.mapM_cons] at h2
  obtain ⟨w, h2, -⟩ := some_bind.1 h2
  exact ⟨w, h2⟩

theorem get_clocked (c : Bool) (r : Register Scalar) :
    (Register.clocked c r).get = seen c r.inner := rfl

theorem inside_self (e : Expr) : e ∈ inside e := by cases e <;> simp [inside]

mutual
/-- The compiled expression computes the reference. -/
theorem valU_den {T : Nat} : (e : Expr) → ∀ {t : Nat}, (∀ p ∈ inside e, AptAt ms F D T p) →
    (∀ u, u ≤ t → ∀ p ∈ inside e, SoundAt A glob ms F D u p) →
    valU A glob ms F.X D e t = (den A glob ms F 0 e t).toOption
  | .lit l, t, ha, hs => rfl
  | .global x, t, ha, hs => by
    simp only [valU, den]
    cases glob x <;> rfl
  | .var x d, t, ha, hs => rfl
  | .tuple es, t, ha, hs => by
    simp only [inside, List.mem_cons, forall_eq_or_imp] at ha hs
    simp only [valU, den, toOption_bind, toOption_pure, Option.bind_eq_bind,
      valUs_den es ha.2 fun u hu => (hs u hu).2]
    rfl
  | .dummyPre e, t, ha, hs => by
    simp only [inside, List.mem_cons, forall_eq_or_imp] at ha hs
    have := valU_den e (t := t) ha.2 fun u hu => (hs u hu).2
    simpa [valU, den] using this
  | .dummyParen e, t, ha, hs => by
    simp only [inside, List.mem_cons, forall_eq_or_imp] at ha hs
    have := valU_den e (t := t) ha.2 fun u hu => (hs u hu).2
    simpa [valU, den] using this
  | .bin op l r, t, ha, hs => by
    simp only [inside, List.mem_cons, List.mem_append, or_imp, forall_and, forall_eq] at ha hs
    simp only [valU, den, ← toOption_bin, toOption_bind, Option.bind_eq_bind,
      valU_den l ha.2.1 fun u hu => hs.2.1 u hu, valU_den r ha.2.2 fun u hu => hs.2.2 u hu]
  | .un op e, t, ha, hs => by
    simp only [inside, List.mem_cons, forall_eq_or_imp] at ha hs
    simp only [valU, den, ← toOption_un, toOption_bind, Option.bind_eq_bind,
      valU_den e ha.2 fun u hu => (hs u hu).2]
  | .cmp op l r, t, ha, hs => by
    simp only [inside, List.mem_cons, List.mem_append, or_imp, forall_and, forall_eq] at ha hs
    simp only [valU, den, ← toOption_cmp, toOption_bind, Option.bind_eq_bind,
      valU_den l ha.2.1 fun u hu => hs.2.1 u hu, valU_den r ha.2.2 fun u hu => hs.2.2 u hu]
  | .clock op e b, t, ha, hs => by
    simp only [inside, List.mem_cons, List.mem_append, or_imp, forall_and, forall_eq] at ha hs
    cases op <;>
    · simp only [valU, den, applyLOp, toOption_bind, toOption_asBool, toOption_pure,
        valU_den e ha.2.1 fun u hu => hs.2.1 u hu, valU_den b ha.2.2 fun u hu => hs.2.2 u hu]
      cases (den A glob ms F 0 e t).toOption <;> cases (den A glob ms F 0 b t).toOption <;>
        simp [Option.bind_eq_bind]
  | .later d b a, t, ha, hs => (ha _ (inside_self _)).elim
  | .fetchPre id f, t, ha, hs => by
    simp only [inside, List.mem_cons, forall_eq_or_imp] at ha hs
    have hf : ∀ u, u ≤ t → valU A glob ms F.X D f u = (den A glob ms F 0 f u).toOption :=
      fun u hu => valU_den f ha.2 fun u' hu' => (hs u' (by omega)).2
    obtain ⟨⟨v, hv⟩, hc⟩ := (hs t (Nat.le_refl _)).1
    have hk := (preReg_kept (F := F) (id := id) (t := t) fun u hu => hf u (by omega)).1
    simp only [valU, den, uniPre, hc, hf t (Nat.le_refl _), hv, toOption_ok, Option.bind_eq_bind,
      Option.bind_some, toOption_bind, toOption_pure, get_clocked, ← ha.1.1, Option.pure_def]
    generalize lastKept (valU A glob ms F.X D f) t = k at hk ⊢
    generalize preReg F id (den A glob ms F 0 f) t = r at hk ⊢
    cases r with
    | error p => cases k with
      | none => rfl
      | some k => cases hk
    | ok r => cases k with
      | none => cases hk
      | some k =>
        simp only [toOption_ok, Option.map_some, Option.some.injEq] at hk
        simp [hk]
  | .fetchFby id i f, t, ha, hs => by
    simp only [inside, List.mem_cons, List.mem_append, or_imp, forall_and, forall_eq] at ha hs
    have hf : ∀ u, u ≤ t → valU A glob ms F.X D f u = (den A glob ms F 0 f u).toOption :=
      fun u hu => valU_den f ha.2.2 fun u' hu' => hs.2.2 u' (by omega)
    have hi := valU_den i (t := t) ha.2.1 hs.2.1
    obtain ⟨⟨w, hw⟩, ⟨v, hv⟩, hc⟩ := hs.1 t (Nat.le_refl _)
    have hk := (fbyReg_kept (F := F) (id := id) (t := t) (fun u hu => hf u (by omega))
      fun u hu => (hs.1 u (by omega)).1).1
    simp only [valU, den, uniBefore, hc, hf t (Nat.le_refl _), hi, hv, hw, toOption_ok,
      Option.bind_eq_bind, Option.bind_some, toOption_bind, toOption_pure, Option.pure_def]
    have hp : ∀ x, lastKept (valU A glob ms F.X D f) t = some (some x) → x.firstIsNil = false :=
      fun x => lastKept_present
    generalize lastKept (valU A glob ms F.X D f) t = k at hk hp ⊢
    generalize fbyReg F id (den A glob ms F 0 i) (den A glob ms F 0 f) t = r at hk ⊢
    cases r with
    | error p => cases k with
      | none => rfl
      | some k => cases hk
    | ok r => cases k with
      | none => cases hk
      | some k =>
        simp only [toOption_ok, Option.map_some, Option.some.injEq] at hk
        simp only [toOption_ok, Option.bind_some, Option.some.injEq]
        cases k with
        | none =>
          have hn : r.inner.firstIsNil = true := by
            rw [hk]; exact blank_absent (blank_allNil _)
          simp [Register.tryInitialize, Register.clocked, hn, Register.get, seen]
        | some x =>
          have hn : r.inner.firstIsNil = false := by
            rw [hk]; exact hp x rfl
          simp only [Option.getD_some] at hk
          subst hk
          simp [Register.tryInitialize, Register.clocked, hn, Register.get, seen]
  | .flip id i c, t, ha, hs => by
    simp only [inside, List.mem_cons, List.mem_append, or_imp, forall_and, forall_eq] at ha hs
    have hi : ∀ u, u ≤ t → valU A glob ms F.X D i u = (den A glob ms F 0 i u).toOption :=
      fun u hu => valU_den i ha.2.1 fun u' hu' => hs.2.1 u' (by omega)
    have hc := valU_den c (t := t) ha.2.2 hs.2.2
    have hk := flipFresh_kept (t := t) fun u hu => hi u (by omega)
    simp only [valU, den, uniThen, hi t (Nat.le_refl _), hc, toOption_bind, Option.bind_eq_bind]
    cases (den A glob ms F 0 i t).toOption with
    | none => rfl
    | some v =>
      cases (den A glob ms F 0 c t).toOption with
      | none => rfl
      | some w =>
        simp only [Option.bind_some, lacks_first]
        cases v.firstIsNil
        · simp only [Bool.false_eq_true, if_false, toOption_bind, hk]
          cases lastKept (valU A glob ms F.X D i) t with
          | none => rfl
          | some k => cases k <;> rfl
        · simp
  | .ifx b y n, t, ha, hs => by
    simp only [inside, List.mem_cons, List.mem_append, or_imp, forall_and, forall_eq] at ha hs
    simp only [valU, den, toOption_bind, toOption_asBool, toOption_pure,
      valU_den b ha.2.1 hs.2.1, valU_den y ha.2.2.1 hs.2.2.1, valU_den n ha.2.2.2 hs.2.2.2]
    cases (den A glob ms F 0 b t).toOption with
    | none =>
      cases (den A glob ms F 0 y t).toOption <;> cases (den A glob ms F 0 n t).toOption <;> rfl
    | some b' =>
      cases (den A glob ms F 0 y t).toOption <;> cases (den A glob ms F 0 n t).toOption <;>
        simp only [Option.bind_eq_bind, Option.bind_some, Option.bind_none] <;>
        cases condition b' <;> rfl
  | .merge b y n, t, ha, hs => by
    simp only [inside, List.mem_cons, List.mem_append, or_imp, forall_and, forall_eq] at ha hs
    simp only [valU, den, toOption_bind, toOption_asBool, toOption_pure,
      valU_den b ha.2.1 hs.2.1, valU_den y ha.2.2.1 hs.2.2.1, valU_den n ha.2.2.2 hs.2.2.2,
      Option.bind_eq_bind, Option.pure_def]
  | .substep d i a, t, ha, hs => by
    simp only [inside, List.mem_cons, forall_eq_or_imp] at ha hs
    obtain rfl : d = 0 := ha.1
    have hf : ∀ u, u ≤ t → valU A glob ms F.X D a u = (den A glob ms F 0 a u).toOption :=
      fun u hu => valU_den a ha.2 fun u' hu' => (hs u' (by omega)).2
    simp only [valU, den, Nat.zero_le, if_true, Nat.max_self]
    cases ms[i]? with
    | none => cases den A glob ms F 0 a t <;> rfl
    | some m =>
      show callAt m (valU A glob ms F.X D a) t = _
      rw [callAt_congr hf]
      have := call_run m (den A glob ms F 0 a) (fun u => (den A glob ms F 0 a u).toOption) 0 t
        (fun u => by rw [Nat.zero_add])
      rw [Nat.zero_add] at this
      exact this.symm
/-- Component-wise. -/
theorem valUs_den {T : Nat} : (es : List Expr) → ∀ {t : Nat}, (∀ p ∈ insideList es, AptAt ms F D T p) →
    (∀ u, u ≤ t → ∀ p ∈ insideList es, SoundAt A glob ms F D u p) →
    valUs A glob ms F.X D es t = (denList A glob ms F 0 es t).toOption
  | [], t, ha, hs => rfl
  | e :: es, t, ha, hs => by
    simp only [insideList, List.mem_append, or_imp, forall_and] at ha hs
    simp only [valUs, denList, toOption_bind, toOption_pure, Option.bind_eq_bind,
      valU_den e ha.1 hs.1, valUs_den es ha.2 hs.2]
    rfl
end

mutual
/-- Where the reference has a value, everything can be computed. -/
theorem sound_of_val {T : Nat} : (e : Expr) → ∀ {t : Nat} {v : Value}, t < T →
    (∀ p ∈ inside e, AptAt ms F D T p) →
    (∀ u, u < t → ∀ p ∈ inside e, SoundAt A glob ms F D u p) →
    valU A glob ms F.X D e t = some v → ∀ p ∈ inside e, SoundAt A glob ms F D t p
  | .lit l, t, v, ht, ha, hs, h => by simp [inside, SoundAt]
  | .global x, t, v, ht, ha, hs, h => by simp [inside, SoundAt]
  | .var x d, t, v, ht, ha, hs, h => by simp [inside, SoundAt]
  | .tuple es, t, v, ht, ha, hs, h => by
    simp only [inside, List.mem_cons, forall_eq_or_imp] at ha hs ⊢
    obtain ⟨vs, h1, -⟩ := some_bind.1 h
    exact ⟨trivial, sound_of_vals es ht ha.2 (fun u hu => (hs u hu).2) h1⟩
  | .dummyPre e, t, v, ht, ha, hs, h => by
    simp only [inside, List.mem_cons, forall_eq_or_imp] at ha hs ⊢
    exact ⟨trivial, sound_of_val e ht ha.2 (fun u hu => (hs u hu).2) (by simpa [valU] using h)⟩
  | .dummyParen e, t, v, ht, ha, hs, h => by
    simp only [inside, List.mem_cons, forall_eq_or_imp] at ha hs ⊢
    exact ⟨trivial, sound_of_val e ht ha.2 (fun u hu => (hs u hu).2) (by simpa [valU] using h)⟩
  | .bin op l r, t, v, ht, ha, hs, h => by
    simp only [inside, List.mem_cons, List.mem_append, or_imp, forall_and, forall_eq] at ha hs ⊢
    obtain ⟨a, h1, h⟩ := some_bind.1 h
    obtain ⟨b, h2, h⟩ := some_bind.1 h
    exact ⟨trivial, sound_of_val l ht ha.2.1 hs.2.1 h1, sound_of_val r ht ha.2.2 hs.2.2 h2⟩
  | .un op e, t, v, ht, ha, hs, h => by
    simp only [inside, List.mem_cons, forall_eq_or_imp] at ha hs ⊢
    obtain ⟨a, h1, h⟩ := some_bind.1 h
    exact ⟨trivial, sound_of_val e ht ha.2 (fun u hu => (hs u hu).2) h1⟩
  | .cmp op l r, t, v, ht, ha, hs, h => by
    simp only [inside, List.mem_cons, List.mem_append, or_imp, forall_and, forall_eq] at ha hs ⊢
    obtain ⟨a, h1, h⟩ := some_bind.1 h
    obtain ⟨b, h2, h⟩ := some_bind.1 h
    exact ⟨trivial, sound_of_val l ht ha.2.1 hs.2.1 h1, sound_of_val r ht ha.2.2 hs.2.2 h2⟩
  | .clock op e b, t, v, ht, ha, hs, h => by
    simp only [inside, List.mem_cons, List.mem_append, or_imp, forall_and, forall_eq] at ha hs ⊢
    cases op <;>
    · obtain ⟨a, h1, h⟩ := some_bind.1 h
      obtain ⟨b', h2, h⟩ := some_bind.1 h
      exact ⟨trivial, sound_of_val e ht ha.2.1 hs.2.1 h1, sound_of_val b ht ha.2.2 hs.2.2 h2⟩
  | .later d b a, t, v, ht, ha, hs, h => (ha _ (inside_self _)).elim
  | .fetchPre id f, t, v, ht, ha, hs, h => by
    simp only [inside, List.mem_cons, forall_eq_or_imp] at ha hs ⊢
    simp only [valU, uniPre] at h
    obtain ⟨b, h1, h⟩ := some_bind.1 h
    obtain ⟨w, h2, h⟩ := some_bind.1 h
    have hf := sound_of_val f ht ha.2 (fun u hu => (hs u hu).2) h2
    refine ⟨⟨⟨w, ?_⟩, ?_⟩, hf⟩
    · rw [valU_den f ha.2 fun u hu => ?_] at h2
      · exact toOption_some.1 h2
      · rcases Nat.lt_or_ge u t with h | h
        · exact (hs u h).2
        · obtain rfl : u = t := by omega
          exact hf
    · rw [h1, ha.1.2 t ht b h1]
  | .fetchFby id i f, t, v, ht, ha, hs, h => by
    simp only [inside, List.mem_cons, List.mem_append, or_imp, forall_and, forall_eq] at ha hs ⊢
    simp only [valU, uniBefore] at h
    obtain ⟨b, h1, h⟩ := some_bind.1 h
    obtain ⟨w, h2, h⟩ := some_bind.1 h
    obtain ⟨x, h3, h⟩ := some_bind.1 h
    have hi := sound_of_val i ht ha.2.1 hs.2.1 h2
    have hf := sound_of_val f ht ha.2.2 hs.2.2 h3
    refine ⟨⟨⟨w, ?_⟩, ⟨x, ?_⟩, ?_⟩, hi, hf⟩
    · rw [valU_den i ha.2.1 fun u hu => ?_] at h2
      · exact toOption_some.1 h2
      · rcases Nat.lt_or_ge u t with h | h
        · exact hs.2.1 u h
        · obtain rfl : u = t := by omega
          exact hi
    · rw [valU_den f ha.2.2 fun u hu => ?_] at h3
      · exact toOption_some.1 h3
      · rcases Nat.lt_or_ge u t with h | h
        · exact hs.2.2 u h
        · obtain rfl : u = t := by omega
          exact hf
    · rw [h1, ha.1 t ht b h1]
  | .flip id i c, t, v, ht, ha, hs, h => by
    simp only [inside, List.mem_cons, List.mem_append, or_imp, forall_and, forall_eq] at ha hs ⊢
    obtain ⟨a, h1, h⟩ := some_bind.1 h
    obtain ⟨b, h2, h⟩ := some_bind.1 h
    exact ⟨trivial, sound_of_val i ht ha.2.1 hs.2.1 h1, sound_of_val c ht ha.2.2 hs.2.2 h2⟩
  | .ifx b y n, t, v, ht, ha, hs, h => by
    simp only [inside, List.mem_cons, List.mem_append, or_imp, forall_and, forall_eq] at ha hs ⊢
    obtain ⟨a, h1, h⟩ := some_bind.1 h
    obtain ⟨a', -, h⟩ := some_bind.1 h
    obtain ⟨b', h2, h⟩ := some_bind.1 h
    obtain ⟨c', h3, h⟩ := some_bind.1 h
    exact ⟨trivial, sound_of_val b ht ha.2.1 hs.2.1 h1, sound_of_val y ht ha.2.2.1 hs.2.2.1 h2,
      sound_of_val n ht ha.2.2.2 hs.2.2.2 h3⟩
  | .merge b y n, t, v, ht, ha, hs, h => by
    simp only [inside, List.mem_cons, List.mem_append, or_imp, forall_and, forall_eq] at ha hs ⊢
    obtain ⟨a, h1, h⟩ := some_bind.1 h
    obtain ⟨a', -, h⟩ := some_bind.1 h
    obtain ⟨b', h2, h⟩ := some_bind.1 h
    obtain ⟨c', h3, h⟩ := some_bind.1 h
    exact ⟨trivial, sound_of_val b ht ha.2.1 hs.2.1 h1, sound_of_val y ht ha.2.2.1 hs.2.2.1 h2,
      sound_of_val n ht ha.2.2.2 hs.2.2.2 h3⟩
  | .substep d i a, t, v, ht, ha, hs, h => by
    simp only [inside, List.mem_cons, forall_eq_or_imp] at ha hs ⊢
    simp only [valU] at h
    split at h
    · cases h
    · obtain ⟨w, h1⟩ := callAt_args h
      exact ⟨trivial, sound_of_val a ht ha.2 (fun u hu => (hs u hu).2) h1⟩
/-- Component-wise. -/
theorem sound_of_vals {T : Nat} : (es : List Expr) → ∀ {t : Nat} {vs : List Value}, t < T →
    (∀ p ∈ insideList es, AptAt ms F D T p) →
    (∀ u, u < t → ∀ p ∈ insideList es, SoundAt A glob ms F D u p) →
    valUs A glob ms F.X D es t = some vs → ∀ p ∈ insideList es, SoundAt A glob ms F D t p
  | [], t, vs, ht, ha, hs, h => by simp [insideList]
  | e :: es, t, vs, ht, ha, hs, h => by
    simp only [insideList, List.mem_append, or_imp, forall_and] at ha hs ⊢
    obtain ⟨a, h1, h⟩ := some_bind.1 h
    obtain ⟨b, h2, h⟩ := some_bind.1 h
    exact ⟨sound_of_val e ht ha.1 hs.1 h1, sound_of_vals es ht ha.2 hs.2 h2⟩
end

end

end Chandeliers.Uni
