import Verif.Lemmas.Tup
import Verif.Lemmas.List
import Verif.Spec.Basic

/-!
# C10, C11, C12, C13: flips and registers
-/

namespace Chandeliers.Props

variable {α : Type}

/-! ## C10 -/

/-- Results of `n` consecutive test-and-set calls. -/
def tasCalls : Nat → Flip → List Bool
  | 0, _ => []
  | n + 1, f => f.tas.1 :: tasCalls n f.tas.2

/-- In any number of calls on a fresh flip, exactly the first returns true. -/
theorem C10_flip_once (n : Nat) (i : Nat) (hi : i < n) :
    (tasCalls n Flip.default)[i]? = some (decide (i = 0)) := by
  have spent : ∀ n i, i < n → (tasCalls n ⟨false⟩)[i]? = some false := by
    intro n
    induction n with
    | zero => intro i hi; omega
    | succ n ih =>
      intro i hi
      cases i with
      | zero => simp [tasCalls, Flip.tas]
      | succ i => simpa [tasCalls, Flip.tas] using ih i (by omega)
  cases n with
  | zero => omega
  | succ n =>
    cases i with
    | zero => simp [tasCalls, Flip.tas, Flip.default]
    | succ i => simpa [tasCalls, Flip.tas, Flip.default] using spent n i (by omega)

example : tasCalls 4 Flip.default = [true, false, false, false] := rfl

/-! ## C11, C12 -/

/-- One instant of the emitted protocol for `init fby next`: codegen/mod.rs 1009-1045 (with_clock
then try_initialize for `InitRegister`, `get` for `FetchRegister`, `schedule` for
`UpdateRegister`), then the commits at the end of the step (codegen/mod.rs 589-614). -/
def fbyCycle (r : Register α) (c : Spec.Cycle α) : Tup (Nillable α) × Register α :=
  let r := (r.withClock c.clk).tryInitialize c.init
  (r.get, (r.schedule c.next).commit)

/-- The same for `pre next`: there is no `try_initialize`. -/
def preCycle (r : Register α) (c : Spec.Cycle α) : Tup (Nillable α) × Register α :=
  let r := r.withClock c.clk
  (r.get, (r.schedule c.next).commit)

/-- Register state after a history of instants, oldest first. -/
def runCycles (f : Register α → Spec.Cycle α → Tup (Nillable α) × Register α) :
    Register α → List (Spec.Cycle α) → Register α
  | r, [] => r
  | r, c :: cs => runCycles f (f r c).2 cs

theorem runCycles_append (f : Register α → Spec.Cycle α → Tup (Nillable α) × Register α)
    (r : Register α) (l : List (Spec.Cycle α)) (c : Spec.Cycle α) :
    runCycles f r (l ++ [c]) = (f (runCycles f r l) c).2 := by
  induction l generalizing r with
  | nil => rfl
  | cons a l ih => simp [runCycles, ih]

/-- What a register holds between instants. -/
theorem held_value (ty : Tup Unit) (f : Register α → Spec.Cycle α → Tup (Nillable α) × Register α)
    (hf : ∀ r c, (f r c).2.next = (r.schedule c.next).next ∧ (f r c).2.inner = (r.schedule c.next).next)
    (past : List (Spec.Cycle α)) (hp : ∀ c ∈ past, c.OnClock ty) :
    let r := runCycles f (Register.default α ty) past
    r.inner = r.next ∧
    r.next = match (past.filter Spec.Cycle.active).getLast? with
      | none => Tup.allNil α ty
      | some c => c.next := by
  induction past using snocInduction with
  | nil => simp [runCycles, Register.default]
  | snoc l c ih =>
    have ih := ih (fun c hc => hp c (by simp [hc]))
    have hc := hp c (by simp)
    simp only [runCycles_append]
    obtain ⟨e1, e2⟩ := hf (runCycles f (Register.default α ty) l) c
    refine ⟨by rw [e1, e2], ?_⟩
    rw [e1]
    simp only [List.filter_append, List.filter_cons, List.filter_nil]
    cases ha : c.active
    · simp only [Bool.false_eq_true, if_false, List.append_nil]
      have : c.next.firstIsNil = true := by rw [hc.next_off ha, Tup.firstIsNil_allNil]
      simp only [Register.schedule, this]
      simpa using ih.2
    · have := hc.next_on ha
      simp [Register.schedule, this]

theorem is_true_iff (c : Spec.Cycle α) : c.clk.is (· == ·) (.defined true) = c.active := by
  rcases h : c.clk with (_ | _) | _ <;> simp [Nillable.is, Spec.Cycle.active, h]

/-- C11.  A fresh register driven by the emitted protocol with operands on its clock reads out
clocked `fby`. -/
theorem C11_register_fby (ty : Tup Unit) (past : List (Spec.Cycle α)) (now : Spec.Cycle α)
    (hp : ∀ c ∈ past, c.OnClock ty) (hn : now.OnClock ty) :
    (fbyCycle (runCycles fbyCycle (Register.default α ty) past) now).1 = Spec.fby ty past now := by
  have hv := held_value ty fbyCycle (by
    intro r c
    by_cases h1 : r.inner.firstIsNil <;> by_cases h2 : c.next.firstIsNil <;>
      simp [fbyCycle, Register.tryInitialize, Register.schedule, Register.commit,
        Register.withClock, h1, h2]) past hp
  generalize runCycles fbyCycle (Register.default α ty) past = r at hv
  obtain ⟨h1, h2⟩ := hv
  have hshape : r.inner.shape = ty := by
    rw [h1, h2]
    cases hl : (past.filter Spec.Cycle.active).getLast? with
    | none => simp [Tup.shape_allNil]
    | some c =>
      have : c ∈ past := (List.mem_filter.1 (List.mem_of_getLast? hl)).1
      exact (hp c this).next_shape
  cases ha : now.active
  · simp only [fbyCycle, Spec.fby, ha, Register.get, Register.tryInitialize, Register.withClock,
      is_true_iff, Bool.false_eq_true, if_false]
    split
    · simp [Tup.nilLike_eq, hn.init_shape]
    · simp [Tup.nilLike_eq, hshape]
  · simp only [fbyCycle, Spec.fby, Register.get, Register.tryInitialize, Register.withClock,
      is_true_iff, ha, if_true]
    rw [h1, h2]
    cases hl : (past.filter Spec.Cycle.active).getLast? with
    | none => simp [Tup.firstIsNil_allNil]
    | some c =>
      have hm := List.mem_filter.1 (List.mem_of_getLast? hl)
      have := (hp c hm.1).next_on hm.2
      simp [this]

/-- C12.  Without initialisation the register reads out clocked `pre`. -/
theorem C12_register_pre (ty : Tup Unit) (past : List (Spec.Cycle α)) (now : Spec.Cycle α)
    (hp : ∀ c ∈ past, c.OnClock ty) :
    (preCycle (runCycles preCycle (Register.default α ty) past) now).1 = Spec.pre ty past now := by
  have hv := held_value ty preCycle (by
    intro r c
    by_cases h2 : c.next.firstIsNil <;>
      simp [preCycle, Register.schedule, Register.commit, Register.withClock, h2]) past hp
  generalize runCycles preCycle (Register.default α ty) past = r at hv
  obtain ⟨h1, h2⟩ := hv
  have hshape : r.inner.shape = ty := by
    rw [h1, h2]
    cases hl : (past.filter Spec.Cycle.active).getLast? with
    | none => simp [Tup.shape_allNil]
    | some c =>
      have : c ∈ past := (List.mem_filter.1 (List.mem_of_getLast? hl)).1
      exact (hp c this).next_shape
  cases ha : now.active
  · simp [preCycle, Spec.pre, ha, Register.get, Register.withClock, is_true_iff, Tup.nilLike_eq, hshape]
  · simp only [preCycle, Spec.pre, Register.get, Register.withClock, is_true_iff, ha, if_true]
    rw [h1, h2]
    rfl

/-- An instant at which the register is active, with scalar operands. -/
def exOn (i n : Nat) : Spec.Cycle Nat := ⟨.defined true, .leaf (.defined i), .leaf (.defined n)⟩
/-- An instant at which the register is inactive. -/
def exOff : Spec.Cycle Nat := ⟨.defined false, .leaf .nil, .leaf .nil⟩

theorem exOn_onClock (i n : Nat) : (exOn i n).OnClock (.leaf ()) := by
  constructor <;> simp [exOn, Spec.Cycle.active, Tup.shape, Tup.map, Tup.firstIsNil, Tup.first,
    Nillable.firstIsNil]
theorem exOff_onClock : exOff.OnClock (.leaf ()) := by
  constructor <;> simp [exOff, Spec.Cycle.active, Tup.shape, Tup.map, Tup.allNil]

/-- Non-vacuity: an irregular activation pattern meets the hypotheses. -/
example : (∀ c ∈ [exOff, exOn 0 5, exOff, exOn 1 6], c.OnClock (.leaf ())) ∧
    (fbyCycle (runCycles fbyCycle (Register.default Nat (.leaf ()))
      [exOff, exOn 0 5, exOff, exOn 1 6]) (exOn 2 7)).1 = .leaf (.defined 6) := by
  refine ⟨?_, rfl⟩
  simp [exOn_onClock, exOff_onClock]

/-- The hypothesis of C11 that scheduled values are present whenever the register is active
cannot be dropped: if the value scheduled at the first active instant is nil, the register is
initialised a second time, whereas `fby` would read out that nil value. -/
theorem C11_reinitialises_counterexample :
    let c : Spec.Cycle Nat := ⟨.defined true, .leaf (.defined 0), .leaf .nil⟩
    let now : Spec.Cycle Nat := exOn 0 5
    (fbyCycle (runCycles fbyCycle (Register.default Nat (.leaf ())) [c]) now).1 = .leaf (.defined 0) ∧
    Spec.fby (.leaf ()) [c] now = .leaf .nil := ⟨rfl, rfl⟩

/-! ## C13 -/

/-- Scheduling does not affect a read in the same cycle. -/
theorem C13_schedule_get (r : Register α) (t : Tup (Nillable α)) :
    (r.schedule t).get = r.get := by
  unfold Register.schedule; split <;> rfl

/-- The order of scheduling relative to clocking and initialisation is irrelevant. -/
theorem C13_schedule_commutes (r : Register α) (clk : Nillable Bool) (i t : Tup (Nillable α)) :
    ((r.schedule t).withClock clk).tryInitialize i = ((r.withClock clk).tryInitialize i).schedule t := by
  simp only [Register.schedule, Register.withClock, Register.tryInitialize]
  split <;> split <;> simp_all

/-- Inactive cycles do not change what the register holds: off-clock operands are all nil. -/
theorem C13_inactive_holds (ty : Tup Unit) (r : Register α) (c : Spec.Cycle α) (hc : c.OnClock ty)
    (ha : c.active = false) :
    (fbyCycle r c).2.next = r.next ∧ (preCycle r c).2.next = r.next ∧
      (fbyCycle r c).2.inner = r.next := by
  have hn : c.next.firstIsNil = true := by rw [hc.next_off ha, Tup.firstIsNil_allNil]
  by_cases h : r.inner.firstIsNil <;>
    simp [fbyCycle, preCycle, Register.schedule, Register.withClock, Register.tryInitialize,
      Register.commit, hn, h]

end Chandeliers.Props
