import Verif.San.Run
import Verif.Lemmas.Tup
import Verif.Lemmas.List

/-!
# C08, C09, C35, C36, C38: running nodes
-/

namespace Chandeliers.Props

open San

/-! ## C08 -/

/-- A node whose first input is nil returns an all-nil output of its output type and is left in
exactly the same state. -/
theorem C08_absent_step (A : Arith) (glob : Globals) (ms : List Machine) (n : Node)
    (s : NodeState ms) (i : Value) (h : i.leaves.head? = some .nil) :
    (n.machine A glob ms).step s i = .ok (Tup.allNil Scalar n.outTy, s) := by
  have : i.firstIsNil = true := by
    obtain ⟨l, hl⟩ := Tup.leaves_first i
    rw [hl] at h
    simp only [List.head?_cons, Option.some.injEq] at h
    simp [Tup.firstIsNil, h, Nillable.firstIsNil]
  simp [Node.machine, Node.step, Candle.implicitClock, this]

/-- The converse: with a present first input the body is executed (so the previous theorem
describes exactly the inactive case). -/
theorem C08_present_step (A : Arith) (glob : Globals) (ms : List Machine) (n : Node)
    (s : NodeState ms) (i : Value) (v : Scalar) (h : i.leaves.head? = some (.defined v)) :
    (n.machine A glob ms).step s i = n.body A glob ms s i := by
  have : i.firstIsNil = false := by
    obtain ⟨l, hl⟩ := Tup.leaves_first i
    rw [hl] at h
    simp only [List.head?_cons, Option.some.injEq] at h
    simp [Tup.firstIsNil, h, Nillable.firstIsNil]
  simp [Node.machine, Node.step, Candle.implicitClock, this]

example : (Tup.tup (.leaf (.nil : Nillable Scalar)) [.leaf (.defined .unit)]).leaves.head? = some .nil :=
  rfl

/-! ## C09 -/

/-- The instant is active: the first input is present. -/
def present (i : Value) : Bool := !i.firstIsNil

/-- Outputs on the slow clock spread over the base clock: all-nil where the input is absent. -/
def spread (ty : Tup Unit) : List Value → List Value → List Value
  | [], _ => []
  | i :: is, os =>
    if present i then
      match os with
      | [] => []
      | o :: os => o :: spread ty is os
    else Tup.allNil Scalar ty :: spread ty is os

/-- A machine that tests its implicit clock first. -/
def ClockGated (m : Machine) : Prop :=
  ∀ s i, i.firstIsNil = true → m.step s i = .ok (Tup.allNil Scalar m.outTy, s)

theorem node_clockGated (A : Arith) (glob : Globals) (ms : List Machine) (n : Node) :
    ClockGated (n.machine A glob ms) := by
  intro s i h
  simp [Node.machine, Node.step, Candle.implicitClock, h]

theorem wrapExport_clockGated (m : Machine) : ClockGated (wrapExport m) := by
  intro s i h; simp [wrapExport, Candle.implicitClock, h]

theorem wrapExtern_clockGated (m : Machine) : ClockGated (wrapExtern m) := by
  intro s i h; simp [wrapExtern, Candle.implicitClock, h]

theorem runFrom_spread (m : Machine) (hm : ClockGated m) (is : List Value) (s : m.σ) :
    m.runFrom s is =
      match m.runFrom s (is.filter present) with
      | .ok (os, s') => .ok (spread m.outTy is os, s')
      | .error p => .error p := by
  induction is generalizing s with
  | nil => simp [Machine.runFrom, spread]
  | cons i is ih =>
    by_cases hi : i.firstIsNil = true
    · have hp : present i = false := by simp [present, hi]
      simp only [List.filter_cons, hp, Machine.runFrom, hm s i hi, bind, Except.bind, ih s]
      simp only [Bool.false_eq_true, if_false]
      cases m.runFrom s (is.filter present) <;> simp [spread, hp]
    · have hp : present i = true := by simp [present, hi]
      simp only [List.filter_cons, hp, if_true, Machine.runFrom, bind, Except.bind]
      cases m.step s i with
      | error p => simp
      | ok r =>
        simp only [ih r.2]
        cases m.runFrom r.2 (is.filter present) <;> simp [spread, hp]

/-- C09.  For every node and every input history, running it and running it on the history
without the absent instants give the same outputs at the present instants (all-nil elsewhere),
with the same panics. -/
theorem C09_stuttering (A : Arith) (glob : Globals) (ms : List Machine) (n : Node)
    (is : List Value) :
    (n.machine A glob ms).run is =
      match (n.machine A glob ms).run (is.filter present) with
      | .ok os => .ok (spread n.outTy is os)
      | .error p => .error p := by
  simp only [Machine.run, bind, Except.bind]
  rw [runFrom_spread _ (node_clockGated A glob ms n)]
  cases (n.machine A glob ms).runFrom (n.machine A glob ms).init (is.filter present) <;> rfl

/-- `spread` puts the outputs back in order: the present instants read exactly `os`. -/
theorem C09_spread_filter (ty : Tup Unit) (is os : List Value)
    (h : os.length = (is.filter present).length) :
    ((is.zip (spread ty is os)).filter (fun p => present p.1)).map Prod.snd = os ∧
    (spread ty is os).length = is.length ∧
    ∀ p ∈ is.zip (spread ty is os), present p.1 = false → p.2 = Tup.allNil Scalar ty := by
  induction is generalizing os with
  | nil => simp at h; simp [spread, h]
  | cons i is ih =>
    cases hp : present i
    · simp only [List.filter_cons, hp] at h
      obtain ⟨h1, h2, h3⟩ := ih os (by simpa using h)
      refine ⟨?_, ?_, ?_⟩
      · simpa [spread, hp] using h1
      · simp [spread, hp, h2]
      · intro p hm hpp
        simp only [spread, hp, Bool.false_eq_true, if_false, List.zip_cons_cons, List.mem_cons] at hm
        rcases hm with rfl | hm
        · rfl
        · exact h3 p hm hpp
    · simp only [List.filter_cons, hp, if_true] at h
      cases os with
      | nil => simp at h
      | cons o os =>
        obtain ⟨h1, h2, h3⟩ := ih os (by simpa using h)
        refine ⟨?_, ?_, ?_⟩
        · simpa [spread, hp] using h1
        · simp [spread, hp, h2]
        · intro p hm hpp
          simp only [spread, hp, if_true, List.zip_cons_cons, List.mem_cons] at hm
          rcases hm with rfl | hm
          · simp [hp] at hpp
          · exact h3 p hm hpp

/-- A node `node counter(i : bool) returns (n : int); let n = 0 fby n + 1; tel` compiled by hand
(`later` form), used as a non-trivial witness. -/
def exCounter : Node where
  name := "counter"
  inputs := [⟨"i", .bool, .implicit, 0⟩]
  outputs := [⟨"n", .int, .implicit, 1⟩]
  locals := []
  blocks := []
  stmts := [.let_ (.single "n")
    (.later 0 (.lit (.int 0)) (.bin .add (.var "n" 1) (.lit (.int 1))))]
  registers := []
  flips := 0

/-- Some arithmetic, for examples. -/
def exArith : Arith where
  overflowChecks := true
  fbin := fun _ x _ => x
  fneg := id
  feq := fun x y => x == y
  fcmp := fun _ _ => none

/-- A present boolean input. -/
def exTick : Value := .leaf (.defined (.bool true))
/-- An absent input. -/
def exSkip : Value := .leaf .nil

/-- The outputs of the witness on a history with absences. -/
example : (exCounter.machine exArith (fun _ => none) []).run [exTick, exSkip, exTick, exSkip, exTick]
    = .ok [.leaf (.defined (.int 0)), .leaf .nil, .leaf (.defined (.int 1)), .leaf .nil,
        .leaf (.defined (.int 2))] := by rfl

/-! ## C35 -/

/-- C35.  With `n > 0` the driver performs exactly the run of length `n` on unit inputs and then
returns: after `k ≤ n` evaluations it is still running on the state reached by `k` steps when
none of them panicked nor produced a nil output, and after `n + 1` it has returned. -/
theorem C35_main_counts (m : Machine) (n : Nat) (hn : n > 0) (k : Nat) (hk : k ≤ n)
    (os : List Value) (s : m.σ)
    (hrun : m.runFrom m.init (List.replicate k (.leaf (.defined .unit))) = .ok (os, s))
    (hout : ∀ o ∈ os, ∃ v, o.trusted = .ok v) :
    Driver.after m n k = .running (some (n - k)) s ∧
    (k = n → Driver.after m n (n + 1) = .returned) := by
  have key : ∀ k, k ≤ n → ∀ os s,
      m.runFrom m.init (List.replicate k (.leaf (.defined .unit))) = .ok (os, s) →
      (∀ o ∈ os, ∃ v, o.trusted = .ok v) → Driver.after m n k = .running (some (n - k)) s := by
    intro k
    induction k with
    | zero =>
      intro _ os s hr _
      simp only [List.replicate_zero, Machine.runFrom, Except.ok.injEq, Prod.mk.injEq] at hr
      simp [Driver.after, Driver.start, hr.2, Nat.ne_of_gt hn]
    | succ k ih =>
      intro hk os s hr ho
      have snoc : ∀ (l : List Value) (i : Value) (s0 : m.σ) os s,
          m.runFrom s0 (l ++ [i]) = .ok (os, s) →
          ∃ os1 s1 o, m.runFrom s0 l = .ok (os1, s1) ∧ m.step s1 i = .ok (o, s) ∧ os = os1 ++ [o] := by
        intro l i
        induction l with
        | nil =>
          intro s0 os s h
          simp only [List.nil_append, Machine.runFrom, bind, Except.bind] at h
          cases hs : m.step s0 i with
          | error p => simp [hs] at h
          | ok r =>
            simp only [hs, Except.ok.injEq, Prod.mk.injEq] at h
            exact ⟨[], s0, r.1, rfl, by rw [hs]; simp [← h.2], by simp [← h.1]⟩
        | cons j l ihl =>
          intro s0 os s h
          simp only [List.cons_append, Machine.runFrom, bind, Except.bind] at h
          cases hs : m.step s0 j with
          | error p => simp [hs] at h
          | ok r =>
            simp only [hs] at h
            cases hr2 : m.runFrom r.2 (l ++ [i]) with
            | error p => simp [hr2] at h
            | ok q =>
              simp only [hr2, Except.ok.injEq, Prod.mk.injEq] at h
              obtain ⟨os1, s1, o, h1, h2, h3⟩ := ihl r.2 q.1 q.2 hr2
              exact ⟨r.1 :: os1, s1, o, by simp [Machine.runFrom, bind, Except.bind, hs, h1],
                by rw [← h.2]; exact h2, by simp [← h.1, h3]⟩
      rw [List.replicate_succ'] at hr
      obtain ⟨os1, s1, o, h1, h2, h3⟩ := snoc _ _ _ _ _ hr
      have := ih (by omega) os1 s1 h1 (fun o ho' => ho o (by simp [h3, ho']))
      obtain ⟨v, hv⟩ := ho o (by simp [h3])
      have hnk : n - k = (n - (k + 1)) + 1 := by omega
      simp only [Driver.after, this, hnk, Driver.next, h2, hv, Option.map]
      simp
  refine ⟨key k hk os s hrun hout, ?_⟩
  rintro rfl
  have := key k hk os s hrun hout
  simp [Driver.after, this, Driver.next]

/-- C35.  With `n = 0` the driver never returns. -/
theorem C35_main_zero_forever (m : Machine) (k : Nat) :
    (∃ s, Driver.after m 0 k = .running none s) ∨ (∃ p, Driver.after m 0 k = .panicked p) := by
  induction k with
  | zero => left; exact ⟨m.init, by simp [Driver.after, Driver.start]⟩
  | succ k ih =>
    rcases ih with ⟨s, h⟩ | ⟨p, h⟩
    · simp only [Driver.after, h, Driver.next]
      cases m.step s (.leaf (.defined .unit)) with
      | error p => right; exact ⟨p, rfl⟩
      | ok r =>
        simp only
        cases r.1.trusted with
        | error p => right; exact ⟨p, rfl⟩
        | ok _ => left; exact ⟨r.2, rfl⟩
    · right; exact ⟨p, by simp [Driver.after, h, Driver.next]⟩

/-- C35.  The driver panics at the first step that panics or whose output has a nil leaf. -/
theorem C35_main_panics (m : Machine) (n k : Nat) (left : Option Nat) (s : m.σ)
    (h : Driver.after m n k = .running left s) (hleft : left ≠ some 0) :
    (∃ p, Driver.after m n (k + 1) = .panicked p) ↔
      ((∃ p, m.step s (.leaf (.defined .unit)) = .error p) ∨
        ∃ o s', m.step s (.leaf (.defined .unit)) = .ok (o, s') ∧ Nillable.nil ∈ o.leaves) := by
  have hnil : ∀ o : Value, (∃ p, o.trusted = .error p) ↔ Nillable.nil ∈ o.leaves := by
    intro o
    rw [Tup.trusted, Tup.mapM_error_iff]
    constructor
    · rintro ⟨a, ha, p, hp⟩
      cases a
      · simp [Nillable.unwrap] at hp
      · exact ha
    · intro h; exact ⟨_, h, .unwrapNil, rfl⟩
  have hl : ∀ x, left ≠ some 0 → Driver.next m (.running left x) =
      match m.step x (.leaf (.defined .unit)) with
      | .error p => .panicked p
      | .ok (o, s') =>
        match o.trusted with
        | .error p => .panicked p
        | .ok _ => .running (left.map (· - 1)) s' := by
    intro x hx
    rcases left with _ | _ | l
    · rfl
    · simp at hx
    · rfl
  simp only [Driver.after, h, hl s hleft]
  cases hs : m.step s (.leaf (.defined .unit)) with
  | error p => simp
  | ok r =>
    simp only [reduceCtorEq, exists_false, false_or, Except.ok.injEq]
    have := hnil r.1
    cases ht : r.1.trusted with
    | error p =>
      rw [ht] at this
      simp only [Driver.panicked.injEq, exists_eq', true_iff]
      exact ⟨r.1, r.2, rfl, this.1 ⟨p, rfl⟩⟩
    | ok v =>
      rw [ht] at this
      simp only [reduceCtorEq, exists_false, false_iff]
      rintro ⟨o, s', rfl, h⟩
      simp only at this
      obtain ⟨p, hp⟩ := this.2 h
      simp at hp

/-- A node without inputs, for `main`. -/
def exMain : Node where
  name := "main"
  inputs := []
  outputs := []
  locals := [⟨"n", .int, .implicit, 1⟩]
  blocks := []
  stmts := [.let_ (.single "n")
    (.later 0 (.lit (.int 0)) (.bin .add (.var "n" 1) (.lit (.int 1)))),
    .assert (.cmp .lt (.var "n" 0) (.lit (.int 3)))]
  registers := []
  flips := 0

/-- Non-vacuity: three steps of the witness succeed, the fourth fails its assertion. -/
example : (∃ s, Driver.after (exMain.machine exArith (fun _ => none) []) 3 4 = .returned ∧
    Driver.after (exMain.machine exArith (fun _ => none) []) 4 3 = .running (some 1) s) ∧
    Driver.after (exMain.machine exArith (fun _ => none) []) 4 4 = .panicked .assertFalse := by
  refine ⟨⟨_, rfl, rfl⟩, rfl⟩

/-! ## C36 -/

/-- A sequence of calls to subnodes `(slot, argument)`, with the outputs. -/
def runCalls : (ms : List Machine) → States ms → List (Nat × Value) → R (List (Nat × Value) × States ms)
  | _, ss, [] => .ok ([], ss)
  | ms, ss, (i, v) :: cs =>
    match States.stepAt ms ss i v with
    | .error p => .error p
    | .ok (o, ss') =>
      match runCalls ms ss' cs with
      | .error p => .error p
      | .ok (os, ss'') => .ok ((i, o) :: os, ss'')

/-- The calls made to one slot. -/
def callsTo (i : Nat) (cs : List (Nat × Value)) : List Value :=
  (cs.filter (fun c => c.1 = i)).map Prod.snd

/-- The state of one slot. -/
def States.at : (ms : List Machine) → States ms → (i : Nat) → (h : i < ms.length) → (ms[i]).σ
  | [], _, _, h => absurd h (by simp)
  | _ :: _, (s, _), 0, _ => s
  | _ :: ms, (_, ss), i + 1, h => States.at ms ss i (by simpa using h)

theorem at_init : ∀ (ms : List Machine) (i : Nat) (h : i < ms.length),
    States.at ms (States.init ms) i h = (ms[i]).init
  | [], _, h => absurd h (by simp)
  | _ :: _, 0, _ => rfl
  | _ :: ms, i + 1, h => at_init ms i (by simpa using h)

/-- Stepping one slot steps its machine and nothing else. -/
theorem stepAt_spec : ∀ (ms : List Machine) (ss : States ms) (i : Nat) (v o : Value) (ss' : States ms),
    States.stepAt ms ss i v = .ok (o, ss') →
    ∃ h : i < ms.length, (ms[i]).step (States.at ms ss i h) v = .ok (o, States.at ms ss' i h) ∧
      ∀ j (hj : j < ms.length), j ≠ i → States.at ms ss' j hj = States.at ms ss j hj
  | [], _, _, _, _, _, h => by simp [States.stepAt] at h
  | m :: ms, (s, ss), 0, v, o, (s', ss'), h => by
    simp only [States.stepAt] at h
    cases hs : m.step s v with
    | error p => simp [hs] at h
    | ok r =>
      rw [hs] at h
      cases h
      refine ⟨by simp, by simpa [States.at] using hs, ?_⟩
      intro j hj hne
      cases j with
      | zero => exact absurd rfl hne
      | succ j => rfl
  | m :: ms, (s, ss), i + 1, v, o, (s', ss'), h => by
    simp only [States.stepAt] at h
    cases hs : States.stepAt ms ss i v with
    | error p => simp [hs] at h
    | ok r =>
      rw [hs] at h
      cases h
      obtain ⟨hi, e1, e2⟩ := stepAt_spec ms ss i v r.1 r.2 hs
      refine ⟨by simpa using hi, e1, ?_⟩
      intro j hj hne
      cases j with
      | zero => rfl
      | succ j => exact e2 j (by simpa using hj) (by omega)

/-- C36.  In any interleaving of calls to the subnodes of a node, what slot `i` answers is what
its machine, run alone from its initial state, answers to the calls made to slot `i`. -/
theorem C36_isolated (ms : List Machine) (cs os : List (Nat × Value)) (ss' : States ms)
    (hrun : runCalls ms (States.init ms) cs = .ok (os, ss'))
    (i : Nat) (hi : i < ms.length) :
    (ms[i]).run (callsTo i cs) = .ok (callsTo i os) := by
  have key : ∀ (cs os : List (Nat × Value)) (ss ss' : States ms),
      runCalls ms ss cs = .ok (os, ss') →
      (ms[i]).runFrom (States.at ms ss i hi) (callsTo i cs)
        = .ok (callsTo i os, States.at ms ss' i hi) := by
    intro cs
    induction cs with
    | nil =>
      intro os ss ss' h
      simp only [runCalls, Except.ok.injEq, Prod.mk.injEq] at h
      simp [callsTo, Machine.runFrom, ← h.1, ← h.2]
    | cons c cs ih =>
      intro os ss ss' h
      obtain ⟨k, v⟩ := c
      simp only [runCalls] at h
      cases hs : States.stepAt ms ss k v with
      | error p => simp [hs] at h
      | ok r =>
        simp only [hs] at h
        cases hr : runCalls ms r.2 cs with
        | error p => simp [hr] at h
        | ok q =>
          simp only [hr, Except.ok.injEq, Prod.mk.injEq] at h
          obtain ⟨h1, h2⟩ := h
          obtain ⟨hk, e1, e2⟩ := stepAt_spec ms ss k v r.1 r.2 hs
          have := ih q.1 r.2 q.2 hr
          subst h1 h2
          by_cases hki : k = i
          · subst hki
            simp only [callsTo, List.filter_cons, decide_true, if_true, List.map_cons,
              Machine.runFrom, bind, Except.bind, e1] at this ⊢
            rw [this]
          · have e : States.at ms r.2 i hi = States.at ms ss i hi := e2 i hi (Ne.symm hki)
            rw [e] at this
            simp only [callsTo, List.filter_cons, hki, decide_false, Bool.false_eq_true, if_false]
              at this ⊢
            exact this
  have := key cs os _ _ hrun
  rw [at_init] at this
  simp [Machine.run, this, bind, Except.bind]

/-- Non-vacuity: two instances of the counter, called in an irregular order. -/
example :
    let m := exCounter.machine exArith (fun _ => none) []
    ∃ ss, runCalls [m, m] (States.init [m, m]) [(0, exTick), (1, exTick), (0, exTick)] =
      .ok ([(0, .leaf (.defined (.int 0))), (1, .leaf (.defined (.int 0))),
        (0, .leaf (.defined (.int 1)))], ss) := ⟨_, rfl⟩

/-! ## C38 -/

/-- C38.  The exported wrapper of a node is indistinguishable from the node. -/
theorem C38_export_transparent (A : Arith) (glob : Globals) (ms : List Machine) (n : Node)
    (is : List Value) :
    (wrapExport (n.machine A glob ms)).run is = (n.machine A glob ms).run is := by
  have hstep : ∀ s i, (wrapExport (n.machine A glob ms)).step s i = (n.machine A glob ms).step s i := by
    intro s i
    by_cases hi : i.firstIsNil = true
    · simp only [wrapExport, Candle.implicitClock, hi, if_true]
      exact (node_clockGated A glob ms n s i hi).symm
    · simp [wrapExport, Candle.implicitClock, hi]
  have key : ∀ is s, (wrapExport (n.machine A glob ms)).runFrom s is
      = (n.machine A glob ms).runFrom s is := by
    intro is
    induction is with
    | nil => intro s; rfl
    | cons i is ih =>
      intro s
      simp only [Machine.runFrom, hstep, bind, Except.bind]
      cases (n.machine A glob ms).step s i with
      | error p => rfl
      | ok r => simp only [ih]; rfl
  simp only [Machine.run, key]
  rfl

/-- C38.  The wrapper around a foreign node only adds the implicit clock test: its counter does
not influence outputs, for any foreign `step`. -/
theorem C38_extern_transparent (m : Machine) (is : List Value) :
    (wrapExtern m).run is = (wrapExport m).run is := by
  have key : ∀ is s k,
      (wrapExtern m).runFrom (s, k) is =
        match (wrapExport m).runFrom s is with
        | .ok (os, s') => .ok (os, (s', k + (is.filter present).length))
        | .error p => .error p := by
    intro is
    induction is with
    | nil => intro s k; simp [Machine.runFrom]
    | cons i is ih =>
      intro s k
      by_cases hi : i.firstIsNil = true
      · have hp : present i = false := by simp [present, hi]
        simp only [Machine.runFrom, wrapExtern_clockGated m (s, k) i hi,
          wrapExport_clockGated m s i hi, bind, Except.bind, ih s k, List.filter_cons, hp]
        cases (wrapExport m).runFrom s is <;> simp [wrapExport, wrapExtern]
      · have hp : present i = true := by simp [present, hi]
        have e1 : (wrapExport m).step s i = m.step s i := by
          simp [wrapExport, Candle.implicitClock, hi]
        have e2 : (wrapExtern m).step (s, k) i =
            match m.step s i with
            | .ok (o, s') => .ok (o, (s', k + 1))
            | .error p => .error p := by
          simp [wrapExtern, Candle.implicitClock, hi]
          rfl
        simp only [Machine.runFrom, e1, e2, bind, Except.bind, List.filter_cons, hp, if_true]
        cases m.step s i with
        | error p => rfl
        | ok r =>
          simp only [ih r.2 (k + 1)]
          cases (wrapExport m).runFrom r.2 is with
          | error p => rfl
          | ok q => simp [Nat.add_assoc, Nat.add_comm 1]
  have := key is m.init 0
  simp only [Machine.run, bind, Except.bind]
  have h0 : (wrapExtern m).init = (m.init, 0) := rfl
  rw [h0, this]
  have h1 : (wrapExport m).init = m.init := rfl
  rw [h1]
  cases (wrapExport m).runFrom m.init is <;> rfl

end Chandeliers.Props
