import Verif.Lemmas.SampleRuns

/-!
# The programs in `examples/`
-/

set_option autoImplicit false

namespace Chandeliers.Smp
open San Syn Err Spec Spec.Samples Props

section
variable {A : Arith} {g : String → Option Scalar} {N : String → Option Machine}
variable (a b c : Nat → Bool)

/-- Streams of Booleans. -/
def bools (f : String → Nat → Bool) (x : String) (t : Nat) : Nillable Scalar := .defined (.bool (f x t))

/-- The sum of three bits. -/
def sum3 (a b c : Bool) : Bool := (a != b) != c

/-- The carry. -/
def carry3 (a b c : Bool) : Bool := (a && b) || (a && c) || (b && c)

/-- Evaluate operators between Booleans. -/
macro "bits" : tactic => `(tactic| simp only [bools, bool_leaf, Option.bind_some, ne_bool, eq_bool, and_bool,
  or_bool, if_true])

theorem full_add_solves (t : Nat) : Solves A g N adder_full_add
    (bools fun x t => if x = "a" then a t else if x = "b" then b t else if x = "c" then c t else
      if x = "s" then sum3 (a t) (b t) (c t) else carry3 (a t) (b t) (c t))
    (fun t => triple (vBool (a t)) (vBool (b t)) (vBool (c t))) t := by
  refine ⟨fun h => rfl, fun st hst => ?_⟩
  simp only [adder_full_add, List.mem_cons, List.not_mem_nil, or_false] at hst
  rcases hst with rfl | rfl
  · refine ⟨vBool (sum3 (a t) (b t) (c t)), ?_, rfl⟩
    ladder
    rw [ref_var (by decide), ref_var (by decide), ref_var (by decide)]
    bits
    rfl
  · refine ⟨vBool (carry3 (a t) (b t) (c t)), ?_, rfl⟩
    ladder
    rw [ref_var (by decide), ref_var (by decide), ref_var (by decide)]
    bits
    rfl

theorem half_add_solves (t : Nat) : Solves A g N adder_half_add
    (bools fun x t => if x = "a" then a t else if x = "b" then b t else
      if x = "s" then a t != b t else a t && b t)
    (fun t => pair (vBool (a t)) (vBool (b t))) t := by
  refine ⟨fun h => rfl, fun st hst => ?_⟩
  simp only [adder_half_add, List.mem_cons, List.not_mem_nil, or_false] at hst
  rcases hst with rfl | rfl
  · refine ⟨vBool (a t != b t), ?_, rfl⟩
    ladder
    rw [ref_var (by decide), ref_var (by decide)]
    bits
    rfl
  · refine ⟨vBool (a t && b t), ?_, rfl⟩
    ladder
    rw [ref_var (by decide), ref_var (by decide)]
    bits
    rfl

/-- What a half adder does. -/
def HalfAdder (m : Machine) : Prop :=
  ∀ a b : Nat → Bool, Forever m (fun t => pair (vBool (a t)) (vBool (b t)))
    fun t => pair (vBool (a t != b t)) (vBool (a t && b t))

/-- What a full adder does. -/
def FullAdder (m : Machine) : Prop :=
  ∀ a b c : Nat → Bool, Forever m (fun t => triple (vBool (a t)) (vBool (b t)) (vBool (c t)))
    fun t => pair (vBool (sum3 (a t) (b t) (c t))) (vBool (carry3 (a t) (b t) (c t)))

theorem full_add_h_solves {m : Machine} (hm : N "half_add" = some m) (hh : HalfAdder m) (t : Nat) :
    Solves A g N adder_full_add_h
    (bools fun x t => if x = "a" then a t else if x = "b" then b t else if x = "c" then c t else
      if x = "s" then sum3 (a t) (b t) (c t) else if x = "co" then carry3 (a t) (b t) (c t) else
      if x = "s1" then a t != b t else if x = "c1" then a t && b t else c t && (a t != b t))
    (fun t => triple (vBool (a t)) (vBool (b t)) (vBool (c t))) t := by
  refine ⟨fun h => rfl, fun st hst => ?_⟩
  simp only [adder_full_add_h, List.mem_cons, List.not_mem_nil, or_false] at hst
  rcases hst with rfl | rfl | rfl
  · refine ⟨pair (vBool (a t != b t)) (vBool (a t && b t)), ?_, ⟨rfl, rfl, trivial⟩⟩
    ladder
    refine ref_call hm (hh a b (t + 1)) (Nat.lt_succ_self t) fun u _ => ?_
    simp only [refList_cons, refList0]
    ladder
    rw [ref_var (by decide), ref_var (by decide)]
    rfl
  · refine ⟨pair (vBool (c t != (a t != b t))) (vBool (c t && (a t != b t))), ?_, ⟨?_, rfl, trivial⟩⟩
    · ladder
      refine ref_call hm (hh c (fun t => a t != b t) (t + 1)) (Nat.lt_succ_self t) fun u _ => ?_
      simp only [refList_cons, refList0]
      ladder
      rw [ref_var (by decide), ref_var (by decide)]
      rfl
    · rw [show (c t != (a t != b t)) = sum3 (a t) (b t) (c t) by
        unfold sum3; cases a t <;> cases b t <;> cases c t <;> rfl]
      rfl
  · refine ⟨vBool ((a t && b t) || (c t && (a t != b t))), ?_, ?_⟩
    · ladder
      rw [ref_var (by decide), ref_var (by decide)]
      bits
      rfl
    · rw [show ((a t && b t) || (c t && (a t != b t))) = carry3 (a t) (b t) (c t) by
        unfold carry3; cases a t <;> cases b t <;> cases c t <;> rfl]
      rfl

theorem equivalence_solves {m m' : Machine} (hm : N "full_add" = some m) (hm' : N "full_add_h" = some m')
    (hf : FullAdder m) (hf' : FullAdder m') (t : Nat) :
    Solves A g N adder_equivalence
    (bools fun x t => if x = "a" then a t else if x = "b" then b t else if x = "c" then c t else
      if x = "ok" then true else if x = "s1" ∨ x = "s2" then sum3 (a t) (b t) (c t) else
        carry3 (a t) (b t) (c t))
    (fun t => triple (vBool (a t)) (vBool (b t)) (vBool (c t))) t := by
  refine ⟨fun h => rfl, fun st hst => ?_⟩
  simp only [adder_equivalence, List.mem_cons, List.not_mem_nil, or_false] at hst
  rcases hst with rfl | rfl | rfl
  · refine ⟨pair (vBool (sum3 (a t) (b t) (c t))) (vBool (carry3 (a t) (b t) (c t))), ?_, ⟨rfl, rfl, trivial⟩⟩
    ladder
    refine ref_call hm (hf a b c (t + 1)) (Nat.lt_succ_self t) fun u _ => ?_
    simp only [refList_cons, refList0]
    ladder
    rw [ref_var (by decide), ref_var (by decide), ref_var (by decide)]
    rfl
  · refine ⟨pair (vBool (sum3 (a t) (b t) (c t))) (vBool (carry3 (a t) (b t) (c t))), ?_, ⟨rfl, rfl, trivial⟩⟩
    ladder
    refine ref_call hm' (hf' a b c (t + 1)) (Nat.lt_succ_self t) fun u _ => ?_
    simp only [refList_cons, refList0]
    ladder
    rw [ref_var (by decide), ref_var (by decide), ref_var (by decide)]
    rfl
  · refine ⟨vBool true, ?_, rfl⟩
    ladder
    rw [ref_var (by decide), ref_var (by decide), ref_var (by decide), ref_var (by decide)]
    bits
    simp

/-- The streams of `system`. -/
def systemStreams (r : Nat → Bool) (x : String) (t : Nat) : Nillable Scalar :=
  if x = "enumerate" then .defined (.int (Int64.ofInt t)) else
    .defined (.bool (if x = "ok" then true else r t))

theorem system_solves {m m' : Machine} (hm : N "random_bool" = some m) (hm' : N "equivalence" = some m')
    {r : Nat → Bool} {n : Nat} (hn : n ≤ 2 ^ 63) (hr : Answers m n (fun _ => vUnit) fun t => vBool (r t))
    (he : ∀ a b c : Nat → Bool, Forever m' (fun t => triple (vBool (a t)) (vBool (b t)) (vBool (c t)))
      fun _ => vBool true) {t : Nat} (ht : t < n) :
    Solves A g N adder_system (systemStreams r) (fun _ => vUnit) t := by
  refine ⟨fun h => absurd rfl h, fun st hst => ?_⟩
  simp only [adder_system, List.mem_cons, List.not_mem_nil, or_false] at hst
  rcases hst with rfl | rfl | rfl | rfl | rfl | rfl
  · exact ⟨vInt t, ref_counter (by decide) (by omega) (fun u hu => rfl), rfl⟩
  · refine ⟨vBool (r t), ?_, rfl⟩
    ladder
    exact ref_call hm hr ht (fun u _ => by simp only [refList0]; rfl)
  · refine ⟨vBool (r t), ?_, rfl⟩
    ladder
    exact ref_call hm hr ht (fun u _ => by simp only [refList0]; rfl)
  · refine ⟨vBool (r t), ?_, rfl⟩
    ladder
    exact ref_call hm hr ht (fun u _ => by simp only [refList0]; rfl)
  · refine ⟨vBool true, ?_, rfl⟩
    ladder
    refine ref_call hm' (he r r r (t + 1)) (Nat.lt_succ_self t) fun u _ => ?_
    simp only [refList_cons, refList0]
    ladder
    rw [ref_var (by decide), ref_var (by decide), ref_var (by decide)]
    rfl
  · simp only [SrcHolds]
    ladder
    rw [ref_var (by decide)]
    rfl

/-! ## The race between two counters -/

theorem hits_le (low : Nat → Bool) : ∀ t, 0 ≤ hits low t ∧ hits low t ≤ t + 1 ∧ (low 0 = false → hits low t ≤ t)
  | 0 => by simp only [hits]; split <;> simp_all
  | t + 1 => by
    have := hits_le low t
    simp only [hits]
    refine ⟨?_, ?_, fun h => ?_⟩
    · split <;> omega
    · push_cast; split <;> omega
    · have := this.2.2 h
      push_cast; split <;> omega

theorem pick_solves {m : Machine} (hm : N "random_float" = some m) {x : Nat → F64} {lim : F64} {low : Nat → Bool}
    (hl : g "PROBA_FAIL" = some (.float lim)) {n : Nat}
    (hc : ∀ t < n, ∃ o, A.fcmp (x t) lim = some o ∧ low t = (o != .gt))
    (ha : Answers m n (fun _ => vUnit) fun t => vFloat (x t)) {t : Nat} (ht : t < n) :
    Solves A g N counters_ignore_input_and_pick_random
      (fun y t => if y = "i" then .defined (.int (Int64.ofInt 42)) else .defined (.bool (low t)))
      (fun _ => vInt 42) t := by
  refine ⟨fun h => rfl, fun st hst => ?_⟩
  simp only [counters_ignore_input_and_pick_random, List.mem_cons, List.not_mem_nil, or_false] at hst
  subst hst
  refine ⟨vBool (low t), ?_, rfl⟩
  ladder
  rw [ref_call hm ha ht (fun u _ => by simp only [refList0]; rfl), ref_glob (by decide) hl]
  obtain ⟨o, h1, h2⟩ := hc t ht
  simp only [Option.bind_some, applyCmp, vFloat, scalarCmp, comparable, if_true, Candle.cmp,
    Candle.nillableCmpOrd, Nillable.cmp, scalarPcmp, h1, h2, Except.toOption]
  cases o <;> rfl

theorem unreliable_solves {m : Machine} (hm : N "ignore_input_and_pick_random" = some m) {low : Nat → Bool}
    {n : Nat} (hn : n < 2 ^ 63) (ha : Answers m n (fun _ => vInt 42) fun t => vBool (low t)) {t : Nat}
    (ht : t < n) :
    Solves A g N counters_unreliable_counter (ints fun _ t => hits low t) (fun _ => vUnit) t := by
  refine ⟨fun h => absurd rfl h, fun st hst => ?_⟩
  simp only [counters_unreliable_counter, List.mem_cons, List.not_mem_nil, or_false] at hst
  subst hst
  refine ⟨vInt (hits low t), ?_, rfl⟩
  ladder
  simp only [ref_ifx]
  ladder
  rw [ref_call hm ha ht (fun u _ => by
    simp only [refList_cons, refList0]
    ladder
    rw [ref_int _ _ 42 (by omega)]
    rfl)]
  rw [ref_int _ _ 0 (by omega), ref_int _ _ 1 (by omega)]
  have hif : ∀ b : Bool, Candle.ifx (.defined b) (vInt 1) (vInt 0) = vInt (if b then 1 else 0) := by
    intro b; cases b <;> rfl
  have hcond : ∀ b : Bool, condition (vBool b) = some (.defined b) := fun _ => rfl
  simp only [Option.bind_some, hcond, hif]
  have h01 : ∀ b : Bool, Fits (if b then 1 else 0) := by intro b; cases b <;> exact ⟨by decide, by decide⟩
  cases t with
  | zero =>
    rw [ref_past (by decide) (by decide)]
    simp only [Option.bind_some]
    rw [if_neg (by omega)]
    simp only [Option.bind_some]
    rw [add_int (h01 _) ⟨by omega, by omega⟩ (by simpa using h01 (low 0))]
    simp [hits]
  | succ u =>
    rw [show ((u + 1 : Nat) : Int) - 1 = (u : Nat) by omega, ref_var (by decide)]
    simp only [Option.bind_some, ints, int_leaf]
    rw [if_pos (by omega)]
    simp only [Option.bind_some]
    have h1 := hits_le low u
    have h2 := hits_le low (u + 1)
    have he : (if low (u + 1) = true then 1 else 0) + hits low u = hits low (u + 1) := by
      simp only [hits]; omega
    rw [add_int (h01 _) ⟨by omega, by omega⟩ (by rw [he]; exact ⟨by omega, by omega⟩), he]

theorem race_solves {m m' : Machine} (hm : N "unreliable_counter" = some m) (hm' : N "reliable_counter" = some m')
    {low : Nat → Bool} (h0 : low 0 = false) {n : Nat} (hn : n < 2 ^ 63)
    (ha : Answers m n (fun _ => vUnit) fun t => vInt (hits low t))
    (ha' : Answers m' n (fun _ => vUnit) fun t => vInt t) {t : Nat} (ht : t < n) :
    Solves A g N race_system (ints fun x t => if x = "c1" then hits low t else t) (fun _ => vUnit) t := by
  refine ⟨fun h => absurd rfl h, fun st hst => ?_⟩
  simp only [race_system, List.mem_cons, List.not_mem_nil, or_false] at hst
  rcases hst with rfl | rfl | rfl
  · refine ⟨vInt (hits low t), ?_, rfl⟩
    ladder
    exact ref_call hm ha ht (fun u _ => by simp only [refList0]; rfl)
  · refine ⟨vInt t, ?_, rfl⟩
    ladder
    exact ref_call hm' ha' ht (fun u _ => by simp only [refList0]; rfl)
  · simp only [SrcHolds]
    ladder
    rw [ref_var (by decide), ref_var (by decide)]
    have h1 := hits_le low t
    have h2 := h1.2.2 h0
    simp only [ints, int_leaf, Option.bind_some, if_true]
    rw [if_neg (by decide), le_int ⟨by omega, by omega⟩ (nat_fits (by omega))]
    simp [vBool, h2]

theorem race_fails {m m' : Machine} (hm : N "unreliable_counter" = some m) (hm' : N "reliable_counter" = some m')
    {low : Nat → Bool} (h0 : low 0 = true)
    (ha : Answers m 1 (fun _ => vUnit) fun t => vInt (hits low t))
    (ha' : Answers m' 1 (fun _ => vUnit) fun t => vInt t) {S : String → Nat → Nillable Scalar} :
    ¬ Solves A g N race_system S (fun _ => vUnit) 0 := by
  intro h
  obtain ⟨v, h1, h2⟩ := h.2 _ (List.mem_cons_self ..)
  obtain ⟨v', h1', h2'⟩ := h.2 _ (List.mem_cons_of_mem _ (List.mem_cons_self ..))
  have h3 := h.2 _ (List.mem_cons_of_mem _ (List.mem_cons_of_mem _ (List.mem_cons_self ..)))
  revert h1 h1' h3
  simp only [SrcHolds]
  ladder
  rw [ref_call hm ha (t := 0) (by omega) (fun u _ => by simp only [refList0]; rfl),
    ref_call hm' ha' (t := 0) (by omega) (fun u _ => by simp only [refList0]; rfl),
    ref_var (by decide), ref_var (by decide)]
  intro h1 h1'
  cases h1
  cases h1'
  have e1 : S "c1" 0 = .defined (.int (Int64.ofInt 1)) := by
    have : S "c1" 0 = .defined (.int (Int64.ofInt (hits low 0))) := h2
    rw [this]; simp [hits, h0]
  have e2 : S "c2" 0 = .defined (.int (Int64.ofInt 0)) := h2'
  rw [e1, e2]
  simp only [int_leaf, Option.bind_some]
  rw [le_int ⟨by omega, by omega⟩ ⟨by omega, by omega⟩]
  simp [vBool]

end

end Chandeliers.Smp
