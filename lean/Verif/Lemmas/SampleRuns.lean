import Verif.Lemmas.SampleRefs
import Mathlib.Data.Nat.Fib.Basic

/-!
# What the programs that come with the project compute: counters and sequences
-/

set_option autoImplicit false

namespace Chandeliers.Smp
open San Syn Err Spec Spec.Samples Props

/-- Streams of integers. -/
def ints (f : String → Nat → Int) (x : String) (t : Nat) : Nillable Scalar :=
  .defined (.int (Int64.ofInt (f x t)))

theorem noExtern_ok {p : SrcProg} (X : Extern)
    (h1 : ∀ d ∈ p, (match d.item with | .extConst .. => false | .extNode .. => false | _ => true) = true) :
    ExternOk X p ∧ UnitOutputs X p := by
  refine ⟨⟨fun a x ty hm => ?_, fun a f ins outs hm => ?_⟩, fun a f ins outs m hm => ?_⟩ <;>
    cases h1 _ hm

/-- The ladder of levels around an expression. -/
macro "ladder" : tactic => `(tactic| simp only [ref_left0, ref_left1, ref_left2, ref_cmp0, ref_cmp1, ref_fby0,
  ref_fby1, ref_fby2, ref_arrow0, ref_arrow1, ref_arrow2, ref_paren1, ref_pre, ref_not, ref_bool, ref_float])

section
variable {A : Arith} {g : String → Option Scalar} {N : String → Option Machine}

theorem count_solves {t : Nat} (ht : t < 2 ^ 63) :
    Solves A g N count_count (ints fun _ t => t) (fun _ => vUnit) t := by
  refine ⟨fun h => absurd rfl h, fun st hst => ?_⟩
  simp only [count_count, List.mem_cons, List.not_mem_nil, or_false] at hst
  subst hst
  refine ⟨vInt t, ?_, rfl⟩
  ladder
  rw [ref_int _ _ 0 (by omega), ref_int _ _ 1 (by omega)]
  cases t with
  | zero =>
    rw [ref_past (by decide) (by decide)]
    simp [vInt, nil_add]
  | succ u =>
    rw [show ((u + 1 : Nat) : Int) - 1 = (u : Nat) by omega, ref_var (by decide)]
    have := add_int (A := A) (x := u) (y := 1) ⟨by omega, by omega⟩ ⟨by omega, by omega⟩
      ⟨by omega, by omega⟩
    simp only [ints, int_leaf, Option.bind_some, this]
    simp

theorem count_overflow (hA : A.overflowChecks = true) {S : String → Nat → Nillable Scalar}
    (h0 : ∀ t < 2 ^ 63, together (S · t) ["x"] = vInt t) :
    ¬ ∀ t ≤ 2 ^ 63, Solves A g N count_count S (fun _ => vUnit) t := by
  intro h
  have hx := h0 (2 ^ 63 - 1) (by omega)
  obtain ⟨v, h1, h2⟩ := (h (2 ^ 63) (by omega)).2 _ (List.mem_cons_self ..)
  revert h1
  ladder
  rw [ref_int _ _ 0 (by omega), ref_int _ _ 1 (by omega),
    show ((2 ^ 63 : Nat) : Int) - 1 = ((2 ^ 63 - 1 : Nat) : Int) by omega, ref_var (by decide)]
  simp only [together, List.map_cons, List.map_nil, tupleValue] at hx
  have := add_overflow hA (x := ((2 ^ 63 - 1 : Nat) : Int)) (y := 1) ⟨by omega, by omega⟩
    ⟨by omega, by omega⟩ (fun h => by have := h.2; omega)
  simp only [hx, Option.bind_some, this]
  simp

/-! ## Fibonacci -/

theorem fib_le {t : Nat} (h : t ≤ 92) : Nat.fib t < 2 ^ 63 :=
  lt_of_le_of_lt (Nat.fib_mono h) (by decide +kernel)

theorem fib_fits {t : Nat} (h : t ≤ 92) : Fits (Nat.fib t) := by
  have := fib_le h
  exact ⟨by omega, by omega⟩

theorem fib_solves (h0 : g "FIB0" = some (.int 0)) (h1 : g "FIB1" = some (.int 1)) {t : Nat}
    (ht : t < 93) : Solves A g N fib_fib (ints fun _ t => Nat.fib t) (fun _ => vUnit) t := by
  refine ⟨fun h => absurd rfl h, fun st hst => ?_⟩
  simp only [fib_fib, List.mem_cons, List.not_mem_nil, or_false] at hst
  subst hst
  refine ⟨vInt (Nat.fib t), ?_, rfl⟩
  ladder
  rw [ref_glob (by decide) h0, ref_glob (by decide) h1]
  match t with
  | 0 =>
    rw [ref_past (by decide) (by decide), ref_past (by decide) (by decide)]
    simp only [nil_add, Option.bind_some]
    rfl
  | 1 =>
    rw [ref_past (t := _ - 1 - 1) (by decide) (by decide), show ((1 : Nat) : Int) - 1 = (0 : Nat) by omega,
      ref_var (by decide)]
    simp only [add_nil, Option.bind_some]
    rfl
  | u + 2 =>
    rw [show ((u + 2 : Nat) : Int) - 1 = (u + 1 : Nat) by omega,
      show ((u + 1 : Nat) : Int) - 1 = (u : Nat) by omega, ref_var (by decide), ref_var (by decide)]
    have hf : ((u + 1).fib : Int) + u.fib = (u + 2).fib := by
      rw [Nat.fib_add_two]; push_cast; omega
    have := add_int (A := A) (x := (u + 1).fib) (y := u.fib) (fib_fits (by omega)) (fib_fits (by omega))
      (by rw [hf]; exact fib_fits (by omega))
    simp only [ints, int_leaf, Option.bind_some, this]
    rw [if_pos (by omega), hf]

theorem fib_overflow (hA : A.overflowChecks = true) {S : String → Nat → Nillable Scalar}
    (h0 : ∀ t < 93, together (S · t) ["x"] = vInt (Nat.fib t)) :
    ¬ ∀ t ≤ 93, Solves A g N fib_fib S (fun _ => vUnit) t := by
  intro h
  have h92 := h0 92 (by omega)
  have h91 := h0 91 (by omega)
  simp only [together, List.map_cons, List.map_nil, tupleValue] at h92 h91
  obtain ⟨v, h1, h2⟩ := (h 93 (by omega)).2 _ (List.mem_cons_self ..)
  revert h1
  ladder
  rw [show ((93 : Nat) : Int) - 1 = (92 : Nat) by omega, show ((92 : Nat) : Int) - 1 = (91 : Nat) by omega,
    ref_var (by decide), ref_var (by decide), h92, h91]
  have := add_overflow hA (x := Nat.fib 92) (y := Nat.fib 91) (fib_fits (by omega))
    (fib_fits (by omega)) (fun h => absurd h.2 (by decide +kernel))
  simp only [Option.bind_some, this]
  simp

/-! ## Counters -/

/-- `0 fby x + 1` -/
abbrev counterExpr (x : String) : Src :=
  .left (.left (.cmp (.fby (.arrow (.left (.left (.left (.lit (.int 0)) []) []) []) [])
    [.arrow (.left (.left (.left (.var x) []) []) [(.add, .left (.left (.lit (.int 1)) []) [])]) []]) []) []) []

variable {vs : List String} {S : String → Nat → Nillable Scalar}

theorem nat_fits {t : Nat} (h : t < 2 ^ 63) : Fits t := ⟨by omega, by omega⟩

theorem ref_counter {x : String} (hx : x ∈ vs) {t : Nat} (ht : t < 2 ^ 63)
    (hS : ∀ u, t = u + 1 → S x u = .defined (.int (Int64.ofInt u))) :
    ref ⟨A, vs, S, g, N⟩ (counterExpr x) t = some (vInt t) := by
  unfold counterExpr
  ladder
  rw [ref_int _ _ 0 (by omega), ref_int _ _ 1 (by omega)]
  cases t with
  | zero =>
    rw [ref_past hx (by decide)]
    simp [vInt, nil_add]
  | succ u =>
    rw [show ((u + 1 : Nat) : Int) - 1 = (u : Nat) by omega, ref_var hx, hS u rfl]
    have := add_int (A := A) (x := u) (y := 1) (nat_fits (by omega)) ⟨by omega, by omega⟩
      ⟨by omega, by omega⟩
    simp only [int_leaf, Option.bind_some, this]
    simp

theorem counter_value {x : String} (hx : x ∈ vs) {k : Nat} (hk : k < 2 ^ 63)
    (h : ∀ t ≤ k, SrcHolds ⟨A, vs, S, g, N⟩ t (.def_ (.var x) (counterExpr x))) :
    ∀ t ≤ k, S x t = .defined (.int (Int64.ofInt t)) := by
  intro t
  induction t with
  | zero =>
    intro h0
    obtain ⟨v, h1, h2⟩ := h 0 h0
    rw [show ((0 : Nat) : Int) = (0 : Nat) from rfl, ref_counter hx (by omega) (fun u hu => by omega)] at h1
    cases h1
    exact h2
  | succ u ih =>
    intro hu
    obtain ⟨v, h1, h2⟩ := h (u + 1) hu
    rw [ref_counter hx (by omega) (fun w hw => by cases hw; exact ih (by omega))] at h1
    cases h1
    exact h2

theorem reliable_solves {t : Nat} (ht : t < 2 ^ 63) :
    Solves A g N counters_reliable_counter (ints fun _ t => t) (fun _ => vUnit) t := by
  refine ⟨fun h => absurd rfl h, fun st hst => ?_⟩
  simp only [counters_reliable_counter, List.mem_cons, List.not_mem_nil, or_false] at hst
  subst hst
  exact ⟨vInt t, ref_counter (by decide) ht (fun u hu => rfl), rfl⟩

theorem ten_solves {t : Nat} (ht : t < 10) :
    Solves A g N ten_foo (ints fun _ t => t) (fun _ => vUnit) t := by
  refine ⟨fun h => absurd rfl h, fun st hst => ?_⟩
  simp only [ten_foo, List.mem_cons, List.not_mem_nil, or_false] at hst
  rcases hst with rfl | rfl
  · exact ⟨vInt t, ref_counter (by decide) (by omega) (fun u hu => rfl), rfl⟩
  · simp only [SrcHolds]
    ladder
    rw [ref_int _ _ 10 (by omega), ref_var (by decide)]
    simp only [ints, int_leaf, Option.bind_some, lt_int (nat_fits (show t < 2 ^ 63 by omega))
      (show Fits 10 from ⟨by omega, by omega⟩)]
    simp [vBool]
    omega

theorem ten_fails : ¬ ∀ t ≤ 10, Solves A g N ten_foo S (fun _ => vUnit) t := by
  intro h
  have hx := counter_value (A := A) (g := g) (N := N) (S := S) (vs := SrcNode.vars ten_foo) (x := "n")
    (by decide) (k := 10) (by omega) (fun t ht => (h t ht).2 _ (List.mem_cons_self ..)) 10 (by omega)
  have := (h 10 (by omega)).2 _ (List.mem_cons_of_mem _ (List.mem_cons_self ..))
  simp only [SrcHolds] at this
  revert this
  ladder
  rw [ref_int _ _ 10 (by omega), ref_var (by decide), hx]
  simp only [int_leaf, Option.bind_some]
  rw [show ((10 : Nat) : Int) = 10 from rfl, lt_int ⟨by omega, by omega⟩ ⟨by omega, by omega⟩]
  simp [vBool]

/-! ## Delays -/

theorem ref_ifx {W : World} (b y n : Src) (t : Int) : ref W (.ifx b y n) t =
    (ref W b t).bind fun c => (condition c).bind fun c => (ref W y t).bind fun v =>
      (ref W n t).bind fun w => some (Candle.ifx c v w) := by
  simp only [ref]
  cases ref W b t with
  | none => rfl
  | some c => cases h : condition c <;> simp [h]

/-- The streams of `counting_twice`. -/
def twiceStreams (x : String) (t : Nat) : Nillable Scalar :=
  if x = "b" then .defined (.bool (t % 2 == 0)) else .defined (.int (Int64.ofInt t))

theorem twice_solves {m : Machine} (hm : N "count" = some m) {n : Nat}
    (ha : Answers m n (fun _ => vUnit) fun t => vInt t) {t : Nat} (ht : t < n) :
    Solves A g N counting_counting_twice twiceStreams (fun _ => vUnit) t := by
  refine ⟨fun h => absurd rfl h, fun st hst => ?_⟩
  simp only [counting_counting_twice, List.mem_cons, List.not_mem_nil, or_false] at hst
  rcases hst with rfl | rfl
  · refine ⟨vBool (t % 2 == 0), ?_, by show twiceStreams "b" t = _; simp [twiceStreams]⟩
    ladder
    cases t with
    | zero =>
      rw [ref_past (by decide) (by decide)]
      simp [applyUn, Nillable.unop, Except.toOption]
    | succ u =>
      rw [show ((u + 1 : Nat) : Int) - 1 = (u : Nat) by omega, ref_var (by decide)]
      simp only [twiceStreams, if_true, bool_leaf, Option.bind_some, not_bool]
      rw [if_pos (by omega)]
      congr 2
      rcases Nat.mod_two_eq_zero_or_one u with h | h <;> simp [Nat.add_mod, h]
  · refine ⟨vInt t, ?_, by simp [Target.Gets, twiceStreams, vInt]⟩
    ladder
    simp only [ref_ifx]
    ladder
    rw [ref_call hm ha ht (fun u _ => by simp only [refList0]; rfl)]
    rfl

theorem late_solves {m : Machine} (hm : N "count" = some m) {n : Nat}
    (ha : Answers m n (fun _ => vUnit) fun t => vInt t) {t : Nat} (ht : t < n) :
    Solves A g N counting_counting_late (ints fun _ t => ((t - 2 : Nat) : Int)) (fun _ => vUnit) t := by
  refine ⟨fun h => absurd rfl h, fun st hst => ?_⟩
  simp only [counting_counting_late, List.mem_cons, List.not_mem_nil, or_false] at hst
  subst hst
  refine ⟨vInt ((t - 2 : Nat) : Int), ?_, rfl⟩
  ladder
  rw [ref_int _ _ 0 (by omega)]
  match t with
  | 0 =>
    rw [ref_call_past hm (by omega)]
    simp [ref_int]
  | 1 =>
    rw [ref_call_past hm (by omega)]
    simp
  | u + 2 =>
    rw [show ((u + 2 : Nat) : Int) - 2 = (u : Nat) by omega,
      ref_call hm ha (t := u) (by omega) (fun u _ => by simp only [refList0]; rfl)]
    simp only [Option.bind_some]
    rw [if_pos (by omega)]
    simp

/-! ## Sums -/

theorem sum_solves {r : Nat → Int} {n : Nat} (hr : ∀ t < n, Fits (r t)) (hs : ∀ t < n, Fits (total r t))
    {t : Nat} (ht : t < n) :
    Solves A g N sums_sum (ints fun x t => if x = "inc" then r t else total r t) (fun t => vInt (r t)) t := by
  refine ⟨fun h => rfl, fun st hst => ?_⟩
  simp only [sums_sum, List.mem_cons, List.not_mem_nil, or_false] at hst
  subst hst
  refine ⟨vInt (total r t), ?_, rfl⟩
  ladder
  rw [ref_int _ _ 0 (by omega), ref_var (by decide)]
  cases t with
  | zero =>
    rw [ref_past (by decide) (by decide)]
    have := add_int (A := A) (hr 0 ht) (show Fits 0 from ⟨by omega, by omega⟩) (by simpa using hr 0 ht)
    simp only [Option.bind_some, ints, if_true, int_leaf]
    rw [if_neg (by omega)]
    simp only [Option.bind_some, this]
    simp [total]
  | succ u =>
    rw [show ((u + 1 : Nat) : Int) - 1 = (u : Nat) by omega, ref_var (by decide)]
    have h : r (u + 1) + total r u = total r (u + 1) := by simp [total]; omega
    have := add_int (A := A) (hr (u + 1) ht) (hs u (by omega)) (by rw [h]; exact hs _ ht)
    simp only [Option.bind_some, ints, if_true, int_leaf]
    rw [if_pos (by omega)]
    simp only [Option.bind_some]
    rw [if_neg (by decide), this, h]

theorem randsum_solves {r : Nat → Int} {n : Nat} {m m' : Machine} (hm : N "RandomInt" = some m)
    (hm' : N "sum" = some m') (ha : Answers m n (fun _ => vUnit) fun t => vInt (r t))
    (ha' : Answers m' n (fun t => vInt (r t)) fun t => vInt (total r t)) {t : Nat} (ht : t < n) :
    Solves A g N sums_randsum (ints fun x t => if x = "r" then r t else total r t) (fun _ => vUnit) t := by
  refine ⟨fun h => absurd rfl h, fun st hst => ?_⟩
  simp only [sums_randsum, List.mem_cons, List.not_mem_nil, or_false] at hst
  rcases hst with rfl | rfl
  · refine ⟨vInt (r t), ?_, rfl⟩
    ladder
    exact ref_call hm ha ht (fun u _ => by simp only [refList0]; rfl)
  · refine ⟨vInt (total r t), ?_, rfl⟩
    ladder
    refine ref_call hm' ha' ht (fun u _ => ?_)
    simp only [refList_cons, refList0]
    ladder
    rw [ref_var (by decide)]
    rfl

/-! ## Generic delays -/

/-- The streams of `ipre`. -/
def ipreStreams (x i : Nat → Nillable Scalar) (y : String) (t : Nat) : Nillable Scalar :=
  if y = "t" then x t else if y = "i" then i t else if t = 0 then i 0 else x (t - 1)

theorem ipre_solves (x i : Nat → Nillable Scalar) (t : Nat) :
    Solves A g N delay_ipre (ipreStreams x i) (fun t => .tup (.leaf (x t)) [.leaf (i t)]) t := by
  refine ⟨fun h => rfl, fun st hst => ?_⟩
  simp only [delay_ipre, List.mem_cons, List.not_mem_nil, or_false] at hst
  subst hst
  refine ⟨.leaf (if t = 0 then i 0 else x (t - 1)), ?_, rfl⟩
  ladder
  rw [ref_var (by decide)]
  cases t with
  | zero =>
    rw [ref_past (by decide) (by decide)]
    simp [ipreStreams]
  | succ u =>
    rw [show ((u + 1 : Nat) : Int) - 1 = (u : Nat) by omega, ref_var (by decide)]
    simp [ipreStreams]

theorem neg_one : applyUn A .neg (vInt 1) = some (vInt (-1)) := by
  have : checked A (-1) = .ok (Int64.ofInt (-1)) := checked_fits ⟨by omega, by omega⟩
  simp [applyUn, vInt, Nillable.unop, scalarUn, this, Except.map, Except.toOption]

theorem delay_solves {m : Machine} (hm : N "ipre" = some m)
    (ha : Answers m (2 ^ 63) (fun t => pair (vInt t) (vInt (-1)))
      fun t => vInt (if t = 0 then -1 else (t : Int) - 1)) {t : Nat} (ht : t < 2 ^ 63) :
    Solves A g N delay_main (ints fun _ t => t) (fun _ => vUnit) t := by
  refine ⟨fun h => absurd rfl h, fun st hst => ?_⟩
  simp only [delay_main, List.mem_cons, List.not_mem_nil, or_false] at hst
  have hneg : ∀ (W : World) t, ref W (.neg (.lit (.int 1))) t = applyUn W.arith .neg (vInt 1) := by
    intro W t
    simp only [ref]
    rw [show litValue (.int 1) = some (vInt 1) from rfl]
    rfl
  rcases hst with rfl | rfl
  · exact ⟨vInt t, ref_counter (by decide) ht (fun u hu => rfl), rfl⟩
  · simp only [SrcHolds]
    ladder
    rw [ref_call hm ha ht (fun u _ => by
      simp only [refList_cons, refList0]
      ladder
      rw [ref_var (by decide), hneg, neg_one]
      rfl)]
    rw [hneg, neg_one]
    cases t with
    | zero =>
      rw [ref_past (by decide) (by decide)]
      simp only [Option.bind_some]
      rw [if_neg (by omega)]
      simp only [if_true, Option.bind_some]
      rw [eq_int ⟨by omega, by omega⟩ ⟨by omega, by omega⟩]
      rfl
    | succ u =>
      rw [show ((u + 1 : Nat) : Int) - 1 = (u : Nat) by omega, ref_var (by decide)]
      simp only [Option.bind_some, ints, int_leaf]
      rw [if_pos (by omega), if_neg (by omega)]
      simp only [Option.bind_some]
      rw [eq_int (nat_fits (by omega)) (nat_fits (by omega))]
      simp [vBool]

end

end Chandeliers.Smp
