import Verif.Lemmas.SampleAdder

/-!
# Lemmas about programs that come with the project: chains of arrows, and registers
-/

set_option autoImplicit false

namespace Chandeliers.Smp
open San Syn Err Spec Spec.Samples Props

section
variable {A : Arith} {g : String → Option Scalar} {N : String → Option Machine}

theorem mul_int {x y : Int} (hx : Fits x) (hy : Fits y) (h : Fits (x * y)) :
    applyLOp A .mul (vInt x) (vInt y) = some (vInt (x * y)) := by
  simp [applyLOp, applyBin, vInt, Nillable.binop, scalarBin, intBin, hx.toInt, hy.toInt,
    checked_fits h, Except.map, Except.toOption]

theorem rem_int {x y : Int} (hx : Fits x) (hy : Fits y) (h0 : 0 ≤ x) (h : 0 < y) :
    applyLOp A .rem (vInt x) (vInt y) = some (vInt (x % y)) := by
  have h3 : Fits (x.tdiv y) := by
    have h1 : 0 ≤ x.tdiv y := Int.tdiv_nonneg h0 (by omega)
    have h2 : x.tdiv y ≤ x := by
      rw [Int.tdiv_eq_ediv_of_nonneg h0]
      exact Int.ediv_le_self y h0
    exact ⟨by omega, by have := hx.2; omega⟩
  have h4 : Int64.ofInt y ≠ 0 := by
    intro he
    have := hy.toInt
    rw [he] at this
    simp at this
    omega
  simp [applyLOp, applyBin, vInt, Nillable.binop, scalarBin, intBin, hx.toInt, hy.toInt, h3.toInt, h4,
    Except.map, Except.toOption, Int.tmod_eq_emod_of_nonneg h0]

/-- What is left of a chain of arrows at an instant. -/
def chain (t : Int) : Nat → List Value → List Value
  | _, [] => []
  | i, v :: vs => if chain t (i + 1) vs ≠ [] ∧ t > i then chain t (i + 1) vs else v :: chain t (i + 1) vs

theorem refThen_chain {W : World} {t : Int} : ∀ {es : List Src} {vs : List Value} (i : Nat),
    List.Forall₂ (fun e v => ref W e t = some v) es vs → refThen W i es t = some (chain t i vs)
  | _, _, i, .nil => by simp [refThen, chain]
  | _, _, i, .cons (l₁ := es) (l₂ := vs) h hs => by
    simp only [refThen, chain, refThen_chain (i + 1) hs, bind, Option.bind, pure, h]
    split <;> rfl

theorem chain_ne {t : Int} (i : Nat) (v : Value) (vs : List Value) : chain t i (v :: vs) ≠ [] := by
  simp only [chain]
  split
  · rename_i h; exact h.1
  · simp

theorem chain_head {t : Int} : ∀ (i : Nat) (vs : List Value),
    (chain t i vs).head? = vs[min (t - i).toNat (vs.length - 1)]?
  | i, [] => by simp [chain]
  | i, [v] => by simp [chain]
  | i, v :: w :: vs => by
    rw [chain]
    by_cases h : t > i
    · rw [if_pos ⟨chain_ne _ _ _, h⟩, chain_head (i + 1) (w :: vs)]
      have : min (t - i).toNat ((v :: w :: vs).length - 1) =
          min (t - (i + 1 : Nat)).toNat ((w :: vs).length - 1) + 1 := by
        simp only [List.length_cons]; omega
      rw [this]
      simp
    · rw [if_neg (fun hh => h hh.2)]
      have : (t - i).toNat = 0 := by omega
      simp [this]

/-- A chain of arrows whose arms can be computed. -/
theorem ref_chain {W : World} {e : Src} {es : List Src} {vs : List Value} {t : Nat}
    (h : List.Forall₂ (fun e v => ref W e t = some v) (e :: es) vs) :
    ref W (.arrow e es) t = vs[min t (vs.length - 1)]? := by
  have := chain_head (t := (t : Int)) 0 vs
  simp only [Nat.cast_zero, Int.sub_zero, Int.toNat_natCast] at this
  rw [← this]
  cases h with
  | cons h hs =>
    simp only [ref, refThen_chain 1 hs, bind, Option.bind, chain]
    rw [show ((0 : Nat) : Int) = 0 from rfl, show 0 + 1 = 1 from rfl]
    split
    · rfl
    · rw [h]; rfl

/-! ## `then_assoc` -/

theorem assoc_count_solves {t : Nat} (ht : t < 2 ^ 63) :
    Solves A g N assoc_count (ints fun _ t => t) (fun _ => vUnit) t := by
  refine ⟨fun h => absurd rfl h, fun st hst => ?_⟩
  simp only [assoc_count, List.mem_cons, List.not_mem_nil, or_false] at hst
  subst hst
  exact ⟨vInt t, ref_counter (by decide) ht (fun u hu => rfl), rfl⟩

/-- The three nodes `a`, `b` and `c`. -/
abbrev part (f : String) (k : Int) : SrcNode :=
  ⟨f, [], [⟨["i", "j"], .int, .implicit⟩], [], [.def_ (.var "i") (.left (.left (.cmp (.fby
    (.arrow (.left (.left (.left (.lit (.int k)) []) []) []) []) []) []) []) []), .def_
    (.var "j") (.left (.left (.cmp (.fby (.arrow (.left (.left (.left (.call "count" [] false)
    []) []) []) []) []) []) []) [])]⟩

theorem part_solves {f : String} {k : Int} (hk : Fits k) {m : Machine} (hm : N "count" = some m) {n : Nat}
    (ha : Answers m n (fun _ => vUnit) fun t => vInt t) {t : Nat} (ht : t < n) :
    Solves A g N (part f k) (ints fun x t => if x = "i" then k else t) (fun _ => vUnit) t := by
  refine ⟨fun h => absurd rfl h, fun st hst => ?_⟩
  simp only [List.mem_cons, List.not_mem_nil, or_false] at hst
  rcases hst with rfl | rfl
  · refine ⟨vInt k, ?_, rfl⟩
    ladder
    exact ref_int _ _ k hk
  · refine ⟨vInt t, ?_, rfl⟩
    ladder
    exact ref_call hm ha ht fun u _ => by simp only [refList0]; rfl

theorem testing_solves {a b c : Machine} (ha : N "a" = some a) (hb : N "b" = some b) (hc : N "c" = some c) {n : Nat}
    (ka : Answers a n (fun _ => vUnit) fun t => pair (vInt 0) (vInt t))
    (kb : Answers b n (fun _ => vUnit) fun t => pair (vInt 1) (vInt t))
    (kc : Answers c n (fun _ => vUnit) fun t => pair (vInt 2) (vInt t)) {t : Nat} (ht : t < n) :
    Solves A g N assoc_testing (ints fun x t => if x = "i" then (min t 2 : Nat) else t) (fun _ => vUnit) t := by
  refine ⟨fun h => absurd rfl h, fun st hst => ?_⟩
  simp only [assoc_testing, List.mem_cons, List.not_mem_nil, or_false] at hst
  subst hst
  refine ⟨pair (vInt (min t 2 : Nat)) (vInt t), ?_, ⟨rfl, rfl, trivial⟩⟩
  simp only [ref_left0, ref_cmp0, ref_fby0]
  rw [ref_chain (vs := [pair (vInt 0) (vInt t), pair (vInt 1) (vInt t), pair (vInt 2) (vInt t)])
    (by
      refine .cons ?_ (.cons ?_ (.cons ?_ .nil)) <;> ladder
      · exact ref_call ha ka ht fun u _ => by simp only [refList0]; rfl
      · exact ref_call hb kb ht fun u _ => by simp only [refList0]; rfl
      · exact ref_call hc kc ht fun u _ => by simp only [refList0]; rfl)]
  match t with
  | 0 => rfl
  | 1 => rfl
  | t + 2 => simp

theorem ref_pair {W : World} {a b : Src} {t : Int} {x y : Int} (ha : ref W a t = some (vInt x))
    (hb : ref W b t = some (vInt y)) : ref W (.paren [a, b] false) t = some (pair (vInt x) (vInt y)) := by
  simp [ref, refList, ha, hb, tupleValue, pair]

theorem witness_solves (t : Nat) :
    Solves A g N assoc_witness (ints fun x t => if x = "i" then (min t 2 : Nat) else (min t 6 : Nat))
      (fun _ => vUnit) t := by
  refine ⟨fun h => absurd rfl h, fun st hst => ?_⟩
  simp only [assoc_witness, List.mem_cons, List.not_mem_nil, or_false] at hst
  subst hst
  refine ⟨pair (vInt (min t 2 : Nat)) (vInt (min t 6 : Nat)), ?_, ⟨rfl, rfl, trivial⟩⟩
  simp only [ref_left0, ref_cmp0, ref_fby0]
  rw [ref_chain (vs := [pair (vInt 0) (vInt 0), pair (vInt 1) (vInt 1), pair (vInt 2) (vInt 2),
      pair (vInt 2) (vInt 3), pair (vInt 2) (vInt 4), pair (vInt 2) (vInt 5), pair (vInt 2) (vInt 6)])
    (by
      refine .cons ?_ (.cons ?_ (.cons ?_ (.cons ?_ (.cons ?_ (.cons ?_ (.cons ?_ .nil)))))) <;>
        simp only [ref_left0] <;> refine ref_pair ?_ ?_ <;> ladder <;>
        exact ref_int _ _ _ (by omega))]
  match t with
  | 0 => rfl
  | 1 => rfl
  | 2 => rfl
  | 3 => rfl
  | 4 => rfl
  | 5 => rfl
  | t + 6 => simp

theorem assoc_system_solves {a b : Machine} (ha : N "testing" = some a) (hb : N "witness" = some b)
    (ka : Answers a 7 (fun _ => vUnit) fun t => pair (vInt (min t 2 : Nat)) (vInt t))
    (kb : Answers b 7 (fun _ => vUnit) fun t => pair (vInt (min t 2 : Nat)) (vInt (min t 6 : Nat)))
    {t : Nat} (ht : t < 7) :
    Solves A g N assoc_system (ints fun x t => if x = "ti" ∨ x = "wi" then (min t 2 : Nat) else t)
      (fun _ => vUnit) t := by
  refine ⟨fun h => absurd rfl h, fun st hst => ?_⟩
  simp only [assoc_system, List.mem_cons, List.not_mem_nil, or_false] at hst
  rcases hst with rfl | rfl | rfl | rfl
  · refine ⟨pair (vInt (min t 2 : Nat)) (vInt t), ?_, ⟨rfl, rfl, trivial⟩⟩
    ladder
    exact ref_call ha ka ht fun u _ => by simp only [refList0]; rfl
  · refine ⟨pair (vInt (min t 2 : Nat)) (vInt (min t 6 : Nat)), ?_, ⟨rfl, ?_, trivial⟩⟩
    · ladder
      exact ref_call hb kb ht fun u _ => by simp only [refList0]; rfl
    · rw [show min t 6 = t by omega]; rfl
  · simp only [SrcHolds]
    ladder
    rw [ref_var (by decide), ref_var (by decide)]
    simp only [ints, int_leaf, Option.bind_some]
    simp only [true_or, or_true, if_true]
    rw [eq_int ⟨by omega, by omega⟩ ⟨by omega, by omega⟩]
    simp [vBool]
  · simp only [SrcHolds]
    ladder
    rw [ref_var (by decide), ref_var (by decide)]
    simp only [ints, int_leaf, Option.bind_some]
    rw [if_neg (by decide), if_neg (by decide), eq_int ⟨by omega, by omega⟩ ⟨by omega, by omega⟩]
    simp [vBool]

theorem assoc_system_fails {a b : Machine} (ha : N "testing" = some a) (hb : N "witness" = some b)
    (ka : Answers a 8 (fun _ => vUnit) fun t => pair (vInt (min t 2 : Nat)) (vInt t))
    (kb : Answers b 8 (fun _ => vUnit) fun t => pair (vInt (min t 2 : Nat)) (vInt (min t 6 : Nat)))
    {S : String → Nat → Nillable Scalar} : ¬ Solves A g N assoc_system S (fun _ => vUnit) 7 := by
  intro h
  obtain ⟨v, h1, h2⟩ := h.2 _ (List.mem_cons_self ..)
  obtain ⟨v', h1', h2'⟩ := h.2 _ (List.mem_cons_of_mem _ (List.mem_cons_self ..))
  have h3 := h.2 _ (List.mem_cons_of_mem _ (List.mem_cons_of_mem _ (List.mem_cons_of_mem _ (List.mem_cons_self ..))))
  revert h1 h1' h3
  simp only [SrcHolds]
  ladder
  rw [ref_call ha ka (by omega) fun u _ => by simp only [refList0]; rfl,
    ref_call hb kb (by omega) fun u _ => by simp only [refList0]; rfl, ref_var (by decide), ref_var (by decide)]
  intro e e'
  cases e
  cases e'
  obtain ⟨-, j, -⟩ := h2
  obtain ⟨-, j', -⟩ := h2'
  have e1 : S "tj" 7 = .defined (.int (Int64.ofInt 7)) := j
  have e2 : S "wj" 7 = .defined (.int (Int64.ofInt 6)) := j'
  rw [e1, e2]
  simp only [int_leaf, Option.bind_some]
  rw [eq_int ⟨by omega, by omega⟩ ⟨by omega, by omega⟩]
  simp [vBool]

theorem uni_left0 {W : World} {D : String → Clock} {a : Src} {t : Nat} : uni W D (.left a []) t = uni W D a t := by
  simp [uni, uniLeft]

theorem uni_cmp0 {W : World} {D : String → Clock} {a : Src} {t : Nat} : uni W D (.cmp a []) t = uni W D a t := by
  simp [uni, uniCmp]

theorem uni_fby0 {W : World} {D : String → Clock} {a : Src} {t : Nat} : uni W D (.fby a []) t = uni W D a t := by
  simp [uni]

theorem uni_arrow0 {W : World} {D : String → Clock} {a : Src} {t : Nat} :
    uni W D (.arrow a []) t = uni W D a t := by
  simp [uni]

theorem uni_pre {W : World} {D : String → Clock} {a : Src} {t : Nat} : uni W D (.pre a) t =
    uniPre (uniOn W D a t) (Tup.allNil Scalar (uniShape W a)) (uni W D a) t := by
  simp only [uni]

theorem uni_arrow1 {W : World} {D : String → Clock} {a b : Src} {t : Nat} : uni W D (.arrow a [b]) t =
    uniThen (uni W D a) (uni W D b) t := by
  have : uniArrow W D [b] = uni W D b := by
    funext t
    simp [uniArrow]
  rw [uni]
  simp only [List.isEmpty_cons, Bool.false_eq_true, if_false, this]

/-! ## `univpre` -/

/-- The equations of a node with registers over the streams `S`. -/
def UniSolves (A : Arith) (consts : String → Option Scalar) (nodes : String → Option Machine)
    (src : SrcNode) (S : String → Nat → Nillable Scalar) (inp : Nat → Value) (t : Nat) : Prop :=
  (argNames src.inputs ≠ [] → inp t = together (S · t) (argNames src.inputs)) ∧
    ∀ st ∈ src.defs, UniHolds ⟨A, SrcNode.vars src, S, consts, nodes⟩ (SrcNode.clocks src) t st

theorem uni_answers {attrs : List Attribute} {src : SrcNode} {m : Machine} (hm : Means A g N attrs src m)
    (hu : hasAny attrs ["universal_pre"] = true) {S : String → Nat → Nillable Scalar} {n : Nat}
    {inp : Nat → Value} (hp : ∀ t, present (inp t) = true)
    (hs : ∀ t < n, UniSolves A g N src S inp t) :
    Answers m n inp fun t => together (S · t) (argNames src.outputs) := by
  intro k hk
  refine (hm _ _).2 ⟨_, ⟨S, ?_, rfl⟩, ?_⟩
  · rw [if_pos hu, filter_present hp]
    refine ⟨fun t i hi hne => ?_, fun t ht st hst => ?_⟩
    · simp only [List.getElem?_map, Option.map_eq_some_iff] at hi
      obtain ⟨u, hu, rfl⟩ := hi
      obtain ⟨hlt, rfl⟩ := List.getElem?_eq_some_iff.1 hu
      simp only [List.getElem_range, List.length_range] at hlt ⊢
      exact (hs t (by omega)).1 hne
    · simp only [List.length_map, List.length_range] at ht
      exact (hs t (by omega)).2 st hst
  · rw [filter_present hp, spread_present _ _ _ (by simp [srcOutputs])]
    · simp [srcOutputs]
    · intro i hi
      obtain ⟨t, -, rfl⟩ := List.mem_map.1 hi
      exact hp t

theorem lastKept_ints (f : Nat → Int) : ∀ t, lastKept (fun t => some (vInt (f t))) t =
    some (if t = 0 then none else some (vInt (f (t - 1))))
  | 0 => rfl
  | t + 1 => by
    simp only [lastKept, lastKept_ints f t]
    rfl

/-- Zero, then the previous value. -/
abbrev prevStreams (x : Nat → Int) : String → Nat → Nillable Scalar :=
  ints fun y t => if y = "x" then x t else if t = 0 then 0 else x (t - 1)

theorem uni_prev_solves (x : Nat → Int) (t : Nat) :
    UniSolves A g N prev_prev_testing (prevStreams x) (fun t => vInt (x t)) t := by
  refine ⟨fun h => rfl, fun st hst => ?_⟩
  simp only [prev_prev_testing, List.mem_cons, List.not_mem_nil, or_false] at hst
  subst hst
  refine ⟨vInt (if t = 0 then 0 else x (t - 1)), ?_, rfl⟩
  generalize hW : (⟨A, SrcNode.vars prev_prev_testing, prevStreams x, g, N⟩ : World) = W
  have h0 : ∀ t, uni W (SrcNode.clocks prev_prev_testing)
      (.left (.left (.left (.lit (.int 0)) []) []) []) t = some (vInt 0) := by
    intro t
    rw [uni_left0, uni_left0, uni_left0]
    rfl
  have hx : ∀ t, uni W (SrcNode.clocks prev_prev_testing) (.var "x") t = some (vInt (x t)) := by
    intro t
    subst hW
    simp only [uni]
    rw [if_pos (by decide)]
    rfl
  have hp : ∀ t, uni W (SrcNode.clocks prev_prev_testing) (.left (.left (.left (.pre (.var "x")) []) []) []) t =
      some (if t = 0 then .leaf .nil else vInt (x (t - 1))) := by
    intro t
    have hon : uniOn W (SrcNode.clocks prev_prev_testing) (.var "x") t = some true := by
      subst hW
      simp only [uniOn]
      rw [if_pos (by decide)]
      rfl
    rw [uni_left0, uni_left0, uni_left0]
    rw [uni_pre, uniPre, hon, show uni W (SrcNode.clocks prev_prev_testing) (.var "x") =
      fun t => some (vInt (x t)) from funext hx, lastKept_ints]
    cases t <;> rfl
  rw [uni_left0, uni_left0, uni_cmp0, uni_fby0, uni_arrow1, uniThen, h0, hp, show uni W (SrcNode.clocks prev_prev_testing) (.left (.left (.left (.lit (.int 0)) []) []) []) =
    fun _ => some (vInt 0) from funext h0, lastKept_ints fun _ => 0]
  cases t <;> rfl

theorem prev_solves (x : Nat → Int) (t : Nat) :
    Solves A g N prev_prev_witness (prevStreams x) (fun t => vInt (x t)) t := by
  refine ⟨fun h => rfl, fun st hst => ?_⟩
  simp only [prev_prev_witness, List.mem_cons, List.not_mem_nil, or_false] at hst
  subst hst
  refine ⟨vInt (if t = 0 then 0 else x (t - 1)), ?_, rfl⟩
  ladder
  rw [ref_int _ _ 0 (by omega)]
  cases t with
  | zero => rw [ref_past (by decide) (by decide)]; rfl
  | succ t =>
    rw [show ((t + 1 : Nat) : Int) - 1 = (t : Nat) by omega, ref_var (by decide)]
    simp only [Option.bind_some]
    rw [if_pos (by omega)]
    rfl

/-- What `main_prev` computes. -/
def mix : Nat → Int
  | 0 => 0
  | 1 => 5
  | 2 => 4
  | 3 => 3
  | t + 4 => (mix (t + 3) + mix (t + 2) * mix (t + 1)) % 100

theorem mix_small : ∀ t, 0 ≤ mix t ∧ mix t < 100
  | 0 => by simp [mix]
  | 1 => by simp [mix]
  | 2 => by simp [mix]
  | 3 => by simp [mix]
  | t + 4 => by
    rw [mix]
    exact ⟨Int.emod_nonneg _ (by omega), Int.emod_lt_of_pos _ (by omega)⟩

theorem nil_mul (v : Nillable Scalar) : applyLOp A .mul (.leaf .nil) (.leaf v) = some (.leaf .nil) := by
  simp [applyLOp, applyBin, Nillable.binop, Except.toOption]

theorem mul_nil (v : Nillable Scalar) : applyLOp A .mul (.leaf v) (.leaf .nil) = some (.leaf .nil) := by
  cases v <;> simp [applyLOp, applyBin, Nillable.binop, Except.toOption]

theorem nil_rem (v : Nillable Scalar) : applyLOp A .rem (.leaf .nil) (.leaf v) = some (.leaf .nil) := by
  simp [applyLOp, applyBin, Nillable.binop, Except.toOption]

theorem mix_step {x y z : Int} (hx : 0 ≤ x ∧ x < 100) (hy : 0 ≤ y ∧ y < 100) (hz : 0 ≤ z ∧ z < 100) :
    ((applyLOp A .mul (vInt y) (vInt z)).bind fun w => applyLOp A .add (vInt x) w).bind
      (fun w => applyLOp A .rem w (vInt 100)) = some (vInt ((x + y * z) % 100)) := by
  have h1 : 0 ≤ y * z := Int.mul_nonneg hy.1 hz.1
  have h2 : y * z ≤ 100 * 100 := Int.mul_le_mul (by omega) (by omega) hz.1 (by omega)
  rw [mul_int ⟨by omega, by omega⟩ ⟨by omega, by omega⟩ ⟨by omega, by omega⟩]
  simp only [Option.bind_some]
  rw [add_int ⟨by omega, by omega⟩ ⟨by omega, by omega⟩ ⟨by omega, by omega⟩]
  simp only [Option.bind_some]
  rw [rem_int ⟨by omega, by omega⟩ ⟨by omega, by omega⟩ (by omega) (by omega)]

/-- The last arm of `main_prev`. -/
theorem mix_arm {vs : List String} {S : String → Nat → Nillable Scalar} (hn : "n" ∈ vs)
    (hS : ∀ t, S "n" t = .defined (.int (Int64.ofInt (mix t)))) (t : Nat) :
    ∃ v, ref ⟨A, vs, S, g, N⟩ (.left (.left (.left (.paren [.left (.left (.cmp (.fby (.arrow
    (.left (.left (.left (.pre (.var "n")) []) []) [(.add, .left (.left (.pre (.pre
    (.var "n"))) []) [(.mul, .left (.pre (.pre (.pre (.var "n")))) [])])]) []) []) []) [])
    []] false) []) [(.rem, .left (.lit (.int 100)) [])]) []) t = some v ∧ (4 ≤ t → v = vInt (mix t)) := by
  ladder
  rw [ref_int _ _ 100 (by omega)]
  match t with
  | 0 =>
    refine ⟨.leaf .nil, ?_, by omega⟩
    rw [ref_past hn (by decide), ref_past hn (by decide), ref_past hn (by decide)]
    simp only [Option.bind_some, nil_mul, nil_add, vInt, nil_rem]
  | 1 =>
    refine ⟨.leaf .nil, ?_, by omega⟩
    rw [show ((1 : Nat) : Int) - 1 = (0 : Nat) by omega, ref_var hn, ref_past hn (by decide), ref_past hn (by decide)]
    simp only [Option.bind_some, nil_mul, add_nil, vInt, nil_rem]
  | 2 =>
    refine ⟨.leaf .nil, ?_, by omega⟩
    rw [show ((2 : Nat) : Int) - 1 = (1 : Nat) by omega, show ((1 : Nat) : Int) - 1 = (0 : Nat) by omega,
      ref_var hn, ref_var hn, ref_past hn (by decide)]
    simp only [Option.bind_some, mul_nil, add_nil, vInt, nil_rem]
  | t + 3 =>
    refine ⟨vInt ((mix (t + 2) + mix (t + 1) * mix t) % 100), ?_, fun h => ?_⟩
    · rw [show ((t + 3 : Nat) : Int) - 1 = (t + 2 : Nat) by omega,
        show ((t + 2 : Nat) : Int) - 1 = (t + 1 : Nat) by omega,
        show ((t + 1 : Nat) : Int) - 1 = (t : Nat) by omega, ref_var hn, ref_var hn, ref_var hn, hS, hS, hS]
      have := mix_step (A := A) (mix_small (t + 2)) (mix_small (t + 1)) (mix_small t)
      simpa only [Option.bind_some, int_leaf] using this
    · obtain ⟨u, rfl⟩ : ∃ u, t = u + 1 := ⟨t - 1, by omega⟩
      rw [show u + 1 + 3 = u + 4 by omega, mix]

theorem main_prev_solves {a b : Machine} (ha : N "prev_testing" = some a) (hb : N "prev_witness" = some b)
    (ka : ∀ x : Nat → Int, Forever a (fun t => vInt (x t)) fun t => vInt (if t = 0 then 0 else x (t - 1)))
    (kb : ∀ x : Nat → Int, Forever b (fun t => vInt (x t)) fun t => vInt (if t = 0 then 0 else x (t - 1)))
    (t : Nat) : Solves A g N prev_main_prev (ints fun _ => mix) (fun _ => vUnit) t := by
  refine ⟨fun h => absurd rfl h, fun st hst => ?_⟩
  simp only [prev_main_prev, List.mem_cons, List.not_mem_nil, or_false] at hst
  rcases hst with rfl | rfl
  · refine ⟨vInt (mix t), ?_, rfl⟩
    obtain ⟨v, h1, h2⟩ := mix_arm (A := A) (g := g) (N := N) (vs := SrcNode.vars prev_main_prev)
      (S := ints fun _ => mix) (by decide) (fun _ => rfl) t
    rw [ref_left0, ref_left0, ref_cmp0, ref_fby0, ref_chain (vs := [vInt 0, vInt 5, vInt 4, vInt 3, v])
      (by
        refine .cons ?_ (.cons ?_ (.cons ?_ (.cons ?_ (.cons ?_ .nil))))
        · ladder; exact ref_int _ _ _ (by omega)
        · ladder; exact ref_int _ _ _ (by omega)
        · ladder; exact ref_int _ _ _ (by omega)
        · ladder; exact ref_int _ _ _ (by omega)
        · simpa only [ref_left0] using h1)]
    match t with
    | 0 => rfl
    | 1 => rfl
    | 2 => rfl
    | 3 => rfl
    | t + 4 => rw [h2 (by omega)]; simp
  · simp only [SrcHolds]
    ladder
    have hn : ∀ u : Nat, (refList ⟨A, SrcNode.vars prev_main_prev, ints fun _ => mix, g, N⟩
        [.left (.left (.cmp (.fby (.arrow (.left (.left (.left (.var "n") []) []) []) []) []) []) []) []] u).map
          tupleValue = some (vInt (mix u)) := by
      intro u
      simp only [refList_cons, refList0]
      ladder
      rw [ref_var (by decide)]
      rfl
    rw [ref_call ha (ka mix (t + 1)) (Nat.lt_succ_self t) fun u _ => hn u,
      ref_call hb (kb mix (t + 1)) (Nat.lt_succ_self t) fun u _ => hn u]
    have : Fits (if t = 0 then 0 else mix (t - 1)) := by
      have := mix_small (t - 1)
      split <;> exact ⟨by omega, by omega⟩
    simp only [Option.bind_some]
    rw [eq_int this this]
    simp [vBool]

end
end Chandeliers.Smp
