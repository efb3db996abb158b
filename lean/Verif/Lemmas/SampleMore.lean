import Verif.Lemmas.SamplePrev

/-!
# Lemmas about programs that come with the project: types as parameters, traits, tests, chains of `fby`
-/

set_option autoImplicit false

namespace Chandeliers.Smp
open San Syn Err Spec Spec.Samples Props

/-- The node. -/
def swap_swap : SrcNode :=
  ⟨"swap", [⟨["t0"], .other "T", .implicit⟩, ⟨["u0"], .other "U", .implicit⟩], [⟨["u1"], .other
    "U", .implicit⟩, ⟨["t1"], .other "T", .implicit⟩], [], [.def_ (.var "t1") (.left (.left (.cmp
    (.fby (.arrow (.left (.left (.left (.var "t0") []) []) []) []) []) []) []) []), .def_ (.var
    "u1") (.left (.left (.cmp (.fby (.arrow (.left (.left (.left (.var "u0") []) []) []) []) [])
    []) []) [])]⟩

/-- The node. -/
def swap_main : SrcNode :=
  ⟨"main", [], [], [⟨["x"], .int, .implicit⟩, ⟨["y"], .float, .implicit⟩], [.def_ (.tuple [.var
    "x", .var "y"] false) (.left (.left (.cmp (.fby (.arrow (.left (.left (.left (.call "swap"
    [.left (.left (.cmp (.fby (.arrow (.left (.left (.left (.call "swap" [.left (.left (.cmp
    (.fby (.arrow (.left (.left (.left (.lit (.int 1)) []) []) []) []) []) []) []) [], .left
    (.left (.cmp (.fby (.arrow (.left (.left (.left (.lit (.float (some ⟨4602678819172646912⟩)))
    []) []) []) []) []) []) []) []] false) []) []) []) []) []) []) []) []] false) []) []) []) [])
    []) []) []) [])]⟩

/-- The node. -/
def trait_test : SrcNode :=
  ⟨"test", [⟨["i"], .int, .implicit⟩], [⟨["o"], .int, .implicit⟩], [], [.def_ (.var "o") (.left
    (.left (.cmp (.fby (.arrow (.left (.left (.left (.var "i") []) []) [(.add, .left (.left
    (.paren [.left (.left (.cmp (.fby (.arrow (.left (.left (.left (.lit (.int 0)) []) []) [])
    []) [.arrow (.left (.left (.left (.var "o") []) []) []) []]) []) []) []] false) []) [])]) [])
    []) []) []) [])]⟩

/-- The node. -/
def add_addition : SrcNode :=
  ⟨"addition_correct", [], [], [], [.assert (.left (.left (.cmp (.fby (.arrow (.left (.left
    (.left (.lit (.int 1)) []) []) [(.add, .left (.left (.lit (.int 1)) []) [])]) []) []) [(.eq,
    .fby (.arrow (.left (.left (.left (.lit (.int 2)) []) []) []) []) [])]) []) [])]⟩

/-- The node. -/
def fbys_testing : SrcNode :=
  ⟨"testing", [], [⟨["b"], .bool, .implicit⟩], [], [.def_ (.var "b") (.left (.left (.cmp (.fby
    (.arrow (.left (.left (.left (.lit (.bool true)) []) []) []) []) [.arrow (.left (.left (.left
    (.lit (.bool false)) []) []) []) [], .arrow (.left (.left (.left (.lit (.bool false)) []) [])
    []) [], .arrow (.left (.left (.left (.var "b") []) []) []) []]) []) []) [])]⟩

/-- What `swapText` reads as. -/
def swapTree : SrcProg :=
  [⟨[⟨"generic", ["T", "U"], [], 0⟩], .node swap_swap⟩, ⟨[⟨"main", [], [], 0⟩], .node swap_main⟩]

theorem swap_reads : parseProg swapText = some swapTree := rfl

/-- What `traitText` reads as. -/
def traitTree : SrcProg :=
  [⟨[⟨"trait", [], [], 0⟩, ⟨"export", [], [], 0⟩], .node trait_test⟩]

theorem trait_reads : parseProg traitText = some traitTree := rfl

/-- What `addText` reads as. -/
def addTree : SrcProg :=
  [⟨[⟨"trace", [], [.str "<- {_clk}", .str "-> {_clk}"], 0⟩, ⟨"test", [], [], 0⟩], .node add_addition⟩]

theorem add_reads : parseProg addText = some addTree := rfl

/-- What `fbysText` reads as. -/
def fbysTree : SrcProg :=
  [⟨[⟨"universal_pre", [], [], 0⟩, ⟨"trace", [], [.str "testing {b}\n"], 0⟩], .node fbys_testing⟩]

theorem fbys_reads : parseProg fbysText = some fbysTree := rfl

section
variable {A : Arith} {g : String → Option Scalar} {N : String → Option Machine}

theorem swap_solves (a b : Nat → Nillable Scalar) (t : Nat) :
    Solves A g N swap_swap (fun x t => if x = "t0" ∨ x = "t1" then a t else b t)
      (fun t => .tup (.leaf (a t)) [.leaf (b t)]) t := by
  refine ⟨fun h => rfl, fun st hst => ?_⟩
  simp only [swap_swap, List.mem_cons, List.not_mem_nil, or_false] at hst
  rcases hst with rfl | rfl
  · refine ⟨.leaf (a t), ?_, rfl⟩
    ladder
    rw [ref_var (by decide)]
    rfl
  · refine ⟨.leaf (b t), ?_, rfl⟩
    ladder
    rw [ref_var (by decide)]
    rfl

/-- One half. -/
def half : F64 := ⟨4602678819172646912⟩

theorem swap_main_solves {m : Machine} (hm : N "swap" = some m) {n : Nat}
    (h1 : Answers m n (fun _ => pair (vInt 1) (vFloat half)) fun _ => pair (vFloat half) (vInt 1))
    (h2 : Answers m n (fun _ => pair (vFloat half) (vInt 1)) fun _ => pair (vInt 1) (vFloat half))
    {t : Nat} (ht : t < n) :
    Solves A g N swap_main (fun x _ => if x = "x" then .defined (.int 1) else .defined (.float half))
      (fun _ => vUnit) t := by
  refine ⟨fun h => absurd rfl h, fun st hst => ?_⟩
  simp only [swap_main, List.mem_cons, List.not_mem_nil, or_false] at hst
  subst hst
  refine ⟨pair (vInt 1) (vFloat half), ?_, ⟨rfl, rfl, trivial⟩⟩
  ladder
  refine ref_call hm h2 ht fun u hu => ?_
  simp only [refList_cons, refList0]
  ladder
  rw [ref_call hm h1 (t := u) (by omega) fun u' _ => by
    simp only [refList_cons, refList0]
    ladder
    rw [ref_int _ _ 1 (by omega)]
    rfl]
  rfl

theorem trait_solves {r : Nat → Int} {n : Nat} (hr : ∀ t < n, Fits (r t)) (hs : ∀ t < n, Fits (total r t))
    {t : Nat} (ht : t < n) :
    Solves A g N trait_test (ints fun x t => if x = "i" then r t else total r t) (fun t => vInt (r t)) t := by
  refine ⟨fun h => rfl, fun st hst => ?_⟩
  simp only [trait_test, List.mem_cons, List.not_mem_nil, or_false] at hst
  subst hst
  refine ⟨vInt (total r t), ?_, rfl⟩
  ladder
  rw [ref_int _ _ 0 (by omega), ref_var (by decide)]
  cases t with
  | zero =>
    rw [ref_past (by decide) (by decide)]
    have := add_int (A := A) (hr 0 ht) (show Fits 0 from ⟨by omega, by omega⟩) (by simpa using hr 0 ht)
    simp only [Option.bind_some, ints, if_true, int_leaf]
    rw [if_neg (by omega)]
    simp only [Option.bind_some, this]
    simp [total]
  | succ u =>
    rw [show ((u + 1 : Nat) : Int) - 1 = (u : Nat) by omega, ref_var (by decide)]
    have h : r (u + 1) + total r u = total r (u + 1) := by simp [total]; omega
    have := add_int (A := A) (hr (u + 1) ht) (hs u (by omega)) (by rw [h]; exact hs _ ht)
    simp only [Option.bind_some, ints, if_true, int_leaf]
    rw [if_pos (by omega)]
    simp only [Option.bind_some]
    rw [if_neg (by decide)]
    rw [← h]
    exact this

theorem add_solves (t : Nat) : Solves A g N add_addition (fun _ _ => .nil) (fun _ => vUnit) t := by
  refine ⟨fun h => absurd rfl h, fun st hst => ?_⟩
  simp only [add_addition, List.mem_cons, List.not_mem_nil, or_false] at hst
  subst hst
  simp only [SrcHolds]
  ladder
  rw [ref_int _ _ 1 (by omega), ref_int _ _ 2 (by omega)]
  simp only [Option.bind_some]
  rw [add_int ⟨by omega, by omega⟩ ⟨by omega, by omega⟩ ⟨by omega, by omega⟩]
  simp only [Option.bind_some]
  rw [eq_int ⟨by omega, by omega⟩ ⟨by omega, by omega⟩]
  rfl

theorem lastKept_bools (f : Nat → Bool) : ∀ t, lastKept (fun t => some (vBool (f t))) t =
    some (if t = 0 then none else some (vBool (f (t - 1))))
  | 0 => rfl
  | t + 1 => by
    simp only [lastKept, lastKept_bools f t]
    rfl

theorem uniBefore_bools (b : Bool) (f : Nat → Bool) (t : Nat) :
    uniBefore (some true) (fun _ => some (vBool b)) (fun t => some (vBool (f t))) t =
      some (vBool (if t = 0 then b else f (t - 1))) := by
  rw [uniBefore, lastKept_bools]
  cases t <;> rfl

theorem fbys_solves (t : Nat) :
    UniSolves A g N fbys_testing (fun _ t => .defined (.bool (decide (t % 3 = 0)))) (fun _ => vUnit) t := by
  refine ⟨fun h => absurd rfl h, fun st hst => ?_⟩
  simp only [fbys_testing, List.mem_cons, List.not_mem_nil, or_false] at hst
  subst hst
  refine ⟨vBool (decide (t % 3 = 0)), ?_, rfl⟩
  generalize hW : (⟨A, SrcNode.vars fbys_testing, fun _ t => .defined (.bool (decide (t % 3 = 0))), g, N⟩ : World) = W
  generalize SrcNode.clocks fbys_testing = C at *
  have hl : ∀ (b : Bool) t, uni W C (.arrow (.left (.left (.left (.lit (.bool b)) []) []) []) []) t = some (vBool b) := by
    intro b t
    rw [uni_arrow0, uni_left0, uni_left0, uni_left0]
    rfl
  have hb : ∀ t, uni W C (.arrow (.left (.left (.left (.var "b") []) []) []) []) t =
      some (vBool (decide (t % 3 = 0))) := by
    intro t
    rw [uni_arrow0, uni_left0, uni_left0, uni_left0]
    subst hW
    simp only [uni]
    rw [if_pos (by decide)]
    rfl
  have ho : ∀ (b : Bool) t, uniOn W C (.arrow (.left (.left (.left (.lit (.bool b)) []) []) []) []) t = some true := by
    intro b t
    simp only [uniOn, uniOnLeft]
  have h3 : uniFby W C [.arrow (.left (.left (.left (.var "b") []) []) []) []] =
      fun t => some (vBool (decide (t % 3 = 0))) := by
    funext t
    simp only [uniFby, List.isEmpty_nil, if_true, hb]
  have h2 : uniFby W C [.arrow (.left (.left (.left (.lit (.bool false)) []) []) []) [],
      .arrow (.left (.left (.left (.var "b") []) []) []) []] =
      fun t => some (vBool (if t = 0 then false else decide ((t - 1) % 3 = 0))) := by
    funext t
    rw [uniFby]
    simp only [List.isEmpty_cons, Bool.false_eq_true, if_false, h3, ho]
    rw [show uni W C (.arrow (.left (.left (.left (.lit (.bool false)) []) []) []) []) =
      fun _ => some (vBool false) from funext (hl false), uniBefore_bools]
  have h1 : uniFby W C [.arrow (.left (.left (.left (.lit (.bool false)) []) []) []) [],
      .arrow (.left (.left (.left (.lit (.bool false)) []) []) []) [],
      .arrow (.left (.left (.left (.var "b") []) []) []) []] =
      fun t => some (vBool (if t = 0 then false else if t - 1 = 0 then false else decide ((t - 1 - 1) % 3 = 0))) := by
    funext t
    rw [uniFby]
    simp only [List.isEmpty_cons, Bool.false_eq_true, if_false, h2, ho]
    rw [show uni W C (.arrow (.left (.left (.left (.lit (.bool false)) []) []) []) []) =
      fun _ => some (vBool false) from funext (hl false),
      uniBefore_bools false fun t => if t = 0 then false else decide ((t - 1) % 3 = 0)]
  rw [uni_left0, uni_left0, uni_cmp0, uni]
  simp only [List.isEmpty_cons, Bool.false_eq_true, if_false, h1, ho]
  rw [show uni W C (.arrow (.left (.left (.left (.lit (.bool true)) []) []) []) []) =
    fun _ => some (vBool true) from funext (hl true),
    uniBefore_bools true fun t => if t = 0 then false else if t - 1 = 0 then false else decide ((t - 1 - 1) % 3 = 0)]
  match t with
  | 0 => rfl
  | 1 => rfl
  | 2 => rfl
  | t + 3 =>
    rw [if_neg (by omega), if_neg (by omega), if_neg (by omega)]
    congr 3
    rw [eq_iff_iff]
    omega
end

end Chandeliers.Smp
