import Verif.Props.Samples

/-!
# Nodes of Rust that meet the hypotheses of C70
-/

set_option autoImplicit false

namespace Chandeliers.Tests
open San Syn Err Spec Spec.Samples Smp Props

/-- A node of Rust that returns `out t` at instant `t`. -/
def ticker (out : Nat → Value) : Machine := ⟨Nat, 0, .leaf (), fun s _ => .ok (out s, s + 1)⟩

theorem ticker_runFrom (out : Nat → Value) : ∀ (is : List Value) (s : Nat),
    (ticker out).runFrom s is = .ok ((List.range is.length).map (fun t => out (s + t)), s + is.length)
  | [], s => rfl
  | i :: is, s => by
    have := ticker_runFrom out is (s + 1)
    simp only [Machine.runFrom, ticker, bind, Except.bind] at this ⊢
    rw [this]
    simp only [List.length_cons, List.range_succ_eq_map, List.map_cons, List.map_map]
    refine congrArg _ (Prod.ext (List.cons_eq_cons.2 ⟨rfl, List.map_congr_left fun t _ => ?_⟩) ?_)
    · show out (s + 1 + t) = out (s + (t + 1)); congr 1; omega
    · show s + 1 + is.length = s + (is.length + 1); omega

theorem ticker_answers (out : Nat → Value) (n : Nat) (inp : Nat → Value) : Answers (ticker out) n inp out := by
  intro k _
  have := ticker_runFrom out ((List.range k).map inp) 0
  simp only [Machine.run, show (ticker out).init = (0 : Nat) from rfl, this]
  simp [bind, Except.bind]

theorem ticker_respects {out : Nat → Value} {ty : TyBase} (h : ∀ t, ValTy (.single ty) (out t)) :
    Respects (ticker out) (.multiple []) (.single ty) := by
  refine ⟨fun is _ => ⟨fun p hp => ?_, fun os s' ho o hm => ?_⟩, fun x hx => by cases hx⟩
  · rw [show (ticker out).init = (0 : Nat) from rfl, ticker_runFrom] at hp; cases hp
  · rw [show (ticker out).init = (0 : Nat) from rfl, ticker_runFrom] at ho
    cases ho
    obtain ⟨t, -, rfl⟩ := List.mem_map.1 hm
    exact h _

/-- The nodes of Rust: a counter, random bits, and random numbers, some of them below 0.9. -/
def rustNodesHere : Extern := ⟨fun _ => none, fun f =>
  if f = "count" then some (ticker fun t => vInt t) else
  if f = "RandomInt" then some (ticker fun t => vInt (t % 3)) else
  if f = "random_bool" then some (ticker fun t => vBool (t % 2 == 0)) else
  if f = "random_float" then some (ticker fun _ => vFloat ⟨0x3fe0000000000000#64⟩) else
  if f = "unreliable_counter" then some (ticker fun t => vInt (hits (fun _ => false) t)) else
  if f = "reliable_counter" then some (ticker fun t => vInt t) else none⟩

theorem int_ok (z : Int) : ValTy (.single .int) (vInt z) := fun x hx => by cases hx; trivial

example (uid : Nat) (A : Arith) : ∃ I m l, Emits uid A rustNodesHere countingText I ∧
    structOf uid I "counting_twice" = some m ∧ structOf uid I "counting_late" = some l ∧
    Answers m 1000 (fun _ => vUnit) (fun t => vInt t) ∧
    Answers l 1000 (fun _ => vUnit) (fun t => vInt ((t - 2 : Nat) : Int)) :=
  C70_counting uid A rustNodesHere ⟨rfl, ticker_respects fun _ => int_ok _⟩ (ticker_answers _ _ _)

example : Offered rustNodesHere "RandomInt" .int (ticker fun t => vInt (t % 3)) ∧
    (∀ t < 100, Fits (((t : Nat) % 3 : Nat) : Int)) ∧
    ∀ t < 100, Fits (total (fun t => ((t % 3 : Nat) : Int)) t) := by
  refine ⟨⟨rfl, ticker_respects fun _ => int_ok _⟩, fun t _ => ⟨by omega, by omega⟩, fun t ht => ?_⟩
  have : ∀ t, 0 ≤ total (fun t => ((t % 3 : Nat) : Int)) t ∧ total (fun t => ((t % 3 : Nat) : Int)) t ≤ 3 * t + 3 := by
    intro t
    induction t with
    | zero => simp [total]
    | succ t ih => simp only [total]; push_cast at ih ⊢; omega
  have := this t
  exact ⟨by omega, by omega⟩

example : Offered rustNodesHere "random_bool" .bool (ticker fun t => vBool (t % 2 == 0)) ∧
    Answers (ticker fun t => vBool (t % 2 == 0)) 100 (fun _ => vUnit) (fun t => vBool (t % 2 == 0)) :=
  ⟨⟨rfl, ticker_respects fun _ x hx => by cases hx; trivial⟩, ticker_answers _ _ _⟩

example : Offered rustNodesHere "random_float" .float (ticker fun _ => vFloat ⟨0x3fe0000000000000#64⟩) ∧
    Answers (ticker fun _ => vFloat ⟨0x3fe0000000000000#64⟩) 100 (fun _ => vUnit)
      (fun _ => vFloat ⟨0x3fe0000000000000#64⟩) :=
  ⟨⟨rfl, ticker_respects fun _ x hx => by cases hx; trivial⟩, ticker_answers _ _ _⟩

/-- Both cases of the race. -/
example (uid : Nat) (A : Arith) : ∃ I m, Emits uid A rustNodesHere raceText I ∧ structOf uid I "system" = some m ∧
    Answers m 1000 (fun _ => vUnit) (fun _ => vUnit) := by
  obtain ⟨I, m, h1, h2, -, h3, -⟩ := C70_race uid A rustNodesHere (u := ticker fun t => vInt (hits (fun _ => false) t))
    (r := ticker fun t => vInt t) ⟨rfl, ticker_respects fun _ => int_ok _⟩
    ⟨rfl, ticker_respects fun _ => int_ok _⟩ (fun _ => false) (n := 1000) (by omega)
    (ticker_answers _ _ _) (ticker_answers _ _ _)
  exact ⟨I, m, h1, h2, (h3 rfl).1⟩

example (uid : Nat) (A : Arith) : ∃ X I m, Emits uid A X raceText I ∧ structOf uid I "system" = some m ∧
    Panics m (fun _ => vUnit) 0 := by
  let X : Extern := ⟨fun _ => none, fun f => if f = "unreliable_counter" then some (ticker fun t => vInt (hits (fun _ => true) t))
    else if f = "reliable_counter" then some (ticker fun t => vInt t) else none⟩
  obtain ⟨I, m, h1, h2, -, -, h3⟩ := C70_race uid A X (u := ticker fun t => vInt (hits (fun _ => true) t))
    (r := ticker fun t => vInt t) ⟨rfl, ticker_respects fun _ => int_ok _⟩
    ⟨rfl, ticker_respects fun _ => int_ok _⟩ (fun _ => true) (n := 1) (by omega)
    (ticker_answers _ _ _) (ticker_answers _ _ _)
  exact ⟨X, I, m, h1, h2, (h3 rfl (by omega)).1⟩

/-- Both invocations of the documentation, one after the other. -/
example (A : Arith) : ∃ I I' m, Emits 1 A ⟨fun _ => none, fun _ => none⟩ countText I ∧
    Emits 2 A ⟨fun _ => none, exported 1 A I⟩ countingText I' ∧ structOf 2 I' "counting_late" = some m ∧
    Answers m (2 ^ 63) (fun _ => vUnit) (fun t => vInt ((t - 2 : Nat) : Int)) := by
  obtain ⟨I, he, h⟩ := C70_counting_on_count 1 2 A ⟨fun _ => none, fun _ => none⟩
  obtain ⟨I', _, m, h1, -, h2, -, h3⟩ := h ⟨fun _ => none, exported 1 A I⟩ rfl
  exact ⟨I, I', m, he, h1, h2, h3⟩

/-- Both invocations of the example, and both outcomes. -/
example (A : Arith) (o : Ordering) (ho : A.fcmp ⟨0x3fe0000000000000#64⟩ ⟨0x3feccccccccccccd#64⟩ = some o) :
    ∃ I I' m, Emits 1 A rustNodesHere countersText I ∧ Emits 2 A ⟨fun _ => none, exported 1 A I⟩ raceText I' ∧
      structOf 2 I' "system" = some m ∧ (o = .gt → Returns m 15) ∧ (o ≠ .gt → MainPanics m 15) := by
  obtain ⟨I, he, h⟩ := C70_features 1 2 A rustNodesHere (c := ticker fun _ => vFloat ⟨0x3fe0000000000000#64⟩)
    ⟨rfl, ticker_respects fun _ x hx => by cases hx; trivial⟩ (fun _ => ⟨0x3fe0000000000000#64⟩) (fun _ => o != .gt)
    (ticker_answers _ _ _) fun _ _ => ⟨o, ho, rfl⟩
  obtain ⟨I', m, h1, h2, -, h3, h4⟩ := h ⟨fun _ => none, exported 1 A I⟩ rfl rfl
  exact ⟨I, I', m, he, h1, h2, fun h => h3 (by rw [ho, h]), fun h => h4 (by rw [ho]; simpa using h)⟩

end Chandeliers.Tests
