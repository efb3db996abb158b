import Verif.Lemmas.SampleSetup
import Verif.Lemmas.SamplePrev

/-!
# C70: the programs that come with the project do what is said of them, at every instant

From the tokens of the programs of the documentation and of the examples (`Verif.Spec.SampleTexts`) to what
the emitted text computes.
-/

set_option autoImplicit false

namespace Chandeliers.Props
open San Syn Err Spec Spec.Samples Smp

/-- **C70** (src/lib.rs 240-246).  The node `count` returns 0, 1, 2... until 64 bits are not enough; with the
overflow checks of Rust it panics there.  The same goes for the struct `count` that later invocations can use. -/
theorem C70_count (uid : Nat) (A : Arith) (X : Extern) :
    ∃ I m, Emits uid A X countText I ∧ structOf uid I "count" = some m ∧
      Answers m (2 ^ 63) (fun _ => vUnit) (fun t => vInt t) ∧
      (A.overflowChecks = true → Panics m (fun _ => vUnit) (2 ^ 63)) ∧
      "count" ∈ exports countText ∧ ∀ X', X'.nodes "count" = exported uid A I "count" →
        ∃ c, Offered X' "count" .int c ∧ Answers c (2 ^ 63) (fun _ => vUnit) (fun t => vInt t) := by
  obtain ⟨g, N, I, he, hf⟩ := setup uid A X count_reads (by decide +kernel) (no_extern rfl)
  obtain ⟨m, -, hm, m', h1, h2⟩ := hf.node _ count_count (List.mem_cons_self ..)
  have ha := answers hm rfl (fun _ => rfl) fun t ht => count_solves ht
  have hty : ∀ _ : Nat, ValTy (flatTuple (argTypes count_count.inputs)) vUnit := fun _ => Or.inr rfl
  refine ⟨I, m', he, h1, Answers.congr ha h2 hty, fun hA =>
    Panics.congr (longer hm rfl (fun _ => rfl) ha fun S hS => count_overflow hA hS) h2 hty, by decide +kernel,
    fun X' hX => ?_⟩
  exact offered_export hX h1 (hf.respects _ count_count (List.mem_cons_self ..) _ h1) (Answers.congr ha h2 hty)

/-- **C70** (src/lib.rs 248-261).  The node `fib` returns the Fibonacci sequence until 64 bits are not
enough; with the overflow checks of Rust it panics there. -/
theorem C70_fib (uid : Nat) (A : Arith) (X : Extern) :
    ∃ I m, Emits uid A X fibText I ∧ structOf uid I "fib" = some m ∧
      Answers m 93 (fun _ => vUnit) (fun t => vInt (Nat.fib t)) ∧
      (A.overflowChecks = true → Panics m (fun _ => vUnit) 93) := by
  obtain ⟨g, N, I, he, hf⟩ := setup uid A X fib_reads (by decide +kernel) (no_extern rfl)
  obtain ⟨m, -, hm, m', h1, h2⟩ := hf.node _ fib_fib
    (List.mem_cons_of_mem _ (List.mem_cons_of_mem _ (List.mem_cons_self ..)))
  obtain ⟨v0, hv0, hw0⟩ := hf.const _ fib_FIB0 (List.mem_cons_self ..)
  obtain ⟨v1, hv1, hw1⟩ := hf.const _ fib_FIB1 (List.mem_cons_of_mem _ (List.mem_cons_self ..))
  have e0 := hw0 (.int 0) (by unfold fib_FIB0; ladder; exact ref_int _ _ 0 (by omega))
  have e1 := hw1 (.int 1) (by unfold fib_FIB1; ladder; exact ref_int _ _ 1 (by omega))
  subst e0 e1
  have ha := answers hm rfl (fun _ => rfl) fun t ht => fib_solves hv0 hv1 ht
  have hty : ∀ _ : Nat, ValTy (flatTuple (argTypes fib_fib.inputs)) vUnit := fun _ => Or.inr rfl
  exact ⟨I, m', he, h1, Answers.congr ha h2 hty, fun hA =>
    Panics.congr (longer hm rfl (fun _ => rfl) ha fun S hS => fib_overflow hA hS) h2 hty⟩

/-- **C70** (src/lib.rs 263-279).  Given a node `count` that returns 0, 1, 2..., `counting_twice` also does, and
`counting_late` returns 0, 0, 0, 1, 2... -/
theorem C70_counting (uid : Nat) (A : Arith) (X : Extern) {c : Machine} (hc : Offered X "count" .int c) {n : Nat}
    (ha : Answers c n (fun _ => vUnit) (fun t => vInt t)) :
    ∃ I m l, Emits uid A X countingText I ∧ structOf uid I "counting_twice" = some m ∧
      structOf uid I "counting_late" = some l ∧
      Answers m n (fun _ => vUnit) (fun t => vInt t) ∧
      Answers l n (fun _ => vUnit) (fun t => vInt ((t - 2 : Nat) : Int)) := by
  obtain ⟨g, N, I, he, hf⟩ := setup uid A X counting_reads (by decide +kernel)
    (by
      intro d hd
      simp only [countingTree, List.mem_cons, List.not_mem_nil, or_false] at hd
      rcases hd with rfl | rfl | rfl
      · exact ⟨.int, c, hc, rfl, rfl, nofun⟩
      · trivial
      · trivial)
  have hN := hf.extern _ "count" _ _ (List.mem_cons_self ..)
  rw [hc.1] at hN
  have ha' := Answers.wrap ha (fun _ => rfl)
  obtain ⟨m, -, hm, m', h1, h2⟩ := hf.node _ counting_counting_twice (List.mem_cons_of_mem _ (List.mem_cons_self ..))
  obtain ⟨l, -, hl, l', k1, k2⟩ := hf.node _ counting_counting_late
    (List.mem_cons_of_mem _ (List.mem_cons_of_mem _ (List.mem_cons_self ..)))
  exact ⟨I, m', l', he, h1, k1,
    Answers.congr (answers hm rfl (fun _ => rfl) fun t ht => twice_solves hN ha' ht) h2 (fun _ => Or.inr rfl),
    Answers.congr (answers hl rfl (fun _ => rfl) fun t ht => late_solves hN ha' ht) k2 (fun _ => Or.inr rfl)⟩

/-- **C70** (src/lib.rs 240-279).  Both invocations together: on the struct that the first one exports, the
nodes of the second one count until 64 bits are not enough. -/
theorem C70_counting_on_count (uid uid' : Nat) (A : Arith) (X : Extern) :
    ∃ I, Emits uid A X countText I ∧ ∀ X', X'.nodes "count" = exported uid A I "count" →
      ∃ I' m l, Emits uid' A X' countingText I' ∧ structOf uid' I' "counting_twice" = some m ∧
        structOf uid' I' "counting_late" = some l ∧
        Answers m (2 ^ 63) (fun _ => vUnit) (fun t => vInt t) ∧
        Answers l (2 ^ 63) (fun _ => vUnit) (fun t => vInt ((t - 2 : Nat) : Int)) := by
  obtain ⟨I, -, he, -, -, -, -, h⟩ := C70_count uid A X
  refine ⟨I, he, fun X' hX => ?_⟩
  obtain ⟨c, hc, ha⟩ := h X' hX
  exact C70_counting uid' A X' hc ha

/-- **C70** (src/lib.rs 331-346).  The node `sum` returns the sum of all that it has received, and `randsum`
what the Rust node `RandomInt` returns and the sum of it, as long as they fit in 64 bits. -/
theorem C70_sums (uid : Nat) (A : Arith) (X : Extern) {c : Machine} (hc : Offered X "RandomInt" .int c) :
    ∃ I m l, Emits uid A X sumsText I ∧ structOf uid I "sum" = some m ∧ structOf uid I "randsum" = some l ∧
      ∀ (r : Nat → Int) n, (∀ t < n, Fits (r t)) → (∀ t < n, Fits (total r t)) →
        Answers m n (fun t => vInt (r t)) (fun t => vInt (total r t)) ∧
        (Answers c n (fun _ => vUnit) (fun t => vInt (r t)) →
          Answers l n (fun _ => vUnit) (fun t => pair (vInt (r t)) (vInt (total r t)))) := by
  obtain ⟨g, N, I, he, hf⟩ := setup uid A X sums_reads (by decide +kernel)
    (by
      intro d hd
      simp only [sumsTree, List.mem_cons, List.not_mem_nil, or_false] at hd
      rcases hd with rfl | rfl | rfl
      · exact ⟨.int, c, hc, rfl, rfl, nofun⟩
      · trivial
      · trivial)
  have hN := hf.extern _ "RandomInt" _ _ (List.mem_cons_self ..)
  rw [hc.1] at hN
  obtain ⟨m, hs, hm, m', h1, h2⟩ := hf.node _ sums_sum (List.mem_cons_of_mem _ (List.mem_cons_self ..))
  obtain ⟨l, -, hl, l', k1, k2⟩ := hf.node _ sums_randsum
    (List.mem_cons_of_mem _ (List.mem_cons_of_mem _ (List.mem_cons_self ..)))
  refine ⟨I, m', l', he, h1, k1, fun r n hr ht => ?_⟩
  have ha : Answers m n (fun t => vInt (r t)) (fun t => vInt (total r t)) :=
    answers hm rfl (fun _ => rfl) fun t h => sum_solves hr ht h
  refine ⟨Answers.congr ha h2 fun t => ?_, fun hc' => ?_⟩
  · intro x hx; cases hx; trivial
  · exact Answers.congr (answers hl rfl (fun _ => rfl) fun t h =>
      randsum_solves hN hs (Answers.wrap hc' fun _ => rfl) ha h) k2 (fun _ => Or.inr rfl)

/-- **C70** (src/lib.rs 390-398).  The node `foo` runs for ten instants, then its assertion fails, whatever the
build; so does `main`. -/
theorem C70_ten (uid : Nat) (A : Arith) (X : Extern) :
    ∃ I m, Emits uid A X tenText I ∧ structOf uid I "foo" = some m ∧
      Answers m 10 (fun _ => vUnit) (fun _ => vUnit) ∧ Panics m (fun _ => vUnit) 10 ∧
      mains tenText = [("foo", 100)] ∧ MainPanics m 100 := by
  obtain ⟨g, N, I, he, hf⟩ := setup uid A X ten_reads (by decide +kernel) (no_extern rfl)
  obtain ⟨m, -, hm, m', h1, h2⟩ := hf.node _ ten_foo (List.mem_cons_self ..)
  have ha := answers hm rfl (fun _ => rfl) fun t ht => ten_solves ht
  have hty : ∀ _ : Nat, ValTy (flatTuple (argTypes ten_foo.inputs)) vUnit := fun _ => Or.inr rfl
  have hp := Panics.congr (longer hm rfl (fun _ => rfl) ha fun S _ => ten_fails) h2 hty
  exact ⟨I, m', he, h1, Answers.congr ha h2 hty, hp, rfl, main_panics (quiet hm rfl rfl h2) (by omega) hp⟩

/-- **C70** (src/lib.rs 588-600).  The assertion of `main`, on the delay `ipre` that is written for all types,
never fails, and `main` returns. -/
theorem C70_delay (uid : Nat) (A : Arith) (X : Extern) :
    ∃ I m, Emits uid A X delayText I ∧ structOf uid I "main" = some m ∧
      Answers m (2 ^ 63) (fun _ => vUnit) (fun _ => vUnit) ∧
      mains delayText = [("main", 100)] ∧ Returns m 100 := by
  obtain ⟨g, N, I, he, hf⟩ := setup uid A X delay_reads (by decide +kernel) (no_extern rfl)
  obtain ⟨p, hp, hpm, -⟩ := hf.node _ delay_ipre (List.mem_cons_self ..)
  obtain ⟨m, -, hm, m', h1, h2⟩ := hf.node _ delay_main (List.mem_cons_of_mem _ (List.mem_cons_self ..))
  have ha : Answers p (2 ^ 63) (fun t => pair (vInt t) (vInt (-1)))
      fun t => vInt (if t = 0 then -1 else (t : Int) - 1) := by
    have := answers (n := 2 ^ 63) hpm rfl (inp := fun t => pair (vInt t) (vInt (-1))) (fun _ => rfl)
      fun t _ => ipre_solves (fun t => .defined (.int (Int64.ofInt t))) (fun _ => .defined (.int (Int64.ofInt (-1)))) t
    intro k hk
    rw [this k hk]
    congr 1
    refine List.map_congr_left fun t _ => ?_
    cases t with
    | zero => rfl
    | succ t =>
      simp [together, argNames, delay_ipre, ipreStreams, vInt]
      rfl
  have hd := Answers.congr (answers hm rfl (fun _ => rfl) fun t ht => delay_solves hp ha ht) h2
    (fun _ => Or.inr rfl)
  exact ⟨I, m', he, h1, hd, rfl, main_returns (quiet hm rfl rfl h2) (by omega) fun k hk => hd k (by omega)⟩

theorem sum3_ones (a b c : Bool) : sum3 a b c = decide (ones a b c % 2 = 1) := by
  cases a <;> cases b <;> cases c <;> rfl

theorem carry3_ones (a b c : Bool) : carry3 a b c = decide (ones a b c / 2 = 1) := by
  cases a <;> cases b <;> cases c <;> rfl

/-- **C70** (examples/fulladder/src/main.rs 7-59).  Both adders add three bits, the one made of two half
adders as well; the node `equivalence`, which compares them, returns `true` at every instant of every
history; and `system`, which feeds it with random bits, never panics, so `main` returns. -/
theorem C70_adder (uid : Nat) (A : Arith) (X : Extern) {c : Machine} (hc : Offered X "random_bool" .bool c) :
    ∃ I f h e s, Emits uid A X adderText I ∧ structOf uid I "full_add" = some f ∧
      structOf uid I "full_add_h" = some h ∧ structOf uid I "equivalence" = some e ∧
      structOf uid I "system" = some s ∧
      (∀ a b c : Nat → Bool,
        (∀ m ∈ [f, h], Forever m (fun t => triple (vBool (a t)) (vBool (b t)) (vBool (c t)))
          (fun t => pair (vBool (ones (a t) (b t) (c t) % 2 = 1)) (vBool (ones (a t) (b t) (c t) / 2 = 1)))) ∧
        Forever e (fun t => triple (vBool (a t)) (vBool (b t)) (vBool (c t))) (fun _ => vBool true)) ∧
      mains adderText = [("system", 100)] ∧
      ∀ (r : Nat → Bool) n, n ≤ 2 ^ 63 → Answers c n (fun _ => vUnit) (fun t => vBool (r t)) →
        Answers s n (fun _ => vUnit) (fun _ => vUnit) ∧ (100 ≤ n → Returns s 100) := by
  obtain ⟨g, N, I, he, hf⟩ := setup uid A X adder_reads (by decide +kernel)
    (by
      intro d hd
      simp only [adderTree, List.mem_cons, List.not_mem_nil, or_false] at hd
      rcases hd with rfl | rfl | rfl | rfl | rfl | rfl
      case inr.inr.inr.inr.inl => exact ⟨.bool, c, hc, rfl, rfl, nofun⟩
      all_goals trivial)
  have hN := hf.extern [] "random_bool" [] [⟨["b"], .bool, .implicit⟩] (by simp [adderTree])
  rw [hc.1] at hN
  obtain ⟨f, f1, f2, f', f3, f4⟩ := hf.node [] adder_full_add (by simp [adderTree])
  obtain ⟨h, h1, h2, -⟩ := hf.node [] adder_half_add (by simp [adderTree])
  obtain ⟨k, k1, k2, k', k3, k4⟩ := hf.node [] adder_full_add_h (by simp [adderTree])
  obtain ⟨e, e1, e2, e', e3, e4⟩ := hf.node [] adder_equivalence (by simp [adderTree])
  obtain ⟨s, s1, s2, s', s3, s4⟩ := hf.node _ adder_system
    (List.mem_cons_of_mem _ <| List.mem_cons_of_mem _ <| List.mem_cons_of_mem _ <| List.mem_cons_of_mem _ <|
      List.mem_cons_of_mem _ <| List.mem_cons_self ..)
  have hF : FullAdder f := fun a b c n => answers f2 rfl (fun _ => rfl) fun t _ => full_add_solves (a := a) (b := b) (c := c) t
  have hH : HalfAdder h := fun a b n => answers h2 rfl (fun _ => rfl) fun t _ => half_add_solves (a := a) (b := b) t
  have hK : FullAdder k := fun a b c n => answers k2 rfl (fun _ => rfl) fun t _ => full_add_h_solves a b c h1 hH t
  have hE : ∀ a b c : Nat → Bool, Forever e (fun t => triple (vBool (a t)) (vBool (b t)) (vBool (c t)))
      fun _ => vBool true := fun a b c n => answers e2 rfl (fun _ => rfl) fun t _ => equivalence_solves a b c f1 k1 hF hK t
  have hb : ∀ b, LeafTy .bool (.defined (.bool b)) := fun b x hx => by cases hx; trivial
  have hty : ∀ a b c, ValTy (flatTuple [.bool, .bool, .bool]) (triple (vBool a) (vBool b) (vBool c)) :=
    fun a b c => ⟨hb a, hb b, hb c, trivial⟩
  refine ⟨I, f', k', e', s', he, f3, k3, e3, s3, fun a b c => ⟨fun m hm => ?_, fun n => ?_⟩, by decide +kernel,
    fun r n hn hr => ?_⟩
  · simp only [← sum3_ones, ← carry3_ones]
    simp only [List.mem_cons, List.not_mem_nil, or_false] at hm
    rcases hm with rfl | rfl
    · exact fun n => Answers.congr (hF a b c n) f4 fun t => hty _ _ _
    · exact fun n => Answers.congr (hK a b c n) k4 fun t => hty _ _ _
  · exact Answers.congr (hE a b c n) e4 fun t => hty _ _ _
  · have hs := Answers.congr (answers s2 rfl (fun _ => rfl) fun t ht =>
      system_solves hN e1 hn (Answers.wrap hr fun _ => rfl) hE ht) s4 fun _ => Or.inr rfl
    exact ⟨hs, fun h => main_returns (quiet s2 rfl rfl s4) (by omega) fun k hk => hs k (by omega)⟩

/-- **C70** (examples/features/src/main.rs 3-37).  `reliable_counter` returns 0, 1, 2...; `unreliable_counter`
returns how many of the floats received from Rust are at most 0.9.  The same goes for the structs that later
invocations can use. -/
theorem C70_counters (uid : Nat) (A : Arith) (X : Extern) {c : Machine} (hc : Offered X "random_float" .float c) :
    ∃ I u r, Emits uid A X countersText I ∧ structOf uid I "unreliable_counter" = some u ∧
      structOf uid I "reliable_counter" = some r ∧
      Answers r (2 ^ 63) (fun _ => vUnit) (fun t => vInt t) ∧
      ∀ (x : Nat → F64) (low : Nat → Bool) n, n < 2 ^ 63 →
        Answers c n (fun _ => vUnit) (fun t => vFloat (x t)) →
        (∀ t < n, ∃ o, A.fcmp (x t) ⟨0x3feccccccccccccd#64⟩ = some o ∧ low t = (o != .gt)) →
        Answers u n (fun _ => vUnit) (fun t => vInt (hits low t)) ∧
        exports countersText = ["unreliable_counter", "reliable_counter"] ∧
        ∀ X', X'.nodes "unreliable_counter" = exported uid A I "unreliable_counter" →
          X'.nodes "reliable_counter" = exported uid A I "reliable_counter" →
          ∃ u' r', Offered X' "unreliable_counter" .int u' ∧ Offered X' "reliable_counter" .int r' ∧
            Answers u' n (fun _ => vUnit) (fun t => vInt (hits low t)) ∧
            Answers r' (2 ^ 63) (fun _ => vUnit) (fun t => vInt t) := by
  obtain ⟨g, N, I, he, hf⟩ := setup uid A X counters_reads (by decide +kernel)
    (by
      intro d hd
      simp only [countersTree, List.mem_cons, List.not_mem_nil, or_false] at hd
      rcases hd with rfl | rfl | rfl | rfl | rfl
      · exact ⟨.float, c, hc, rfl, rfl, nofun⟩
      all_goals trivial)
  have hN := hf.extern _ "random_float" _ _ (List.mem_cons_self ..)
  rw [hc.1] at hN
  obtain ⟨v, hv, hw⟩ := hf.const _ counters_PROBA_FAIL (List.mem_cons_of_mem _ <| List.mem_cons_self ..)
  have hv' := hw (.float ⟨0x3feccccccccccccd#64⟩) (by unfold counters_PROBA_FAIL; ladder; rfl)
  subst hv'
  obtain ⟨p, p1, p2, -⟩ := hf.node _ counters_ignore_input_and_pick_random
    (List.mem_cons_of_mem _ <| List.mem_cons_of_mem _ <| List.mem_cons_self ..)
  obtain ⟨u, u1, u2, u', u3, u4⟩ := hf.node _ counters_unreliable_counter
    (List.mem_cons_of_mem _ <| List.mem_cons_of_mem _ <| List.mem_cons_of_mem _ <| List.mem_cons_self ..)
  obtain ⟨r, r1, r2, r', r3, r4⟩ := hf.node _ counters_reliable_counter
    (List.mem_cons_of_mem _ <| List.mem_cons_of_mem _ <| List.mem_cons_of_mem _ <| List.mem_cons_of_mem _ <|
      List.mem_cons_self ..)
  have hr := Answers.congr (answers r2 rfl (fun _ => rfl) fun t ht => reliable_solves ht) r4 fun _ => Or.inr rfl
  refine ⟨I, u', r', he, u3, r3, hr, fun x low n hn hx hl => ?_⟩
  have hp : Answers p n (fun _ => vInt 42) fun t => vBool (low t) :=
    answers p2 rfl (fun _ => rfl) fun t ht => pick_solves hN hv hl (Answers.wrap hx fun _ => rfl) ht
  have hu := Answers.congr (answers u2 rfl (fun _ => rfl) fun t ht => unreliable_solves p1 hn hp ht) u4
    fun _ => Or.inr rfl
  refine ⟨hu, by decide +kernel, fun X' hX hX' => ?_⟩
  obtain ⟨a, a1, a2⟩ := offered_export hX u3 (hf.respects _ counters_unreliable_counter
    (List.mem_cons_of_mem _ <| List.mem_cons_of_mem _ <| List.mem_cons_of_mem _ <| List.mem_cons_self ..) _ u3) hu
  obtain ⟨b, b1, b2⟩ := offered_export hX' r3 (hf.respects _ counters_reliable_counter
    (List.mem_cons_of_mem _ <| List.mem_cons_of_mem _ <| List.mem_cons_of_mem _ <| List.mem_cons_of_mem _ <|
      List.mem_cons_self ..) _ r3) hr
  exact ⟨a, b, a1, b1, a2, b2⟩

/-- **C70** (examples/features/src/main.rs 39-60).  "This results in a `PROBA_SUCCESS` probability of this node
failing its execution after one step": with the counters of `C70_counters`, `system` panics at its first
instant when the first float is at most 0.9; otherwise it never does. -/
theorem C70_race (uid : Nat) (A : Arith) (X : Extern) {u r : Machine}
    (hu : Offered X "unreliable_counter" .int u) (hr : Offered X "reliable_counter" .int r) (low : Nat → Bool)
    {n : Nat} (hn : n < 2 ^ 63) (ha : Answers u n (fun _ => vUnit) (fun t => vInt (hits low t)))
    (hb : Answers r n (fun _ => vUnit) (fun t => vInt t)) :
    ∃ I m, Emits uid A X raceText I ∧ structOf uid I "system" = some m ∧
      mains raceText = [("system", 15)] ∧
      (low 0 = false → Answers m n (fun _ => vUnit) (fun _ => vUnit) ∧ (15 ≤ n → Returns m 15)) ∧
      (low 0 = true → 0 < n → Panics m (fun _ => vUnit) 0 ∧ MainPanics m 15) := by
  obtain ⟨g, N, I, he, hf⟩ := setup uid A X race_reads (by decide +kernel)
    (by
      intro d hd
      simp only [raceTree, List.mem_cons, List.not_mem_nil, or_false] at hd
      rcases hd with rfl | rfl | rfl
      · exact ⟨.int, u, hu, rfl, rfl, nofun⟩
      · exact ⟨.int, r, hr, rfl, rfl, nofun⟩
      · trivial)
  have hU := hf.extern _ "unreliable_counter" _ _ (List.mem_cons_self ..)
  have hR := hf.extern _ "reliable_counter" _ _ (List.mem_cons_of_mem _ <| List.mem_cons_self ..)
  rw [hu.1] at hU
  rw [hr.1] at hR
  have ha' := Answers.wrap ha fun _ => rfl
  have hb' := Answers.wrap hb fun _ => rfl
  obtain ⟨m, -, m2, m', m3, m4⟩ := hf.node _ race_system
    (List.mem_cons_of_mem _ <| List.mem_cons_of_mem _ <| List.mem_cons_self ..)
  have hq := quiet m2 rfl rfl m4
  refine ⟨I, m', he, m3, rfl, fun h0 => ?_, fun h0 hn0 => ?_⟩
  · have h := Answers.congr (answers m2 rfl (fun _ => rfl) fun t ht => race_solves hU hR h0 hn ha' hb' ht) m4
      fun _ => Or.inr rfl
    exact ⟨h, fun _ => main_returns hq (by omega) fun k hk => h k (by omega)⟩
  · suffices h : Panics m' (fun _ => vUnit) 0 from ⟨h, main_panics hq (by omega) h⟩
    refine Panics.congr (fun k hk os ho => ?_) m4 fun _ => Or.inr rfl
    obtain ⟨S, hS⟩ := solution m2 rfl (fun _ => rfl) ho
    exact race_fails hU hR h0 (fun j hj => ha' j (by omega)) (fun j hj => hb' j (by omega)) (hS 0 (by omega))

/-- **C70** (examples/features/src/main.rs 1-60).  Both invocations of the example together: `main` panics when
the first float received from Rust is at most 0.9, otherwise it returns after 15 steps. -/
theorem C70_features (uid uid' : Nat) (A : Arith) (X : Extern) {c : Machine} (hc : Offered X "random_float" .float c)
    (x : Nat → F64) (low : Nat → Bool) (ha : Answers c 15 (fun _ => vUnit) (fun t => vFloat (x t)))
    (hl : ∀ t < 15, ∃ o, A.fcmp (x t) ⟨0x3feccccccccccccd#64⟩ = some o ∧ low t = (o != .gt)) :
    ∃ I, Emits uid A X countersText I ∧
      ∀ X', X'.nodes "unreliable_counter" = exported uid A I "unreliable_counter" →
        X'.nodes "reliable_counter" = exported uid A I "reliable_counter" →
        ∃ I' m, Emits uid' A X' raceText I' ∧ structOf uid' I' "system" = some m ∧
          mains raceText = [("system", 15)] ∧
          (A.fcmp (x 0) ⟨0x3feccccccccccccd#64⟩ = some .gt → Returns m 15) ∧
          (A.fcmp (x 0) ⟨0x3feccccccccccccd#64⟩ ≠ some .gt → MainPanics m 15) := by
  obtain ⟨I, _, _, he, _, _, _, h⟩ := C70_counters uid A X hc
  obtain ⟨-, -, h⟩ := h x low 15 (by omega) ha hl
  refine ⟨I, he, fun X' h1 h2 => ?_⟩
  obtain ⟨u, r, hu, hr, au, ar⟩ := h X' h1 h2
  obtain ⟨I', m, e, hm, k, k1, k2⟩ := C70_race uid' A X' hu hr low (n := 15) (by omega) au fun k hk => ar k (by omega)
  obtain ⟨o, ho, h0⟩ := hl 0 (by omega)
  refine ⟨I', m, e, hm, k, fun hg => (k1 ?_).2 (by omega), fun hg => (k2 ?_ (by omega)).2⟩
  · rw [ho] at hg; cases hg; exact h0
  · rw [ho] at hg; rw [h0]; cases o <;> first | rfl | exact absurd rfl hg

/-- **C70** (src/lib.rs 435-474).  All the arms of `a() -> b() -> c()` run from the first instant on: `testing`
returns (0, 0), (1, 1), (2, 2), (2, 3)...  The node `system` compares it with seven literals: it runs for seven
instants, and its assertion fails at the next one; `main` stops before. -/
theorem C70_assoc (uid : Nat) (A : Arith) (X : Extern) :
    ∃ I m s, Emits uid A X assocText I ∧ structOf uid I "testing" = some m ∧ structOf uid I "system" = some s ∧
      Answers m (2 ^ 63) (fun _ => vUnit) (fun t => pair (vInt (min t 2 : Nat)) (vInt t)) ∧
      Answers s 7 (fun _ => vUnit) (fun _ => vUnit) ∧ Panics s (fun _ => vUnit) 7 ∧
      mains assocText = [("system", 2)] ∧ Returns s 2 := by
  obtain ⟨g, N, I, he, hf⟩ := setup uid A X assoc_reads (by decide +kernel) (no_extern rfl)
  obtain ⟨n, n1, n2, -⟩ := hf.node _ assoc_count (List.mem_cons_self ..)
  obtain ⟨a, a1, a2, -⟩ := hf.node _ assoc_a (List.mem_cons_of_mem _ <| List.mem_cons_self ..)
  obtain ⟨b, b1, b2, -⟩ := hf.node _ assoc_b (List.mem_cons_of_mem _ <| List.mem_cons_of_mem _ <| List.mem_cons_self ..)
  obtain ⟨c, c1, c2, -⟩ := hf.node _ assoc_c (List.mem_cons_of_mem _ <| List.mem_cons_of_mem _ <|
    List.mem_cons_of_mem _ <| List.mem_cons_self ..)
  obtain ⟨m, m1, m2, m', m3, m4⟩ := hf.node _ assoc_testing (List.mem_cons_of_mem _ <| List.mem_cons_of_mem _ <|
    List.mem_cons_of_mem _ <| List.mem_cons_of_mem _ <| List.mem_cons_self ..)
  obtain ⟨w, w1, w2, -⟩ := hf.node _ assoc_witness (List.mem_cons_of_mem _ <| List.mem_cons_of_mem _ <|
    List.mem_cons_of_mem _ <| List.mem_cons_of_mem _ <| List.mem_cons_of_mem _ <| List.mem_cons_self ..)
  obtain ⟨s, s1, s2, s', s3, s4⟩ := hf.node _ assoc_system (List.mem_cons_of_mem _ <| List.mem_cons_of_mem _ <|
    List.mem_cons_of_mem _ <| List.mem_cons_of_mem _ <| List.mem_cons_of_mem _ <| List.mem_cons_of_mem _ <|
    List.mem_cons_self ..)
  have kn : Answers n (2 ^ 63) (fun _ => vUnit) fun t => vInt t :=
    answers n2 rfl (fun _ => rfl) fun t ht => assoc_count_solves ht
  have ka : Answers a (2 ^ 63) (fun _ => vUnit) fun t => pair (vInt 0) (vInt t) :=
    answers a2 rfl (fun _ => rfl) fun t ht => part_solves ⟨by omega, by omega⟩ n1 kn ht
  have kb : Answers b (2 ^ 63) (fun _ => vUnit) fun t => pair (vInt 1) (vInt t) :=
    answers b2 rfl (fun _ => rfl) fun t ht => part_solves ⟨by omega, by omega⟩ n1 kn ht
  have kc : Answers c (2 ^ 63) (fun _ => vUnit) fun t => pair (vInt 2) (vInt t) :=
    answers c2 rfl (fun _ => rfl) fun t ht => part_solves ⟨by omega, by omega⟩ n1 kn ht
  have km : Answers m (2 ^ 63) (fun _ => vUnit) fun t => pair (vInt (min t 2 : Nat)) (vInt t) :=
    answers m2 rfl (fun _ => rfl) fun t ht => testing_solves a1 b1 c1 ka kb kc ht
  have kw : Forever w (fun _ => vUnit) fun t => pair (vInt (min t 2 : Nat)) (vInt (min t 6 : Nat)) :=
    fun n => answers w2 rfl (fun _ => rfl) fun t _ => witness_solves t
  have hs := Answers.congr (answers s2 rfl (fun _ => rfl) fun t ht =>
      assoc_system_solves m1 w1 (fun k hk => km k (by omega)) (kw 7) ht) s4 fun _ => Or.inr rfl
  refine ⟨I, m', s', he, m3, s3, Answers.congr km m4 fun _ => Or.inr rfl, hs, ?_, by decide +kernel,
    main_returns (quiet s2 rfl rfl s4) (by omega) fun k hk => hs k (by omega)⟩
  · refine Panics.congr (fun k hk os ho => ?_) s4 fun _ => Or.inr rfl
    obtain ⟨S, hS⟩ := solution s2 rfl (fun _ => rfl) ho
    exact assoc_system_fails m1 w1 (fun k hk => km k (by omega)) (kw 8) (hS 7 (by omega))

/-- **C70** (src/lib.rs 634-650).  With and without `#[universal_pre]`, `0 -> pre x` is zero and then the previous
integer, whatever the integers; and the node that compares both on a sequence of its own never panics, so `main` returns. -/
theorem C70_prev (uid : Nat) (A : Arith) (X : Extern) :
    ∃ I p q m, Emits uid A X prevText I ∧ structOf uid I "prev_testing" = some p ∧
      structOf uid I "prev_witness" = some q ∧ structOf uid I "main_prev" = some m ∧
      (∀ x : Nat → Int, ∀ n ∈ [p, q],
        Forever n (fun t => vInt (x t)) (fun t => vInt (if t = 0 then 0 else x (t - 1)))) ∧
      Forever m (fun _ => vUnit) (fun _ => vUnit) ∧ mains prevText = [("main_prev", 100)] ∧ Returns m 100 := by
  have hs : Sourced X prevTree := no_extern rfl
  obtain ⟨g, N, I, he, hf⟩ := facts uid A X prev_reads (by decide +kernel) (sourced_ok hs).1 (sourced_ok hs).2
    (fun d hd => by
      simp only [prevTree, List.mem_cons, List.not_mem_nil, or_false] at hd
      rcases hd with rfl | rfl | rfl <;> decide)
    (fun attrs src hm hu => by
      simp only [prevTree, List.mem_cons, List.not_mem_nil, or_false, SrcDecl.mk.injEq] at hm
      rcases hm with ⟨rfl, h⟩ | ⟨rfl, h⟩ | ⟨rfl, h⟩
      · cases h
        refine ⟨⟨fun a ha b x hx => ?_, fun st hst x hx => ?_⟩, fun st hst => ?_⟩
        · simp only [prev_prev_testing, List.cons_append, List.nil_append, List.mem_cons, List.not_mem_nil,
            or_false] at ha
          rcases ha with rfl | rfl <;> cases hx
        · simp only [prev_prev_testing, List.mem_cons, List.not_mem_nil, or_false] at hst
          subst hst
          rw [show guards (SrcStmt.expr _) = [] from rfl] at hx
          cases hx
        · simp only [prev_prev_testing, List.mem_cons, List.not_mem_nil, or_false] at hst
          subst hst
          decide
      · exact absurd hu (by decide)
      · exact absurd hu (by decide))
    (literal_computes (by decide +kernel))
  obtain ⟨p, p1, p2, p', p3, p4⟩ := hf.node _ prev_prev_testing (List.mem_cons_self ..)
  obtain ⟨q, q1, q2, q', q3, q4⟩ := hf.node _ prev_prev_witness (List.mem_cons_of_mem _ <| List.mem_cons_self ..)
  obtain ⟨m, m1, m2, m', m3, m4⟩ := hf.node _ prev_main_prev
    (List.mem_cons_of_mem _ <| List.mem_cons_of_mem _ <| List.mem_cons_self ..)
  have kp : ∀ x : Nat → Int, Forever p (fun t => vInt (x t)) fun t => vInt (if t = 0 then 0 else x (t - 1)) :=
    fun x n => uni_answers p2 rfl (fun _ => rfl) fun t _ => uni_prev_solves x t
  have kq : ∀ x : Nat → Int, Forever q (fun t => vInt (x t)) fun t => vInt (if t = 0 then 0 else x (t - 1)) :=
    fun x n => answers q2 rfl (fun _ => rfl) fun t _ => prev_solves x t
  have hty : ∀ z, ValTy (flatTuple [.int]) (vInt z) := fun z x hx => by cases hx; trivial
  have hm : Forever m' (fun _ => vUnit) (fun _ => vUnit) := fun n =>
    Answers.congr (answers m2 rfl (fun _ => rfl) fun t _ => main_prev_solves p1 q1 kp kq t) m4 fun _ => Or.inr rfl
  refine ⟨I, p', q', m', he, p3, q3, m3, fun x n hn => ?_, hm, rfl, main_returns (quiet m2 rfl rfl m4) (by omega) (hm 100)⟩
  · simp only [List.mem_cons, List.not_mem_nil, or_false] at hn
    rcases hn with rfl | rfl
    · exact fun k => Answers.congr (kp x k) p4 fun t => hty _
    · exact fun k => Answers.congr (kq x k) q4 fun t => hty _

end Chandeliers.Props
