import Verif.Lemmas.SampleSetup
import Verif.Lemmas.SampleMore

/-!
# C70: more of the programs that come with the project
-/

set_option autoImplicit false

namespace Chandeliers.Props
open San Syn Err Spec Spec.Samples Smp

/-- **C70** (src/lib.rs 573-583).  Two swaps of an integer and a float, by the node `swap` that is written for all
types, give them back: the driver `main` never panics, and returns. -/
theorem C70_swap (uid : Nat) (A : Arith) (X : Extern) :
    ∃ I m, Emits uid A X swapText I ∧ structOf uid I "main" = some m ∧ Forever m (fun _ => vUnit) (fun _ => vUnit) ∧
      mains swapText = [("main", 100)] ∧ Returns m 100 := by
  obtain ⟨g, N, I, he, hf⟩ := setup uid A X swap_reads (by decide +kernel) (no_extern rfl)
  obtain ⟨p, hp, hpm, -⟩ := hf.node _ swap_swap (List.mem_cons_self ..)
  obtain ⟨m, -, hm, m', h1, h2⟩ := hf.node _ swap_main (List.mem_cons_of_mem _ (List.mem_cons_self ..))
  have ha : ∀ a b n, Answers p n (fun _ => pair (.leaf (.defined a)) (.leaf (.defined b)))
      fun _ => pair (.leaf (.defined b)) (.leaf (.defined a)) :=
    fun a b n => answers hpm rfl (fun _ => rfl) fun t _ => swap_solves (fun _ => .defined a) (fun _ => .defined b) t
  have hd : Forever m' (fun _ => vUnit) (fun _ => vUnit) := fun n =>
    Answers.congr (answers hm rfl (fun _ => rfl) fun t ht => swap_main_solves hp (ha _ _ n) (ha _ _ n) ht) h2
      fun _ => Or.inr rfl
  exact ⟨I, m', he, h1, hd, rfl, main_returns (quiet hm rfl rfl h2) (by omega) (hd 100)⟩

/-- **C70** (src/lib.rs 512-515).  The node `test`, which implements the trait and is exported, returns the sum of
all that it has received, as long as it fits in 64 bits. -/
theorem C70_trait (uid : Nat) (A : Arith) (X : Extern) :
    ∃ I m, Emits uid A X traitText I ∧ structOf uid I "test" = some m ∧ exports traitText = ["test"] ∧
      ∀ (r : Nat → Int) n, (∀ t < n, Fits (r t)) → (∀ t < n, Fits (total r t)) →
        Answers m n (fun t => vInt (r t)) (fun t => vInt (total r t)) := by
  obtain ⟨g, N, I, he, hf⟩ := setup uid A X trait_reads (by decide +kernel) (no_extern rfl)
  obtain ⟨m, -, hm, m', h1, h2⟩ := hf.node _ trait_test (List.mem_cons_self ..)
  refine ⟨I, m', he, h1, by decide +kernel, fun r n hr ht => ?_⟩
  exact Answers.congr (answers hm rfl (fun _ => rfl) fun t h => trait_solves hr ht h) h2
    fun t x hx => by cases hx; trivial

/-- **C70** (src/lib.rs 563-568).  The assertion that 1 + 1 = 2 never fails, and the emitted test passes. -/
theorem C70_addition (uid : Nat) (A : Arith) (X : Extern) :
    ∃ I m, Emits uid A X addText I ∧ structOf uid I "addition_correct" = some m ∧
      Forever m (fun _ => vUnit) (fun _ => vUnit) ∧ tests addText = [("addition_correct", 100)] ∧ Returns m 100 := by
  obtain ⟨g, N, I, he, hf⟩ := setup uid A X add_reads (by decide +kernel) (no_extern rfl)
  obtain ⟨m, -, hm, m', h1, h2⟩ := hf.node _ add_addition (List.mem_cons_self ..)
  have hd : Forever m' (fun _ => vUnit) (fun _ => vUnit) := fun n =>
    Answers.congr (answers hm rfl (fun _ => rfl) fun t ht => add_solves t) h2 fun _ => Or.inr rfl
  exact ⟨I, m', he, h1, hd, rfl, main_returns (quiet hm rfl rfl h2) (by omega) (hd 100)⟩

/-- **C70** (src/lib.rs 655-658).  With `#[universal_pre]`, `b = true fby false fby false fby b` is true at every
third instant, forever. -/
theorem C70_fbys (uid : Nat) (A : Arith) (X : Extern) :
    ∃ I m, Emits uid A X fbysText I ∧ structOf uid I "testing" = some m ∧
      Forever m (fun _ => vUnit) (fun t => vBool (t % 3 = 0)) := by
  have hs : Sourced X fbysTree := no_extern rfl
  obtain ⟨g, N, I, he, hf⟩ := facts uid A X fbys_reads (by decide +kernel) (sourced_ok hs).1 (sourced_ok hs).2
    (fun d hd => by
      simp only [fbysTree, List.mem_cons, List.not_mem_nil, or_false] at hd
      subst hd
      decide)
    (fun attrs src hm hu => by
      simp only [fbysTree, List.mem_cons, List.not_mem_nil, or_false, SrcDecl.mk.injEq] at hm
      obtain ⟨rfl, h⟩ := hm
      cases h
      refine ⟨⟨fun a ha b x hx => ?_, fun st hst x hx => ?_⟩, fun st hst => ?_⟩
      · simp only [fbys_testing, List.cons_append, List.nil_append, List.mem_cons, List.not_mem_nil,
          or_false] at ha
        subst ha
        cases hx
      · simp only [fbys_testing, List.mem_cons, List.not_mem_nil, or_false] at hst
        subst hst
        rw [show guards (SrcStmt.expr _) = [] from rfl] at hx
        cases hx
      · simp only [fbys_testing, List.mem_cons, List.not_mem_nil, or_false] at hst
        subst hst
        decide)
    (literal_computes (by decide +kernel))
  obtain ⟨p, p1, p2, p', p3, p4⟩ := hf.node _ fbys_testing (List.mem_cons_self ..)
  exact ⟨I, p', he, p3, fun n => Answers.congr
    (uni_answers p2 rfl (fun _ => rfl) fun t _ => fbys_solves t) p4 fun t => Or.inr rfl⟩

/-- Integers whose sums fit. -/
example (uid : Nat) (A : Arith) (X : Extern) : ∃ I m, Emits uid A X traitText I ∧ structOf uid I "test" = some m ∧
    m.run [vInt 5, vInt (-7), vInt 4] = .ok [vInt 5, vInt (-2), vInt 2] := by
  obtain ⟨I, m, h1, h2, -, h⟩ := C70_trait uid A X
  refine ⟨I, m, h1, h2, ?_⟩
  refine h (fun t => [5, -7, 4].getD t 0) 3 (fun t ht => ?_) (fun t ht => ?_) 3 (Nat.le_refl 3) <;>
    match t, ht with
    | 0, _ | 1, _ | 2, _ => exact ⟨by decide, by decide⟩

/-- The first instants. -/
example (uid : Nat) (A : Arith) (X : Extern) : ∃ I m, Emits uid A X fbysText I ∧ structOf uid I "testing" = some m ∧
    m.run [vUnit, vUnit, vUnit, vUnit] = .ok [vBool true, vBool false, vBool false, vBool true] := by
  obtain ⟨I, m, h1, h2, h⟩ := C70_fbys uid A X
  exact ⟨I, m, h1, h2, h 4 4 (Nat.le_refl 4)⟩

end Chandeliers.Props
