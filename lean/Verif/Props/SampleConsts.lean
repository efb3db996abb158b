import Verif.Lemmas.SampleConsts

/-!
# C70: constants that are declared in any order, and a sum
-/

set_option autoImplicit false

namespace Chandeliers.Props
open San Syn Err Spec Spec.Samples Smp

/-- **C70** (src/lib.rs 55-66).  Constants may be declared before those they use, and may use constants of Rust: if
`W` is `w` and `Z` is `z` in Rust, then `A`, `B`, `C`, `D` and `E` are `2 z`, `z`, `2 z`, `3 z + w` and `z + w`, as long
as all fit in 64 bits. -/
theorem C70_constants (uid : Nat) (A : Arith) (X : Extern) (w z : Int)
    (hW : X.consts "W" = some (.int (Int64.ofInt w))) (hZ : X.consts "Z" = some (.int (Int64.ofInt z)))
    (hw : Samples.Fits w) (hz : Samples.Fits z) (h1 : Samples.Fits (2 * z)) (h2 : Samples.Fits (z + w))
    (h3 : Samples.Fits (3 * z + w)) :
    ∃ I, Emits uid A X constsText I ∧
      constOf uid I "A" = some (.int (Int64.ofInt (2 * z))) ∧ constOf uid I "B" = some (.int (Int64.ofInt z)) ∧
      constOf uid I "C" = some (.int (Int64.ofInt (2 * z))) ∧
      constOf uid I "D" = some (.int (Int64.ofInt (3 * z + w))) ∧
      constOf uid I "E" = some (.int (Int64.ofInt (z + w))) := by
  have e1 : 2 * z = z + z := by omega
  have e2 : z + w = w + z := by omega
  have e3 : 3 * z + w = z + z + (w + z) := by omega
  rw [e3, e2, e1]
  rw [e1] at h1
  rw [e2] at h2
  rw [e3] at h3
  obtain ⟨g, hl, hg⟩ := consts_link (A := A) hW hZ hw hz h1 h2 h3
  obtain ⟨I, he, hI⟩ := emits_consts consts_compile uid A X hl
  refine ⟨I, he, ?_⟩
  simp only [hI]
  exact hg

/-- **C70** (src/lib.rs 146-151).  The exported node `add` returns the sum of its inputs at each instant, as long as
it fits in 64 bits. -/
theorem C70_add (uid : Nat) (A : Arith) (X : Extern) :
    ∃ I m, Emits uid A X sumText I ∧ structOf uid I "add" = some m ∧ exports sumText = ["add"] ∧
      ∀ (a b : Nat → Int) n, (∀ t < n, Samples.Fits (a t)) → (∀ t < n, Samples.Fits (b t)) →
        (∀ t < n, Samples.Fits (a t + b t)) →
        Answers m n (fun t => pair (vInt (a t)) (vInt (b t))) (fun t => vInt (a t + b t)) := by
  obtain ⟨g, N, I, he, hf⟩ := setup uid A X sum_reads (by decide +kernel) (no_extern rfl)
  obtain ⟨m, -, hm, m', h1, h2⟩ := hf.node _ sum_add (List.mem_cons_self ..)
  refine ⟨I, m', he, h1, by decide +kernel, fun a b n ha hb hs => ?_⟩
  exact Answers.congr (answers hm rfl (fun _ => rfl) fun t h => adds_solves ha hb hs h) h2
    fun t => ⟨fun x hx => by cases hx; trivial, fun x hx => by cases hx; trivial, trivial⟩

/-- **C70** (src/lib.rs 162-170).  With the node `float_of_int` of the library, where Rust says that `5 as f64` is greater
than 0.0, the assertion on it never fails. -/
theorem C70_cast (uid : Nat) (A : Arith) (L : Rust) (G : Draws) (hx : A.fcmp (L.asFloat 5) ⟨0⟩ = some .gt) :
    ∃ I m, Emits uid A (library L G) castText I ∧ structOf uid I "test" = some m ∧ exports castText = ["test"] ∧
      Forever m (fun _ => vUnit) (fun _ => vUnit) := by
  obtain ⟨g, N, I, he, hf⟩ := facts uid A (library L G) cast_reads (by decide +kernel)
    (cast_extern rfl (cast_respects L)).1 (cast_extern rfl (cast_respects L)).2 (distinct_of (by decide +kernel)) (tidy_of (by decide +kernel))
    (literal_computes (by decide +kernel))
  have hN := hf.extern _ "float_of_int" _ _ (List.mem_cons_self ..)
  obtain ⟨m, -, hm, m', h1, h2⟩ := hf.node _ cast_test (List.mem_cons_of_mem _ (List.mem_cons_self ..))
  refine ⟨I, m', he, h1, by decide +kernel, fun n => ?_⟩
  exact Answers.congr (answers hm rfl (fun _ => rfl) fun t ht =>
    cast_solves hN (Answers.wrap (cast_forever L n) fun _ => rfl) hx ht) h2 fun _ => Or.inr rfl

/-- **C70** (src/lib.rs 180-188).  The opposite assertion fails at once. -/
theorem C70_failing (uid : Nat) (A : Arith) (L : Rust) (G : Draws) (hx : A.fcmp (L.asFloat 5) ⟨0⟩ = some .gt) :
    ∃ I m, Emits uid A (library L G) failingText I ∧ structOf uid I "failing" = some m ∧ exports failingText = ["failing"] ∧
      Panics m (fun _ => vUnit) 0 := by
  obtain ⟨g, N, I, he, hf⟩ := facts uid A (library L G) failing_reads (by decide +kernel)
    (cast_extern rfl (cast_respects L)).1 (cast_extern rfl (cast_respects L)).2 (distinct_of (by decide +kernel)) (tidy_of (by decide +kernel))
    (literal_computes (by decide +kernel))
  have hN := hf.extern _ "float_of_int" _ _ (List.mem_cons_self ..)
  obtain ⟨m, -, hm, m', h1, h2⟩ := hf.node _ failing_failing (List.mem_cons_of_mem _ (List.mem_cons_self ..))
  refine ⟨I, m', he, h1, by decide +kernel, Panics.congr (fun k hk os ho => ?_) h2 fun _ => Or.inr rfl⟩
  obtain ⟨S, hS⟩ := solution hm rfl (fun _ => rfl) ho
  exact cast_fails hN (Answers.wrap (cast_forever L 1) fun _ => rfl) hx (hS 0 (by omega))

/-- The constants of the project: `W` is 0 and `Z` is 42 (src/lib.rs 52-53). -/
example (uid : Nat) (A : Arith) (N : String → Option Machine) :
    ∃ I, Emits uid A ⟨fun x => if x = "W" then some (.int 0) else if x = "Z" then some (.int 42) else none, N⟩
      constsText I ∧ constOf uid I "D" = some (.int 126) := by
  obtain ⟨I, he, -, -, -, h, -⟩ := C70_constants uid A
    ⟨fun x => if x = "W" then some (.int 0) else if x = "Z" then some (.int 42) else none, N⟩ 0 42 rfl rfl
    ⟨by decide, by decide⟩ ⟨by decide, by decide⟩ ⟨by decide, by decide⟩ ⟨by decide, by decide⟩ ⟨by decide, by decide⟩
  exact ⟨I, he, h⟩

/-- 5.0 has larger bits than 0.0, and bits are enough to compare floats that are not negative. -/
example (uid : Nat) (A : Arith) (L : Rust) (G : Draws) : ∃ (A' : Arith) (L' : Rust) (I : Items) (m : Machine),
    Emits uid A' (library L' G) castText I ∧ structOf uid I "test" = some m ∧
      m.run [vUnit, vUnit] = .ok [vUnit, vUnit] ∧
    ∃ (I' : Items) (m' : Machine), Emits uid A' (library L' G) failingText I' ∧
      structOf uid I' "failing" = some m' ∧ ∀ os, m'.run [vUnit] ≠ .ok os := by
  have hx : ({ A with fcmp := fun x y => some (compare x.bits.toNat y.bits.toNat) } : Arith).fcmp
      (({ L with asFloat := fun _ => ⟨0x4014000000000000⟩ } : Rust).asFloat 5) ⟨0⟩ = some .gt := by
    show some (compare (0x4014000000000000#64).toNat (0#64).toNat) = some .gt
    decide
  obtain ⟨I, m, h1, h2, -, h3⟩ := C70_cast uid _ _ G hx
  obtain ⟨I', m', k1, k2, -, k3⟩ := C70_failing uid _ _ G hx
  exact ⟨_, _, I, m, h1, h2, h3 2 2 (Nat.le_refl 2), I', m', k1, k2, k3 1 (by omega)⟩

/-- The test of the project: 5 and 4 (src/lib.rs 155-159). -/
example (uid : Nat) (A : Arith) (X : Extern) : ∃ I m, Emits uid A X sumText I ∧ structOf uid I "add" = some m ∧
    m.run [pair (vInt 5) (vInt 4)] = .ok [vInt 9] := by
  obtain ⟨I, m, h1, h2, -, h⟩ := C70_add uid A X
  exact ⟨I, m, h1, h2, h (fun _ => 5) (fun _ => 4) 1 (fun _ _ => ⟨by decide, by decide⟩)
    (fun _ _ => ⟨by decide, by decide⟩) (fun _ _ => ⟨by decide, by decide⟩) 1 (Nat.le_refl 1)⟩

end Chandeliers.Props
