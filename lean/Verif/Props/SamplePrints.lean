import Verif.Lemmas.SamplePrints

/-!
# C70: what the programs that come with the project print

From the tokens of the programs to the text on the standard output.
-/

set_option autoImplicit false

namespace Chandeliers.Props
open San Syn Err Spec Spec.Samples Smp

/-- **C70** (src/lib.rs 529-559).  The node `main` writes, on the line `n`, what is said instead of `n` in the
game of Fizz buzz, as long as `n` fits in 64 bits.  The attribute asks for 30 lines. -/
theorem C70_fizzbuzz (A : Arith) (D : Shows) (X : ExternW) :
    mains fizzbuzzText = [("main", 30)] ∧ ∃ I m, EmitsW A D X fizzbuzzText I ∧ I.nodes "main" = some m ∧
      ∀ k < 2 ^ 63, Tells m (fun _ => vUnit) (fun _ => vUnit) (fun t => fizzbuzz (t + 1) ++ "\n") k := by
  refine ⟨by decide +kernel, ?_⟩
  obtain ⟨p', he, hd⟩ := expand_of fizz_compiles
  obtain ⟨I, h1, h2⟩ := fizz_links A D X (traces fizzbuzzText) rfl rfl rfl rfl rfl
  exact ⟨I, _, ⟨p', he, hd ▸ h1⟩, h2, fizz_writes rfl⟩

/-- **C70** (src/lib.rs 623-631).  The node `zero_then_one` writes 0, then 1 forever.  The attribute asks for
100 instants. -/
theorem C70_zero_then_one (A : Arith) (D : Shows) (X : ExternW) :
    mains zeroOneText = [("zero_then_one", 100)] ∧ ∃ I m, EmitsW A D X zeroOneText I ∧
      I.nodes "zero_then_one" = some m ∧
      ∀ k, Tells m (fun _ => vUnit) (fun _ => vUnit) (fun t => if t = 0 then "0" else "1") k := by
  refine ⟨by decide +kernel, ?_⟩
  obtain ⟨p', he, hd⟩ := expand_of zeroOne_compiles
  obtain ⟨I, h1, h2⟩ := zeroOne_links A D X (traces zeroOneText) rfl
  exact ⟨I, _, ⟨p', he, hd ▸ h1⟩, h2, zeroOne_writes⟩

/-- **C70** (src/lib.rs 521-524).  The node `foo`, whose attribute `#[trace]` has no argument, gives back its three
inputs, and writes two lines at each instant: one with the inputs and one with the outputs. -/
theorem C70_format (A : Arith) (D : Shows) (X : ExternW) :
    ∃ I m, EmitsW A D X formatText I ∧ I.nodes "foo" = some m ∧
      ∀ a b c : Nat → Int, (∀ t, Fits (a t) ∧ Fits (b t) ∧ Fits (c t)) → ∀ k,
        Tells m (fun t => triple (vInt (a t)) (vInt (b t)) (vInt (c t)))
          (fun t => triple (vInt (a t)) (vInt (b t)) (vInt (c t))) (fun t => fooLine (a t) (b t) (c t)) k := by
  obtain ⟨p', he, hd⟩ := expand_of foo_compiles
  obtain ⟨I, h1, h2⟩ := foo_links A D X (traces formatText) rfl
  exact ⟨I, _, ⟨p', he, hd ▸ h1⟩, h2, foo_tells⟩

/-- **C70** (src/lib.rs 563-568).  The node `addition_correct` writes the number of the instant before and after its
assertion, which holds. -/
theorem C70_addition_trace (A : Arith) (D : Shows) (X : ExternW) :
    ∃ I m, EmitsW A D X addText I ∧ I.nodes "addition_correct" = some m ∧
      ∀ k, Tells m (fun _ => vUnit) (fun _ => vUnit) (fun t => s!"<- {t}-> {t}") k := by
  obtain ⟨p', he, hd⟩ := expand_of add_compiles
  obtain ⟨I, h1, h2⟩ := add_links A D X (traces addText) rfl
  exact ⟨I, _, ⟨p', he, hd ▸ h1⟩, h2, add_tells⟩

/-- The 30 lines that the example asks for. -/
example (A : Arith) (D : Shows) (X : ExternW) : ∃ I m s out, EmitsW A D X fizzbuzzText I ∧ I.nodes "main" = some m ∧
    m.runFrom m.init (List.replicate 30 vUnit) = ⟨.ok (List.replicate 30 vUnit, s), out⟩ ∧
    String.join (out.map (·.text)) =
      "1\n2\nFizz\n4\nBuzz\nFizz\n7\n8\nFizz\nBuzz\n11\nFizz\n13\n14\nFizzBuzz\n" ++
      "16\n17\nFizz\n19\nBuzz\nFizz\n22\n23\nFizz\nBuzz\n26\nFizz\n28\n29\nFizzBuzz\n" := by
  obtain ⟨-, I, m, h1, h2, h3⟩ := C70_fizzbuzz A D X
  obtain ⟨s, out, h4, -, h5⟩ := h3 30 (by omega)
  exact ⟨I, m, s, out, h1, h2, h4, h5.trans (by decide +kernel)⟩

/-- The beginning of the other one. -/
example (A : Arith) (D : Shows) (X : ExternW) : ∃ I m s out, EmitsW A D X zeroOneText I ∧
    I.nodes "zero_then_one" = some m ∧
    m.runFrom m.init (List.replicate 5 vUnit) = ⟨.ok (List.replicate 5 vUnit, s), out⟩ ∧
    String.join (out.map (·.text)) = "01111" := by
  obtain ⟨-, I, m, h1, h2, h3⟩ := C70_zero_then_one A D X
  obtain ⟨s, out, h4, -, h5⟩ := h3 5
  exact ⟨I, m, s, out, h1, h2, h4, h5⟩

/-- Two instants of `foo`. -/
example (A : Arith) (D : Shows) (X : ExternW) : ∃ I m s out, EmitsW A D X formatText I ∧ I.nodes "foo" = some m ∧
    m.runFrom m.init [triple (vInt 1) (vInt 2) (vInt 3), triple (vInt (-4)) (vInt 2) (vInt 3)] =
      ⟨.ok ([triple (vInt 1) (vInt 2) (vInt 3), triple (vInt (-4)) (vInt 2) (vInt 3)], s), out⟩ ∧
    String.join (out.map (·.text)) =
      "      foo <- (a=1, b=2, c=3)\n      foo -> (x=1, y=2, z=3)\n" ++
      "      foo <- (a=-4, b=2, c=3)\n      foo -> (x=-4, y=2, z=3)\n" := by
  obtain ⟨I, m, h1, h2, h3⟩ := C70_format A D X
  obtain ⟨s, out, h4, -, h5⟩ := h3 (fun t => if t = 0 then 1 else -4) (fun _ => 2) (fun _ => 3) (fun t => by
    unfold Samples.Fits
    grind) 2
  exact ⟨I, m, s, out, h1, h2, h4, h5.trans (by decide +kernel)⟩

/-- Three instants of `addition_correct`. -/
example (A : Arith) (D : Shows) (X : ExternW) : ∃ I m s out, EmitsW A D X addText I ∧
    I.nodes "addition_correct" = some m ∧
    m.runFrom m.init (List.replicate 3 vUnit) = ⟨.ok (List.replicate 3 vUnit, s), out⟩ ∧
    String.join (out.map (·.text)) = "<- 0-> 0<- 1-> 1<- 2-> 2" := by
  obtain ⟨I, m, h1, h2, h3⟩ := C70_addition_trace A D X
  obtain ⟨s, out, h4, -, h5⟩ := h3 3
  exact ⟨I, m, s, out, h1, h2, h4, h5.trans (by decide +kernel)⟩

end Chandeliers.Props
