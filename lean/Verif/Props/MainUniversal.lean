import Verif.Props.Main
import Verif.Props.Universal

/-!
# `#[main]` and `#[test]` in whole programs, with `#[universal_pre]`

C35.
-/

set_option autoImplicit false

namespace Chandeliers.Props
open Chandeliers.Err Chandeliers.San Chandeliers.Spec Chandeliers.Syn Chandeliers.Spec.Static

/-- C35.  In a program that the compiler accepts and that is `Tidy`, the function emitted for a node
with `#[main(n)]` or `#[test(n)]`, with `#[universal_pre]`.  With `n > 0` it returns exactly when the
equations of the node have a solution over `n` instants at which its assertions hold; otherwise it
panics.  With `n = 0` it never returns, and it is still running after `k` steps exactly when they have
a solution over `k` instants; otherwise it has panicked. -/
theorem C35_universal (A : Arith) (X : Extern) {p : SrcProg} {p' : Prog} {w : List Report} {I : Items}
    (h : decl (compile p) = .done w (some p')) (hX : ExternOk X p) (hg : DistinctGenerics p)
    (ht : TidyProg p) (hl : link A X p'.decls = .ok I) {attrs : List Attribute} {src : SrcNode}
    (hs : ⟨attrs, .node src⟩ ∈ p) (hu : hasAny attrs ["universal_pre"] = true) {n : Nat}
    (hn : (meaning attrs).main = some n ∨ (meaning attrs).test = some n) :
    ∃ m, I.nodes src.name = some m ∧
      (n > 0 →
        (Driver.after m n (n + 1) = .returned ↔ ∃ S,
          UniSolution ⟨A, SrcNode.vars src, S, I.consts, I.nodes⟩ (SrcNode.clocks src) src
            (List.replicate n (.leaf (.defined .unit)))) ∧
        (Driver.after m n (n + 1) = .returned ∨ ∃ p, Driver.after m n (n + 1) = .panicked p)) ∧
      (n = 0 → ∀ k,
        ((∃ s, Driver.after m 0 k = .running none s) ↔ ∃ S,
          UniSolution ⟨A, SrcNode.vars src, S, I.consts, I.nodes⟩ (SrcNode.clocks src) src
            (List.replicate k (.leaf (.defined .unit)))) ∧
        ((∃ s, Driver.after m 0 k = .running none s) ∨ ∃ p, Driver.after m 0 k = .panicked p)) := by
  have hL := (C50_accepted hg).1 ⟨w, p', h⟩
  have hN : LegalNode (meaning attrs) _ _ src := hL.items _ hs
  have hex : ((meaning attrs).main.isSome || (meaning attrs).test.isSome) = true := by
    rcases hn with e | e <;> simp [e]
  have hout : argNames src.outputs = [] := by
    have := congrArg (List.map Var.name) (hN.interface.executable hex).2
    rw [List.map_nil] at this
    rw [← this]
    simp [argNames, varsOf, List.map_flatMap, Function.comp_def]
  obtain ⟨m, hm, hr⟩ := C59_program A X h hl hX hg (fun n hn => (C59_tidy h hg ht n hn).2.2) hs hu
  have hall : ∀ k, ∀ i ∈ List.replicate k (.leaf (.defined .unit)), present i = true := by
    intro k i hi
    rw [List.eq_of_mem_replicate hi]
    rfl
  have hrun : ∀ k os, m.run (List.replicate k (.leaf (.defined .unit))) = .ok os ↔
      ∃ S, UniSolution ⟨A, SrcNode.vars src, S, I.consts, I.nodes⟩ (SrcNode.clocks src) src
          (List.replicate k (.leaf (.defined .unit))) ∧ os = srcOutputs S src k := by
    intro k os
    rw [hr, List.filter_eq_self.2 (hall k)]
    refine exists_congr fun S => and_congr_right fun _ => ?_
    rw [spread_all _ _ (hall k) (by simp [srcOutputs]), List.length_replicate]
  have hunit : ∀ k os, m.run (List.replicate k (.leaf (.defined .unit))) = .ok os → ∀ o ∈ os,
      ∃ v, o.trusted = .ok v := by
    intro k os h o ho
    obtain ⟨S, -, rfl⟩ := (hrun k os).1 h
    simp only [srcOutputs, hout, together, List.map_nil, tupleValue, List.mem_map] at ho
    obtain ⟨t, -, rfl⟩ := ho
    exact ⟨_, rfl⟩
  have hsol : ∀ k, (∃ os, m.run (List.replicate k (.leaf (.defined .unit))) = .ok os) ↔ ∃ S,
      UniSolution ⟨A, SrcNode.vars src, S, I.consts, I.nodes⟩ (SrcNode.clocks src) src
        (List.replicate k (.leaf (.defined .unit))) := by
    intro k
    constructor
    · rintro ⟨os, h⟩; obtain ⟨S, h, -⟩ := (hrun k os).1 h; exact ⟨S, h⟩
    · rintro ⟨S, h⟩; exact ⟨_, (hrun k _).2 ⟨S, h, rfl⟩⟩
  refine ⟨m, hm, fun hn => ?_, ?_⟩
  · obtain ⟨h1, h2⟩ := driver_returns hunit hn
    rw [h1, hsol] at *
    exact ⟨Iff.rfl, h2.imp id fun ⟨p, h, _⟩ => ⟨p, h⟩⟩
  · rintro rfl k
    obtain ⟨h1, h2⟩ := driver_forever hunit k
    rw [h1, hsol] at *
    exact ⟨Iff.rfl, h2.imp id fun ⟨p, h, _⟩ => ⟨p, h⟩⟩

/-! ## Example -/

/-- ```
#[main(3)] #[universal_pre]
node main() returns (); var n: int; let n = 0 -> pre n + 1; assert n < 3; tel
``` -/
def exMainUniversal (steps : Int) : SrcProg :=
  (exMainProg steps).map fun d => ⟨d.attrs ++ universal, d.item⟩

/-- The assertion holds three times. -/
example : returns (exMainUniversal 3) "main" 3 = some true ∧
    returns (exMainUniversal 4) "main" 4 = some false := by
  decide +kernel

/-- Non-vacuity of C35 with `#[universal_pre]`: its hypotheses. -/
example : (meaning (⟨"main", [], [.int 3], 1⟩ :: universal)).main = some 3 ∧
    hasAny (⟨"main", [], [.int 3], 1⟩ :: universal) ["universal_pre"] = true ∧
    ExternOk noExtern (exMainUniversal 3) ∧ DistinctGenerics (exMainUniversal 3) ∧
    TidyProg (exMainUniversal 3) := by
  refine ⟨by decide, by decide, ?_, fun d hd => ?_, fun a src hm _ => ?_⟩
  · constructor <;> intros <;> rename_i h <;> simp [exMainUniversal, exMainProg] at h
  · simp only [exMainUniversal, exMainProg, List.map_cons, List.map_nil, List.mem_singleton] at hd
    subst hd
    decide
  · simp only [exMainUniversal, exMainProg, List.map_cons, List.map_nil, List.mem_singleton] at hm
    cases hm
    refine ⟨⟨?_, by decide⟩, by decide⟩
    intro a ha b x hx
    simp only [List.nil_append, List.mem_cons, List.not_mem_nil, or_false] at ha
    subst ha
    cases hx

end Chandeliers.Props
