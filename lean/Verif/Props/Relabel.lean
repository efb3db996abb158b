import Verif.Lemmas.RelabelProg
import Verif.Props.Refactor
import Mathlib.Logic.Equiv.Basic

/-! # C68: names of nodes and constants do not matter -/

set_option autoImplicit false

namespace Chandeliers.Props
open Chandeliers.Err Chandeliers.San Chandeliers.Spec Chandeliers.Syn Chandeliers.Rep Chandeliers.Prg

/-- C68.  The nodes and constants of a program get other names, and the variables of its nodes too.
The program is accepted if and only if the original is. -/
theorem C68_accepted {ν κ : String ≃ String} {p r : SrcProg}
    (hr : List.Forall₂ (Relabelled ν κ) p r) (hg : DistinctGenerics p) : Accepted p ↔ Accepted r :=
  ⟨accepted_relabelled hr hg, accepted_relabelled (relabelled_back hr) (generics_relabelled hr hg)⟩

/-- C68.  The nodes and constants of a program get other names, and the variables of its nodes too; so
do the external items it is linked with.  The program is still accepted, rustc refuses both or neither
for the same reason, and otherwise the constants have the same values and the nodes do the same, under
their other names. -/
theorem C68_relabel (A : Arith) {X X' : Extern} {ν κ : String ≃ String} {p r : SrcProg} {p' : Prog}
    {w : List Report} (hr : List.Forall₂ (Relabelled ν κ) p r) (hXX : ExternAs ν κ X X')
    (h : decl (compile p) = .done w (some p')) (hX : ExternOk X p) (hg : DistinctGenerics p)
    (ht : TidyProg p) : ∃ w' r', decl (compile r) = .done w' (some r') ∧
      Both (· = ·) (fun I I' : Items => AlikeItems (fun _ _ => True) I.consts
        (fun x => I'.consts (κ x)) I.nodes (fun f => I'.nodes (ν f)))
        (link A X p'.decls) (link A X' r'.decls) := by
  obtain ⟨w', r', h'⟩ := accepted_relabelled hr hg ⟨w, p', h⟩
  exact ⟨w', r', h', link_relabelled hr hXX h h' hX hg ht⟩

/-! ## Examples -/

/-- `twice` and `inc` are exchanged, and `counter` becomes `count`. -/
def exNodeNames : String ≃ String :=
  (Equiv.swap "twice" "inc").trans (Equiv.swap "counter" "count")

/-- `K` becomes `x`. -/
def exConstNames : String ≃ String := Equiv.swap "K" "x"

/-- The program `exProg` with other names.  The constant `K` gets the name of a variable of `inc`,
which is changed in turn if `safe`.
```
node inc(x: int) returns (y: int); let y = twice(twice(x)) + count(true); tel
node twice(K: int) returns (y: int); let y = K + x; tel
const x: int = L + 1;
const L: int = 2;
extern node count(i: bool) returns (n: int);
``` -/
def exLabels (safe : Bool) : SrcProg := [
  ⟨[], .node {
    name := "inc"
    inputs := [⟨["x"], .int, .implicit⟩]
    outputs := [⟨["y"], .int, .implicit⟩]
    locals := []
    defs := [.def_ (.var "y") (.left (.call "twice" [.call "twice" [.var "x"] false] false)
      [(.add, .call "count" [.lit (.bool true)] false)])] }⟩,
  ⟨[], .node {
    name := "twice"
    inputs := [⟨[if safe then "K" else "x"], .int, .implicit⟩]
    outputs := [⟨["y"], .int, .implicit⟩]
    locals := []
    defs := [.def_ (.var "y") (.left (.var (if safe then "K" else "x")) [(.add, .var "x")])] }⟩,
  ⟨[], .const ⟨"x", .int, .left (.var "L") [(.add, .lit (.int 1))]⟩⟩,
  ⟨[], .const ⟨"L", .int, .lit (.int 2)⟩⟩,
  ⟨[], .extNode "count" [⟨["i"], .bool, .implicit⟩] [⟨["n"], .int, .implicit⟩]⟩]

/-- The Rust items under their other names. -/
def exOtherExtern : Extern where
  consts := fun _ => none
  nodes := fun f => exExtern.nodes (exNodeNames.symm f)

theorem exLabels_names : List.Forall₂ (Relabelled exNodeNames exConstNames) exProg (exLabels true) :=
  .cons (.node (ν := exNodeNames) (κ := exConstNames) id (by decide) (by decide))
    (.cons (.node (ν := exNodeNames) (κ := exConstNames) exConstNames (by decide) (by decide))
      (.cons (.const (ν := exNodeNames) (κ := exConstNames))
        (.cons (.const (ν := exNodeNames) (κ := exConstNames))
          (.cons (.extNode (ν := exNodeNames) (κ := exConstNames)) .nil))))

theorem exOtherExtern_as : ExternAs exNodeNames exConstNames exExtern exOtherExtern :=
  ⟨fun _ => rfl, fun f => by simp [exOtherExtern]⟩

/-- Non-vacuity of C68: the program with other names does the same. -/
example : runIn exExtern exProg "twice" [exInt 1, exInt 5] = some [some 7, some 12] ∧
    runIn exOtherExtern (exLabels true) "inc" [exInt 1, exInt 5] = some [some 7, some 12] ∧
    ∃ w p', decl (compile exProg) = .done w (some p') ∧
      ∃ w' r', decl (compile (exLabels true)) = .done w' (some r') ∧
        Both (· = ·) (fun I I' : Items => AlikeItems (fun _ _ => True) I.consts
          (fun x => I'.consts (exConstNames x)) I.nodes (fun f => I'.nodes (exNodeNames f)))
          (link exArith exExtern p'.decls) (link exArith exOtherExtern r'.decls) := by
  obtain ⟨w, p', I, m, h1, h2, -⟩ := runIn_items exProg_runs
  refine ⟨exProg_runs, by decide +kernel, w, p', h1, C68_relabel exArith exLabels_names exOtherExtern_as
    h1 exExtern_ok exProg_generics ?_⟩
  intro attrs src hm hu
  simp only [exProg, List.mem_cons, SrcDecl.mk.injEq, reduceCtorEq, and_false, or_false,
    List.not_mem_nil] at hm
  rcases hm with ⟨rfl, -⟩ | ⟨rfl, -⟩ <;> cases hu

/-- The names that a node mentions must stay different: with a variable of the name that `K` gets, the
program is accepted too but does something else. -/
theorem C68_capture :
    runIn exExtern exProg "twice" [exInt 1, exInt 5] = some [some 7, some 12] ∧
    runIn exOtherExtern (exLabels false) "inc" [exInt 1, exInt 5] = some [some 4, some 21] :=
  ⟨exProg_runs, by decide +kernel⟩

end Chandeliers.Props
