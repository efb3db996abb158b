import Verif.Lemmas.Slice
import Verif.Props.Refactor

/-! # C61: what is not used can be removed; C62: names of variables do not matter -/

set_option autoImplicit false

namespace Chandeliers.Props
open Chandeliers.Err Chandeliers.San Chandeliers.Spec Chandeliers.Syn Chandeliers.Rep Chandeliers.Prg

/-- C61.  From the nodes of a program, equations of unused variables and assertions are removed.  The
program is still accepted, the constants have the same values, rustc refuses both programs or neither,
and when a node of the original program returns, so does that of the new one, with the same outputs. -/
theorem C61_remove (A : Arith) (X : Extern) {p r : SrcProg} {p' : Prog} {w : List Report}
    (hr : List.Forall₂ (Rewritten fun _ => SlicedNode) p r)
    (h : decl (compile p) = .done w (some p')) (hX : ExternOk X p) (hg : DistinctGenerics p)
    (ht : TidyProg p) : ∃ w' r', decl (compile r) = .done w' (some r') ∧
      Both (· = ·) NoLess (link A X p'.decls) (link A X r'.decls) := by
  have hl : Static.Legal p := (C50_accepted hg).1 ⟨w, p', h⟩
  obtain ⟨w', r', h'⟩ := accepted_rewritten sliced_keepsNode hg hr ⟨w, p', h⟩
  refine ⟨w', r', h', ?_⟩
  have hr' := sliced_distinct hl hr
  have hF : Faced (fun _ n n' => n' = n ∨ (SlicedNode n n' ∧ (SrcNode.vars n).Nodup)) :=
    ⟨by rintro u n n' (rfl | h); exacts [rfl, sliced_faced.name (u := u) h],
      by rintro u n n' (rfl | h); exacts [rfl, sliced_faced.outs (u := u) h]⟩
  have := link_redone (A := A) (X := X) (congr_milder A) hF (lifts_milder hF ?_)
    (rewritten_redone hr') (rewritten_back hr') h h' hX hg ht
    (tidy_rewritten (fun h => sliced_tidy h) hr ht)
  · revert this
    cases link A X p'.decls <;> cases link A X r'.decls <;> intro this
    · exact this
    · exact this
    · exact this
    · refine ⟨this.consts.symm, fun f => (this.none f).symm,
        fun f m m' h1 h2 => (this.nodes f m m' h1 h2).type.symm, fun f m m' h1 h2 is os ho => ?_⟩
      have hm := (this.nodes f m m' h1 h2).runs is
      rw [ho] at hm
      revert hm
      cases m'.run is with
      | error e => exact fun h => h.elim
      | ok os' => exact fun h => by rw [show os = os' from h]
  · rintro attrs src src' n n' ms ms' s s' c c' g N (rfl | hr) h1 h2 l1 l2 is outs
    · exact id
    · exact answers_sliced hr.1 hr.2

/-- C62.  The variables of the nodes of a program get other names, inputs and outputs included.  The
program is still accepted and does the same. -/
theorem C62_rename (A : Arith) (X : Extern) {p r : SrcProg} {p' : Prog} {w : List Report}
    (hr : List.Forall₂ (Rewritten fun _ => RenamedNode) p r)
    (h : decl (compile p) = .done w (some p')) (hX : ExternOk X p) (hg : DistinctGenerics p)
    (ht : TidyProg p) : ∃ w' r', decl (compile r) = .done w' (some r') ∧
      Both (· = ·)
        (fun I I' : Items => AlikeItems (fun _ _ => True) I.consts I'.consts I.nodes I'.nodes)
        (link A X p'.decls) (link A X r'.decls) := by
  obtain ⟨w', r', h'⟩ := accepted_rewritten renamed_keepsNode hg hr ⟨w, p', h⟩
  exact ⟨w', r', h', link_rewritten renamed_faced
    (fun _ _ _ _ _ _ _ _ _ _ _ _ _ hn _ _ _ _ is outs => answers_renamed hn is outs)
    hr h h' hX hg ht (tidy_rewritten (fun h => renamed_tidy h) hr ht)⟩

/-! ## Examples -/

/-- ```
const k: int = 2;
node f(x: int; b: bool) returns (o: int);
var c: int; s: int when b; d, e: int;
let
  assert x < 10; s = (x + 1) when b; d = k / x; e = d + (0 fby o);
  c = merge b s (0 whenot b); o = c + k;
tel
```
Without `d`, `e` and the assertion if `whole` is false. -/
def exWhole (attrs : List Attribute) (whole : Bool) : SrcProg := [
  ⟨[], .const ⟨"k", .int, .lit (.int 2)⟩⟩,
  ⟨attrs, .node {
    name := "f"
    inputs := [⟨["x"], .int, .implicit⟩, ⟨["b"], .bool, .implicit⟩]
    outputs := [⟨["o"], .int, .implicit⟩]
    locals := [⟨["c"], .int, .implicit⟩, ⟨["s"], .int, .explicit true "b"⟩] ++
      (if whole then [⟨["d", "e"], .int, .implicit⟩] else [])
    defs := (if whole then [.assert (.cmp (.var "x") [(.lt, .lit (.int 10))])] else []) ++
      [.def_ (.var "s") (.left (.paren [.left (.var "x") [(.add, .lit (.int 1))]] false)
        [(.when, .var "b")])] ++
      (if whole then [.def_ (.var "d") (.left (.var "k") [(.div, .var "x")]),
        .def_ (.var "e") (.left (.var "d") [(.add, .paren [.fby (.lit (.int 0)) [.var "o"]] false)])]
        else []) ++
      [.def_ (.var "c") (.merge (.var "b") (.var "s")
        (.paren [.left (.lit (.int 0)) [(.whenot, .var "b")]] false)),
       .def_ (.var "o") (.left (.var "c") [(.add, .var "k")])] }⟩]

/-- The two arguments. -/
def exTwoArgs (x : Int64) (b : Bool) : Value :=
  .tup (.leaf (.defined (.int x))) [.leaf (.defined (.bool b))]

theorem exWhole_extern (attrs : List Attribute) (w : Bool) : ExternOk noExtern (exWhole attrs w) := by
  constructor
  all_goals
    intros
    rename_i hm
    simp [exWhole] at hm

theorem exWhole_generics {attrs : List Attribute} (w : Bool) (h : (meaning attrs).generics = []) :
    DistinctGenerics (exWhole attrs w) := by
  intro d hd
  simp only [exWhole, List.mem_cons, List.not_mem_nil, or_false] at hd
  rcases hd with rfl | rfl
  · exact List.nodup_nil
  · simp [h]

theorem exWhole_tidy (attrs : List Attribute) (w : Bool) : TidyProg (exWhole attrs w) := by
  intro a n hm _
  simp only [exWhole, List.mem_cons, List.not_mem_nil, or_false, SrcDecl.mk.injEq,
    SrcItem.node.injEq, reduceCtorEq, and_false, false_or] at hm
  obtain ⟨-, rfl⟩ := hm
  refine ⟨⟨?_, ?_⟩, ?_⟩
  · intro a ha b x hx
    cases w <;> simp only [List.mem_append, List.mem_cons, List.not_mem_nil, or_false, if_true,
      Bool.false_eq_true, if_false] at ha
    · rcases ha with ((rfl | rfl) | rfl) | rfl | rfl <;> simp_all [argNames]
    · rcases ha with ((rfl | rfl) | rfl) | (rfl | rfl) | rfl <;> simp_all [argNames]
  · cases w <;> decide
  · cases w <;> decide

theorem exWhole_sliced (attrs : List Attribute) :
    List.Forall₂ (Rewritten fun _ => SlicedNode) (exWhole attrs true) (exWhole attrs false) := by
  refine .cons .same (.cons (.node ⟨rfl, rfl, rfl, by decide, by decide, ?_, ?_, by decide⟩) .nil)
  · exact .cons _ (.cons_cons _ (.cons _ (.cons _ (.cons_cons _ (.cons_cons _ .slnil)))))
  intro st hst x hx hv
  simp only [if_true, List.cons_append, List.nil_append, List.mem_cons, List.not_mem_nil,
    or_false] at hst
  rcases hst with rfl | rfl | rfl | rfl | rfl | rfl
  all_goals first | (simp; done) | (exfalso; revert hv; revert x; decide)

/-- Non-vacuity of C61, without registers and with registers. -/
example (attrs : List Attribute) (ha : attrs = [] ∨ attrs = universal) :
    runIn noExtern (exWhole attrs true) "f" [exTwoArgs 4 true, exTwoArgs 5 false] =
      some [some 7, some 2] ∧
    ∃ w p', decl (compile (exWhole attrs true)) = .done w (some p') ∧
      ∃ w' r', decl (compile (exWhole attrs false)) = .done w' (some r') ∧
        Both (· = ·) NoLess (link exArith noExtern p'.decls) (link exArith noExtern r'.decls) := by
  have h : runIn noExtern (exWhole attrs true) "f" [exTwoArgs 4 true, exTwoArgs 5 false] =
      some [some 7, some 2] := by rcases ha with rfl | rfl <;> decide +kernel
  obtain ⟨w, p', I, m, h1, h2, -⟩ := runIn_items h
  exact ⟨h, w, p', h1, C61_remove exArith noExtern (exWhole_sliced attrs) h1 (exWhole_extern ..)
    (exWhole_generics _ (by rcases ha with rfl | rfl <;> rfl)) (exWhole_tidy _ _)⟩

/-- What is removed could panic, so the converse of C61 does not hold: here a division by zero, or an
assertion. -/
theorem C61_fewer_panics : List.Forall₂ (Rewritten fun _ => SlicedNode) (exWhole [] true)
      (exWhole [] false) ∧
    runIn noExtern (exWhole [] true) "f" [exTwoArgs 4 true, exTwoArgs 0 false] = none ∧
    runIn noExtern (exWhole [] false) "f" [exTwoArgs 4 true, exTwoArgs 0 false] =
      some [some 7, some 2] ∧
    runIn noExtern (exWhole [] true) "f" [exTwoArgs 4 true, exTwoArgs 11 false] = none ∧
    runIn noExtern (exWhole [] false) "f" [exTwoArgs 4 true, exTwoArgs 11 false] =
      some [some 7, some 2] :=
  ⟨exWhole_sliced [], by decide +kernel, by decide +kernel, by decide +kernel, by decide +kernel⟩

/-- Other names: `x` and `s` are exchanged. -/
def exNames (x : String) : String :=
  if x = "x" then "s" else if x = "s" then "x" else if x = "b" then "clk" else
  if x = "o" then "out" else x

/-- ```
const k: int = 2;
node f(s: int; clk: bool) returns (out: int);
var c: int; x: int when clk;
let x = (s + 1) when clk; c = merge clk x (0 whenot clk); out = c + k; tel
``` -/
def exNamed (attrs : List Attribute) : SrcProg := [
  ⟨[], .const ⟨"k", .int, .lit (.int 2)⟩⟩,
  ⟨attrs, .node {
    name := "f"
    inputs := [⟨["s"], .int, .implicit⟩, ⟨["clk"], .bool, .implicit⟩]
    outputs := [⟨["out"], .int, .implicit⟩]
    locals := [⟨["c"], .int, .implicit⟩, ⟨["x"], .int, .explicit true "clk"⟩]
    defs := [.def_ (.var "x") (.left (.paren [.left (.var "s") [(.add, .lit (.int 1))]] false)
        [(.when, .var "clk")]),
      .def_ (.var "c") (.merge (.var "clk") (.var "x")
        (.paren [.left (.lit (.int 0)) [(.whenot, .var "clk")]] false)),
      .def_ (.var "out") (.left (.var "c") [(.add, .var "k")])] }⟩]

theorem exWhole_renamed (attrs : List Attribute) :
    List.Forall₂ (Rewritten fun _ => RenamedNode) (exWhole attrs false) (exNamed attrs) :=
  .cons .same (.cons (.node ⟨exNames, by decide, by decide, by rfl⟩) .nil)

/-- Non-vacuity of C62, without registers and with registers. -/
example (attrs : List Attribute) (ha : attrs = [] ∨ attrs = universal) :
    runIn noExtern (exWhole attrs false) "f" [exTwoArgs 4 true, exTwoArgs 5 false] =
      some [some 7, some 2] ∧
    ∃ w p', decl (compile (exWhole attrs false)) = .done w (some p') ∧
      ∃ w' r', decl (compile (exNamed attrs)) = .done w' (some r') ∧
        Both (· = ·)
          (fun I I' : Items => AlikeItems (fun _ _ => True) I.consts I'.consts I.nodes I'.nodes)
          (link exArith noExtern p'.decls) (link exArith noExtern r'.decls) := by
  have h : runIn noExtern (exWhole attrs false) "f" [exTwoArgs 4 true, exTwoArgs 5 false] =
      some [some 7, some 2] := by rcases ha with rfl | rfl <;> decide +kernel
  obtain ⟨w, p', I, m, h1, h2, -⟩ := runIn_items h
  exact ⟨h, w, p', h1, C62_rename exArith noExtern (exWhole_renamed attrs) h1 (exWhole_extern ..)
    (exWhole_generics _ (by rcases ha with rfl | rfl <;> rfl)) (exWhole_tidy _ _)⟩

end Chandeliers.Props
