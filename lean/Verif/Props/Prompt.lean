import Verif.Lemmas.PromptNode
import Verif.Props.Steady
import Verif.Props.Modes

/-!
# `#[universal_pre]` against Lustre, from conditions on the source

C18 and C42, where what is asked of the program can be read on its source: no solution of the
equations is assumed.
-/

set_option autoImplicit false

namespace Chandeliers.Props
open Chandeliers.San Chandeliers.Spec Chandeliers.Syn Chandeliers.Err Chandeliers.Prg Chandeliers.Pres
open Chandeliers.Uni Chandeliers.Spec.Static

/-- C18, for the programs that are `Regular` and the nodes that are `Prompt`.  A node with
`#[universal_pre]`, given inputs of its type that are complete or absent, does what Lustre says of its
equations, with clocks, over the inputs that are present: its outputs are those of streams that solve
the equations, where the assertions hold and nothing that is present is uninitialised.  There are no
other such streams: any solution in Lustre says the same outputs.

What is missing: `C18_counterexample_*` show that the rest of C18 is false of the code. -/
theorem C18_prompt_partial (A : Arith) (X : Extern) {p : SrcProg} {p' : Prog} {w : List Report}
    {I : Items} (h : decl (compile p) = .done w (some p')) (hl : link A X p'.decls = .ok I)
    (hc : Regular X p p') {attrs : List Attribute} {src : SrcNode} (hs : ⟨attrs, .node src⟩ ∈ p)
    (hu : hasAny attrs ["universal_pre"] = true) (hq : PromptNode (meaning attrs) src) :
    ∃ m, I.nodes src.name = some m ∧ ∀ θ is os,
      (∀ i ∈ is, ValTy (substTy θ (flatTuple (argTypes src.inputs))) i ∧
        (i.firstIsNil = true ∨ Full i)) → m.run is = .ok os →
      (∃ S, ClockedRun ⟨A, SrcNode.vars src, S, I.consts, I.nodes⟩ src (is.filter present) ∧
        os = spread (flatShape (argNames src.outputs).length) is
          (srcOutputs S src (is.filter present).length)) ∧
      ∀ Y, ClockedSolution ⟨A, SrcNode.vars src, Y, I.consts, I.nodes⟩ src (is.filter present) →
        os = spread (flatShape (argNames src.outputs).length) is
          (srcOutputs Y src (is.filter present).length) := by
  have ht := C59_tidy h hc.generics hc.tidy
  obtain ⟨m, k1, k2⟩ := C59_program A X h hl hc.extern hc.generics
    (fun n hn => (ht n hn).2.2) hs hu
  refine ⟨m, k1, fun θ is os hi hr => ?_⟩
  obtain ⟨S, hS, ho⟩ := (k2 is os).1 hr
  have hleg : LegalNode _ _ _ src := (regular_legal h hc).items _ hs
  have hT := hc.tidy attrs src hs hu
  have hrun := Std.prompt_run (θ := θ) hleg (regular_around h hl hc hs hu) hT.flat
    ((hc.steady attrs src hs hu).steady _ _) (hq _ _) (fun i hi' => by
      obtain ⟨h1, h2⟩ := List.mem_filter.1 hi'
      obtain ⟨h3, h4⟩ := hi i h1
      refine ⟨h3, h4.resolve_left ?_⟩
      simpa [present] using h2) hS
  refine ⟨⟨S, hrun, ho⟩, fun Y hY => ?_⟩
  rw [ho, srcOutputs_congr (Std.clocked_unique hleg (regular_around h hl hc hs hu)
    (regular_around h hl hc hs hu) hT.clocks hrun.solution hY)]

/-- C42, for the programs that are `Regular`.  A node without clocks, and a copy of it under another
name with `#[universal_pre]` that is `Prompt`, in one program.  Given the same inputs, of their type
and complete or absent, they return the same outputs if neither panics.

What is missing: `C42_counterexample_arrow` shows that the rest of C42 is false of the code. -/
theorem C42_prompt_partial (A : Arith) (X : Extern) {p : SrcProg} {p' : Prog} {w : List Report}
    {I : Items} (h : decl (compile p) = .done w (some p')) (hl : link A X p'.decls = .ok I)
    (hc : Regular X p p') {attrs attrs' : List Attribute} {src : SrcNode} {g : String}
    (hs : ⟨attrs, .node src⟩ ∈ p) (hs' : ⟨attrs', .node { src with name := g }⟩ ∈ p)
    (hu : hasAny attrs ["universal_pre"] = false) (hu' : hasAny attrs' ["universal_pre"] = true)
    (hn : UnclockedNode src) (hq : PromptNode (meaning attrs') { src with name := g }) :
    ∃ m m', I.nodes src.name = some m ∧ I.nodes g = some m' ∧ ∀ θ is os os',
      (∀ i ∈ is, ValTy (substTy θ (flatTuple (argTypes src.inputs))) i ∧
        (i.firstIsNil = true ∨ Full i)) → m.run is = .ok os → m'.run is = .ok os' → os = os' := by
  obtain ⟨m', k1, k2⟩ := C18_prompt_partial A X h hl hc hs' hu' hq
  obtain ⟨q, hq', hp⟩ := accepted_passes h
  obtain ⟨-, hln⟩ := link_ok hl
  obtain ⟨-, h2, -⟩ := linkNodes_values hp (fun _ _ => rfl) hln
  obtain ⟨n, ms, sigs, consts, j1, j2, j3, j4, j5⟩ := h2 attrs src (hq'.mem_iff.2 hs)
  rw [show (meaning attrs).universalPre = false from hu] at j1
  refine ⟨_, m', j3, k1, fun θ is os os' hi hr hr' => ?_⟩
  obtain ⟨⟨S, hS, rfl⟩, -⟩ := k2 θ is os' hi hr'
  have hD : ∀ x, SrcNode.clocks src x = .implicit := by
    intro x
    unfold SrcNode.clocks
    split
    · exact hn.1 _ (List.mem_of_find?_eq_some ‹_›)
    · rfl
  refine C16_outputs A I.consts j1 j4 hr ⟨hS.inputs, fun t ht st hst => ?_⟩
  have h1 := hS.obeys t ht st hst
  have h2 := hn.2 st hst
  cases st with
  | def_ p e =>
    obtain ⟨v, h3, h4, -⟩ := h1
    exact ⟨v, clocked_lustre hD e h2 (h4 (unclocked_on hD e h2 t)), h3⟩
  | assert e => trivial

/-! ## Example

```
node acc(x : int) returns (y : int);
let y = x + (0 fby y); tel

#[universal_pre]
node mixed(b : bool; x : int) returns (y, z : int);
var v, w : int when b; u : int whenot b;
let
  v = acc(x when b);
  w = (0 when b) -> pre v;
  u = x whenot b;
  y = merge b w u;
  z = 0 -> pre (1 -> pre y);
  assert x < 10 or not b;
tel

node plain(x : int) returns (y : int);
let y = acc(x) + (0 -> pre (1 -> pre x)); tel

#[universal_pre]
node eager(x : int) returns (y : int);
let y = acc(x) + (0 -> pre (1 -> pre x)); tel
``` -/

/-- The node with clocks. -/
def exPromptNode : SrcNode where
  name := "mixed"
  inputs := [⟨["b"], .bool, .implicit⟩, ⟨["x"], .int, .implicit⟩]
  outputs := [⟨["y", "z"], .int, .implicit⟩]
  locals := [⟨["v", "w"], .int, .explicit true "b"⟩, ⟨["u"], .int, .explicit false "b"⟩]
  defs := [
    .def_ (.var "v") (.call "acc" [.left (.var "x") [(.when, .var "b")]] false),
    .def_ (.var "w") (.arrow (.left (.lit (.int 0)) [(.when, .var "b")]) [.pre (.var "v")]),
    .def_ (.var "u") (.left (.var "x") [(.whenot, .var "b")]),
    .def_ (.var "y") (.merge (.var "b") (.var "w") (.var "u")),
    .def_ (.var "z") (.arrow (.lit (.int 0)) [.pre (.paren [.arrow (.lit (.int 1))
      [.pre (.var "y")]] false)]),
    .assert (.left (.cmp (.var "x") [(.lt, .lit (.int 10))]) [(.or, .not (.var "b"))])]

/-- The node without clocks, under the name `f`. -/
def exPromptPlain (f : String) : SrcNode where
  name := f
  inputs := [⟨["x"], .int, .implicit⟩]
  outputs := [⟨["y"], .int, .implicit⟩]
  locals := []
  defs := [.def_ (.var "y") (.left (.call "acc" [.var "x"] false) [(.add, .paren
    [.arrow (.lit (.int 0)) [.pre (.paren [.arrow (.lit (.int 1)) [.pre (.var "x")]] false)]]
    false)])]

/-- The node they call. -/
def exAcc : SrcNode where
  name := "acc"
  inputs := [⟨["x"], .int, .implicit⟩]
  outputs := [⟨["y"], .int, .implicit⟩]
  locals := []
  defs := [.def_ (.var "y") (.left (.var "x")
    [(.add, .paren [.fby (.lit (.int 0)) [.var "y"]] false)])]

/-- The program. -/
def exPrompt : SrcProg := [
  ⟨[], .node exAcc⟩,
  ⟨universal, .node exPromptNode⟩,
  ⟨[], .node (exPromptPlain "plain")⟩,
  ⟨universal, .node { exPromptPlain "plain" with name := "eager" }⟩]

theorem exPrompt_mixed : intsIn noExtern exPrompt "mixed" exBlendInputs =
    some [[some 0, some 0], [some 2, some 1], [some 1, some 0], [some 4, some 2],
        [some 4, some 1]] := by
  decide +kernel

theorem exPrompt_plain : intsIn noExtern exPrompt "plain" [exInt 3, exInt 4, exInt 5, exInt 6] =
    some [[some 3], [some 8], [some 15], [some 22]] := by
  decide +kernel

theorem exPrompt_eager : intsIn noExtern exPrompt "eager" [exInt 3, exInt 4, exInt 5, exInt 6] =
    some [[some 3], [some 8], [some 15], [some 22]] := by
  decide +kernel

theorem exPrompt_sober : soberNamed exPrompt "acc" = true ∧ soberNamed exPrompt "plain" = true := by
  decide +kernel

theorem exPromptNode_steady : SteadyNode (meaning universal) exPromptNode where
  steady := by
    intro consts nodes st hst
    simp only [exPromptNode, List.mem_cons, List.not_mem_nil, or_false] at hst
    rcases hst with rfl | rfl | rfl | rfl | rfl | rfl
    · exact ⟨0, by simp [SrcStmt.expr, Steady, AllSteady, LeftSteady, Static.guard, Mixes]⟩
    · exact ⟨0, by simp [SrcStmt.expr, Steady, ArrowSteady, LeftSteady, Static.guard, Mixes]⟩
    · exact ⟨0, by simp [SrcStmt.expr, Steady, LeftSteady, Static.guard, Mixes]⟩
    · exact ⟨0, by simp [SrcStmt.expr, Steady]⟩
    · exact ⟨0, by simp [SrcStmt.expr, Steady, AllSteady, ArrowSteady]⟩
    · refine ⟨0, ?_⟩
      simp only [SrcStmt.expr, Steady, CmpSteady, LeftSteady, Static.guard, Mixes]
      refine ⟨0, ⟨0, rfl, 0, rfl, .inl rfl, .inl rfl, rfl, fun S' _ h => ?_⟩, .inr (.inl rfl), 0,
        rfl, .inl rfl, rfl⟩
      simp [HasTy, literalType] at h
  written := by
    intro a ha
    simp only [exPromptNode, List.cons_append, List.nil_append, List.mem_cons, List.not_mem_nil,
      or_false] at ha
    rcases ha with rfl | rfl | rfl | rfl | rfl <;> exact fun h => by cases h

theorem exPromptNode_prompt : PromptNode (meaning universal) exPromptNode := by
  intro consts nodes st hst
  simp only [exPromptNode, List.mem_cons, List.not_mem_nil, or_false] at hst
  rcases hst with rfl | rfl | rfl | rfl | rfl | rfl <;>
    simp [SrcStmt.expr, Prompt, PromptAll, PromptLeft, PromptCmp, Steady, AllSteady, LeftSteady,
      Static.guard, Mixes]

theorem exPromptPlain_steady (f : String) : SteadyNode (meaning universal) (exPromptPlain f) where
  steady := by
    intro consts nodes st hst
    simp only [exPromptPlain, List.mem_cons, List.not_mem_nil, or_false] at hst
    subst hst
    exact ⟨0, by simp [SrcStmt.expr, Steady, AllSteady, LeftSteady, ArrowSteady, Static.guard,
      Mixes]⟩
  written := by
    intro a ha
    simp only [exPromptPlain, List.cons_append, List.nil_append, List.mem_cons, List.not_mem_nil,
      or_false] at ha
    rcases ha with rfl | rfl <;> exact fun h => by cases h

theorem exPromptPlain_prompt (f : String) : PromptNode (meaning universal) (exPromptPlain f) := by
  intro consts nodes st hst
  simp only [exPromptPlain, List.mem_cons, List.not_mem_nil, or_false] at hst
  subst hst
  simp [SrcStmt.expr, Prompt, PromptAll, PromptLeft, Steady, AllSteady]

theorem exPrompt_regular {w : List Report} {p' : Prog}
    (h : decl (compile exPrompt) = .done w (some p')) : Regular noExtern exPrompt p' where
  extern := by
    constructor <;> intros <;> rename_i h <;> simp [exPrompt] at h
  complete := by
    intro a f ins outs m hm
    simp [exPrompt] at hm
  generics := by
    intro d hd
    simp only [exPrompt, List.mem_cons, List.not_mem_nil, or_false] at hd
    rcases hd with rfl | rfl | rfl | rfl <;> decide
  sober := by
    intro attrs src n hs hu hn e
    simp only [exPrompt, List.mem_cons, List.not_mem_nil, or_false] at hs
    rcases hs with hs | hs | hs | hs <;> cases hs
    · exact soberNamed_sound exPrompt_sober.1 h hn e
    · cases hu
    · exact soberNamed_sound exPrompt_sober.2 h hn e
    · cases hu
  tidy := by
    intro attrs src hs hu
    simp only [exPrompt, List.mem_cons, List.not_mem_nil, or_false] at hs
    rcases hs with hs | hs | hs | hs <;> cases hs
    · cases hu
    · refine ⟨⟨?_, by decide⟩, by decide⟩
      intro a ha b x hx
      simp only [exPromptNode, List.cons_append, List.nil_append, List.mem_cons, List.not_mem_nil,
        or_false] at ha
      rcases ha with rfl | rfl | rfl | rfl | rfl <;> cases hx <;> decide
    · cases hu
    · refine ⟨⟨?_, by decide⟩, by decide⟩
      intro a ha b x hx
      simp only [exPromptPlain, List.cons_append, List.nil_append, List.mem_cons, List.not_mem_nil,
        or_false] at ha
      rcases ha with rfl | rfl <;> cases hx
  steady := by
    intro attrs src hs hu
    simp only [exPrompt, List.mem_cons, List.not_mem_nil, or_false] at hs
    rcases hs with hs | hs | hs | hs <;> cases hs
    · cases hu
    · exact exPromptNode_steady
    · cases hu
    · exact exPromptPlain_steady "eager"

/-- Non-vacuity of C18 and C42: the program is accepted, linked and regular, its nodes with
`#[universal_pre]` are prompt, `plain` has no clocks, and the three nodes run (see
`exPrompt_mixed`, `exPrompt_plain` and `exPrompt_eager` for their outputs). -/
example : ∃ w p' I, decl (compile exPrompt) = .done w (some p') ∧
    link exArith noExtern p'.decls = .ok I ∧ Regular noExtern exPrompt p' ∧
    PromptNode (meaning universal) exPromptNode ∧
    PromptNode (meaning universal) { exPromptPlain "plain" with name := "eager" } ∧
    UnclockedNode (exPromptPlain "plain") ∧
    (∃ m os, I.nodes "mixed" = some m ∧ m.run exBlendInputs = .ok os) ∧
    (∃ m os, I.nodes "plain" = some m ∧ m.run [exInt 3, exInt 4, exInt 5, exInt 6] = .ok os) ∧
    ∃ m os, I.nodes "eager" = some m ∧ m.run [exInt 3, exInt 4, exInt 5, exInt 6] = .ok os := by
  have key : ∀ {f : String} {is : List Value} {r}, intsIn noExtern exPrompt f is = some r →
      ∃ I, itemsOf noExtern exPrompt = some I ∧ ∃ m os, I.nodes f = some m ∧ m.run is = .ok os := by
    intro f is r hr
    unfold intsIn at hr
    split at hr
    · cases hr
    rename_i I hI
    split at hr
    · cases hr
    rename_i m hm
    cases ho : m.run is with
    | error e => rw [ho] at hr; cases hr
    | ok os => exact ⟨I, hI, m, os, hm, ho⟩
  obtain ⟨I, hI, h1⟩ := key exPrompt_mixed
  obtain ⟨I2, hI2, h2⟩ := key exPrompt_plain
  obtain ⟨I3, hI3, h3⟩ := key exPrompt_eager
  rw [hI] at hI2 hI3
  cases hI2
  cases hI3
  obtain ⟨w, p', h, hl⟩ := itemsOf_some hI
  refine ⟨w, p', I, h, hl, exPrompt_regular h, exPromptNode_prompt, exPromptPlain_prompt "eager",
    ⟨?_, ?_⟩, h1, h2, h3⟩
  · simp [exPromptPlain]
  · simp [exPromptPlain, Unclocked, UnclockedAll, UnclockedLeft]

/-! ## Counterexample

`#[universal_pre]` waits for the left-hand side of `->`, so that nodes that are not `Prompt` can
differ from Lustre: see `C18_counterexample_arrow`. -/

/-- The node of `C18_counterexample_arrow` is not `Prompt`. -/
example (S : Scope) : ¬ Prompt S (.arrow (.lit (.int 5)) [.left (.var "x")
    [(.add, .paren [.arrow (.pre (.var "x")) [.var "x"]] false)]]) := by
  simp [Prompt, PromptAll, PromptLeft, AllSteady, Steady]

end Chandeliers.Props
