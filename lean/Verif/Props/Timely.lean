import Verif.Lemmas.TimelyNode
import Verif.Lemmas.Emit
import Verif.Props.Prompt

/-!
# When values are present, from conditions on the source

C18, C20, C30 and C42, for programs that mix nodes with and without `#[universal_pre]`, where all
that is asked of the program can be read on its source.
-/

set_option autoImplicit false

namespace Chandeliers.Props
open Chandeliers.San Chandeliers.Spec Chandeliers.Syn Chandeliers.Err Chandeliers.Prg Chandeliers.Pres
open Chandeliers.Spec.Static

/-- The programs of which C18, C20, C30 and C42 are proved here: what they declare `extern` is what
they say and answers completely, their nodes without `#[universal_pre]` are timely, and those with it
are `Tidy` and steady. -/
structure Orderly (X : Extern) (p : SrcProg) : Prop where
  extern : ExternOk X p
  complete : ∀ attrs f ins outs m, ⟨attrs, .extNode f ins outs⟩ ∈ p → X.nodes f = some m → ∀ θ,
    Complete m (substTy θ (flatTuple (argTypes ins)))
  generics : DistinctGenerics p
  timely : ∀ attrs src, ⟨attrs, .node src⟩ ∈ p → hasAny attrs ["universal_pre"] = false →
    TimelyNode (meaning attrs) src
  tidy : TidyProg p
  steady : ∀ attrs src, ⟨attrs, .node src⟩ ∈ p → hasAny attrs ["universal_pre"] = true →
    SteadyNode (meaning attrs) src

section
variable {A : Arith} {X : Extern} {p : SrcProg} {p' : Prog} {w : List Report} {I : Items}

/-- What is asked of the source implies what is asked of the compiled program. -/
theorem Orderly.regular (hc : Orderly X p) (h : decl (compile p) = .done w (some p')) :
    Regular X p p' where
  extern := hc.extern
  complete := hc.complete
  generics := hc.generics
  tidy := hc.tidy
  steady := hc.steady
  sober := by
    intro attrs src n hs hu hn e
    have hL : Legal p := (C50_accepted hc.generics).1 ⟨w, p', h⟩
    obtain ⟨q, hq, hp⟩ := accepted_passes h
    obtain ⟨attrs', src', sigs, consts, h1, h2⟩ := passes_to_node hp hn
    have e' : src'.name = src.name := (passes_sig h2).1.symm.trans e
    have := Emt.nodup_map_inj (Emt.passes_keys hp).2 h1 (hq.mem_iff.2 hs) (by simp [Emt.key, e'])
    cases this
    refine Std.timely_sober h2 hu (fun st hst => ?_) (hc.timely attrs src hs hu)
    have hleg : LegalNode _ _ _ src := hL.items _ hs
    obtain ⟨t, ht⟩ := Den.legalStmt_ty (hleg.stmts st hst)
    exact (Den.hasTy_known _ ht).1

/-- What is known of a node without `#[universal_pre]`. -/
theorem regular_setting (h : decl (compile p) = .done w (some p')) (hl : link A X p'.decls = .ok I)
    (hc : Regular X p p') {attrs : List Attribute} {src : SrcNode} (hs : ⟨attrs, .node src⟩ ∈ p)
    (hu : hasAny attrs ["universal_pre"] = false) :
    ∃ sigs consts n ms K, InProg Good I.consts sigs consts attrs src n ms ∧
      Setting I.consts ms sigs consts n K ∧ I.nodes src.name = some (n.machine A I.consts ms) ∧
      Linked ms I.nodes n.blocks := by
  have hL := regular_legal h hc
  obtain ⟨q, hq, hp⟩ := accepted_passes h
  obtain ⟨hl1, hl2⟩ := link_ok hl
  rcases linkConsts_typed (A := A) (X := X) hp
      (fun a x t hm => hc.extern.consts a x t (hq.mem_iff.1 hm)) (g := fun _ => none)
      (fun x t h => by cases h) with he | ⟨g, h1, -, h3, h4⟩
  · rw [hl1] at he; cases he
  · rw [hl1] at h1
    cases h1
    obtain ⟨sigs, consts, n, ms, k1, k2, k3, k4⟩ := linkNodes_ind (A := A) (X := X) Good hp
      (fun d hm => hc.generics d (hq.mem_iff.1 hm)) (by
        intro a f ins outs m hm hX
        obtain ⟨m', e1, e2⟩ := hc.extern.nodes a f ins outs (hq.mem_iff.1 hm)
        rw [hX] at e1
        cases e1
        exact ⟨fun θ => wrapExtern_respects (e2 θ),
          fun θ => wrapExtern_answers (hc.complete a f ins outs m (hq.mem_iff.1 hm) hX θ)⟩)
      (fun sigs consts a src n ms hm hn hin => regular_good hL hc hq hm hn hin)
      (fun x t h => by cases h) h3 h4 (N := fun _ => none) (fun _ _ => rfl)
      (fun f s h => by cases h) hl2 attrs src (hq.mem_iff.2 hs)
    obtain ⟨K, hK⟩ := hc.sober attrs src n hs hu k1 (passes_sig k2.passes).1
    exact ⟨sigs, consts, n, ms, K, k2, setting_of_inProg k2 hu hK, k3, k4⟩

end

/-- C20, for the programs that are `Orderly`, which can be read on the source.  Every node of an
accepted program, with or without `#[universal_pre]`, given inputs of its type that are complete or
absent, has complete outputs at the instants where its inputs are present: nothing uninitialised is
ever observed.

What is missing: `C20_counterexample_*` show that the rest of C20 is false of the code. -/
theorem C20_source_partial (A : Arith) (X : Extern) {p : SrcProg} {p' : Prog} {w : List Report}
    {I : Items} (h : decl (compile p) = .done w (some p')) (hl : link A X p'.decls = .ok I)
    (hc : Orderly X p) {attrs : List Attribute} {src : SrcNode} (hs : ⟨attrs, .node src⟩ ∈ p) :
    ∃ m, I.nodes src.name = some m ∧ ∀ θ is os,
      (∀ i ∈ is, ValTy (substTy θ (flatTuple (argTypes src.inputs))) i ∧
        (i.firstIsNil = true ∨ Full i)) → m.run is = .ok os →
      ∀ (t : Nat) i o, is[t]? = some i → os[t]? = some o → i.firstIsNil = false → Full o :=
  C20_universal_partial A X h hl (hc.regular h) hs

/-- C30, for the programs that are `Orderly`, nodes without `#[universal_pre]`.  In every solution of
the equations of the node (by C47 these are its runs), with complete inputs of its type: a variable
declared without a clock has a value at every instant of the node, and a variable declared `when x`
(`whenot x`) has one exactly at the instants where `x` is true (false).

What is missing: `C30_counterexample_*` show that the rest of C30 is false of the code. -/
theorem C30_source_partial (A : Arith) (X : Extern) {p : SrcProg} {p' : Prog} {w : List Report}
    {I : Items} (h : decl (compile p) = .done w (some p')) (hl : link A X p'.decls = .ok I)
    (hc : Orderly X p) {attrs : List Attribute} {src : SrcNode} (hs : ⟨attrs, .node src⟩ ∈ p)
    (hu : hasAny attrs ["universal_pre"] = false)
    (θ : Subst) {S : String → Nat → Nillable Scalar} {is : List Value}
    (hsol : SrcSolution ⟨A, SrcNode.vars src, S, I.consts, I.nodes⟩ src is)
    (hi : ∀ i ∈ is, ValTy (substTy θ (flatTuple (argTypes src.inputs))) i ∧ Full i)
    {a : ArgsTy} (ha : a ∈ src.inputs ++ src.outputs ++ src.locals) {x : String} (hx : x ∈ a.ids)
    {t : Nat} (ht : t < is.length) : S x t ≠ .nil ↔ Due S a.clk t := by
  obtain ⟨sigs, consts, n, ms, K, k1, k2, k3, k4⟩ := regular_setting h hl (hc.regular h) hs hu
  obtain ⟨p1, p2, p3⟩ := passes_sig k1.passes
  rw [translateArgs_ty] at p2
  obtain ⟨v, v1, v2, v3⟩ := declared_src k1.passes ha hx
  have hp := k1.passes
  rw [show (meaning attrs).universalPre = false from hu] at hp
  have hsol' := (solution_passes (A := A) (glob := I.consts) hp k4 ⟨S, default, fun _ => .leaf ()⟩
    is).2 hsol
  have hv := node_present k2 θ hsol' (by rw [p2]; exact fun i h => (hi i h).1)
    (fun i h => (hi i h).2) t ht x a.clk.intoClk
    (by rw [← v2, ← v3]; exact declared_clk k2.sober.clocks.declared v1)
  have hact : Active S a.clk.intoClk t ↔ Due S a.clk t := by
    rcases a.clk with ⟨_ | _, y⟩ | _ | _ <;> rfl
  rw [← hact]
  constructor
  · intro hne
    by_contra hn
    exact hne (hv.2 hn _ (by simp [Tup.leaves]))
  · intro ha
    exact hv.1 ha _ (by simp [Tup.leaves])

/-- C30, for the programs that are `Orderly`, nodes with `#[universal_pre]`: the same, in every
solution of the equations as `#[universal_pre]` reads them (by C59 these are the runs of the node). -/
theorem C30_source_universal_partial (A : Arith) (X : Extern) {p : SrcProg} {p' : Prog}
    {w : List Report} {I : Items} (h : decl (compile p) = .done w (some p'))
    (hl : link A X p'.decls = .ok I) (hc : Orderly X p) {attrs : List Attribute} {src : SrcNode}
    (hs : ⟨attrs, .node src⟩ ∈ p) (hu : hasAny attrs ["universal_pre"] = true)
    (θ : Subst) {S : String → Nat → Nillable Scalar} {is : List Value}
    (hsol : UniSolution ⟨A, SrcNode.vars src, S, I.consts, I.nodes⟩ (SrcNode.clocks src) src is)
    (hi : ∀ i ∈ is, ValTy (substTy θ (flatTuple (argTypes src.inputs))) i ∧ Full i)
    {a : ArgsTy} (ha : a ∈ src.inputs ++ src.outputs ++ src.locals) {x : String} (hx : x ∈ a.ids)
    {t : Nat} (ht : t < is.length) : S x t ≠ .nil ↔ Due S a.clk t :=
  C30_universal_partial A X h hl (hc.regular h) hs hu θ hsol hi ha hx ht

/-- C18, for the programs that are `Orderly` and the nodes that are `Prompt`, which can be read on the
source: see `C18_prompt_partial`. -/
theorem C18_source_partial (A : Arith) (X : Extern) {p : SrcProg} {p' : Prog} {w : List Report}
    {I : Items} (h : decl (compile p) = .done w (some p')) (hl : link A X p'.decls = .ok I)
    (hc : Orderly X p) {attrs : List Attribute} {src : SrcNode} (hs : ⟨attrs, .node src⟩ ∈ p)
    (hu : hasAny attrs ["universal_pre"] = true) (hq : PromptNode (meaning attrs) src) :
    ∃ m, I.nodes src.name = some m ∧ ∀ θ is os,
      (∀ i ∈ is, ValTy (substTy θ (flatTuple (argTypes src.inputs))) i ∧
        (i.firstIsNil = true ∨ Full i)) → m.run is = .ok os →
      (∃ S, ClockedRun ⟨A, SrcNode.vars src, S, I.consts, I.nodes⟩ src (is.filter present) ∧
        os = spread (flatShape (argNames src.outputs).length) is
          (srcOutputs S src (is.filter present).length)) ∧
      ∀ Y, ClockedSolution ⟨A, SrcNode.vars src, Y, I.consts, I.nodes⟩ src (is.filter present) →
        os = spread (flatShape (argNames src.outputs).length) is
          (srcOutputs Y src (is.filter present).length) :=
  C18_prompt_partial A X h hl (hc.regular h) hs hu hq

/-- C42, for the programs that are `Orderly` and the nodes that are `Prompt`, which can be read on the
source: see `C42_prompt_partial`. -/
theorem C42_source_partial (A : Arith) (X : Extern) {p : SrcProg} {p' : Prog} {w : List Report}
    {I : Items} (h : decl (compile p) = .done w (some p')) (hl : link A X p'.decls = .ok I)
    (hc : Orderly X p) {attrs attrs' : List Attribute} {src : SrcNode} {g : String}
    (hs : ⟨attrs, .node src⟩ ∈ p) (hs' : ⟨attrs', .node { src with name := g }⟩ ∈ p)
    (hu : hasAny attrs ["universal_pre"] = false) (hu' : hasAny attrs' ["universal_pre"] = true)
    (hn : UnclockedNode src) (hq : PromptNode (meaning attrs') { src with name := g }) :
    ∃ m m', I.nodes src.name = some m ∧ I.nodes g = some m' ∧ ∀ θ is os os',
      (∀ i ∈ is, ValTy (substTy θ (flatTuple (argTypes src.inputs))) i ∧
        (i.firstIsNil = true ∨ Full i)) → m.run is = .ok os → m'.run is = .ok os' → os = os' :=
  C42_prompt_partial A X h hl (hc.regular h) hs hs' hu hu' hn hq

/-! ## Examples

The program `exPrompt` of the previous file mixes both kinds of nodes; `exChoose` has clocks, a delay
under a condition, and calls an external node. -/

theorem exPlain_timely : TimelyNode (meaning []) (exPromptPlain "plain") where
  timely := by
    intro consts nodes st hst
    simp only [exPromptPlain, List.mem_cons, List.not_mem_nil, or_false] at hst
    subst hst
    have hx : (scope (meaning []) consts nodes (exPromptPlain "plain")).var "x" =
        some ⟨"x", .int, .implicit⟩ := rfl
    have hu : (scope (meaning []) consts nodes (exPromptPlain "plain")).universalPre = false := rfl
    simp [SrcStmt.expr, Timely, AllTimely, LeftTimely, ArrowTimely, OnBase, HasClk, TupleClk, SameClks,
      ChainClk, AllReady, Static.Ready, Always, hx, hu]
  written := by
    intro a ha
    simp only [exPromptPlain, List.cons_append, List.nil_append, List.mem_cons, List.not_mem_nil,
      or_false] at ha
    rcases ha with rfl | rfl <;> exact fun h => by cases h

theorem exAcc_timely : TimelyNode (meaning []) exAcc where
  timely := by
    intro consts nodes st hst
    simp only [exAcc, List.mem_cons, List.not_mem_nil, or_false] at hst
    subst hst
    have hy : (scope (meaning []) consts nodes exAcc).var "y" = some ⟨"y", .int, .implicit⟩ := rfl
    simp [SrcStmt.expr, Timely, AllTimely, LeftTimely, FbyTimely, OnBase, HasClk, Always, hy]
  written := by
    intro a ha
    simp only [exAcc, List.cons_append, List.nil_append, List.mem_cons, List.not_mem_nil,
      or_false] at ha
    rcases ha with rfl | rfl <;> exact fun h => by cases h

theorem exPrompt_orderly : Orderly noExtern exPrompt where
  extern := by
    constructor <;> intros <;> rename_i h <;> simp [exPrompt] at h
  complete := by
    intro a f ins outs m hm
    simp [exPrompt] at hm
  generics := by
    intro d hd
    simp only [exPrompt, List.mem_cons, List.not_mem_nil, or_false] at hd
    rcases hd with rfl | rfl | rfl | rfl <;> decide
  timely := by
    intro attrs src hs hu
    simp only [exPrompt, List.mem_cons, List.not_mem_nil, or_false] at hs
    rcases hs with hs | hs | hs | hs <;> cases hs
    · exact exAcc_timely
    · cases hu
    · exact exPlain_timely
    · cases hu
  tidy := by
    intro attrs src hs hu
    simp only [exPrompt, List.mem_cons, List.not_mem_nil, or_false] at hs
    rcases hs with hs | hs | hs | hs <;> cases hs
    · cases hu
    · refine ⟨⟨?_, by decide⟩, by decide⟩
      intro a ha b x hx
      simp only [exPromptNode, List.cons_append, List.nil_append, List.mem_cons, List.not_mem_nil,
        or_false] at ha
      rcases ha with rfl | rfl | rfl | rfl | rfl <;> cases hx <;> decide
    · cases hu
    · refine ⟨⟨?_, by decide⟩, by decide⟩
      intro a ha b x hx
      simp only [exPromptPlain, List.cons_append, List.nil_append, List.mem_cons, List.not_mem_nil,
        or_false] at ha
      rcases ha with rfl | rfl <;> cases hx
  steady := by
    intro attrs src hs hu
    simp only [exPrompt, List.mem_cons, List.not_mem_nil, or_false] at hs
    rcases hs with hs | hs | hs | hs <;> cases hs
    · cases hu
    · exact exPromptNode_steady
    · cases hu
    · exact exPromptPlain_steady "eager"

theorem exChooseNode_timely : TimelyNode (meaning []) exChooseNode where
  timely := by
    intro consts nodes st hst
    simp only [exChooseNode, List.mem_cons, List.not_mem_nil, or_false] at hst
    have hx : (scope (meaning []) consts nodes exChooseNode).var "x" =
        some ⟨"x", .int, .implicit⟩ := rfl
    have hy : (scope (meaning []) consts nodes exChooseNode).var "y" =
        some ⟨"y", .int, .implicit⟩ := rfl
    have hu : (scope (meaning []) consts nodes exChooseNode).universalPre = false := rfl
    rcases hst with rfl | rfl | rfl | rfl
    · simp [SrcStmt.expr, Timely, AllTimely, LeftTimely, AllReady, Static.Ready, Static.LeftReady]
    · simp [SrcStmt.expr, Timely, LeftTimely]
    · simp [SrcStmt.expr, Timely]
    · simp only [SrcStmt.expr, Timely, CmpTimely, ArrowTimely]
      refine ⟨⟨trivial, trivial, fun S' _ h => ?_⟩, ⟨trivial, .inr ?_, trivial, ?_, trivial⟩,
        trivial, ?_⟩
      · simp [HasTy, literalType] at h
      · simp [OnBase, HasClk, Always]
      · simp [OnBase, HasClk, hy, Always]
      · simp [HasClk, CmpClk, hx, Clk.meet]
  written := by
    intro a ha
    simp only [exChooseNode, List.cons_append, List.nil_append, List.mem_cons, List.not_mem_nil,
      or_false] at ha
    rcases ha with rfl | rfl | rfl | rfl | rfl <;> exact fun h => by cases h

theorem exInc_timely : TimelyNode (meaning []) {
    name := "inc"
    inputs := [⟨["x"], .int, .implicit⟩]
    outputs := [⟨["y"], .int, .implicit⟩]
    locals := []
    defs := [.def_ (.var "y") (.call "next" [.var "x"] false)] } where
  timely := by
    intro consts nodes st hst
    simp only [List.mem_cons, List.not_mem_nil, or_false] at hst
    subst hst
    simp [SrcStmt.expr, Timely, AllTimely, AllReady, Static.Ready]
  written := by
    intro a ha
    simp only [List.cons_append, List.nil_append, List.mem_cons, List.not_mem_nil, or_false] at ha
    rcases ha with rfl | rfl <;> exact fun h => by cases h

theorem exChoose_orderly {w : List Report} {p' : Prog}
    (h : decl (compile exChoose) = .done w (some p')) : Orderly exChooseExtern exChoose where
  extern := (exChoose_covered h).extern
  complete := (exChoose_covered h).complete
  generics := (exChoose_covered h).generics
  timely := by
    intro attrs src hs hu
    simp only [exChoose, List.mem_cons, List.not_mem_nil, or_false] at hs
    rcases hs with hs | hs | hs <;> cases hs
    · exact exInc_timely
    · exact exChooseNode_timely
  tidy := by
    intro attrs src hs hu
    simp only [exChoose, List.mem_cons, List.not_mem_nil, or_false] at hs
    rcases hs with hs | hs | hs <;> cases hs <;> cases hu
  steady := by
    intro attrs src hs hu
    simp only [exChoose, List.mem_cons, List.not_mem_nil, or_false] at hs
    rcases hs with hs | hs | hs <;> cases hs <;> cases hu

/-- Non-vacuity of C20 and C30 without `#[universal_pre]`: the program is accepted, linked and
orderly; what its node with clocks does is a solution of its equations, with complete inputs of its
type. -/
example : ∃ w p' I, decl (compile exChoose) = .done w (some p') ∧
    link exArith exChooseExtern p'.decls = .ok I ∧ Orderly exChooseExtern exChoose ∧
    ∃ S, SrcSolution ⟨exArith, SrcNode.vars exChooseNode, S, I.consts, I.nodes⟩ exChooseNode
        [exPair true 1, exPair false 2, exPair true 20] ∧
      ∀ i ∈ [exPair true 1, exPair false 2, exPair true 20],
        ValTy (substTy (fun _ => .int) (flatTuple (argTypes exChooseNode.inputs))) i ∧ Full i := by
  have hr := exChoose_runs
  unfold nilsIn at hr
  split at hr
  · cases hr
  rename_i I hI
  obtain ⟨w, p', h, hl⟩ := itemsOf_some hI
  split at hr
  · cases hr
  rename_i m hm
  have hc := exChoose_orderly h
  refine ⟨w, p', I, h, hl, hc, ?_⟩
  obtain ⟨m', k1, k2⟩ := C47_program exArith exChooseExtern h hl (attrs := [])
    (src := exChooseNode) (by simp [exChoose]) rfl
  have : exChooseNode.name = "choose" := rfl
  rw [this, hm] at k1
  cases k1
  cases ho : m.run [exPair true 1, exPair false 2, exPair true 20] with
  | error e => rw [ho] at hr; cases hr
  | ok os =>
    obtain ⟨S, hS, -⟩ := (k2 _ _).1 ho
    refine ⟨S, hS, ?_⟩
    intro i hi
    simp only [List.mem_cons, List.not_mem_nil, or_false] at hi
    have key : ∀ b x, ValTy (substTy (fun _ => .int) (flatTuple (argTypes exChooseNode.inputs)))
        (exPair b x) ∧ Full (exPair b x) := by
      intro b x
      refine ⟨⟨fun _ h => ?_, fun _ h => ?_, trivial⟩, ?_⟩
      · cases h; exact trivial
      · cases h; exact trivial
      · simp [Full, exPair, Tup.leaves, Tup.leavesList]
    rcases hi with rfl | rfl | rfl <;> exact key _ _

/-- Non-vacuity of C18, C20, C30 and C42 with both kinds of nodes: the program is accepted, linked and
orderly.  Its nodes run (see `exPrompt_mixed`, `exPrompt_plain` and `exPrompt_eager`). -/
example : ∃ w p' I, decl (compile exPrompt) = .done w (some p') ∧
    link exArith noExtern p'.decls = .ok I ∧ Orderly noExtern exPrompt := by
  have hr := exPrompt_mixed
  unfold intsIn at hr
  split at hr
  · cases hr
  rename_i I hI
  obtain ⟨w, p', h, hl⟩ := itemsOf_some hI
  exact ⟨w, p', I, h, hl, exPrompt_orderly⟩

/-! ## Counterexamples

The nodes of the counterexamples to C20 and C30 that do not use `#[universal_pre]` are not timely. -/

/-- F2: `pre id(1)`. -/
example (S : Scope) : ¬ Timely S 0 0 (.pre (.call "id" [.lit (.int 1)] false)) := by
  simp [Timely]

/-- F17: `0 -> snd(x, pre x)`, where `x` is a variable. -/
example (S : Scope) (hx : (S.var "x").isSome = true) :
    ¬ Timely S 0 0 (.arrow (.lit (.int 0)) [.call "snd" [.var "x", .pre (.var "x")] false]) := by
  simp [Timely, ArrowTimely, AllReady, Static.Ready, FirstLate, Late, hx]

/-- F11: `0 -> x when b`, where `x` and `b` are variables without clocks. -/
example (S : Scope) {t t' : TyBase} (hx : S.var "x" = some ⟨"x", t, .implicit⟩)
    (hb : S.var "b" = some ⟨"b", t', .implicit⟩) :
    ¬ Timely S 0 0 (.arrow (.lit (.int 0)) [.left (.var "x") [(.when, .var "b")]]) := by
  intro h
  simp only [Timely, ArrowTimely, OnBase, HasClk, LeftClk, Static.guard, hx] at h
  have := h.2.2.2.1 (.on "b") ⟨_, rfl, ⟨"b", t', .implicit⟩, hb, .inr (.inr rfl), rfl⟩
  exact this

/-- F12: `if true then 1 else (x when b)`, where `x` and `b` are variables without clocks. -/
example (S : Scope) {t t' : TyBase} (hx : S.var "x" = some ⟨"x", t, .implicit⟩)
    (hb : S.var "b" = some ⟨"b", t', .implicit⟩) :
    ¬ Timely S 0 0 (.ifx (.lit (.bool true)) (.lit (.int 1))
      (.left (.var "x") [(.when, .var "b")])) := by
  intro h
  have := h.2.2.2 rfl .adaptative (.on "b") rfl
    (by
      simp only [HasClk, LeftClk, Static.guard, hx]
      exact ⟨_, rfl, ⟨"b", t', .implicit⟩, hb, .inr (.inr rfl), rfl⟩)
  simp [SameClk, Always] at this

end Chandeliers.Props
