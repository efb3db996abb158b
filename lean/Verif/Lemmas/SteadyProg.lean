import Verif.Lemmas.SteadyNode
import Verif.Lemmas.LegalRun
import Verif.Props.Universal

/-! # When the variables of the nodes of a program with `#[universal_pre]` are present -/

set_option autoImplicit false
set_option linter.unusedSectionVars false

namespace Chandeliers.Std
open Chandeliers.San Chandeliers.Spec Chandeliers.Syn Chandeliers.Den Chandeliers.Pres Chandeliers.Uni
open Chandeliers.Spec.Static Chandeliers.Prg Chandeliers.Props

section
variable {o : NodeOptions} {consts : String → Option TyBase} {sigs : String → Option Sig}
  {src : SrcNode} {n : Node}

/-- A node that passes all the checks is legal, provided that its literals denote values. -/
theorem passes_legal (h : Passes o.universalPre (tyOpts o) sigs consts src n)
    (hw : ∀ f s, sigs f = some s → s.Wf)
    (hl : ∀ e ∈ src.defs.map SrcStmt.expr, ∀ l ∈ literals e, Denotes l) :
    LegalNode o consts sigs src := by
  have hwithin := passes_within h
  obtain ⟨n₁, n₂, c, ctx, clk, m, K, hf⟩ := passes_final h
  obtain ⟨n₁', n₂', n₃, n₄, h1, h2, ⟨⟨a, u⟩, s', h3⟩, h4, h5⟩ := h
  rw [hf.translated] at h1
  cases h1
  rw [hf.causality] at h2
  cases h2
  have hst : n₁ = built src c := hf.start
  obtain ⟨g1, g2, -, g4, g5⟩ := Props.C24_node.1 ⟨_, hf.causality⟩
  have hT := (Props.C44_node hw).1 ⟨_, _, h3⟩
  have e2 : n₂ = { built src c with stmts := n₂.stmts } := by rw [← hst, ← hf.same]
  rw [e2, nodeTyped_stmts hf.perm] at hT
  have hK : NodeClocked false n₂ K := ⟨hf.clocked.interface, hf.clocked.declared, hf.clocked.stmts⟩
  rw [e2, nodeClocked_stmts hf.perm] at hK
  have hmem : ∀ st ∈ c.stmts, Stmt.withClocks clk st ∈ n.stmts := by
    intro st hst
    rw [hf.final_stmts]
    exact List.mem_map.2 ⟨st, hf.perm.mem_iff.2 hst, rfl⟩
  subst hst
  refine legal_of_nodeOk hf.stmts ?_ ⟨g1, g2, g4, g5, hT, ⟨K, hK⟩,
    fun t x hx => hwithin _ (hmem _ hx), fun x hx => hwithin _ (hmem _ hx)⟩
  exact ((Quiet.clean_node (F := fun _ => True) o.universalPre hl (fun _ _ _ _ => trivial)).2 _
    hf.translated).1

theorem mem_varsOf {as : List ArgsTy} {v : Var} : v ∈ varsOf as ↔
    ∃ a ∈ as, ∃ x ∈ a.ids, v = ⟨x, a.base, a.clk.intoClk⟩ := by
  simp only [varsOf, List.mem_flatMap, List.mem_map]
  constructor
  · rintro ⟨a, h1, x, h2, rfl⟩; exact ⟨a, h1, x, h2, rfl⟩
  · rintro ⟨a, h1, x, h2, rfl⟩; exact ⟨a, h1, x, h2, rfl⟩

/-- Variables are found by their names. -/
theorem scope_finds (hL : LegalNode o consts sigs src) {v : Var}
    (hv : v ∈ varsOf (src.inputs ++ src.outputs ++ src.locals)) :
    (scope o consts sigs src).var v.name = some v := by
  have : ((scope o consts sigs src).var v.name).isSome = true := by
    unfold Scope.var
    rw [List.find?_isSome]
    exact ⟨v, hv, by simp⟩
  obtain ⟨w, hw⟩ := Option.isSome_iff_exists.1 this
  have m1 : w ∈ varsOf (src.inputs ++ src.outputs ++ src.locals) := List.mem_of_find?_eq_some hw
  rw [List.inj_on_of_nodup_map hL.vars.distinct m1 hv (var_name hw)] at hw
  exact hw

theorem vars_names : SrcNode.vars src =
    (varsOf (src.inputs ++ src.outputs ++ src.locals)).map (·.name) := by
  rw [names_varsOf]
  simp [SrcNode.vars, argNames]

theorem around (hL : LegalNode o consts sigs src) (hu : o.universalPre = true)
    (hw : ∀ a ∈ src.inputs ++ src.outputs ++ src.locals, a.clk ≠ .adaptative) {A : Arith}
    {X : String → Nat → Nillable Scalar} {g : Globals} {N : String → Option Machine}
    (hc : ConstsOk consts g) (hn : ∀ f s, sigs f = some s → ∃ m, N f = some m ∧ Pres.Good m s) :
    Around (scope o consts sigs src) ⟨A, SrcNode.vars src, X, g, N⟩ (SrcNode.clocks src) where
  universal := hu
  locals := by
    intro x
    show x ∈ SrcNode.vars src ↔ _
    rw [vars_names]
    constructor
    · intro hx
      obtain ⟨v, hv, rfl⟩ := List.mem_map.1 hx
      rw [scope_finds hL hv]
      rfl
    · intro hx
      obtain ⟨v, hv⟩ := Option.isSome_iff_exists.1 hx
      exact List.mem_map.2 ⟨v, List.mem_of_find?_eq_some hv, var_name hv⟩
  clocks := by
    intro x v hv
    have hm : v ∈ varsOf (src.inputs ++ src.outputs ++ src.locals) := List.mem_of_find?_eq_some hv
    obtain ⟨a, ha, y, hy, e⟩ := mem_varsOf.1 hm
    have hxy : y = x := by rw [← var_name hv, e]
    subst hxy
    unfold SrcNode.clocks
    split
    · rename_i a' h'
      have h1 : a' ∈ src.inputs ++ src.outputs ++ src.locals := List.mem_of_find?_eq_some h'
      have h2 : y ∈ a'.ids := by simpa using List.find?_some h'
      have h3 := scope_finds hL (mem_varsOf.2 ⟨a', h1, y, h2, rfl⟩)
      rw [hv] at h3
      cases h3
      rfl
    · rename_i h'
      rw [List.find?_eq_none] at h'
      exact absurd hy (by simpa using h' a ha)
  written := by
    intro x v hv hk
    have hm : v ∈ varsOf (src.inputs ++ src.outputs ++ src.locals) := List.mem_of_find?_eq_some hv
    obtain ⟨a, ha, y, hy, rfl⟩ := mem_varsOf.1 hm
    have := hw a ha
    simp only at hk
    cases hc : a.clk with
    | explicit b x => rw [hc] at hk; cases b <;> cases hk
    | implicit => rw [hc] at hk; cases hk
    | adaptative => exact this hc
  consts := hc
  nodes := hn

end

section
variable {A : Arith} {g : Globals} {sigs : String → Option Sig} {consts : String → Option TyBase}
  {attrs : List Attribute} {src : SrcNode} {n : Node} {ms : List Machine}

theorem subs_shape (hin : InProg Pres.Good g sigs consts attrs src n ms) :
    ∀ (i : Nat) b, n.blocks[i]? = some b → ∃ m s, ms[i]? = some m ∧ sigs b.name = some s ∧
      m.outTy = flatShape s.2.2.length := by
  intro i b hb
  obtain ⟨m, s, e1, e2, e3⟩ := hin.subs i b hb
  exact ⟨m, s, e1, e2, extern_shape e3.1⟩

/-- In every solution of the equations of the node, its variables have values of their types at the
instants of their clocks. -/
theorem universal_present (hin : InProg Pres.Good g sigs consts attrs src n ms)
    (hu : (meaning attrs).universalPre = true)
    (hf : ∀ st ∈ src.defs, noOneTuple (SrcStmt.expr st) = true)
    (hs : SteadyNode (meaning attrs) src)
    (hl : ∀ e ∈ src.defs.map SrcStmt.expr, ∀ l ∈ literals e, Denotes l)
    {nodes : String → Option Machine} (hL : Linked ms nodes n.blocks) (θ : Subst)
    {X : String → Nat → Nillable Scalar} {is : List Value}
    (hsol : UniSolution ⟨A, SrcNode.vars src, X, g, nodes⟩ (SrcNode.clocks src) src is)
    (hi : ∀ i ∈ is, ValTy (substTy θ (flatTuple (argTypes src.inputs))) i ∧ Full i) :
    ∃ N : String → Option Machine,
      Around (scope (meaning attrs) consts sigs src) ⟨A, SrcNode.vars src, X, g, N⟩
        (SrcNode.clocks src) ∧
      UniSolution ⟨A, SrcNode.vars src, X, g, N⟩ (SrcNode.clocks src) src is ∧
      ∀ t, t < is.length → ∀ x, VarGood (scope (meaning attrs) consts sigs src)
        ⟨A, SrcNode.vars src, X, g, N⟩ θ x t := by
  have hleg := passes_legal hin.passes hin.wf hl
  obtain ⟨N, l1, l2⟩ := hin.nodes
  have hp := hin.passes
  rw [hu] at hp
  have ha := around (A := A) (X := X) hleg hu hs.written hin.constsOk l2
  have hsol' := (solution_universal hp hin.wf (subs_shape hin) l1 is X).1
    ((solution_universal hp hin.wf (subs_shape hin) hL is X).2 hsol)
  exact ⟨N, ha, hsol', node_good hleg ha hf (hs.steady consts sigs) hi hsol'⟩

/-- The node answers completely, in the right type. -/
theorem universal_good (hin : InProg Pres.Good g sigs consts attrs src n ms)
    (hu : (meaning attrs).universalPre = true) (hT : Tidy src)
    (hs : SteadyNode (meaning attrs) src)
    (hl : ∀ e ∈ src.defs.map SrcStmt.expr, ∀ l ∈ literals e, Denotes l) :
    Pres.Good (n.machine A g ms)
      ((meaning attrs).generics, argTypes src.inputs, argTypes src.outputs) := by
  have hleg := passes_legal hin.passes hin.wf hl
  have hp := hin.passes
  rw [hu] at hp
  have hic := input_clocks hp hT.clocks
  have hfl := flat_registers hp hin.wf hT.flat
  obtain ⟨n₁, n₂, c, ctx, clk, m, K, hf⟩ := passes_final hp
  have hready := hf.ready hin.wf hic hfl
  obtain ⟨p1, p2, p3⟩ := passes_sig hin.passes
  rw [translateArgs_ty] at p2 p3
  refine ⟨fun θ => ?_, fun θ => ⟨?_, ?_⟩⟩
  · have := C28_node (A := A) hin.wf hready hin.constsOk (fun i b hb => by
      obtain ⟨m, ⟨gens, ins, outs⟩, e1, e2, e3⟩ := hin.subs i b hb
      exact ⟨m, gens, ins, outs, e1, e2, fun θ => e3.1 θ⟩) θ
    rw [p2, p3] at this
    exact this
  · intro s i hi
    simp [Node.machine, Node.step, Candle.implicitClock, hi]
  · intro is os hi hrun t i o ht hto hpi
    obtain ⟨N, l1, l2⟩ := hin.nodes
    obtain ⟨X, h1, rfl⟩ := (C59_node A g hp (passes_wired hp hic).sorted hin.wf (subs_shape hin) l1
      is os).1 hrun
    have hfull : ∀ i ∈ is.filter present,
        ValTy (substTy θ (flatTuple (argTypes src.inputs))) i ∧ Full i := by
      intro i hi'
      obtain ⟨h2, h3⟩ := List.mem_filter.1 hi'
      refine ⟨(hi i h2).1, ?_⟩
      rcases (hi i h2).2 with h4 | h4
      · simp [present, h4] at h3
      · exact h4
    obtain ⟨N', -, -, hall⟩ := universal_present hin hu hT.flat hs hl l1 θ h1 hfull
    have hsp := (C09_spread_filter (flatShape (argNames src.outputs).length) is
      (srcOutputs X src (is.filter present).length) (by simp [srcOutputs])).1
    have hmem : o ∈ srcOutputs X src (is.filter present).length := by
      rw [← hsp]
      refine List.mem_map.2 ⟨(i, o), List.mem_filter.2 ⟨?_, by simp [present, hpi]⟩, rfl⟩
      refine List.mem_of_getElem? (i := t) ?_
      rw [List.getElem?_zip_eq_some]
      exact ⟨ht, hto⟩
    obtain ⟨j, hj, rfl⟩ := List.mem_map.1 hmem
    refine full_tupleValue fun w hw => ?_
    obtain ⟨x, hx, rfl⟩ := List.mem_map.1 hw
    rw [← names_varsOf] at hx
    obtain ⟨v, hv, rfl⟩ := List.mem_map.1 hx
    have hv' : v ∈ varsOf (src.inputs ++ src.outputs ++ src.locals) := by
      rw [varsOf_append, varsOf_append]; simp [hv]
    exact (hall j (List.mem_range.1 hj) v.name v (scope_finds hleg hv')).2.1
      (active_always (hleg.interface.present v (List.mem_append_right _ hv)))

end
end Chandeliers.Std
