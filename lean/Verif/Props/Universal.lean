import Verif.Spec.Universal
import Verif.Lemmas.Guards
import Verif.Lemmas.LinkInd
import Verif.Props.Clocked
import Verif.Props.Text
import Verif.Props.Parametric

/-!
# What a node with `#[universal_pre]` computes

C59.  The reference is in `Verif/Spec/Universal.lean`.  Nothing is asked of the node but that it is
accepted and that rustc accepts its code, and the result is exact: the runs of the node are the
solutions of its equations.
-/

set_option autoImplicit false

namespace Chandeliers.Props
open San Syn Spec Err Prg Den Clk Pres Uni
open Spec.Static Spec.Grammar

section
variable {o : TyOpts} {sigs : String → Option Sig} {consts : String → Option TyBase} {src : SrcNode}
  {n : Node}

/-- C59.  A node that is accepted with `#[universal_pre]`, run on any history, returns what the
solution of the equations of its source says, at the instants where its inputs are present, and it
panics exactly when the equations have no solution.  `nodes` are the nodes that it calls, whatever
they do, as long as they return as many components as they are declared with. -/
theorem C59_node (A : Arith) (glob : Globals) {ms : List Machine}
    {nodes : String → Option Machine} (h : Passes true o sigs consts src n) (hb : BoundBeforeUse n)
    (hw : ∀ f s, sigs f = some s → s.Wf)
    (hc : ∀ (i : Nat) b, n.blocks[i]? = some b → ∃ m s, ms[i]? = some m ∧ sigs b.name = some s ∧
      m.outTy = flatShape s.2.2.length)
    (hL : Linked ms nodes n.blocks) (is os : List Value) :
    (n.machine A glob ms).run is = .ok os ↔
      ∃ X, UniSolution ⟨A, SrcNode.vars src, X, glob, nodes⟩ (SrcNode.clocks src) src
          (is.filter present) ∧
        os = spread (flatShape (argNames src.outputs).length) is
          (srcOutputs X src (is.filter present).length) := by
  have e4 := passes_outputs h
  have hout : ∀ F : Flow, outputs F n (is.filter present).length =
      srcOutputs F.X src (is.filter present).length := by
    intro F
    simp only [outputs, srcOutputs, together, ← e4, List.map_map, Function.comp_def]
    rfl
  have hty : n.outTy = flatShape (argNames src.outputs).length := by
    rw [Node.outTy, ← e4, List.length_map]
  obtain ⟨n₁, n₂, c, ctx, clk, m, K, hf⟩ := passes_final h
  rw [C45_runs_are_solutions A glob ms ⟨hf.wired, hb⟩, hty]
  constructor
  · rintro ⟨F, h1, h2⟩
    exact ⟨F.X, (solution_universal h hw hc hL _ _).1 ⟨F, rfl, h1⟩, hout F ▸ h2⟩
  · rintro ⟨X, h1, h2⟩
    obtain ⟨F, rfl, h3⟩ := (solution_universal h hw hc hL _ _).2 h1
    exact ⟨F, h3, by rw [hout]; exact h2⟩

/-- C59.  The equations have at most one solution: they say what all the variables are. -/
theorem C59_unique (A : Arith) (glob : Globals) {ms : List Machine}
    {nodes : String → Option Machine} (h : Passes true o sigs consts src n) (hb : BoundBeforeUse n)
    (hw : ∀ f s, sigs f = some s → s.Wf)
    (hc : ∀ (i : Nat) b, n.blocks[i]? = some b → ∃ m s, ms[i]? = some m ∧ sigs b.name = some s ∧
      m.outTy = flatShape s.2.2.length)
    (hL : Linked ms nodes n.blocks) {is : List Value} {X X' : String → Nat → Nillable Scalar}
    (h1 : UniSolution ⟨A, SrcNode.vars src, X, glob, nodes⟩ (SrcNode.clocks src) src is)
    (h2 : UniSolution ⟨A, SrcNode.vars src, X', glob, nodes⟩ (SrcNode.clocks src) src is) :
    ∀ t, t < is.length → ∀ x ∈ SrcNode.vars src, X x t = X' x t := by
  obtain ⟨n₁, n₂, c, ctx, clk, m, K, hf⟩ := passes_final h
  obtain ⟨F, rfl, k1⟩ := (solution_universal h hw hc hL _ _).2 h1
  obtain ⟨F', rfl, k2⟩ := (solution_universal h hw hc hL _ _).2 h2
  have hvars : (declared n).map (·.name) = SrcNode.vars src := by
    rw [declared, hf.final, hf.same, hf.start]
    simp [Node.withDepths, Node.withClocks, Node.fill, setDepths, SrcNode.vars, ← args_names,
      Function.comp_def]
  intro t ht x hx
  rw [← hvars] at hx
  obtain ⟨v, hv, rfl⟩ := List.mem_map.1 hx
  exact C45_unique_solution A glob ms ⟨hf.wired, hb⟩ k1 k2 t ht v hv

/-- C59.  Two accepted nodes whose sources differ only by the order of their equations and assertions
do the same, panics included. -/
theorem C59_equations_order (A : Arith) (glob : Globals) {ms ms' : List Machine}
    {nodes : String → Option Machine} {o' : TyOpts} {defs : List SrcStmt} {n' : Node}
    (h : Passes true o sigs consts src n)
    (h' : Passes true o' sigs consts { src with defs := defs } n') (hd : defs.Perm src.defs)
    (hb : BoundBeforeUse n) (hb' : BoundBeforeUse n') (hw : ∀ f s, sigs f = some s → s.Wf)
    (hc : ∀ (i : Nat) b, n.blocks[i]? = some b → ∃ m s, ms[i]? = some m ∧ sigs b.name = some s ∧
      m.outTy = flatShape s.2.2.length)
    (hc' : ∀ (i : Nat) b, n'.blocks[i]? = some b → ∃ m s, ms'[i]? = some m ∧
      sigs b.name = some s ∧ m.outTy = flatShape s.2.2.length)
    (hL : Linked ms nodes n.blocks) (hL' : Linked ms' nodes n'.blocks) (is os : List Value) :
    (n.machine A glob ms).run is = .ok os ↔ (n'.machine A glob ms').run is = .ok os := by
  rw [C59_node A glob h hb hw hc hL, C59_node A glob h' hb' hw hc' hL']
  refine exists_congr fun X => and_congr_left fun _ => ?_
  constructor
  · intro hs
    exact ⟨hs.inputs, fun t ht st hst => hs.defs t ht st (hd.mem_iff.1 hst)⟩
  · intro hs
    exact ⟨hs.inputs, fun t ht st hst => hs.defs t ht st (hd.mem_iff.2 hst)⟩

end

/-! ## Programs -/

theorem extern_shape {m : Machine} {outs : List TyBase} {t : TyTuple}
    (h : ∀ θ, Respects m (substTy θ t) (substTy θ (flatTuple outs))) :
    m.outTy = flatShape outs.length := by
  have key : ∀ (ts : List TyBase) (vs : List (Tup Unit)),
      ValTys (substTys (fun g => .other g) (ts.map .single))
        (Tup.mapList (fun _ => (.nil : Nillable Scalar)) vs) →
      vs = List.replicate ts.length (.leaf ()) := by
    intro ts
    induction ts with
    | nil =>
      intro vs hv
      cases vs with
      | nil => rfl
      | cons v vs => simp [substTys, Tup.mapList, ValTys] at hv
    | cons t ts ih =>
      intro vs hv
      cases vs with
      | nil => simp [substTys, Tup.mapList, ValTys] at hv
      | cons v vs =>
        simp only [List.map_cons, Tup.mapList, substTys, substTy, ValTys] at hv
        cases v with
        | leaf u => rw [ih vs hv.2]; rfl
        | tup a l => simp [Tup.map, ValTy] at hv
  have := (h fun g => .other g).absent
  match outs, this with
  | [], h => cases hm : m.outTy with
    | leaf u => rfl
    | tup a l => rw [hm] at h; simp [flatTuple, substTy, substTys, Tup.allNil, Tup.map, ValTy] at h
  | [t], h => cases hm : m.outTy with
    | leaf u => rfl
    | tup a l => rw [hm] at h; simp [flatTuple, substTy, substTys, Tup.allNil, Tup.map, ValTy] at h
  | t :: t' :: ts, h => cases hm : m.outTy with
    | leaf u =>
      rw [hm] at h
      simp [flatTuple, substTy, substTys, Tup.allNil, Tup.map, ValTy] at h
    | tup a l =>
      rw [hm] at h
      have := key (t :: t' :: ts) (a :: l) (by
        simpa [flatTuple, substTy, substTys, Tup.allNil, Tup.map, Tup.mapList, ValTy, ValTys] using h)
      simp only [List.length_cons, List.replicate_succ, List.cons.injEq] at this
      simp [flatShape, this, List.replicate_succ]

/-- C59.  A program that the compiler accepts, and whose code rustc accepts with the external items
`X`: the items include, for every node of the program with `#[universal_pre]`, a machine whose runs
are the solutions of the equations of the source of that node, where the calls are to the machines of
the same items. -/
theorem C59_program (A : Arith) (X : Extern) {p : SrcProg} {p' : Prog} {w : List Report} {I : Items}
    (h : decl (compile p) = .done w (some p')) (hl : link A X p'.decls = .ok I)
    (hX : ExternOk X p) (hg : DistinctGenerics p)
    (hb : ∀ n, .node n ∈ p'.decls → BoundBeforeUse n)
    {attrs : List Attribute} {src : SrcNode} (hs : ⟨attrs, .node src⟩ ∈ p)
    (hu : hasAny attrs ["universal_pre"] = true) :
    ∃ m, I.nodes src.name = some m ∧ ∀ is os, m.run is = .ok os ↔
      ∃ S, UniSolution ⟨A, SrcNode.vars src, S, I.consts, I.nodes⟩ (SrcNode.clocks src) src
          (is.filter present) ∧
        os = spread (flatShape (argNames src.outputs).length) is
          (srcOutputs S src (is.filter present).length) := by
  obtain ⟨q, hq, hp⟩ := accepted_passes h
  obtain ⟨hl1, hl2⟩ := link_ok hl
  rcases linkConsts_typed (A := A) (X := X) hp
      (fun a x t hm => hX.consts a x t (hq.mem_iff.1 hm)) (g := fun _ => none)
      (fun x t h => by cases h) with he | ⟨g, h1, -, h3, h4⟩
  · rw [hl1] at he; cases he
  · rw [hl1] at h1
    cases h1
    obtain ⟨sigs, consts, n, ms, k1, k2, k3, k4⟩ := linkNodes_ind (A := A) (X := X)
      (fun m s => m.outTy = flatShape s.2.2.length) hp (fun d hm => hg d (hq.mem_iff.1 hm)) (by
        intro a f ins outs m hm hx
        obtain ⟨m', e1, e2⟩ := hX.nodes a f ins outs (hq.mem_iff.1 hm)
        rw [hx] at e1
        cases e1
        exact extern_shape (m := m) e2)
      (by
        intro sigs consts a src n ms hm hn hin
        obtain ⟨-, -, p3⟩ := passes_sig hin.passes
        rw [translateArgs_ty] at p3
        simp only [Node.machine, Node.outTy, ← p3, List.length_map])
      (fun x t h => by cases h) h3 h4 (N := fun _ => none) (fun _ _ => rfl)
      (fun f s h => by cases h) hl2 attrs src (hq.mem_iff.2 hs)
    have hpass := k2.passes
    rw [show (meaning attrs).universalPre = true from hu] at hpass
    exact ⟨_, k3, fun is os => C59_node A I.consts hpass (hb n k1) k2.wf k2.subs k4 is os⟩

/-- C59.  And it panics exactly when its equations have no solution. -/
theorem C59_panics (A : Arith) (X : Extern) {p : SrcProg} {p' : Prog} {w : List Report} {I : Items}
    (h : decl (compile p) = .done w (some p')) (hl : link A X p'.decls = .ok I)
    (hX : ExternOk X p) (hg : DistinctGenerics p)
    (hb : ∀ n, .node n ∈ p'.decls → BoundBeforeUse n)
    {attrs : List Attribute} {src : SrcNode} (hs : ⟨attrs, .node src⟩ ∈ p)
    (hu : hasAny attrs ["universal_pre"] = true) :
    ∃ m, I.nodes src.name = some m ∧ ∀ is, (∃ e, m.run is = .error e) ↔
      ¬ ∃ S, UniSolution ⟨A, SrcNode.vars src, S, I.consts, I.nodes⟩ (SrcNode.clocks src) src
          (is.filter present) := by
  obtain ⟨m, k1, k2⟩ := C59_program A X h hl hX hg hb hs hu
  refine ⟨m, k1, fun is => ⟨?_, fun hn => ?_⟩⟩
  · rintro ⟨e, he⟩ ⟨S, hS⟩
    have := (k2 is _).2 ⟨S, hS, rfl⟩
    rw [he] at this
    cases this
  · cases hr : m.run is with
    | error e => exact ⟨e, rfl⟩
    | ok os =>
      obtain ⟨S, hS, -⟩ := (k2 is os).1 hr
      exact absurd ⟨S, hS⟩ hn

/-! ## Conditions on the source

What rustc asks of the emitted code can be seen on the source: it is enough that the clocks of nodes
with registers are inputs, and that they do not use tuples of one element. -/

theorem passes_to_node_wf {sigs : String → Option Sig} {consts : String → Option TyBase}
    {q : List SrcDecl} {ds : List San.Decl} (h : ProgPasses sigs consts q ds) :
    DistinctGenerics q → (∀ f s, sigs f = some s → s.Wf) → ∀ n, .node n ∈ ds →
    ∃ attrs src sigs' consts', ⟨attrs, .node src⟩ ∈ q ∧ (∀ f s, sigs' f = some s → s.Wf) ∧
      Passes (meaning attrs).universalPre (tyOpts (meaning attrs)) sigs' consts' src n := by
  have ext : ∀ {sigs : String → Option Sig} {f : String} {s : Sig},
      (∀ f s, sigs f = some s → s.Wf) → s.Wf → ∀ f' s', extend sigs f s f' = some s' → s'.Wf := by
    intro sigs f s h1 h2 f' s' he
    unfold extend at he
    split at he
    · cases he; exact h2
    · exact h1 f' s' he
  induction h with
  | nil => intro _ _ n hm; cases hm
  | const ht h hn hs ih =>
    intro hd hw n hm
    rcases List.mem_cons.1 hm with e | hm
    · cases e
    · obtain ⟨a, src, s, c, h1, h2⟩ := ih (fun d hm => hd d (List.mem_cons_of_mem _ hm)) hw n hm
      exact ⟨a, src, s, c, List.mem_cons_of_mem _ h1, h2⟩
  | extConst hn hs ih =>
    intro hd hw n hm
    rcases List.mem_cons.1 hm with e | hm
    · cases e
    · obtain ⟨a, src, s, c, h1, h2⟩ := ih (fun d hm => hd d (List.mem_cons_of_mem _ hm)) hw n hm
      exact ⟨a, src, s, c, List.mem_cons_of_mem _ h1, h2⟩
  | node h hn hs ih =>
    intro hd hw n hm
    rcases List.mem_cons.1 hm with e | hm
    · cases e
      exact ⟨_, _, _, _, List.mem_cons_self .., hw, h⟩
    · obtain ⟨a, src, s, c, h1, h2⟩ := ih (fun d hm => hd d (List.mem_cons_of_mem _ hm))
        (ext hw (sigOf_passes h (hd _ (List.mem_cons_self ..))).1) n hm
      exact ⟨a, src, s, c, List.mem_cons_of_mem _ h1, h2⟩
  | extNode h hdt hn hs ih =>
    intro hd hw n hm
    rcases List.mem_cons.1 hm with e | hm
    · cases e
    · obtain ⟨a, src, s, c, h1, h2⟩ := ih (fun d hm => hd d (List.mem_cons_of_mem _ hm))
        (ext hw (sigOf_wf (hd _ (List.mem_cons_self ..)) h)) n hm
      exact ⟨a, src, s, c, List.mem_cons_of_mem _ h1, h2⟩

/-- C59.  What rustc asks of the emitted code, from the source. -/
theorem C59_tidy {p : SrcProg} {p' : Prog} {w : List Report}
    (h : decl (compile p) = .done w (some p')) (hg : DistinctGenerics p) (ht : TidyProg p) :
    ∀ n, .node n ∈ p'.decls → InputClocks n ∧ FlatRegisters n ∧ BoundBeforeUse n := by
  obtain ⟨q, hq, hp⟩ := accepted_passes h
  intro n hn
  obtain ⟨a, src, sigs, consts, h1, h2, h3⟩ := passes_to_node_wf hp
    (fun d hm => hg d (hq.mem_iff.1 hm)) (fun f s h => by cases h) n hn
  have key : InputClocks n ∧ FlatRegisters n := by
    cases hu : (meaning a).universalPre with
    | false => rw [hu] at h3; exact passes_default h3
    | true =>
      rw [hu] at h3
      have hT := ht a src (hq.mem_iff.1 h1) hu
      exact ⟨input_clocks h3 hT.clocks, flat_registers h3 h2 hT.flat⟩
  exact ⟨key.1, key.2, (passes_wired h3 key.1).sorted⟩

/-- C28.  Programs, with conditions on the source only: unless a constant has an arithmetic error,
rustc accepts the code, the nodes keep to their types and the constants are of theirs. -/
theorem C28_program_tidy (A : Arith) (X : Extern) {p : SrcProg} {p' : Prog} {w : List Report}
    (h : decl (compile p) = .done w (some p')) (hX : ExternOk X p) (hg : DistinctGenerics p)
    (ht : TidyProg p) :
    link A X p'.decls = .error .arith ∨ ∃ I, link A X p'.decls = .ok I ∧
      (∀ attrs src, ⟨attrs, .node src⟩ ∈ p → ∃ m, I.nodes src.name = some m ∧ ∀ θ,
        Respects m (substTy θ (flatTuple (argTypes src.inputs)))
          (substTy θ (flatTuple (argTypes src.outputs)))) ∧
      ∀ attrs c, ⟨attrs, .const c⟩ ∈ p → ∃ v, I.consts c.name = some v ∧ ScalarTy c.ty v :=
  C28_program A X h hX hg fun n hn =>
    ⟨(C59_tidy h hg ht n hn).1, (C59_tidy h hg ht n hn).2.1⟩

/-- C57.  The same, with conditions on the source only. -/
theorem C57_program_tidy (A : Arith) (X : Extern) {p : SrcProg} {p' : Prog} {w : List Report}
    {I : Items} (h : decl (compile p) = .done w (some p')) (hX : ExternOk X p)
    (hP : ExternParametric X p) (hg : DistinctGenerics p) (ht : TidyProg p)
    (hl : link A X p'.decls = .ok I) {attrs : List Attribute} {src : SrcNode}
    (hm : ⟨attrs, .node src⟩ ∈ p) : ∃ m, I.nodes src.name = some m ∧
      Parametric m (flatTuple (argTypes src.inputs)) (flatTuple (argTypes src.outputs)) :=
  C57_program A X h hX hP hg
    (fun n hn => ⟨(C59_tidy h hg ht n hn).1, (C59_tidy h hg ht n hn).2.1⟩) hl hm

/-- C18.  The same, with conditions on the source only. -/
theorem C18_program_tidy_partial (A : Arith) (X : Extern) {p : SrcProg} {p' : Prog}
    {w : List Report} {I : Items} (h : decl (compile p) = .done w (some p'))
    (hl : link A X p'.decls = .ok I) (hg : DistinctGenerics p) (ht : TidyProg p)
    {attrs : List Attribute} {src : SrcNode} (hs : ⟨attrs, .node src⟩ ∈ p)
    (hu : hasAny attrs ["universal_pre"] = true)
    (hw : ∀ a ∈ src.inputs ++ src.outputs ++ src.locals, a.clk ≠ .adaptative) :
    ∃ m, I.nodes src.name = some m ∧ ∀ is os Y, m.run is = .ok os →
      ClockedSolution ⟨A, SrcNode.vars src, Y, I.consts, I.nodes⟩ src (is.filter present) →
      (∀ t, t < (is.filter present).length → ∀ st ∈ src.defs,
        ProperStmt ⟨A, SrcNode.vars src, Y, I.consts, I.nodes⟩ (SrcNode.clocks src) t st) →
      os = spread (flatShape (argNames src.outputs).length) is
        (srcOutputs Y src (is.filter present).length) :=
  C18_program_outputs_partial A X h hl (fun n hn => (C59_tidy h hg ht n hn).2.2) hs hu hw

/-- C59.  From one end of the compiler to the other.  An invocation of the macro that reads as a legal
program, with external items that are what the program says: the macro expands to code, and unless a
constant has an arithmetic error, rustc accepts it; the items include every node of the program, with
the types of the program; and the node returns `os` on a history exactly when `os` are the outputs of
a solution of its equations, in the reference that goes with its attributes. -/
theorem C59_text (A : Arith) (X : Extern) {ts : List Tok} {p : SrcProg} (hp : Program ts p)
    (hL : Legal p) (hg : DistinctGenerics p) (hX : ExternOk X p) (ht : TidyProg p) :
    ∃ w p', expand ts = some (.done w (some p')) ∧
      (link A X p'.decls = .error .arith ∨ ∃ I, link A X p'.decls = .ok I ∧
        ∀ attrs src, ⟨attrs, .node src⟩ ∈ p → ∃ m, I.nodes src.name = some m ∧
          (∀ θ, Respects m (substTy θ (flatTuple (argTypes src.inputs)))
            (substTy θ (flatTuple (argTypes src.outputs)))) ∧
          ∀ is os, m.run is = .ok os ↔
            ∃ S, (if hasAny attrs ["universal_pre"] = true then
                UniSolution ⟨A, SrcNode.vars src, S, I.consts, I.nodes⟩ (SrcNode.clocks src) src
                  (is.filter present)
              else SrcSolution ⟨A, SrcNode.vars src, S, I.consts, I.nodes⟩ src
                (is.filter present)) ∧
              os = spread (flatShape (argNames src.outputs).length) is
                (srcOutputs S src (is.filter present).length)) := by
  obtain ⟨w, p', h⟩ := (C50_accepted hg).2 hL
  refine ⟨w, p', by rw [(C49_expand ts).1 p hp, h], ?_⟩
  rcases C28_program_tidy A X h hX hg ht with he | ⟨I, hl, h1, -⟩
  · exact .inl he
  refine .inr ⟨I, hl, fun attrs src hm => ?_⟩
  obtain ⟨m, k1, k2⟩ := h1 attrs src hm
  refine ⟨m, k1, k2, ?_⟩
  cases hu : hasAny attrs ["universal_pre"] with
  | false =>
    obtain ⟨m', k3, k4⟩ := C47_program A X h hl hm hu
    rw [k1] at k3
    cases k3
    simpa using k4
  | true =>
    obtain ⟨m', k3, k4⟩ := C59_program A X h hl hX hg
      (fun n hn => (C59_tidy h hg ht n hn).2.2) hm hu
    rw [k1] at k3
    cases k3
    simpa using k4

/-! ## Examples -/

/-- The clocks of `slow` are inputs. -/
theorem exSlow_tidy : Tidy exSlow where
  clocks := ⟨by
      intro a ha b x hx
      simp only [exSlow, List.mem_append, List.mem_cons, List.not_mem_nil, or_false] at ha
      rcases ha with ((rfl | rfl) | rfl) | rfl <;> cases hx <;> decide, by
      intro st hst
      simp only [exSlow, List.mem_cons, List.not_mem_nil, or_false] at hst
      rcases hst with rfl | rfl <;> decide⟩
  flat := by
    intro st hst
    simp only [exSlow, List.mem_cons, List.not_mem_nil, or_false] at hst
    rcases hst with rfl | rfl <;> decide

/-- ```
#[universal_pre]
node f(b: bool; x: int) returns (o: int); let o = 5 -> x + ((pre x) -> x); tel
```
The program of F9. -/
def exLate : SrcProg := oneNode universal (.arrow (.lit (.int 5)) [.left (.var "x")
  [(.add, .paren [.arrow (.pre (.var "x")) [.var "x"]] false)]])

theorem exLate_tidy : TidyProg exLate := by
  intro attrs src hm hu
  simp only [exLate, oneNode, List.mem_cons, List.not_mem_nil, or_false, SrcDecl.mk.injEq,
    SrcItem.node.injEq] at hm
  rcases hm with ⟨rfl, rfl⟩ | ⟨rfl, rfl⟩ | ⟨rfl, rfl⟩
  · refine ⟨⟨?_, ?_⟩, ?_⟩
    · intro a ha b x hx
      simp only [List.mem_append, List.mem_cons, List.not_mem_nil, or_false] at ha
      rcases ha with (rfl | rfl) | rfl <;> cases hx
    · intro st hst
      simp only [List.mem_cons, List.not_mem_nil, or_false] at hst
      subst hst
      decide
    · intro st hst
      simp only [List.mem_cons, List.not_mem_nil, or_false] at hst
      subst hst
      decide
  · cases hu
  · cases hu

/-- Its input and output, on three instants: `(pre x) -> x` is nil at the first, and it takes the
value of `pre x` at the second only. -/
def exLateStreams (x : String) (t : Nat) : Nillable Scalar :=
  if x = "x" then .defined (.int (if t = 0 then 1 else if t = 1 then 2 else 3))
  else if x = "o" then .defined (.int (if t = 0 then 5 else if t = 1 then 3 else 6))
  else .defined (.bool true)

/-- The source of the node. -/
def exLateNode : SrcNode where
  name := "f"
  inputs := [⟨["b"], .bool, .implicit⟩, ⟨["x"], .int, .implicit⟩]
  outputs := [⟨["o"], .int, .implicit⟩]
  locals := []
  defs := [.def_ (.var "o") (.arrow (.lit (.int 5)) [.left (.var "x")
    [(.add, .paren [.arrow (.pre (.var "x")) [.var "x"]] false)]])]

/-- The streams are a solution, whatever the other items are. -/
theorem exLate_solution (glob : Globals) (nodes : String → Option Machine) :
    UniSolution ⟨exArith, SrcNode.vars exLateNode, exLateStreams, glob, nodes⟩
      (SrcNode.clocks exLateNode) exLateNode [exPair true 1, exPair true 2, exPair true 3] where
  inputs := by
    intro t i hi _
    match t, hi with
    | 0, hi => cases hi; rfl
    | 1, hi => cases hi; rfl
    | 2, hi => cases hi; rfl
    | t + 3, hi => cases hi
  defs := by
    intro t ht st hst
    simp only [exLateNode, List.mem_cons, List.not_mem_nil, or_false] at hst
    subst hst
    match t, ht with
    | 0, _ => exact ⟨.leaf (.defined (.int 5)), rfl, rfl⟩
    | 1, _ => exact ⟨.leaf (.defined (.int 3)), rfl, rfl⟩
    | 2, _ => exact ⟨.leaf (.defined (.int 6)), rfl, rfl⟩
    | t + 3, ht => exact absurd ht (by simp)

/-- Non-vacuity of C59: the program is accepted, and its items are as the theorems ask; the outputs of
the node are those of the solution. -/
example : ∃ w p' I m, decl (compile exLate) = .done w (some p') ∧
    link exArith noExtern p'.decls = .ok I ∧ TidyProg exLate ∧ DistinctGenerics exLate ∧
    ExternOk noExtern exLate ∧ I.nodes "f" = some m ∧
    m.run [exPair true 1, exPair true 2, exPair true 3] = .ok [exInt 5, exInt 3, exInt 6] := by
  have hg : DistinctGenerics exLate := by
    intro d hd
    simp only [exLate, oneNode, List.mem_cons, List.not_mem_nil, or_false] at hd
    rcases hd with rfl | rfl | rfl <;> decide
  have hX : ExternOk noExtern exLate := by
    constructor
    all_goals
      intros
      rename_i hm
      simp [exLate, oneNode] at hm
  have h : (itemsOf noExtern exLate).isSome = true := by decide +kernel
  obtain ⟨I, h⟩ := Option.isSome_iff_exists.1 h
  obtain ⟨w, p', h1, hl⟩ := itemsOf_some h
  obtain ⟨m, k1, k2⟩ := C59_program exArith noExtern h1 hl hX hg
    (fun n hn => (C59_tidy h1 hg exLate_tidy n hn).2.2) (attrs := universal) (src := exLateNode)
    (List.mem_cons_self ..) rfl
  exact ⟨w, p', I, m, h1, hl, exLate_tidy, hg, hX, k1,
    (k2 _ _).2 ⟨exLateStreams, exLate_solution .., rfl⟩⟩

/-- Non-vacuity of `C59_node`: a node with a register on a clock.  The conditions on the source give
what rustc asks, and the streams of the semantics with clocks are a solution here too. -/
example : ∃ n, Passes true ⟨false, false, []⟩ (fun _ => none) (fun _ => none) exSlow n ∧
    BoundBeforeUse n ∧ n.blocks = [] ∧
    UniSolution ⟨exArith, SrcNode.vars exSlow, exSlowStreams, fun _ => none, fun _ => none⟩
      (SrcNode.clocks exSlow) exSlow exSlowInputs ∧
    (n.machine exArith (fun _ => none) []).run exSlowInputs =
      .ok [exInt 1, exInt 0, exInt 3, exInt 2, exInt 4] := by
  have h : (runPasses true ⟨false, false, []⟩ (fun _ => none) (fun _ => none) exSlow).map
      (fun n => n.blocks.length) = some 0 := by decide +kernel
  obtain ⟨n, h1, h2⟩ := Option.map_eq_some_iff.1 h
  have hp := runPasses_passes h1
  have hn := List.length_eq_zero_iff.1 h2
  have hb := (passes_wired hp (input_clocks hp exSlow_tidy.clocks)).sorted
  have hs : UniSolution ⟨exArith, SrcNode.vars exSlow, exSlowStreams, fun _ => none, fun _ => none⟩
      (SrcNode.clocks exSlow) exSlow exSlowInputs := by
    constructor
    · intro t i hi _
      match t, hi with
      | 0, hi => cases hi; rfl
      | 1, hi => cases hi; rfl
      | 2, hi => cases hi; rfl
      | 3, hi => cases hi; rfl
      | 4, hi => cases hi; rfl
    · intro t ht st hst
      simp only [exSlow, List.mem_cons, List.not_mem_nil, or_false] at hst
      rcases hst with rfl | rfl
      · match t, ht with
        | 0, _ => exact ⟨.leaf (.defined (.int 1)), rfl, rfl⟩
        | 1, _ => exact ⟨.leaf (.defined (.int 0)), rfl, rfl⟩
        | 2, _ => exact ⟨.leaf (.defined (.int 3)), rfl, rfl⟩
        | 3, _ => exact ⟨.leaf (.defined (.int 2)), rfl, rfl⟩
        | 4, _ => exact ⟨.leaf (.defined (.int 4)), rfl, rfl⟩
      · match t, ht with
        | 0, _ => exact ⟨.leaf .nil, rfl, rfl⟩
        | 1, _ => exact ⟨.leaf (.defined (.int 0)), rfl, rfl⟩
        | 2, _ => exact ⟨.leaf .nil, rfl, rfl⟩
        | 3, _ => exact ⟨.leaf (.defined (.int 2)), rfl, rfl⟩
        | 4, _ => exact ⟨.leaf (.defined (.int 4)), rfl, rfl⟩
  refine ⟨n, hp, hb, hn, hs, ?_⟩
  exact (C59_node exArith _ hp hb (fun f s h => by cases h)
    (fun i b h => by rw [hn] at h; cases h) (fun i b h => by rw [hn] at h; cases h) _ _).2
    ⟨exSlowStreams, hs, rfl⟩

end Chandeliers.Props
