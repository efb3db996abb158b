import Verif.Spec.Clocked
import Verif.Lemmas.ClockedPasses
import Verif.Lemmas.ClockedUnique
import Verif.Props.Compile
import Verif.Props.Program
import Verif.Props.Presence

/-!
# Nodes with registers follow the clocked reference semantics

The reference is in `Verif/Spec/Clocked.lean`.  `pre`, `fby` and `->` only count the instants at which
their operands are present.
-/

set_option autoImplicit false

namespace Chandeliers.Props
open San Syn Spec Err Prg Den Clk Pres Uni

section
variable {o : TyOpts} {sigs : String → Option Sig} {consts : String → Option TyBase} {src : SrcNode}
  {n : Node}

/-- C18.  A node that is accepted with `#[universal_pre]`, run on any history without panicking.
There are streams for its variables, such that the inputs are what the node is given and the outputs
what it returns, and that agree with the clocked reference: at every instant, a variable whose clock
is not active has no value, and every equation and assertion agrees with the reference wherever this
one is initialised.

The nodes that it calls return nothing when their inputs are absent, and change nothing.

What is missing: `ProperStmt` asks that the operands of `->` other than the last one are initialised
up to this instant (F9) and that the branches of an `if` are present together (F12). -/
theorem C18_node_partial (A : Arith) (glob : Globals) {ms : List Machine}
    {nodes : String → Option Machine} (h : Passes true o sigs consts src n) (hb : BoundBeforeUse n)
    (hw : ∀ a ∈ src.inputs ++ src.outputs ++ src.locals, a.clk ≠ .adaptative)
    (hm : ∀ m ∈ ms, Idle m) (hL : Linked ms nodes n.blocks) {is os : List Value}
    (hr : (n.machine A glob ms).run is = .ok os) :
    ∃ X : String → Nat → Nillable Scalar,
      (∀ t i, (is.filter present)[t]? = some i → argNames src.inputs ≠ [] →
        i = together (X · t) (argNames src.inputs)) ∧
      os = spread (flatShape (argNames src.outputs).length) is
        (srcOutputs X src (is.filter present).length) ∧
      ∀ t, t < (is.filter present).length →
        (∀ st ∈ src.defs, ProperStmt ⟨A, SrcNode.vars src, X, glob, nodes⟩
          (SrcNode.clocks src) t st) →
        (∀ x, due X (SrcNode.clocks src x) t = false → X x t = .nil) ∧
        ∀ st ∈ src.defs, ClockedHolds ⟨A, SrcNode.vars src, X, glob, nodes⟩
          (SrcNode.clocks src) t st := by
  obtain ⟨n₁, n₂, c, ctx, clk, m, K, hf⟩ := passes_final h
  have hwir : WiredInOrder n := ⟨hf.wired, hb⟩
  obtain ⟨F, hs, ho⟩ := (C45_runs_are_solutions A glob ms hwir is os).1 hr
  have e4 : n.outputs.map (·.name) = argNames src.outputs := by
    rw [hf.final, hf.same, hf.start, ← args_names]
    simp [Node.withDepths, setDepths, Node.withClocks, Node.fill, Function.comp_def]
  have e5 : n.inputs.map (·.name) = argNames src.inputs := by
    rw [hf.final, hf.same, hf.start, ← args_names]
    simp [Node.withDepths, setDepths, Node.withClocks, Node.fill, Function.comp_def]
  refine ⟨F.X, fun t i hi hne => ?_, ?_, fun t ht hp => solution_clocked h hb hm hw hL hs ht hp⟩
  · rw [← e5] at hne ⊢
    exact assigns_inputs.1 (hs.inputs t i hi) hne
  · rw [ho, Node.outTy, ← e4, List.length_map]
    simp only [outputs, srcOutputs, together, ← e4, List.map_map, Function.comp_def]
    rfl

/-- C18.  The outputs are those of the reference.  When streams solve the equations of the node in the
clocked reference, over the inputs that are present, the node returns what they say.

What is missing: `ClockedSolution` asks that everything that is present is initialised, and
`ProperStmt` is as above. -/
theorem C18_outputs_partial (A : Arith) (glob : Globals) {ms : List Machine}
    {nodes : String → Option Machine} (h : Passes true o sigs consts src n) (hb : BoundBeforeUse n)
    (hw : ∀ a ∈ src.inputs ++ src.outputs ++ src.locals, a.clk ≠ .adaptative)
    (hm : ∀ m ∈ ms, Idle m) (hL : Linked ms nodes n.blocks) {is os : List Value}
    (hr : (n.machine A glob ms).run is = .ok os) {Y : String → Nat → Nillable Scalar}
    (hY : ClockedSolution ⟨A, SrcNode.vars src, Y, glob, nodes⟩ src (is.filter present))
    (hp : ∀ t, t < (is.filter present).length → ∀ st ∈ src.defs,
      ProperStmt ⟨A, SrcNode.vars src, Y, glob, nodes⟩ (SrcNode.clocks src) t st) :
    os = spread (flatShape (argNames src.outputs).length) is
      (srcOutputs Y src (is.filter present).length) := by
  obtain ⟨n₁, n₂, c, ctx, clk, m, K, hf⟩ := passes_final h
  have hwir : WiredInOrder n := ⟨hf.wired, hb⟩
  obtain ⟨F, hs, ho⟩ := (C45_runs_are_solutions A glob ms hwir is os).1 hr
  have e4 : n.outputs.map (·.name) = argNames src.outputs := by
    rw [hf.final, hf.same, hf.start, ← args_names]
    simp [Node.withDepths, setDepths, Node.withClocks, Node.fill, Function.comp_def]
  have hu := solution_unique_clocked h hb hm hw hL hs hY hp
  rw [← srcOutputs_congr hu, ho, Node.outTy, ← e4, List.length_map]
  simp only [outputs, srcOutputs, together, ← e4, List.map_map, Function.comp_def]
  rfl

end

/-- What linked programs are made of is not disturbed by absent inputs. -/
theorem linkNodes_idle {A : Arith} {X : Extern} {g : Globals} : {ds : List San.Decl} →
    {N N' : String → Option Machine} → (∀ x m, N x = some m → Idle m) →
    linkNodes A X g N ds = .ok N' → ∀ x m, N' x = some m → Idle m
  | [], N, N', hN, h => by cases h; exact hN
  | .node c :: ds, N, N', hN, h => by
    unfold linkNodes at h
    split at h
    · refine linkNodes_idle (fun x m hx => ?_) h
      split at hx
      · cases hx
        exact fun s i hi => by simp [Node.machine, Node.step, Candle.implicitClock, hi]
      · exact hN x m hx
    · cases h
  | .extNode c :: ds, N, N', hN, h => by
    unfold linkNodes at h
    split at h
    · refine linkNodes_idle (fun x m hx => ?_) h
      split at hx
      · cases hx
        exact fun s i hi => by simp [wrapExtern, Candle.implicitClock, hi]
      · exact hN x m hx
    · cases h
  | .const c :: ds, N, N', hN, h => by
    unfold linkNodes at h
    exact linkNodes_idle hN h
  | .extConst c :: ds, N, N', hN, h => by
    unfold linkNodes at h
    exact linkNodes_idle hN h

/-- C18.  The same for whole programs: the nodes that are called are those of the program. -/
theorem C18_program_partial (A : Arith) (X : Extern) {p : SrcProg} {p' : Prog} {w : List Report}
    {I : Items} (h : decl (compile p) = .done w (some p')) (hl : link A X p'.decls = .ok I)
    (hb : ∀ n, .node n ∈ p'.decls → BoundBeforeUse n)
    {attrs : List Attribute} {src : SrcNode} (hs : ⟨attrs, .node src⟩ ∈ p)
    (hu : hasAny attrs ["universal_pre"] = true)
    (hw : ∀ a ∈ src.inputs ++ src.outputs ++ src.locals, a.clk ≠ .adaptative) :
    ∃ m, I.nodes src.name = some m ∧ ∀ is os, m.run is = .ok os →
      ∃ S : String → Nat → Nillable Scalar,
        (∀ t i, (is.filter present)[t]? = some i → argNames src.inputs ≠ [] →
          i = together (S · t) (argNames src.inputs)) ∧
        os = spread (flatShape (argNames src.outputs).length) is
          (srcOutputs S src (is.filter present).length) ∧
        ∀ t, t < (is.filter present).length →
          (∀ st ∈ src.defs, ProperStmt ⟨A, SrcNode.vars src, S, I.consts, I.nodes⟩
            (SrcNode.clocks src) t st) →
          (∀ x, due S (SrcNode.clocks src x) t = false → S x t = .nil) ∧
          ∀ st ∈ src.defs, ClockedHolds ⟨A, SrcNode.vars src, S, I.consts, I.nodes⟩
            (SrcNode.clocks src) t st := by
  obtain ⟨q, hq, hp⟩ := accepted_passes h
  obtain ⟨hc, hn⟩ := link_ok hl
  obtain ⟨-, h2, -⟩ := linkNodes_values hp (fun _ _ => rfl) hn
  obtain ⟨n, ms, sigs, consts, k1, k2, k3, k4, k5⟩ := h2 attrs src (hq.mem_iff.2 hs)
  rw [show (meaning attrs).universalPre = true from hu] at k1
  refine ⟨_, k3, fun is os hr => C18_node_partial A I.consts k1 (hb n k2) hw (fun m hm => ?_) k4 hr⟩
  obtain ⟨i, hi, rfl⟩ := List.getElem_of_mem hm
  have h1 := k4 i n.blocks[i] (List.getElem?_eq_getElem (k5 ▸ hi))
  rw [List.getElem?_eq_getElem hi] at h1
  exact linkNodes_idle (N := fun _ => none) (by simp) hn _ _ h1.symm

/-- C18.  The same for whole programs. -/
theorem C18_program_outputs_partial (A : Arith) (X : Extern) {p : SrcProg} {p' : Prog}
    {w : List Report} {I : Items} (h : decl (compile p) = .done w (some p'))
    (hl : link A X p'.decls = .ok I) (hb : ∀ n, .node n ∈ p'.decls → BoundBeforeUse n)
    {attrs : List Attribute} {src : SrcNode} (hs : ⟨attrs, .node src⟩ ∈ p)
    (hu : hasAny attrs ["universal_pre"] = true)
    (hw : ∀ a ∈ src.inputs ++ src.outputs ++ src.locals, a.clk ≠ .adaptative) :
    ∃ m, I.nodes src.name = some m ∧ ∀ is os Y, m.run is = .ok os →
      ClockedSolution ⟨A, SrcNode.vars src, Y, I.consts, I.nodes⟩ src (is.filter present) →
      (∀ t, t < (is.filter present).length → ∀ st ∈ src.defs,
        ProperStmt ⟨A, SrcNode.vars src, Y, I.consts, I.nodes⟩ (SrcNode.clocks src) t st) →
      os = spread (flatShape (argNames src.outputs).length) is
        (srcOutputs Y src (is.filter present).length) := by
  obtain ⟨q, hq, hp⟩ := accepted_passes h
  obtain ⟨hc, hn⟩ := link_ok hl
  obtain ⟨-, h2, -⟩ := linkNodes_values hp (fun _ _ => rfl) hn
  obtain ⟨n, ms, sigs, consts, k1, k2, k3, k4, k5⟩ := h2 attrs src (hq.mem_iff.2 hs)
  rw [show (meaning attrs).universalPre = true from hu] at k1
  refine ⟨_, k3, fun is os Y hr hY hP =>
    C18_outputs_partial A I.consts k1 (hb n k2) hw (fun m hm => ?_) k4 hr hY hP⟩
  obtain ⟨i, hi, rfl⟩ := List.getElem_of_mem hm
  have h1 := k4 i n.blocks[i] (List.getElem?_eq_getElem (k5 ▸ hi))
  rw [List.getElem?_eq_getElem hi] at h1
  exact linkNodes_idle (N := fun _ => none) (by simp) hn _ _ h1.symm

/-! ## Non-vacuity -/

/-- The node `slow` has no `->` and no `if`. -/
theorem exSlowDefs (W : World) (D : String → Clock) (t : Nat) :
    ∀ st ∈ exSlow.defs, ProperStmt W D t st := by
  intro st hst
  simp only [exSlow, List.mem_cons, List.not_mem_nil, or_false] at hst
  rcases hst with rfl | rfl <;> simp [ProperStmt, Proper, ProperAll, ProperLeft]

/-- Inputs of `slow`. -/
def exSlowInputs : List Value :=
  [exPair false 1, exPair true 2, exPair false 3, exPair true 4, exPair true 5]

/-- Non-vacuity of C18: `o = merge b y (x whenot b)` and `y = (0 when b) fby (x when b)`.  The node
is accepted, its emitted code is in order, its statements are proper, and it runs: the register only
steps when `b` is true. -/
example : ∃ n, Passes true ⟨false, false, []⟩ (fun _ => none) (fun _ => none) exSlow n ∧
    BoundBeforeUse n ∧ n.blocks = [] ∧
    (∀ W D t, ∀ st ∈ exSlow.defs, ProperStmt W D t st) ∧
    ((n.machine exArith (fun _ => none) []).run exSlowInputs).toOption.map
      (fun os => os.map asInt) = some [some 1, some 0, some 3, some 2, some 4] := by
  have h : (runPasses true ⟨false, false, []⟩ (fun _ => none) (fun _ => none) exSlow).map
      (fun n => (clockInputs n, n.blocks.length,
        ((n.machine exArith (fun _ => none) []).run exSlowInputs).toOption.map
          (fun os => os.map asInt))) =
      some (true, 0, some [some 1, some 0, some 3, some 2, some 4]) := by decide +kernel
  obtain ⟨n, h1, h2⟩ := Option.map_eq_some_iff.1 h
  simp only [Prod.mk.injEq] at h2
  obtain ⟨e1, e3, e4⟩ := h2
  have hp := runPasses_passes h1
  exact ⟨n, hp, (passes_wired hp (clockInputs_sound e1)).sorted, List.length_eq_zero_iff.1 e3,
    exSlowDefs, e4⟩

/-- The streams of the inputs of `slow`. -/
def exSlowWorld : World where
  arith := exArith
  locals := SrcNode.vars exSlow
  X := fun x t =>
    match exSlowInputs[t]? with
    | some (.tup (.leaf b) [.leaf x']) => if x = "b" then b else if x = "x" then x' else .nil
    | _ => .nil
  glob := fun _ => none
  nodes := fun _ => none

/-- What `y` is defined by. -/
def exSlowY : Src := .fby (.left (.lit (.int 0)) [(.when, .var "b")])
  [.paren [.left (.var "x") [(.when, .var "b")]] false]

/-- The reference: `y` is present at the instants 1, 3 and 4, where it is `0`, `2` and `4`. -/
example : ((List.range 5).map fun t => if clockedOn exSlowWorld (SrcNode.clocks exSlow) exSlowY t then
      (clocked exSlowWorld (SrcNode.clocks exSlow) exSlowY t).bind asInt else none) =
    [none, some 0, none, some 2, some 4] := by decide +kernel

/-- The streams of `slow`. -/
def exSlowStreams (x : String) (t : Nat) : Nillable Scalar :=
  if x = "b" then (([false, true, false, true, true][t]?).elim .nil fun b => .defined (.bool b))
  else
    match (if x = "x" then [some 1, some 2, some 3, some 4, some 5]
      else if x = "y" then [none, some 0, none, some 2, some 4]
      else if x = "o" then [some 1, some 0, some 3, some 2, some 4] else [])[t]? with
    | some (some v) => .defined (.int v)
    | _ => .nil

/-- Non-vacuity of the second part: these streams are a solution in the reference. -/
example : ClockedSolution
    ⟨exArith, SrcNode.vars exSlow, exSlowStreams, fun _ => none, fun _ => none⟩ exSlow
    exSlowInputs where
  inputs := by
    intro t i hi _
    match t, hi with
    | 0, hi => cases hi; rfl
    | 1, hi => cases hi; rfl
    | 2, hi => cases hi; rfl
    | 3, hi => cases hi; rfl
    | 4, hi => cases hi; rfl
  absent := by
    intro t ht x hx
    have hx' : x = "y" := by
      by_contra hne
      have : SrcNode.clocks exSlow x = .implicit := by
        unfold SrcNode.clocks
        split
        · rename_i a h1
          have h2 := List.find?_some h1
          have h3 := List.mem_of_find?_eq_some h1
          simp [exSlow] at h3
          rcases h3 with rfl | rfl | rfl | rfl <;> simp_all
        · rfl
      simp [this, due] at hx
    subst hx'
    match t, ht with
    | 0, _ => rfl
    | 1, _ => exact absurd hx (by decide)
    | 2, _ => rfl
    | 3, _ => exact absurd hx (by decide)
    | 4, _ => exact absurd hx (by decide)
  defs := by
    intro t ht st hst
    simp only [exSlow, List.mem_cons, List.not_mem_nil, or_false] at hst
    rcases hst with rfl | rfl
    · intro _
      match t, ht with
      | 0, _ => exact ⟨.leaf (.defined (.int 1)), rfl, rfl⟩
      | 1, _ => exact ⟨.leaf (.defined (.int 0)), rfl, rfl⟩
      | 2, _ => exact ⟨.leaf (.defined (.int 3)), rfl, rfl⟩
      | 3, _ => exact ⟨.leaf (.defined (.int 2)), rfl, rfl⟩
      | 4, _ => exact ⟨.leaf (.defined (.int 4)), rfl, rfl⟩
    · intro h
      match t, ht with
      | 0, _ => exact absurd h (by decide)
      | 1, _ => exact ⟨.leaf (.defined (.int 0)), rfl, rfl⟩
      | 2, _ => exact absurd h (by decide)
      | 3, _ => exact ⟨.leaf (.defined (.int 2)), rfl, rfl⟩
      | 4, _ => exact ⟨.leaf (.defined (.int 4)), rfl, rfl⟩

/-! ## Counterexamples -/

/-- F9.  `o = 5 -> x + ((pre x) -> x)` with `#[universal_pre]` is accepted.  At instant 1 the
reference says that `o` is `x + x`, which is 4, but the second `->` waits for a value of its
left-hand side. -/
theorem C18_counterexample_arrow :
    runIn noExtern (oneNode universal (.arrow (.lit (.int 5)) [.left (.var "x")
        [(.add, .paren [.arrow (.pre (.var "x")) [.var "x"]] false)]]))
      "f" [exPair true 1, exPair true 2, exPair true 3] = some [some 5, some 3, some 6] := by
  decide +kernel

/-- F12.  `exConstCond` with `#[universal_pre]`. -/
theorem C18_counterexample_condition :
    runIn noExtern (exConstCond.map fun d => { d with attrs := universal })
      "f" [exPair false 1, exPair true 2, exPair true 3] = some [some 0, some 2, some 3] := by
  decide +kernel

end Chandeliers.Props
