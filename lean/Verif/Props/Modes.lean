import Verif.Lemmas.Unclocked
import Verif.Props.Clocked

/-!
# Both compilation modes

The outputs of a node are those that Lustre gives to its equations, with or without
`#[universal_pre]`.
-/

set_option autoImplicit false

namespace Chandeliers.Props
open San Syn Spec Err Prg Den Clk Pres Uni

section
variable {o o' : TyOpts} {sigs sigs' : String → Option Sig} {consts consts' : String → Option TyBase}
  {src : SrcNode} {n n' : Node}

/-- C16.  The outputs are those of the usual semantics.  When streams solve the equations of a node
in Lustre, over the inputs that are present, and the node is accepted in the default mode, then it
returns what they say. -/
theorem C16_outputs (A : Arith) (glob : Globals) {ms : List Machine}
    {nodes : String → Option Machine} (h : Passes false o sigs consts src n)
    (hL : Linked ms nodes n.blocks) {is os : List Value}
    (hr : (n.machine A glob ms).run is = .ok os) {Y : String → Nat → Nillable Scalar}
    (hY : LustreSolution ⟨A, SrcNode.vars src, Y, glob, nodes⟩ src (is.filter present)) :
    os = spread (flatShape (argNames src.outputs).length) is
      (srcOutputs Y src (is.filter present).length) := by
  have hwir := passes_wired h (passes_default h).1
  obtain ⟨F, hs, ho⟩ := (C45_runs_are_solutions A glob ms hwir is os).1 hr
  obtain ⟨n₁, n₂, c, ctx, clk, m, K, hf⟩ := passes_final h
  have e4 : n.outputs.map (·.name) = argNames src.outputs := by
    rw [hf.final, hf.same, hf.start, ← args_names]
    simp [Node.withDepths, setDepths, Node.withClocks, Node.fill, Function.comp_def]
  have hu := solution_unique_lustre h hwir hL hs hY
  rw [← srcOutputs_congr hu, ho, Node.outTy, ← e4, List.length_map]
  simp only [outputs, srcOutputs, together, ← e4, List.map_map, Function.comp_def]
  rfl

/-- C42.  A node without clocks, accepted both with and without `#[universal_pre]`.  When its
equations have a solution in the clocked reference, where everything is initialised, the two nodes
return the same outputs if they do not panic.

What is missing: `ProperStmt` asks that the operands of `->` other than the last one are
initialised (F9). -/
theorem C42_modes_partial (A : Arith) (glob : Globals) {ms ms' : List Machine}
    {nodes : String → Option Machine} (hu : UnclockedNode src)
    (h : Passes false o sigs consts src n) (h' : Passes true o' sigs' consts' src n')
    (hb : BoundBeforeUse n') (hm : ∀ m ∈ ms', Idle m)
    (hL : Linked ms nodes n.blocks) (hL' : Linked ms' nodes n'.blocks) {is os os' : List Value}
    (hr : (n.machine A glob ms).run is = .ok os) (hr' : (n'.machine A glob ms').run is = .ok os')
    {Y : String → Nat → Nillable Scalar}
    (hY : ClockedSolution ⟨A, SrcNode.vars src, Y, glob, nodes⟩ src (is.filter present))
    (hp : ∀ t, t < (is.filter present).length → ∀ st ∈ src.defs,
      ProperStmt ⟨A, SrcNode.vars src, Y, glob, nodes⟩ (SrcNode.clocks src) t st) : os = os' := by
  have hD : ∀ x, SrcNode.clocks src x = .implicit := by
    intro x
    unfold SrcNode.clocks
    split
    · exact hu.1 _ (List.mem_of_find?_eq_some ‹_›)
    · rfl
  have hl : LustreSolution ⟨A, SrcNode.vars src, Y, glob, nodes⟩ src (is.filter present) := by
    refine ⟨hY.inputs, fun t ht st hst => ?_⟩
    have h1 := hY.defs t ht st hst
    have h2 := hu.2 st hst
    cases st with
    | def_ p e =>
      obtain ⟨w, h3, h4⟩ := h1 (unclocked_on hD e h2 t)
      exact ⟨w, clocked_lustre hD e h2 h3, h4⟩
    | assert e => trivial
  rw [C16_outputs A glob h hL hr hl, C18_outputs_partial A glob h' hb
    (fun a ha => by rw [hu.1 a ha]; simp) hm hL' hr' hY hp]

end

/-! ## Non-vacuity -/

/-- `o = (0 -> pre o) + x`. -/
def exSum : SrcNode where
  name := "sum"
  inputs := [⟨["x"], .int, .implicit⟩]
  outputs := [⟨["o"], .int, .implicit⟩]
  locals := []
  defs := [.def_ (.var "o") (.left (.paren [.arrow (.lit (.int 0)) [.pre (.var "o")]] false)
    [(.add, .var "x")])]

/-- The solution for the inputs 1, 2, 3. -/
def exSumY (x : String) (t : Nat) : Nillable Scalar :=
  match (if x = "x" then [1, 2, 3] else if x = "o" then [1, 3, 6] else [])[t]? with
  | some v => .defined (.int v)
  | none => .nil

example : ∃ n n', Passes false ⟨false, false, []⟩ (fun _ => none) (fun _ => none) exSum n ∧
    Passes true ⟨false, false, []⟩ (fun _ => none) (fun _ => none) exSum n' ∧
    BoundBeforeUse n' ∧ n.blocks = [] ∧ n'.blocks = [] ∧ UnclockedNode exSum ∧
    ((n.machine exArith (fun _ => none) []).run [exInt 1, exInt 2, exInt 3]).toOption.map
      (fun os => os.map asInt) = some [some 1, some 3, some 6] ∧
    ((n'.machine exArith (fun _ => none) []).run [exInt 1, exInt 2, exInt 3]).toOption.map
      (fun os => os.map asInt) = some [some 1, some 3, some 6] := by
  have h : (runPasses false ⟨false, false, []⟩ (fun _ => none) (fun _ => none) exSum).map
      (fun n => (n.blocks.length,
        ((n.machine exArith (fun _ => none) []).run [exInt 1, exInt 2, exInt 3]).toOption.map
          (fun os => os.map asInt))) = some (0, some [some 1, some 3, some 6]) := by decide +kernel
  have h' : (runPasses true ⟨false, false, []⟩ (fun _ => none) (fun _ => none) exSum).map
      (fun n => (clockInputs n, n.blocks.length,
        ((n.machine exArith (fun _ => none) []).run [exInt 1, exInt 2, exInt 3]).toOption.map
          (fun os => os.map asInt))) = some (true, 0, some [some 1, some 3, some 6]) := by
    decide +kernel
  obtain ⟨n, h1, h2⟩ := Option.map_eq_some_iff.1 h
  obtain ⟨n', h1', h2'⟩ := Option.map_eq_some_iff.1 h'
  simp only [Prod.mk.injEq] at h2 h2'
  have hp := runPasses_passes h1'
  refine ⟨n, n', runPasses_passes h1, hp, (passes_wired hp (clockInputs_sound h2'.1)).sorted,
    List.length_eq_zero_iff.1 h2.1, List.length_eq_zero_iff.1 h2'.2.1, ⟨?_, ?_⟩, h2.2, h2'.2.2⟩
  · simp [exSum]
  · simp [exSum, Unclocked, UnclockedAll, UnclockedLeft]

/-- The solution. -/
theorem exSum_solution : ClockedSolution
    ⟨exArith, SrcNode.vars exSum, exSumY, fun _ => none, fun _ => none⟩ exSum
    [exInt 1, exInt 2, exInt 3] where
  inputs := by
    intro t i hi _
    match t, hi with
    | 0, hi => cases hi; rfl
    | 1, hi => cases hi; rfl
    | 2, hi => cases hi; rfl
  absent := by
    intro t ht x hx
    have : SrcNode.clocks exSum x = .implicit := by
      unfold SrcNode.clocks
      split
      · have := List.mem_of_find?_eq_some ‹_›
        simp [exSum] at this
        rcases this with rfl | rfl <;> rfl
      · rfl
    simp [this, due] at hx
  defs := by
    intro t ht st hst
    simp only [exSum, List.mem_singleton] at hst
    subst hst
    intro _
    match t, ht with
    | 0, _ => exact ⟨.leaf (.defined (.int 1)), rfl, rfl⟩
    | 1, _ => exact ⟨.leaf (.defined (.int 3)), rfl, rfl⟩
    | 2, _ => exact ⟨.leaf (.defined (.int 6)), rfl, rfl⟩

/-- The solution in Lustre. -/
example : LustreSolution
    ⟨exArith, SrcNode.vars exSum, exSumY, fun _ => none, fun _ => none⟩ exSum
    [exInt 1, exInt 2, exInt 3] where
  inputs := exSum_solution.inputs
  defs := by
    intro t ht st hst
    simp only [exSum, List.mem_singleton] at hst
    subst hst
    match t, ht with
    | 0, _ => exact ⟨.leaf (.defined (.int 1)), rfl, rfl⟩
    | 1, _ => exact ⟨.leaf (.defined (.int 3)), rfl, rfl⟩
    | 2, _ => exact ⟨.leaf (.defined (.int 6)), rfl, rfl⟩

/-- The left-hand side of `->` is always initialised. -/
example : ∀ t, ∀ st ∈ exSum.defs, ProperStmt
    ⟨exArith, SrcNode.vars exSum, exSumY, fun _ => none, fun _ => none⟩ (SrcNode.clocks exSum) t st := by
  intro t st hst
  simp only [exSum, List.mem_singleton] at hst
  subst hst
  simp only [ProperStmt, Proper, ProperAll, ProperLeft, Started, clocked]
  simp [litValue]

/-! ## Counterexamples -/

/-- F9.  `o = 5 -> x + ((pre x) -> x)` is accepted in both modes and gives different outputs:
`x + x` at instant 1 in the default mode, as in Lustre, and `x + pre x` with `#[universal_pre]`. -/
theorem C42_counterexample_arrow :
    let e : Src := .arrow (.lit (.int 5)) [.left (.var "x")
        [(.add, .paren [.arrow (.pre (.var "x")) [.var "x"]] false)]]
    let is := [exPair true 1, exPair true 2, exPair true 3]
    runIn noExtern (oneNode [] e) "f" is = some [some 5, some 4, some 6] ∧
    runIn noExtern (oneNode universal e) "f" is = some [some 5, some 3, some 6] := by
  decide +kernel

end Chandeliers.Props
