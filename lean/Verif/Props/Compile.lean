import Verif.Lemmas.Ready
import Verif.Props.Safety
import Verif.Props.Translate
import Verif.Props.Clocks

/-!
# From the source to the machine

C47: what goes through all the passes does what its source says.
-/

set_option autoImplicit false

namespace Chandeliers.Props
open Chandeliers.San Chandeliers.Spec Chandeliers.Syn Chandeliers.Err Chandeliers.Den

section
variable {b : Bool} {o : TyOpts} {sigs : String → Option Sig} {consts : String → Option TyBase}
  {src : SrcNode} {n : Node}

theorem passes_default (h : Passes false o sigs consts src n) : InputClocks n ∧ FlatRegisters n := by
  obtain ⟨n₁, n₂, c, ctx, clk, m, K, hf⟩ := passes_final h
  have hr : c.registers = 0 := (hf.built.plain rfl).1
  refine ⟨fun id i k hm => ?_, fun t ht => ?_⟩
  · have h1 : id ∈ initialised n.stmts := mem_initialised'.2 ⟨_, _, hm⟩
    rw [hf.final_stmts, initialised_withClocks, (initialised_perm hf.perm).mem_iff,
      hf.built.inits.mem_iff, regsBetween, hr] at h1
    simp at h1
  · have e : n.registers = [] := by
      rw [hf.final, hf.same, hf.start]
      simp [Node.withDepths, Node.withClocks, Node.fill, hr]
    rw [e] at ht
    cases ht

theorem passes_wired (h : Passes b o sigs consts src n) (hi : InputClocks n) : WiredInOrder n := by
  obtain ⟨n₁, n₂, c, ctx, clk, m, K, hf⟩ := passes_final h
  exact ⟨hf.wired, hf.sorted hi⟩

/-- The equations of a node without registers have the same solutions before and after
compilation. -/
theorem passes_solution {A : Arith} {glob : Globals} {ms : List Machine}
    {nodes : String → Option Machine} (h : Passes false o sigs consts src n)
    (hL : Linked ms nodes n.blocks) (F : Flow) (is : List Value) :
    Solution A glob ms F n is ↔ SrcSolution ⟨A, SrcNode.vars src, F.X, glob, nodes⟩ src is := by
  obtain ⟨n₁, n₂, c, ctx, clk, m, K, hf⟩ := passes_final h
  have hr : c.registers = 0 := (hf.built.plain rfl).1
  have e1 : n₁.registers = [] := by rw [hf.start]; simp [hr]
  have e2 : n.registers = [] := by
    rw [hf.final, hf.same]; simp [Node.withDepths, Node.withClocks, Node.fill, e1]
  have hno : ∀ st ∈ n₂.stmts, Stmt.withClocks clk st = st := by
    intro st hst
    cases st with
    | initRegister id i k =>
      have h1 : id ∈ initialised n₂.stmts := mem_initialised'.2 ⟨_, _, hst⟩
      rw [(initialised_perm hf.perm).mem_iff, hf.built.inits.mem_iff, regsBetween, hr] at h1
      simp at h1
    | _ => rfl
  have e3 : n.stmts.Perm n₁.stmts := by
    rw [hf.final_stmts, List.map_congr_left hno, List.map_id']
    have : n₁.stmts = c.stmts := by rw [hf.start]
    rw [this]
    exact hf.perm
  have hb : n.blocks.map (·.name) = n₁.blocks.map (·.name) := by
    rw [hf.final, hf.same]
    simp only [Node.withDepths, Node.withClocks, Node.fill]
    apply List.ext_getElem?
    intro i
    simp
    cases n₁.blocks[i]? <;> rfl
  have hL' : Linked ms nodes n₁.blocks := by
    intro i bl hbl
    have h1 : (n.blocks.map (·.name))[i]? = some bl.name := by rw [hb]; simp [hbl]
    rw [List.getElem?_map, Option.map_eq_some_iff] at h1
    obtain ⟨b', h2, h3⟩ := h1
    rw [hL i b' h2, h3]
  have hin : inputPattern n.inputs = inputPattern n₁.inputs := by
    have := hf.inputs_names
    simp only [inputPattern]
    congr 1
    have h2 := congrArg (List.map VarTuple.single) this
    simpa [Function.comp_def] using h2
  rw [← solution_translate hf.translated hL']
  constructor
  · intro hs
    exact ⟨fun id ty he => by simp [e1] at he, fun t i ht => hin ▸ hs.inputs t i ht,
      fun t ht st hst => hs.stmts t ht st (e3.mem_iff.2 hst)⟩
  · intro hs
    exact ⟨fun id ty he => by simp [e2] at he, fun t i ht => hin ▸ hs.inputs t i ht,
      fun t ht st hst => hs.stmts t ht st (e3.mem_iff.1 hst)⟩

theorem passes_outputs (h : Passes b o sigs consts src n) :
    n.outputs.map (·.name) = argNames src.outputs := by
  obtain ⟨n₁, n₂, c, ctx, clk, m, K, hf⟩ := passes_final h
  rw [hf.final, hf.same, hf.start, ← args_names]
  simp [Node.withDepths, setDepths, Node.withClocks, Node.fill, Function.comp_def]

/-- C47.  Without registers: a node that the compiler accepts, run on any history, returns what the
solution of the equations of its source says, at the instants where its inputs are present, and it
panics exactly when the equations have no solution.  `nodes` are the nodes that it calls, whatever
they do. -/
theorem C47_node (A : Arith) (glob : Globals) {ms : List Machine}
    {nodes : String → Option Machine} (h : Passes false o sigs consts src n)
    (hL : Linked ms nodes n.blocks) (is os : List Value) :
    (n.machine A glob ms).run is = .ok os ↔
      ∃ X, SrcSolution ⟨A, SrcNode.vars src, X, glob, nodes⟩ src (is.filter present) ∧
        os = spread (flatShape (argNames src.outputs).length) is
          (srcOutputs X src (is.filter present).length) := by
  have e4 := passes_outputs h
  have hout : ∀ F : Flow, outputs F n (is.filter present).length =
      srcOutputs F.X src (is.filter present).length := by
    intro F
    simp only [outputs, srcOutputs, together, ← e4, List.map_map, Function.comp_def]
    rfl
  have hty : n.outTy = flatShape (argNames src.outputs).length := by
    rw [Node.outTy, ← e4, List.length_map]
  rw [C45_runs_are_solutions A glob ms (passes_wired h (passes_default h).1), hty]
  constructor
  · rintro ⟨F, h1, h2⟩
    exact ⟨F.X, (passes_solution h hL F _).1 h1, hout F ▸ h2⟩
  · rintro ⟨X, h1, h2⟩
    refine ⟨⟨X, default, fun _ => .leaf ()⟩, (passes_solution h hL _ _).2 h1, ?_⟩
    rw [hout]
    exact h2

/-- C26.  Without registers: two accepted nodes whose sources differ only by the order of their
equations return the same outputs on the same histories and panic on the same histories. -/
theorem C26_equations_order (A : Arith) (glob : Globals) {ms ms' : List Machine}
    {nodes : String → Option Machine} {o' : TyOpts} {sigs' : String → Option Sig}
    {consts' : String → Option TyBase} {defs : List SrcStmt} {n' : Node}
    (h : Passes false o sigs consts src n)
    (h' : Passes false o' sigs' consts' { src with defs := defs } n') (hd : defs.Perm src.defs)
    (hL : Linked ms nodes n.blocks) (hL' : Linked ms' nodes n'.blocks) (is os : List Value) :
    (n.machine A glob ms).run is = .ok os ↔ (n'.machine A glob ms').run is = .ok os := by
  rw [C47_node A glob h hL, C47_node A glob h' hL']
  refine exists_congr fun X => and_congr_left fun _ => ?_
  constructor
  · intro hs
    exact ⟨hs.inputs, fun t ht st hst => hs.defs t ht st (hd.mem_iff.1 hst)⟩
  · intro hs
    exact ⟨hs.inputs, fun t ht st hst => hs.defs t ht st (hd.mem_iff.2 hst)⟩

/-- C28.  A node that the compiler accepts never goes wrong: given well-typed constants and
subnodes it answers well-typed inputs with well-typed outputs, at every instance of its type, and
if it panics it is for a reason that the types do not exclude.  With registers, their clocks are
inputs and they do not hold tuples of one element. -/
theorem C28_compiled_node (A : Arith) {glob : Globals} {ms : List Machine}
    (hw : ∀ f s, sigs f = some s → s.Wf) (h : Passes b o sigs consts src n)
    (hu : b = true → InputClocks n ∧ FlatRegisters n) (hc : ConstsOk consts glob)
    (hs : SubsOk sigs n ms) (θ : Subst) :
    Respects (n.machine A glob ms) (substTy θ (flatTuple (n.inputs.map (·.ty))))
      (substTy θ (flatTuple (n.outputs.map (·.ty)))) := by
  have hu' : InputClocks n ∧ FlatRegisters n := by
    cases b with
    | false => exact passes_default h
    | true => exact hu rfl
  obtain ⟨n₁, n₂, c, ctx, clk, m, K, hf⟩ := passes_final h
  exact C28_node hw (hf.ready hw hu'.1 hu'.2) hc hs θ

/-! ## Examples -/

/-- The signature of `counter`. -/
def exCompSigs : String → Option Sig := fun f =>
  if f = "counter" then some ([], [.bool], [.int]) else none

/-- The node that a check returns. -/
def accepted (r : Res Node × (EAccum Diag × Unit)) : Option Node :=
  match r.1 with
  | .some n => some n
  | _ => none

theorem accepted_some {r : Res Node × (EAccum Diag × Unit)} {n : Node} (h : accepted r = some n) :
    r = (.some n, r.2) := by
  obtain ⟨r, s⟩ := r
  cases r <;> simp_all [accepted]

/-- Run the passes. -/
def runPasses (universalPre : Bool) (o : TyOpts) (sigs : String → Option Sig)
    (consts : String → Option TyBase) (src : SrcNode) : Option Node := do
  let n ← (src.translate universalPre).toOption
  let n ← n.causality.toOption
  let n ← accepted (n.typecheck o sigs consts (⟨[], []⟩, ()))
  let n ← accepted (n.clockcheck (⟨[], []⟩, ()))
  accepted (n.makePositive (⟨[], []⟩, ()))

theorem runPasses_passes (h : runPasses b o sigs consts src = some n) :
    Passes b o sigs consts src n := by
  unfold runPasses at h
  obtain ⟨n₁, h1, h⟩ := Option.bind_eq_some_iff.1 h
  obtain ⟨n₂, h2, h⟩ := Option.bind_eq_some_iff.1 h
  obtain ⟨n₃, h3, h⟩ := Option.bind_eq_some_iff.1 h
  obtain ⟨n₄, h4, h⟩ := Option.bind_eq_some_iff.1 h
  refine ⟨n₁, n₂, n₃, n₄, ?_, ?_, ⟨_, _, accepted_some h3⟩, ⟨_, _, accepted_some h4⟩,
    ⟨_, _, accepted_some h⟩⟩
  · cases hx : src.translate b with
    | ok x => rw [hx] at h1; cases h1; rfl
    | error e => rw [hx] at h1; cases h1
  · cases hx : n₁.causality with
    | ok x => rw [hx] at h2; cases h2; rfl
    | error e => rw [hx] at h2; cases h2

/-- `exSrc` goes through all the passes. -/
theorem exSrc_passes : ∃ n, Passes false ⟨false, false, []⟩ exCompSigs (fun _ => none) exSrc n ∧
    n.blocks.map (·.name) = ["counter", "counter"] := by
  have h : (runPasses false ⟨false, false, []⟩ exCompSigs (fun _ => none) exSrc).map
      (fun n => n.blocks.map (·.name)) = some ["counter", "counter"] := by decide +kernel
  obtain ⟨n, h1, h2⟩ := Option.map_eq_some_iff.1 h
  exact ⟨n, runPasses_passes h1, h2⟩

/-- Non-vacuity of C47: the compiled node has the run that the solution of its source predicts. -/
example : ∃ n, Passes false ⟨false, false, []⟩ exCompSigs (fun _ => none) exSrc n ∧
    (n.machine exArith (fun _ => none) (exSubs ++ exSubs)).run [exInt 1, exInt 1] =
      .ok [.tup (exInt 0) [exInt 0], .tup (exInt 1) [.leaf .nil]] := by
  obtain ⟨n, h, hb⟩ := exSrc_passes
  refine ⟨n, h, (C47_node exArith _ (nodes := exNodes) h ?_ _ _).2 ⟨exX, exSrc_solution, rfl⟩⟩
  intro i b hi
  have h1 : (n.blocks.map (·.name))[i]? = some b.name := by simp [hi]
  rw [hb] at h1
  match i, h1 with
  | 0, h1 => simp at h1; rw [← h1]; rfl
  | 1, h1 => simp at h1; rw [← h1]; rfl

/-- Non-vacuity of C26: the equations of `exSrc` in reverse order are accepted as well. -/
example : ∃ n, Passes false ⟨false, false, []⟩ exCompSigs (fun _ => none)
    { exSrc with defs := exSrc.defs.reverse } n := by
  have h : (runPasses false ⟨false, false, []⟩ exCompSigs (fun _ => none)
    { exSrc with defs := exSrc.defs.reverse }).isSome = true := by decide +kernel
  obtain ⟨n, h⟩ := Option.isSome_iff_exists.1 h
  exact ⟨n, runPasses_passes h⟩

/-- A test for the hypothesis on clocks. -/
def clockInputs (n : Node) : Bool := n.stmts.all fun
  | .initRegister _ _ (some (.lit _)) => true
  | .initRegister _ _ (some (.var x 0)) => x ∈ n.inputs.map (·.name)
  | .initRegister _ _ (some (.un .not (.var x 0))) => x ∈ n.inputs.map (·.name)
  | .initRegister _ _ (some _) => false
  | _ => true

theorem clockInputs_sound (h : clockInputs n = true) : InputClocks n := by
  intro id i c hc x hx
  have h1 := List.all_eq_true.1 h _ hc
  have h2 := mem_parts_of_part hx
  split at h1 <;> rename_i hs <;> simp_all [parts]

/-- A test for the hypothesis on types. -/
def scalarRegisters (n : Node) : Bool := n.registers.all fun
  | some (.single _) => true
  | _ => false

theorem scalarRegisters_sound (h : scalarRegisters n = true) : FlatRegisters n := by
  intro t ht
  have h1 := List.all_eq_true.1 h _ ht
  cases t with
  | single b => trivial
  | multiple ts => cases h1

/-- Non-vacuity of C28 with registers: the node that holds its input while `b` is true. -/
example : ∃ n, Passes true ⟨false, false, []⟩ (fun _ => none) (fun _ => none) exSlow n ∧
    Respects (n.machine exArith (fun _ => none) []) (.multiple [.single .bool, .single .int])
      (.single .int) := by
  have h : (runPasses true ⟨false, false, []⟩ (fun _ => none) (fun _ => none) exSlow).map
      (fun n => (clockInputs n, scalarRegisters n, n.blocks.length,
        n.inputs.map (·.ty), n.outputs.map (·.ty))) =
      some (true, true, 0, [.bool, .int], [.int]) := by decide +kernel
  obtain ⟨n, h1, h2⟩ := Option.map_eq_some_iff.1 h
  simp only [Prod.mk.injEq] at h2
  obtain ⟨e1, e2, e3, e4, e5⟩ := h2
  have hp := runPasses_passes h1
  refine ⟨n, hp, ?_⟩
  have := C28_compiled_node (glob := fun _ => none) (ms := []) exArith (fun f s h => by cases h) hp
    (fun _ => ⟨clockInputs_sound e1, scalarRegisters_sound e2⟩)
    (fun x t h => by cases h)
    (fun i b hb => by rw [List.length_eq_zero_iff.1 e3] at hb; simp at hb) (fun x => .other x)
  rw [e4, e5] at this
  exact this

end

end Chandeliers.Props
