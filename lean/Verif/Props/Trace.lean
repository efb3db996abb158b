import Verif.Lemmas.Trace
import Verif.Lemmas.PositiveNode
import Verif.Props.Program

/-!
# Tracing

C51: `#[trace]` shows the values that a node computes, and changes nothing else.
-/

set_option autoImplicit false

namespace Chandeliers.Props
open Chandeliers.San Chandeliers.Spec Chandeliers.Syn Chandeliers.Err Chandeliers.Prg Chandeliers.Den
open Chandeliers.Prt

/-! ## Nothing changes -/

theorem passes_defined {b : Bool} {o : TyOpts} {sigs : String → Option Sig}
    {consts : String → Option TyBase} {src : SrcNode} {n : Node} (h : Passes b o sigs consts src n) :
    Wired n := by
  obtain ⟨n₁, n₂, c, ctx, clk, m, K, hf⟩ := passes_final h
  exact hf.wired

theorem prog_defined {sigs : String → Option Sig} {consts : String → Option TyBase} {q : List SrcDecl}
    {ds : List San.Decl} (h : ProgPasses sigs consts q ds) : AllDefined ds := by
  induction h with
  | nil => intro n hn; cases hn
  | const _ _ _ _ ih => intro n hn; exact ih n (by simpa using hn)
  | extConst _ _ ih => intro n hn; exact ih n (by simpa using hn)
  | extNode _ _ _ _ ih => intro n hn; exact ih n (by simpa using hn)
  | node h _ _ ih =>
    intro n hn
    simp only [List.mem_cons, San.Decl.node.injEq] at hn
    rcases hn with rfl | hn
    · exact (passes_defined h).defined
    · exact ih n hn

/-- C51.  Tracing is transparent: whatever nodes of an accepted program are traced, and with whatever
formats, provided that they only mention variables of the node, the items of the program are those of
the program without tracing, but for what they print. -/
theorem C51_transparent (A : Arith) (D : Shows) (X : ExternW) (trace : String → Option TraceOpt)
    {p : SrcProg} {p' : Prog} {w : List Report} (h : decl (compile p) = .done w (some p'))
    (hf : ProgFits trace p'.decls) :
    link A X.quiet p'.decls = (linkW A D X trace p'.decls).map ItemsW.quiet := by
  obtain ⟨q, hq, hp⟩ := accepted_passes h
  exact link_quiet hf (prog_defined hp)

/-- C51.  So every run of every node returns the same values, or the same panic. -/
theorem C51_same_runs (m : TMachine) : (is : List Value) → (s : m.σ) →
    (m.runFrom s is).res = m.quiet.runFrom s is
  | [], _ => rfl
  | i :: is, s => by
    simp only [TMachine.runFrom, Machine.runFrom]
    refine bind_res rfl fun ⟨o, s'⟩ _ => ?_
    exact bind_res (C51_same_runs m is s') fun _ _ => rfl

/-! ## What is printed -/

/-- C51.  A node prints nothing at the instants where its inputs are absent. -/
theorem C51_silent_when_absent (A : Arith) (D : Shows) (glob : Globals) (ms : List TMachine)
    (trace : Option TraceOpt) (n : Node) (s : WState ms) {i : Value} (hi : present i = false) :
    ((n.machineW A D glob ms trace).step s i).out = [] := by
  have : i.firstIsNil = true := by simpa [present] using hi
  simp [Node.machineW, implicitClockW, this, pure_out]

theorem readOutputs_assigns {env : Env} : {vs : List TyVar} → {os : List Value} →
    readOutputs env vs = .ok os →
    AssignsList (valuesOf env) (vs.map fun v => .single v.name) os
  | [], os, h => by cases h; trivial
  | v :: vs, os, h => by
    simp only [readOutputs] at h
    split at h
    · rename_i w hw
      obtain ⟨os', h1, h⟩ := ok_bind.1 h
      cases h
      exact ⟨by simp [Assigns, valuesOf, hw], readOutputs_assigns h1⟩
    · cases h

theorem outputs_assigns {X : String → Nillable Scalar} : {ps : List VarTuple} → {os : List Value} →
    AssignsList X ps os → Assigns X (.multiple ps) (tupleValue os)
  | [], [], _ => trivial
  | [p], [v], h => h.1
  | p :: p' :: ps, v :: v' :: vs, h => h
  | [], _ :: _, h => by cases h
  | _ :: _, [], h => by simp [AssignsList] at h
  | [_], _ :: _ :: _, h => by simp [AssignsList] at h
  | _ :: _ :: _, [_], h => by simp [AssignsList] at h

theorem finish_outputs {ms : List Machine} {n : Node} {env : Env} {s s' : NodeState ms} {r : Value}
    (h : finish ms n env s = .ok (r, s')) : Assigns (valuesOf env) (inputPattern n.outputs) r := by
  unfold finish at h
  obtain ⟨s1, _, h⟩ := ok_bind.1 h
  obtain ⟨os, h2, h⟩ := ok_bind.1 h
  cases h
  exact outputs_assigns (readOutputs_assigns h2)

theorem finish_err {ms : List Machine} {n : Node} {env : Env} {s : NodeState ms} {p : Panic}
    (h : finish ms n env s = .error p) : p = .rejected := by
  unfold finish at h
  rcases err_bind.1 h with h | ⟨_, _, h⟩
  · exact updHists_err _ h
  rcases err_bind.1 h with h | ⟨_, _, h⟩
  · exact readOutputs_err _ h
  · cases h

section
variable {b : Bool} {o : TyOpts} {sigs : String → Option Sig} {consts : String → Option TyBase}
  {src : SrcNode} {n : Node} {trace : Option TraceOpt} {pre post : List Piece}

/-- C51.  What an accepted node prints at an instant where its inputs are present.  First the message
about its inputs, with their values; then what the nodes that it calls print; then the message about
its outputs, with the values that it returns.  If it panics then there is no message about the outputs,
and the other messages are not lost. -/
theorem C51_instant (A : Arith) (D : Shows) (glob : Globals) (ms : List TMachine)
    (h : Passes b o sigs consts src n) (hf : TraceFits trace n.inputs n.locals n.outputs pre post)
    (s : WState ms) {i : Value} (hi : present i = true) {X : String → Nillable Scalar}
    (hX : Assigns X (inputPattern n.inputs) i) :
    ∃ mid, PrintedBy ms mid ∧
      (∀ r s', ((n.machineW A D glob ms trace).step s i).res = .ok (r, s') →
        ∃ Y, (∀ v ∈ n.inputs, Y v.name = X v.name) ∧ Assigns Y (inputPattern n.outputs) r ∧
          ((n.machineW A D glob ms trace).step s i).out =
            told D trace "      " n.name s.clock n.inputs X pre ++ mid ++
            told D trace "      " n.name s.clock (n.inputs ++ n.locals ++ n.outputs) Y post) ∧
      (∀ p, ((n.machineW A D glob ms trace).step s i).res = .error p → p ≠ .rejected →
        ((n.machineW A D glob ms trace).step s i).out =
          told D trace "      " n.name s.clock n.inputs X pre ++ mid) := by
  have hw := passes_defined h
  have hi' : i.firstIsNil = false := by simpa [present] using hi
  have e : (n.machineW A D glob ms trace).step s i = n.bodyW A D glob ms trace s i := by
    simp [Node.machineW, implicitClockW, hi']
  have e2 := body_res (A := A) (D := D) (glob := glob) ⟨pre, post, hf⟩ hw.defined s i
  rw [body_eq] at e2
  obtain ⟨mid, h1, h2, h3⟩ := body_out (A := A) (D := D) (glob := glob) hf hw.defined s hX
  rw [e]
  refine ⟨mid, h1, fun r s' hr => ?_, fun p hr hp => ?_⟩
  · rw [e2] at hr
    obtain ⟨⟨env, s1⟩, k1, k2⟩ := ok_bind.1 hr
    refine ⟨valuesOf env, fun v hv => ?_, finish_outputs k2, h2 env s1 k1⟩
    unfold inner at k1
    obtain ⟨env0, k3, k1⟩ := ok_bind.1 k1
    obtain ⟨env0', k4, k5⟩ := bindTarget_of_assigns _ (env := fun _ => none) hX
    rw [k3] at k4
    cases k4
    obtain ⟨b1, _, _, _⟩ := execAll_keeps k1
    have honce := hw.once
    rw [List.nodup_append] at honce
    have hm : v.name ∈ n.inputs.map (·.name) := List.mem_map.2 ⟨v, hv, rfl⟩
    have : env v.name = some (X v.name) := by
      rw [b1 _ fun hc => honce.2.2 _ hm _ hc rfl, k5, vars_inputPattern, if_pos hm]
    simp [valuesOf, this]
  · rw [e2] at hr
    rcases err_bind.1 hr with hr | ⟨⟨env, s1⟩, _, hr⟩
    · exact h3 p hr
    · exact absurd (finish_err hr) hp

/-- C51.  What an accepted node without registers prints over a history where it does not panic: at
each instant where its inputs are present, the two messages with the values that the equations of its
source give to its variables, and between them what the nodes that it calls print. -/
theorem C51_history (A : Arith) (D : Shows) (glob : Globals) {ms : List TMachine}
    {nodes : String → Option Machine} (h : Passes false o sigs consts src n)
    (hL : Linked (ms.map TMachine.quiet) nodes n.blocks)
    (hf : TraceFits trace n.inputs n.locals n.outputs pre post) {is : List Value}
    {S : String → Nat → Nillable Scalar}
    (hS : SrcSolution ⟨A, SrcNode.vars src, S, glob, nodes⟩ src (is.filter present)) :
    ∃ mid : Nat → List Out, (∀ t, PrintedBy ms (mid t)) ∧
      ((n.machineW A D glob ms trace).runFrom (n.machineW A D glob ms trace).init is).out =
        (List.range (is.filter present).length).flatMap fun t =>
          told D trace "      " n.name t n.inputs (S · t) pre ++ mid t ++
          told D trace "      " n.name t (n.inputs ++ n.locals ++ n.outputs) (S · t) post := by
  have hw := passes_wired h (passes_default h).1
  have hs := (passes_solution h hL ⟨S, default, fun _ => .leaf ()⟩ _).2 hS
  have := run_out (A := A) (D := D) (glob := glob) (ms := ms) hw hf (is := is) (t := 0)
    (s := n.initState _) (hi := (is.filter present).length) (by simp)
    (start_init hw.toWired _ hs.shape) (by simpa using hs.inputs) (by simpa using hs.stmts)
  obtain ⟨mid, k1, k2⟩ := this
  refine ⟨mid, k1, ?_⟩
  simp only [Nat.zero_add] at k2
  exact k2

end

/-- C51.  The same for the external nodes: the message about the inputs, what the external code
prints, and the message about the outputs. -/
theorem C51_extern (D : Shows) {n : ExtNode} {trace : Option TraceOpt} {pre post : List Piece}
    (hf : TraceFits trace n.inputs [] n.outputs pre post) (m : TMachine) (s : m.σ × Nat) {i : Value}
    (hi : present i = true) {X : String → Nillable Scalar} (hX : Assigns X (inputPattern n.inputs) i) :
    (∀ r s' Y, (m.step s.1 i).res = .ok (r, s') → Assigns Y (inputPattern n.outputs) r →
      (∀ v ∈ n.inputs, Y v.name = X v.name) →
      ((wrapExternW D trace n m).step s i).out =
        told D trace "[ext] " n.name s.2 n.inputs X pre ++ (m.step s.1 i).out ++
        told D trace "[ext] " n.name s.2 (n.inputs ++ n.outputs) Y post) ∧
    (∀ p, (m.step s.1 i).res = .error p →
      ((wrapExternW D trace n m).step s i).out =
        told D trace "[ext] " n.name s.2 n.inputs X pre ++ (m.step s.1 i).out) :=
  extern_out hf m s (by simpa [present] using hi) hX

/-- C51.  The default formats are formats of any node, and they print one line for the inputs and one
for the outputs, with the name of the node and the names and the values of the variables. -/
theorem C51_default (D : Shows) (file : TraceFile) {inputs locals outputs : List TyVar}
    (hn : ∀ v ∈ inputs ++ locals ++ outputs, '{' ∉ v.name.toList ∧ '}' ∉ v.name.toList ∧
      v.name ≠ "_ext" ∧ v.name ≠ "_this") :
    ∃ pre post, TraceFits (some (file, .default, .default)) inputs locals outputs pre post ∧
      ∀ ext this clk X,
        told D (some (file, .default, .default)) ext this clk inputs X pre =
          [⟨file, defaultLine D ext this " <- " (inputs.map (·.name)) X⟩] ∧
        told D (some (file, .default, .default)) ext this clk (inputs ++ locals ++ outputs) X post =
          [⟨file, defaultLine D ext this " -> " (outputs.map (·.name)) X⟩] := by
  have hb : ∀ vs : List TyVar, (∀ v ∈ vs, v ∈ inputs ++ locals ++ outputs) →
      NoBraces (vs.map (·.name)) := by
    intro vs hvs x hx
    obtain ⟨v, hv, rfl⟩ := List.mem_map.1 hx
    exact ⟨(hn v (hvs v hv)).1, (hn v (hvs v hv)).2.1⟩
  have hfree : ∀ vs : List TyVar, (∀ v ∈ vs, v ∈ inputs ++ locals ++ outputs) →
      "_ext" ∉ vs.map (·.name) ∧ "_this" ∉ vs.map (·.name) := by
    intro vs hvs
    constructor <;> intro hx <;> obtain ⟨v, hv, e⟩ := List.mem_map.1 hx
    · exact (hn v (hvs v hv)).2.2.1 e
    · exact (hn v (hvs v hv)).2.2.2 e
  have hne : ∀ ext this arrow vars X, defaultLine D ext this arrow vars X ≠ "" := by
    intro ext this arrow vars X e
    have := congrArg String.toList e
    simp [defaultLine] at this
  have hin : ∀ v ∈ inputs, v ∈ inputs ++ locals ++ outputs := by intro v hv; simp [hv]
  have hout : ∀ v ∈ outputs, v ∈ inputs ++ locals ++ outputs := by intro v hv; simp [hv]
  refine ⟨defaultPieces " <- " (inputs.map (·.name)), defaultPieces " -> " (outputs.map (·.name)),
    ⟨?_, ?_⟩, fun ext this clk X => ⟨?_, ?_⟩⟩
  · rintro _ _ _ ⟨⟩
    exact default_format (hb inputs hin) (.inl rfl) (fun _ h => h) rfl
  · rintro _ _ _ ⟨⟩
    exact default_format (hb outputs hout) (.inr rfl) hout rfl
  · obtain ⟨k1, k2⟩ := hfree inputs hin
    simp only [told]
    rw [default_text k1 k2 fun _ h => h, message, if_neg (hne _ _ _ _ _)]
  · obtain ⟨k1, k2⟩ := hfree _ fun _ h => h
    simp only [told]
    rw [default_text k1 k2 (fun x hx => ?_), message, if_neg (hne _ _ _ _ _)]
    obtain ⟨v, hv, rfl⟩ := List.mem_map.1 hx
    exact List.mem_map.2 ⟨v, hout v hv, rfl⟩

/-- C51.  Only traced nodes print: whatever a node of an accepted program prints is a message of a
traced node of the program, or is printed by external code. -/
theorem C51_only_traced (A : Arith) (D : Shows) (X : ExternW) (trace : String → Option TraceOpt)
    {p : SrcProg} {p' : Prog} {w : List Report} (h : decl (compile p) = .done w (some p'))
    (hf : ProgFits trace p'.decls) {I : ItemsW} (hl : linkW A D X trace p'.decls = .ok I) {f : String}
    {m : TMachine} (hm : I.nodes f = some m) (s : m.σ) (i : Value) {out : Out}
    (ho : out ∈ (m.step s i).out) :
    Traced D X trace p'.decls out := by
  obtain ⟨q, hq, hp⟩ := accepted_passes h
  unfold linkW at hl
  split at hl
  · cases hl
  · rename_i g hg
    split at hl
    · cases hl
    · rename_i N hN
      cases hl
      refine linkNodes_only (P := Traced D X trace p'.decls) p'.decls hf (prog_defined hp)
        (fun g mx hg s v o ho => .inr (.inr ⟨g, mx, s, v, hg, ho⟩))
        (fun n hn pre post hfit => ⟨fun clk Y o ho => .inl ⟨n, pre, post, clk, Y, hn, hfit, .inl ho⟩,
          fun clk Y o ho => .inl ⟨n, pre, post, clk, Y, hn, hfit, .inr ho⟩⟩)
        (fun n hn pre post hfit =>
          ⟨fun clk Y o ho => .inr (.inl ⟨n, pre, post, clk, Y, hn, hfit, .inl ho⟩),
            fun clk Y o ho => .inr (.inl ⟨n, pre, post, clk, Y, hn, hfit, .inr ho⟩)⟩)
        (fun _ _ hm => by cases hm) hN f m hm s i out ho

/-- C51.  What is printed does not depend on what comes later. -/
theorem C51_prefix (m : TMachine) : (is is' : List Value) → (s : m.σ) →
    (m.runFrom s is).out <+: (m.runFrom s (is ++ is')).out
  | [], is', s => List.nil_prefix
  | i :: is, is', s => by
    cases h : (m.step s i).res with
    | error p =>
      rw [List.cons_append]
      simp only [TMachine.runFrom]
      rw [(bind_error h).2, (bind_error h).2]
      exact List.prefix_rfl
    | ok r =>
      rw [List.cons_append, run_cons_out h, run_cons_out h]
      exact (List.prefix_append_right_inj _).2 (C51_prefix m is is' r.2)

/-! ## Example -/

/-- The external node of `exProg`, which prints nothing. -/
def exExternW : ExternW where
  consts := fun _ => none
  nodes := fun f => if f = "counter" then
    some (exCounter.machineW exArith ⟨fun _ => "", fun _ _ => ""⟩ (fun _ => none) [] none) else none

/-- `#[trace]` on `twice` and on `counter`, and
`#[trace[stderr]("", "{_this}#{_clk}: {x} {{}} {y}\n")]` on `inc`. -/
def exTrace (f : String) : Option TraceOpt :=
  if f = "twice" then some (.stdOut, .default, .default)
  else if f = "counter" then some (.stdOut, .default, .default)
  else if f = "inc" then some (.stdErr, .empty, .str "{_this}#{_clk}: {x} {{}} {y}\n") else none

/-- What a run prints. -/
def logOf (p : SrcProg) (f : String) (is : List Value) : Option (List Out) :=
  match outcome p with
  | some (_, p') =>
    match linkW exArith ⟨fun _ => "", fun _ _ => ""⟩ exExternW exTrace p'.decls with
    | .ok I => (I.nodes f).map fun m => (m.runFrom m.init is).out
    | .error _ => none
  | none => none

/-- Non-vacuity of C51: the formats fit, and this is what is printed over two instants. -/
theorem exProg_trace :
    (match outcome exProg with | some (_, p') => progOk exTrace p'.decls | none => false) = true ∧
    logOf exProg "twice" [exInt 1, .leaf .nil, exInt 5] = some [
      ⟨.stdOut, "      twice <- (x=1)\n"⟩,
      ⟨.stdErr, "inc#0: 1 {} 4\n"⟩,
      ⟨.stdErr, "inc#0: 4 {} 7\n"⟩,
      ⟨.stdOut, "[ext] counter <- (i=true)\n"⟩,
      ⟨.stdOut, "[ext] counter -> (n=0)\n"⟩,
      ⟨.stdOut, "      twice -> (y=7)\n"⟩,
      ⟨.stdOut, "      twice <- (x=5)\n"⟩,
      ⟨.stdErr, "inc#1: 5 {} 8\n"⟩,
      ⟨.stdErr, "inc#1: 8 {} 11\n"⟩,
      ⟨.stdOut, "[ext] counter <- (i=true)\n"⟩,
      ⟨.stdOut, "[ext] counter -> (n=1)\n"⟩,
      ⟨.stdOut, "      twice -> (y=12)\n"⟩] := by
  decide +kernel

end Chandeliers.Props
