import Verif.Lemmas.QuoteExtern
import Verif.Props.Twice
import Verif.Props.Steady

/-!
# The emitted Rust code

C64.  The structs and functions that the compiler emits, with the macros that they invoke expanded,
behave as the program: every local variable, history, register and subnode is where the code looks
for it.
-/

set_option autoImplicit false

namespace Chandeliers.Props
open Chandeliers.Err Chandeliers.San Chandeliers.Spec Chandeliers.Syn Chandeliers.Rep Chandeliers.Quo

theorem quote_items (uid : Nat) (A : Arith) {X X' : Extern} {p : SrcProg} {p' : Prog}
    {w : List Report} (h : decl (compile p) = .done w (some p')) (hc : X.consts = X'.consts)
    (hX : ExternFit X X' p'.decls) :
    Both (· = ·) (fun I I' : Items => (∀ x, I.consts x = I'.consts (globName uid x)) ∧
      TableSim uid I.nodes I'.nodes) (link A X p'.decls) (linkRust uid A X' p'.decls) := by
  rw [← C15_switch_evaluated_twice A X h]
  exact linkRust_fit uid A hc hX

/-- C64.  An accepted program, with external nodes that take and return what they are declared to.
Either the code emitted for it and the program are refused for the same reason, or every constant of
the program is, under its Rust name, the value of a `const` item, and every node is, under its Rust
name, a struct with the same output type that answers every history as the node does, unless the
history is one that rustc does not let a caller build.  `uid` is the number of the invocation of the
macro. -/
theorem C64_emitted (uid : Nat) (A : Arith) (X : Extern) {p : SrcProg} {p' : Prog}
    {w : List Report} (h : decl (compile p) = .done w (some p'))
    (hX : ∀ attrs f ins outs m, ⟨attrs, .extNode f ins outs⟩ ∈ p → X.nodes f = some m →
      Strict (argTypes ins).length (argTypes outs).length m) :
    (∃ e, link A X p'.decls = .error e ∧ linkRust uid A X p'.decls = .error e) ∨
    ∃ I I', link A X p'.decls = .ok I ∧ linkRust uid A X p'.decls = .ok I' ∧
      (∀ x, I'.consts (x ++ "__lus_" ++ toString uid ++ "_global") = I.consts x) ∧
      (∀ f, I'.nodes (f ++ "__lus_" ++ toString uid ++ "_node") = none ↔ I.nodes f = none) ∧
      ∀ f m, I.nodes f = some m →
        ∃ m', I'.nodes (f ++ "__lus_" ++ toString uid ++ "_node") = some m' ∧
          m'.outTy = m.outTy ∧ ∀ is, m.run is ≠ .error .rejected → m'.run is = m.run is := by
  obtain ⟨q, hq, hp⟩ := accepted_passes h
  have hf : ExternFit X X p'.decls := {
    none := fun f => Iff.rfl
    some := fun f m m' h h' => by rw [h] at h'; cases h'; exact milder_refl m
    names := fun n hn => by
      have := ((passes_extNode hp).1 n hn).2.2.1
      rw [List.map_append] at this
      exact (List.nodup_append.1 this).2.1
    strict := fun n m hn hm => by
      obtain ⟨-, -, -, a, ins, outs, h4, h5, h6⟩ := (passes_extNode hp).1 n hn
      rw [h5, h6, ← argTypes_length, ← argTypes_length]
      exact hX a n.name ins outs m (hq.mem_iff.1 h4) hm }
  have key := quote_items uid A h rfl hf
  cases hl : link A X p'.decls <;> cases hl' : linkRust uid A X p'.decls <;> rw [hl, hl'] at key
  · exact .inl ⟨_, rfl, congrArg _ (show _ = _ from key).symm⟩
  · exact key.elim
  · exact key.elim
  · rename_i I I'
    obtain ⟨h1, h2⟩ := key
    refine .inr ⟨I, I', rfl, rfl, fun x => (h1 x).symm, fun f => ?_, fun f m hm => ?_⟩
    · have := h2 f
      revert this
      show (match I.nodes f, I'.nodes (nodeName uid f) with
        | none, none => True | some m, some m' => _ | _, _ => False) →
        (I'.nodes (nodeName uid f) = none ↔ _)
      cases I.nodes f <;> cases I'.nodes (nodeName uid f) <;> simp
    · have := h2 f
      rw [hm] at this
      cases hm' : I'.nodes (nodeName uid f) with
      | none => rw [hm'] at this; exact this.elim
      | some m' =>
        rw [hm'] at this
        refine ⟨m', hm', this.type.symm, fun is hr => ?_⟩
        have hi := this.runs is
        cases hr1 : m.run is with
        | error e =>
          rw [hr1] at hi hr
          cases hr2 : m'.run is with
          | error e' =>
            rw [hr2] at hi
            rcases hi with rfl | rfl
            · exact absurd rfl hr
            · rfl
          | ok os => rw [hr2] at hi; exact absurd (congrArg _ hi) hr
        | ok os =>
          rw [hr1] at hi
          cases hr2 : m'.run is with
          | error e' => rw [hr2] at hi; exact hi.elim
          | ok os' => rw [hr2] at hi; exact congrArg _ (show os = os' from hi).symm

/-- The same run, unless rejected. -/
theorem upto_run {x y : R (List Value)} (h : Upto (· = .rejected) (· = ·) (· = ·) x y)
    (hr : x ≠ .error .rejected) : y = x := by
  cases x with
  | error e =>
    cases y with
    | error e' =>
      rcases h with rfl | rfl
      · exact absurd rfl hr
      · rfl
    | ok os => exact absurd (congrArg _ h) hr
  | ok os =>
    cases y with
    | error e' => exact h.elim
    | ok os' => exact congrArg _ (show os = os' from h).symm

/-- C64.  An accepted program whose external items are what it says, and the code emitted for it.
If some constant cannot be computed both are refused.  Otherwise the constants of the program are
the values of the `const` items, and every node answers every history of inputs of its type, at any
instance of it, exactly as the struct emitted for it does: same outputs, or same panic. -/
theorem C64_runs (uid : Nat) (A : Arith) (X : Extern) {p : SrcProg} {p' : Prog} {w : List Report}
    (h : decl (compile p) = .done w (some p')) (hX : ExternOk X p) (hu : UnitOutputs X p)
    (hg : DistinctGenerics p) (hr : ∀ n, .node n ∈ p'.decls → InputClocks n ∧ FlatRegisters n) :
    (link A X p'.decls = .error .arith ∧ linkRust uid A X p'.decls = .error .arith) ∨
    ∃ I I', link A X p'.decls = .ok I ∧ linkRust uid A X p'.decls = .ok I' ∧
      (∀ x, I'.consts (x ++ "__lus_" ++ toString uid ++ "_global") = I.consts x) ∧
      ∀ attrs src, ⟨attrs, .node src⟩ ∈ p → ∃ m m', I.nodes src.name = some m ∧
        I'.nodes (src.name ++ "__lus_" ++ toString uid ++ "_node") = some m' ∧
        m'.outTy = m.outTy ∧ ∀ (θ : Subst) is,
          (∀ i ∈ is, ValTy (substTy θ (flatTuple (argTypes src.inputs))) i) →
          m'.run is = m.run is := by
  obtain ⟨q, hq, hp⟩ := accepted_passes h
  have hXg := guardedItems_ok hp hq hX hu
  have hf := guardedItems_fit hp hq hX
  have key := quote_items uid A h (X := guardedItems X p'.decls) (X' := X) rfl hf
  have hlink : Both (· = ·) (fun I I' : Items => I.consts = I'.consts ∧
      AlikeTable (· = .rejected) (· = ·) I.nodes I'.nodes)
      (link A (guardedItems X p'.decls) p'.decls) (link A X p'.decls) := by
    unfold link
    rw [linkConsts_alike (X := guardedItems X p'.decls) (X' := X) rfl A]
    cases linkConsts A X (fun _ => none) p'.decls with
    | error e => exact rfl
    | ok g =>
      dsimp only
      have := linkNodes_alike (S := (· = Panic.rejected)) (E := (· = ·)) (fun _ => rfl)
        (guardedItems_milder X p'.decls)
        (SameOps.refl (fun _ => rfl) A) g p'.decls (N := fun _ => none) (N' := fun _ => none)
        ⟨fun _ => Iff.rfl, fun f m m' h => by cases h⟩
      cases hN : linkNodes A (guardedItems X p'.decls) g (fun _ => none) p'.decls <;>
        cases hN' : linkNodes A X g (fun _ => none) p'.decls <;> rw [hN, hN'] at this
      · exact this
      · exact this.elim
      · exact this.elim
      · exact ⟨rfl, this⟩
  rcases C28_program A _ h hXg hg hr with he | ⟨Ig, hIg, hn, -⟩
  · rw [he] at key hlink
    refine .inl ⟨?_, ?_⟩
    · cases hl : link A X p'.decls with
      | error e => rw [hl] at hlink; exact congrArg _ (show _ = _ from hlink).symm
      | ok I => rw [hl] at hlink; exact hlink.elim
    · cases hl : linkRust uid A X p'.decls with
      | error e => rw [hl] at key; exact congrArg _ (show _ = _ from key).symm
      | ok I => rw [hl] at key; exact key.elim
  · rw [hIg] at key hlink
    cases hl : link A X p'.decls with
    | error e => rw [hl] at hlink; exact hlink.elim
    | ok I =>
    cases hl' : linkRust uid A X p'.decls with
    | error e => rw [hl'] at key; exact key.elim
    | ok I' =>
    rw [hl] at hlink
    rw [hl'] at key
    obtain ⟨c1, t1⟩ := hlink
    obtain ⟨c2, t2⟩ := key
    refine .inr ⟨I, I', rfl, rfl, fun x => ?_, fun attrs src hm => ?_⟩
    · rw [← c1]; exact (c2 x).symm
    · obtain ⟨mg, hmg, hresp⟩ := hn attrs src hm
      cases hmI : I.nodes src.name with
      | none => rw [(t1.none _).2 hmI] at hmg; cases hmg
      | some m =>
        have h1 := t1.some _ _ _ hmg hmI
        have h2 := t2 src.name
        rw [hmg] at h2
        cases hmI' : I'.nodes (nodeName uid src.name) with
        | none => rw [hmI'] at h2; exact h2.elim
        | some m' =>
          rw [hmI'] at h2
          refine ⟨m, m', rfl, hmI', h2.type.symm.trans h1.type, fun θ is hi => ?_⟩
          have hnr : mg.run is ≠ .error .rejected := by
            intro hr
            have hsafe := ((hresp θ).safe is hi).1 .rejected
            unfold Machine.run at hr
            cases hx : mg.runFrom mg.init is with
            | error e =>
              rw [hx] at hr hsafe
              cases hr
              exact hsafe rfl (.inl rfl)
            | ok a => rw [hx] at hr; cases hr
          rw [upto_run (h2.runs is) hnr, upto_run (h1.runs is) hnr]

/-- C64.  For programs that do not use `#[universal_pre]`, from the source to the emitted code: the
histories of the struct emitted for a node are the solutions of the equations of the node. -/
theorem C64_source (uid : Nat) (A : Arith) (X : Extern) {p : SrcProg} {p' : Prog} {w : List Report}
    (h : decl (compile p) = .done w (some p')) (hX : ExternOk X p) (hu : UnitOutputs X p)
    (hg : DistinctGenerics p) (hd : ∀ d ∈ p, hasAny d.attrs ["universal_pre"] = false) :
    linkRust uid A X p'.decls = .error .arith ∨
    ∃ I I', link A X p'.decls = .ok I ∧ linkRust uid A X p'.decls = .ok I' ∧
      ∀ attrs src, ⟨attrs, .node src⟩ ∈ p → ∃ m',
        I'.nodes (src.name ++ "__lus_" ++ toString uid ++ "_node") = some m' ∧
        ∀ (θ : Subst) is, (∀ i ∈ is, ValTy (substTy θ (flatTuple (argTypes src.inputs))) i) →
          ∀ os, m'.run is = .ok os ↔
            ∃ S, SrcSolution ⟨A, SrcNode.vars src, S, I.consts, I.nodes⟩ src (is.filter present) ∧
              os = spread (flatShape (argNames src.outputs).length) is
                (srcOutputs S src (is.filter present).length) := by
  have hr : ∀ n, .node n ∈ p'.decls → InputClocks n ∧ FlatRegisters n := fun n hn => by
    obtain ⟨q, hq, hp⟩ := accepted_passes h
    obtain ⟨a, src, sigs, consts, k1, k2⟩ := Prg.passes_to_node hp hn
    rw [show (meaning a).universalPre = false from hd _ (hq.mem_iff.1 k1)] at k2
    exact passes_default k2
  rcases C64_runs uid A X h hX hu hg hr with ⟨-, he⟩ | ⟨I, I', h1, h2, -, h3⟩
  · exact .inl he
  · refine .inr ⟨I, I', h1, h2, fun attrs src hm => ?_⟩
    obtain ⟨m, m', k1, k2, -, k4⟩ := h3 attrs src hm
    obtain ⟨m0, j1, j2⟩ := C47_program A X h h1 hm (hd _ hm)
    rw [k1] at j1
    cases j1
    exact ⟨m', k2, fun θ is hi os => by rw [k4 θ is hi]; exact j2 is os⟩

theorem export_step (A : Arith) (consts : String → Option Scalar) (m : Machine)
    (r : NodeState [m]) (i : Value) :
    (innerMachine exportQuote A consts m.outTy m).step r i =
      if i.firstIsNil then .ok (Tup.allNil Scalar m.outTy, r) else
        (m.step (show m.σ × Unit from r.nodes).1 i).map fun q =>
          (q.1, { r with nodes := ((q.2, ()) : m.σ × Unit) }) := by
  have h0 : (REnv.set (fun _ => none) "inputs" (.val i)) "inputs" = some (.val i) := set_self _ _ _
  show RFn.call _ _ _ _ _ _ _ = _
  obtain ⟨rc, rh, ⟨s, u⟩, rf, rr⟩ := r
  unfold RFn.call
  simp only [exportQuote, Macro.implicitClock, rexec, reval, h0, Quo.ok_bind, RVal.asVal, RVal.asBool]
  by_cases hi : i.firstIsNil = true
  · simp only [hi, if_true, Quo.ok_bind]
  · simp only [hi, if_false, Bool.false_eq_true, States.stepAt]
    cases m.step s i with
    | error e => rfl
    | ok q => rfl

/-- C64.  The struct that is emitted for an exported node answers every history as the struct that it
contains does at the instants where the inputs are present, and returns `nil` at the others without
stepping it. -/
theorem C64_export (A : Arith) (consts : String → Option Scalar) (m : Machine) (is : List Value) :
    (innerMachine exportQuote A consts m.outTy m).run is =
      (m.run (is.filter present)).map (spread m.outTy is) := by
  have key : ∀ (is : List Value) (r : NodeState [m]),
      ((innerMachine exportQuote A consts m.outTy m).runFrom r is).map (·.1) =
        (m.runFrom (show m.σ × Unit from r.nodes).1 (is.filter present)).map
          fun q => spread m.outTy is q.1 := by
    have hcons : ∀ {σ : Type} (x : R (List Value × σ)) (o : Value),
        (x.map fun q => (o :: q.1, q.2)).map (·.1) = (x.map (·.1)).map (o :: ·) := by
      intro σ x o; cases x <;> rfl
    intro is
    induction is with
    | nil => intro r; rfl
    | cons i is ih =>
      intro r
      by_cases hi : i.firstIsNil = true
      · have hs := export_step A consts m r i
        rw [if_pos hi] at hs
        rw [run_ok hs is]
        have hp : present i = false := by simp [present, hi]
        rw [List.filter_cons, hp, if_neg Bool.false_ne_true]
        rw [hcons, ih r]
        cases m.runFrom (show m.σ × Unit from r.nodes).1 (is.filter present) with
        | error e => rfl
        | ok q => simp [Except.map, spread, hp]
      · have hs := export_step A consts m r i
        rw [if_neg hi] at hs
        have hp : present i = true := by simp [present, hi]
        rw [List.filter_cons, hp, if_pos rfl]
        cases hm : m.step (show m.σ × Unit from r.nodes).1 i with
        | error e =>
          rw [hm] at hs
          rw [run_err hs is, run_err hm]
          rfl
        | ok q =>
          obtain ⟨o, s'⟩ := q
          rw [hm] at hs
          rw [run_ok hs is, run_ok hm, hcons, ih { r with nodes := ((s', ()) : m.σ × Unit) }]
          dsimp only
          cases m.runFrom s' (is.filter present) with
          | error e => rfl
          | ok q => simp [Except.map, spread, hp]
  have h1 := key is ⟨0, fun _ => none, (m.init, ()), [], []⟩
  have h2 : ∀ m : Machine, m.run is = (m.runFrom m.init is).map (·.1) := fun m => by
    unfold Machine.run; cases m.runFrom m.init is <;> rfl
  rw [h2]
  refine Eq.trans h1 ?_
  unfold Machine.run
  dsimp only
  cases m.runFrom m.init (is.filter present) <;> rfl

/-! ## Examples -/

theorem exProg_accepted : ∃ w p', decl (compile exProg) = .done w (some p') := by
  have h : (itemsOf exExtern exProg).isSome = true := by
    have := exProg_runs
    unfold runIn at this
    split at this <;> simp_all
  obtain ⟨I, h⟩ := Option.isSome_iff_exists.1 h
  obtain ⟨w, p', h1, -⟩ := itemsOf_some h
  exact ⟨w, p', h1⟩

/-- Non-vacuity of `C64_emitted`: a program with an external node, constants and calls. -/
example : ∃ w p', decl (compile exProg) = .done w (some p') ∧
    ∀ attrs f ins outs m, ⟨attrs, .extNode f ins outs⟩ ∈ exProg → exExtern.nodes f = some m →
      Strict (argTypes ins).length (argTypes outs).length m := by
  obtain ⟨w, p', h⟩ := exProg_accepted
  refine ⟨w, p', h, fun attrs f ins outs m hm hf => ?_⟩
  simp only [exProg, List.mem_cons, SrcDecl.mk.injEq, reduceCtorEq, and_false, false_or,
    SrcItem.extNode.injEq, List.not_mem_nil, or_false] at hm
  obtain ⟨-, rfl, rfl, rfl⟩ := hm
  cases hf
  exact ⟨rfl, fun s i _ h => absurd h (by decide), fun s i o s' _ _ => trivial⟩

/-- Non-vacuity of `C64_runs` and `C64_source`. -/
example : ∃ w p', decl (compile exProg) = .done w (some p') ∧ ExternOk exExtern exProg ∧
    UnitOutputs exExtern exProg ∧ DistinctGenerics exProg ∧
    ∀ d ∈ exProg, hasAny d.attrs ["universal_pre"] = false := by
  obtain ⟨w, p', h⟩ := exProg_accepted
  refine ⟨w, p', h, exExtern_ok, fun attrs f ins outs m hm ho => ?_, exProg_generics, ?_⟩
  · simp only [exProg, List.mem_cons, SrcDecl.mk.injEq, reduceCtorEq, and_false, false_or,
      SrcItem.extNode.injEq, List.not_mem_nil, or_false] at hm
    obtain ⟨-, rfl, rfl, rfl⟩ := hm
    cases ho
  · intro d hd
    simp only [exProg, List.mem_cons, List.not_mem_nil, or_false] at hd
    rcases hd with rfl | rfl | rfl | rfl | rfl <;> rfl

/-- The struct named `f` in the emitted code, run on a history. -/
def rustRun (uid : Nat) (X : Extern) (p : SrcProg) (f : String) (is : List Value) :
    Option (Except Panic (List Value)) :=
  match outcome p with
  | none => none
  | some (_, p') =>
    match linkRust uid exArith X p'.decls with
    | .error _ => none
    | .ok I =>
      match I.nodes f with
      | none => none
      | some m => some (m.run is)

/-- The integers, or nil, in the outputs. -/
def rustInts (uid : Nat) (X : Extern) (p : SrcProg) (f : String) (is : List Value) :
    Option (List (List (Option Int64))) :=
  match rustRun uid X p f is with
  | some (.ok os) => some (os.map fun o => o.leaves.map fun l =>
      match l with
      | .defined (.int x) => some x
      | _ => none)
  | _ => none

/-- The emitted code, run: an external node, constants and calls. -/
theorem exProg_rust_runs : rustInts 3 exExtern exProg "twice__lus_3_node" [exInt 1, exInt 5] =
    some [[some 7], [some 12]] := by decide +kernel

/-- The emitted code, run: `merge`, `when`, `->`, `pre`, `fby`, registers and an assertion. -/
theorem exBlend_rust_runs : rustInts 0 noExtern exBlend "mixed__lus_0_node" exBlendInputs =
    intsIn noExtern exBlend "mixed" exBlendInputs ∧
    (rustInts 0 noExtern exBlend "mixed__lus_0_node" exBlendInputs).isSome = true := by
  decide +kernel

/-! ## What an external node without outputs returns -/

/-- `extern node log(x: int) returns ();` -/
def exLog : SrcProg := [⟨[], .extNode "log" [⟨["x"], .int, .implicit⟩] []⟩]

/-- An implementation of `log` whose result is `nil`. -/
def exLogger : Machine where
  σ := Unit
  init := ()
  outTy := .leaf ()
  step := fun _ _ => .ok (.leaf .nil, ())

/-- The Rust item that it needs. -/
def exLogItems : Extern := ⟨fun _ => none, fun f => if f = "log" then some exLogger else none⟩

/-- C64.  Why `UnitOutputs` is asked for: where an external node without outputs returns `nil`, which
its type allows, the struct emitted for it returns `()`. -/
theorem C64_unit_output (A : Arith) : ExternOk exLogItems exLog ∧
    (∃ w p', decl (compile exLog) = .done w (some p') ∧
      ∃ I I' m m', link A exLogItems p'.decls = .ok I ∧ linkRust 0 A exLogItems p'.decls = .ok I' ∧
        I.nodes "log" = some m ∧ I'.nodes "log__lus_0_node" = some m' ∧
        m.run [.leaf (.defined (.int 1))] = .ok [.leaf .nil] ∧
        m'.run [.leaf (.defined (.int 1))] = .ok [.leaf (.defined .unit)]) := by
  refine ⟨⟨fun attrs x ty h => by simp [exLog] at h, fun attrs f ins outs h => ?_⟩, ?_⟩
  · simp only [exLog, List.mem_cons, SrcDecl.mk.injEq, SrcItem.extNode.injEq, List.not_mem_nil,
      or_false] at h
    obtain ⟨-, rfl, rfl, rfl⟩ := h
    refine ⟨exLogger, rfl, fun θ => ⟨fun is _ => ?_, .inl rfl⟩⟩
    have key : ∀ (is : List Value) s, exLogger.runFrom s is =
        .ok (is.map fun _ => .leaf .nil, ()) := by
      intro is
      induction is with
      | nil => intro s; rfl
      | cons i is ih =>
        intro s
        exact (run_ok (m := exLogger) (s' := ((() : Unit) : exLogger.σ)) rfl is).trans
          (congrArg (Except.map fun q : List Value × Unit => ((.leaf .nil : Value) :: q.1, q.2)) (ih ()))
    have hk := key is exLogger.init
    refine ⟨fun p h => absurd (hk.symm.trans h) (by simp), fun os s' h o ho => ?_⟩
    have h := hk.symm.trans h
    cases h
    simp only [List.mem_map] at ho
    obtain ⟨-, -, rfl⟩ := ho
    exact .inl rfl
  · exact ⟨_, _, rfl, _, _, _, _, rfl, rfl, rfl, rfl, rfl, rfl⟩

end Chandeliers.Props
