import Verif.Lemmas.Link
import Verif.Props.Compile

/-!
# Whole programs

C47 and C28 for programs: what `decl!` emits does what the source says.
-/

set_option autoImplicit false

namespace Chandeliers.Props
open Chandeliers.San Chandeliers.Spec Chandeliers.Syn Chandeliers.Err Chandeliers.Prg

theorem accepted_passes {p : SrcProg} {p' : Prog} {w : List Report}
    (h : decl (compile p) = .done w (some p')) :
    ∃ q, q.Perm p ∧ ProgPasses (fun _ => none) (fun _ => none) q p'.decls := by
  unfold decl at h
  split at h
  · cases h
  · split at h <;> cases h
  · rename_i hc
    cases h
    exact compile_passes hc

theorem link_ok {A : Arith} {X : Extern} {ds : List San.Decl} {I : Items}
    (h : link A X ds = .ok I) : linkConsts A X (fun _ => none) ds = .ok I.consts ∧
      linkNodes A X I.consts (fun _ => none) ds = .ok I.nodes := by
  unfold link at h
  split at h
  · cases h
  · rename_i g hg
    split at h
    · cases h
    · rename_i N hN
      cases h
      exact ⟨hg, hN⟩

/-- C47.  A program that the compiler accepts, and whose code rustc accepts with the external items
`X`: the items include, for every node of the program without `#[universal_pre]`, a machine whose
runs are the solutions of the equations of the source of that node, where the calls are to the
machines of the same items. -/
theorem C47_program (A : Arith) (X : Extern) {p : SrcProg} {p' : Prog} {w : List Report} {I : Items}
    (h : decl (compile p) = .done w (some p')) (hl : link A X p'.decls = .ok I)
    {attrs : List Attribute} {src : SrcNode} (hs : ⟨attrs, .node src⟩ ∈ p)
    (hu : hasAny attrs ["universal_pre"] = false) :
    ∃ m, I.nodes src.name = some m ∧ ∀ is os, m.run is = .ok os ↔
      ∃ S, SrcSolution ⟨A, SrcNode.vars src, S, I.consts, I.nodes⟩ src (is.filter present) ∧
        os = spread (flatShape (argNames src.outputs).length) is
          (srcOutputs S src (is.filter present).length) := by
  obtain ⟨q, hq, hp⟩ := accepted_passes h
  obtain ⟨hc, hn⟩ := link_ok hl
  obtain ⟨-, h2, -⟩ := linkNodes_values hp (fun _ _ => rfl) hn
  obtain ⟨n, ms, sigs, consts, k1, -, k3, k4, -⟩ := h2 attrs src (hq.mem_iff.2 hs)
  rw [show (meaning attrs).universalPre = false from hu] at k1
  exact ⟨_, k3, fun is os => C47_node A I.consts k1 k4 is os⟩

/-- C47.  The constants of the program are worth what their translations are, given the constants
of the program; those declared `extern` are the external ones, and the nodes declared `extern` are
the external ones with a test of their clock. -/
theorem C47_items (A : Arith) (X : Extern) {p : SrcProg} {p' : Prog} {w : List Report} {I : Items}
    (h : decl (compile p) = .done w (some p')) (hl : link A X p'.decls = .ok I) :
    (∀ attrs c, ⟨attrs, .const c⟩ ∈ p → ∃ c' v, c.translate = .ok c' ∧
      c'.eval A I.consts = .ok v ∧ I.consts c.name = some v) ∧
    (∀ attrs x ty, ⟨attrs, .extConst x ty⟩ ∈ p → ∃ v, X.consts x = some v ∧ I.consts x = some v) ∧
    (∀ attrs f ins outs, ⟨attrs, .extNode f ins outs⟩ ∈ p → ∃ m, X.nodes f = some m ∧
      I.nodes f = some (wrapExtern m)) := by
  obtain ⟨q, hq, hp⟩ := accepted_passes h
  obtain ⟨hc, hn⟩ := link_ok hl
  obtain ⟨-, h2, h3⟩ := linkConsts_values hp (fun _ _ => rfl) hc
  obtain ⟨-, -, h4⟩ := linkNodes_values hp (fun _ _ => rfl) hn
  exact ⟨fun a c hm => h2 a c (hq.mem_iff.2 hm), fun a x t hm => h3 a x t (hq.mem_iff.2 hm),
    fun a f i o hm => h4 a f i o (hq.mem_iff.2 hm)⟩

/-- C28.  A program that the compiler accepts, with external items that are what it says: rustc
refuses it only for an arithmetic error in a constant; otherwise every node answers well-typed
inputs with well-typed outputs at every instance of its type, and if it panics it is for a reason
that the types do not exclude; every constant has a value of its type.  The registers that the
nodes have step on inputs, and do not hold tuples of one element. -/
theorem C28_program (A : Arith) (X : Extern) {p : SrcProg} {p' : Prog} {w : List Report}
    (h : decl (compile p) = .done w (some p')) (hX : ExternOk X p) (hg : DistinctGenerics p)
    (hr : ∀ n, .node n ∈ p'.decls → InputClocks n ∧ FlatRegisters n) :
    link A X p'.decls = .error .arith ∨ ∃ I, link A X p'.decls = .ok I ∧
      (∀ attrs src, ⟨attrs, .node src⟩ ∈ p → ∃ m, I.nodes src.name = some m ∧ ∀ θ,
        Respects m (substTy θ (flatTuple (argTypes src.inputs)))
          (substTy θ (flatTuple (argTypes src.outputs)))) ∧
      ∀ attrs c, ⟨attrs, .const c⟩ ∈ p → ∃ v, I.consts c.name = some v ∧ ScalarTy c.ty v := by
  obtain ⟨q, hq, hp⟩ := accepted_passes h
  rcases linkConsts_typed (A := A) (X := X) hp
      (fun a x t hm => hX.consts a x t (hq.mem_iff.1 hm)) (g := fun _ => none)
      (fun x t h => by cases h) with he | ⟨g, h1, h2, h3, h4⟩
  · exact .inl (by simp only [link, he])
  · obtain ⟨N, k1, -, k3⟩ := linkNodes_typed (A := A) (X := X) (g := g) hp
      (fun d hm => hg d (hq.mem_iff.1 hm)) (fun a f i o hm => hX.nodes a f i o (hq.mem_iff.1 hm))
      (fun x t h => by cases h) h3 h4 hr (N := fun _ => none) (fun f s h => by cases h)
    have hl : link A X p'.decls = .ok ⟨g, N⟩ := by simp only [link, h1, k1]
    refine .inr ⟨⟨g, N⟩, hl, fun a src hm => k3 a src (hq.mem_iff.2 hm), fun a c hm => ?_⟩
    obtain ⟨c', k, e1, e2, -, -⟩ := passes_of_const hp (hq.mem_iff.2 hm)
    have hn := const_translate_name e1
    have := (h3 _ e2).2
    rw [hn.1, hn.2] at this
    exact this

/-- C28.  The same for programs that do not use `#[universal_pre]`: there is nothing to ask of
registers. -/
theorem C28_program_default (A : Arith) (X : Extern) {p : SrcProg} {p' : Prog} {w : List Report}
    (h : decl (compile p) = .done w (some p')) (hX : ExternOk X p) (hg : DistinctGenerics p)
    (hu : ∀ d ∈ p, hasAny d.attrs ["universal_pre"] = false) :
    link A X p'.decls = .error .arith ∨ ∃ I, link A X p'.decls = .ok I ∧
      (∀ attrs src, ⟨attrs, .node src⟩ ∈ p → ∃ m, I.nodes src.name = some m ∧ ∀ θ,
        Respects m (substTy θ (flatTuple (argTypes src.inputs)))
          (substTy θ (flatTuple (argTypes src.outputs)))) ∧
      ∀ attrs c, ⟨attrs, .const c⟩ ∈ p → ∃ v, I.consts c.name = some v ∧ ScalarTy c.ty v := by
  refine C28_program A X h hX hg fun n hn => ?_
  obtain ⟨q, hq, hp⟩ := accepted_passes h
  obtain ⟨a, src, sigs, consts, k1, k2⟩ := passes_to_node hp hn
  rw [show (meaning a).universalPre = false from hu _ (hq.mem_iff.1 k1)] at k2
  exact passes_default k2

/-- C47.  If the expression that defines a constant has a value according to the reference semantics,
then the constant is worth that. -/
theorem C47_constants (A : Arith) (X : Extern) {p : SrcProg} {p' : Prog} {w : List Report}
    {I : Items} (h : decl (compile p) = .done w (some p')) (hX : ExternOk X p)
    (hl : link A X p'.decls = .ok I) {attrs : List Attribute} {c : SrcConst}
    (hm : ⟨attrs, .const c⟩ ∈ p) {v : Scalar}
    (hv : ref ⟨A, [], fun _ _ => .nil, I.consts, I.nodes⟩ c.value 0 = some (.leaf (.defined v))) :
    I.consts c.name = some v := by
  obtain ⟨q, hq, hp⟩ := accepted_passes h
  obtain ⟨hc, hn⟩ := link_ok hl
  obtain ⟨-, h2, -⟩ := linkConsts_values hp (fun _ _ => rfl) hc
  obtain ⟨c₁, u, t1, t2, t3⟩ := h2 attrs c (hq.mem_iff.2 hm)
  rcases linkConsts_typed (A := A) (X := X) hp
      (fun a x t hm => hX.consts a x t (hq.mem_iff.1 hm)) (g := fun _ => none)
      (fun x t h => by cases h) with he | ⟨g, h1, -, h3, h4⟩
  · rw [hc] at he; cases he
  · rw [hc] at h1
    cases h1
    obtain ⟨c', k, e1, e2, e3, e4⟩ := passes_of_const hp (hq.mem_iff.2 hm)
    rw [t1] at e1
    cases e1
    obtain ⟨s, b1, b2⟩ := const_blocks t1
    have hr := C16_expression (A := A) (glob := I.consts) (ms := []) (nodes := I.nodes)
      (F := ⟨fun _ _ => .nil, default, fun _ => .leaf ()⟩) b1 rfl (by simp [Linked, b2]) 0
    have hd := hr.trans hv
    have hev := const_den (A := A) (glob := I.consts) (ms := []) (env := fun _ => none)
      (s := ⟨0, fun _ => none, (), [], []⟩) (F := ⟨fun _ _ => .nil, default, fun _ => .leaf ()⟩)
      (lo := 0) (t := 0) e3.const
    cases hd' : den A I.consts [] ⟨fun _ _ => .nil, default, fun _ => .leaf ()⟩ 0 c₁.value 0 with
    | error e => rw [hd'] at hd; cases hd
    | ok x =>
      rw [hd'] at hd
      cases hd
      rw [hd'] at hev
      rcases (C29_same_value (e4 (fun x t h => by cases h) h3 h4) e3 hev).2 with g | ⟨-, g⟩
      · rw [t2] at g; cases g; exact t3
      · rw [t2] at g; cases g

/-! ## Example -/

/-- A program that uses its items before it declares them:
```
node twice(x: int) returns (y: int); let y = inc(inc(x)) + counter(true); tel
node inc(x: int) returns (y: int); let y = x + K; tel
const K: int = L + 1;
const L: int = 2;
extern node counter(i: bool) returns (n: int);
``` -/
def exProg : SrcProg := [
  ⟨[], .node {
    name := "twice"
    inputs := [⟨["x"], .int, .implicit⟩]
    outputs := [⟨["y"], .int, .implicit⟩]
    locals := []
    defs := [.def_ (.var "y") (.left (.call "inc" [.call "inc" [.var "x"] false] false)
      [(.add, .call "counter" [.lit (.bool true)] false)])] }⟩,
  ⟨[], .node {
    name := "inc"
    inputs := [⟨["x"], .int, .implicit⟩]
    outputs := [⟨["y"], .int, .implicit⟩]
    locals := []
    defs := [.def_ (.var "y") (.left (.var "x") [(.add, .var "K")])] }⟩,
  ⟨[], .const ⟨"K", .int, .left (.var "L") [(.add, .lit (.int 1))]⟩⟩,
  ⟨[], .const ⟨"L", .int, .lit (.int 2)⟩⟩,
  ⟨[], .extNode "counter" [⟨["i"], .bool, .implicit⟩] [⟨["n"], .int, .implicit⟩]⟩]

/-- The Rust items it needs. -/
def exExtern : Extern where
  consts := fun _ => none
  nodes := fun f => if f = "counter" then some (exCounter.machine exArith (fun _ => none) [])
    else none

/-- What the compiler returns. -/
def outcome (p : SrcProg) : Option (List Report × Prog) :=
  match decl (compile p) with
  | .done w (some p') => some (w, p')
  | _ => none

theorem outcome_some {p : SrcProg} {w : List Report} {p' : Prog} (h : outcome p = some (w, p')) :
    decl (compile p) = .done w (some p') := by
  unfold outcome at h
  split at h <;> simp_all

/-- The integer that a value is, if it is one. -/
def asInt : Value → Option Int
  | .leaf (.defined (.int i)) => some i.toInt
  | _ => none

/-- The items of a compiled program. -/
def itemsOf (X : Extern) (p : SrcProg) : Option Items :=
  match outcome p with
  | some (_, p') => (link exArith X p'.decls).toOption
  | none => none

theorem itemsOf_some {X : Extern} {p : SrcProg} {I : Items} (h : itemsOf X p = some I) :
    ∃ w p', decl (compile p) = .done w (some p') ∧ link exArith X p'.decls = .ok I := by
  unfold itemsOf at h
  split at h
  · rename_i w p' ho
    refine ⟨w, p', outcome_some ho, ?_⟩
    cases hx : link exArith X p'.decls with
    | ok x => rw [hx] at h; cases h; rfl
    | error e => rw [hx] at h; cases h
  · cases h

/-- The node `f` of a compiled program run on a history, when all its outputs are integers. -/
def runIn (X : Extern) (p : SrcProg) (f : String) (is : List Value) : Option (List (Option Int)) :=
  match itemsOf X p with
  | none => none
  | some I =>
    match I.nodes f with
    | none => none
    | some m => (m.run is).toOption.map fun os => os.map asInt

theorem exExtern_ok : ExternOk exExtern exProg where
  consts := by
    intro attrs x ty h
    simp [exProg] at h
  nodes := by
    intro attrs f ins outs h
    simp only [exProg, List.mem_cons, SrcDecl.mk.injEq, reduceCtorEq, and_false, false_or,
      SrcItem.extNode.injEq, List.not_mem_nil, or_false] at h
    obtain ⟨-, rfl, rfl, rfl⟩ := h
    exact ⟨_, rfl, fun θ => C28_node (n := exCounter) (fun f s h => by cases h) exCounter_ready
      exConsts_ok (fun i b h => by simp [exCounter] at h) θ⟩

theorem exProg_generics : DistinctGenerics exProg := by
  intro d hd
  simp only [exProg, List.mem_cons, List.not_mem_nil, or_false] at hd
  rcases hd with rfl | rfl | rfl | rfl | rfl <;> decide

/-- The whole chain, run: `inc(inc(x))` adds 6 and the counter goes 0, 1. -/
theorem exProg_runs : runIn exExtern exProg "twice" [exInt 1, exInt 5] =
    some [some 7, some 12] := by decide +kernel

/-- Non-vacuity of C28 and C47: the program is accepted, its external items are what it says, and
it can be linked. -/
example : ∃ w p' I, decl (compile exProg) = .done w (some p') ∧
    link exArith exExtern p'.decls = .ok I ∧ I.consts "K" = some (.int 3) ∧
    ∃ m, I.nodes "twice" = some m ∧ ∀ θ : String → TyBase, Respects m (.single .int) (.single .int) := by
  have h : (itemsOf exExtern exProg).isSome = true := by
    have := exProg_runs
    unfold runIn at this
    split at this <;> simp_all
  obtain ⟨I, h⟩ := Option.isSome_iff_exists.1 h
  obtain ⟨w, p', h1, hl⟩ := itemsOf_some h
  have hL := C47_constants exArith exExtern h1 exExtern_ok hl (attrs := [])
    (c := ⟨"L", .int, .lit (.int 2)⟩) (v := .int 2) (by simp [exProg]) rfl
  refine ⟨w, p', I, h1, hl, ?_, ?_⟩
  · refine C47_constants exArith exExtern h1 exExtern_ok hl (attrs := [])
      (c := ⟨"K", .int, .left (.var "L") [(.add, .lit (.int 1))]⟩) (by simp [exProg]) ?_
    simp only [ref, refLeft]
    have : I.consts "L" = some (.int 2) := hL
    simp [this]
    rfl
  · rcases C28_program_default exArith exExtern h1 exExtern_ok exProg_generics (by
      intro d hd
      simp only [exProg, List.mem_cons, List.not_mem_nil, or_false] at hd
      rcases hd with rfl | rfl | rfl | rfl | rfl <;> rfl) with h3 | ⟨I', h3, h4, -⟩
    · rw [hl] at h3; cases h3
    · rw [hl] at h3
      cases h3
      obtain ⟨m, k1, k2⟩ := h4 [] _ (List.mem_cons_self ..)
      exact ⟨m, k1, k2⟩

end Chandeliers.Props
