import Verif.Lemmas.PresenceNode
import Verif.Lemmas.SoberCheck
import Verif.Props.Program

/-!
# When values are present

C20 and C30: which values are nil, and when.
-/

set_option autoImplicit false

namespace Chandeliers.Props
open Chandeliers.San Chandeliers.Spec Chandeliers.Syn Chandeliers.Err Chandeliers.Prg Chandeliers.Pres

/-- C20.  What the positivity check tests: it accepts the statements exactly if every read of the
past, in an equation or an assertion, reaches back by at most the number of instants that are known
to have elapsed. -/
theorem C20_check_exact (sts : List Stmt) (s : EAccum Diag × Depths) :
    (∃ s', checkPositiveAll sts s = (.some (), s')) ↔
      (∀ p e, .let_ p e ∈ sts → ReadsWithin 0 e) ∧ ∀ e, .assert e ∈ sts → ReadsWithin 0 e := by
  rw [checkPositiveAll_tests sts s]
  constructor
  · exact fun h => ⟨fun p e hm => h _ hm, fun e hm => h _ hm⟩
  · intro h st hst
    cases st with
    | let_ p e => exact h.1 p e hst
    | assert e => exact h.2 e hst
    | _ => trivial

theorem wrapExtern_answers {m : Machine} {τ : TyTuple} (h : Complete m τ) :
    Answers (wrapExtern m) τ where
  idle := by
    intro s i hi
    simp [wrapExtern, Candle.implicitClock, hi]
  full := by
    have key : ∀ (is : List Value) (s : m.σ) (k : Nat) (os : List Value) (s' : m.σ × Nat),
        (∀ js os s', (∀ j ∈ js, ValTy τ j ∧ Full j) → m.runFrom s js = .ok (os, s') →
          ∀ o ∈ os, Full o) →
        (∀ i ∈ is, ValTy τ i ∧ (i.firstIsNil = true ∨ Full i)) →
        (wrapExtern m).runFrom (s, k) is = .ok (os, s') →
        ∀ (t : Nat) i o, is[t]? = some i → os[t]? = some o → i.firstIsNil = false → Full o := by
      intro is
      induction is with
      | nil => intro s k os s' _ _ _ t i o h; cases h
      | cons i is ih =>
        intro s k os s' hs hi hr t j o hj ho hp
        simp only [Machine.runFrom] at hr
        obtain ⟨⟨o₁, s₁, k₁⟩, h1, hr⟩ := ok_bind.1 hr
        obtain ⟨⟨os₁, s₂⟩, h2, hr⟩ := ok_bind.1 hr
        cases hr
        by_cases hn : i.firstIsNil = true
        · simp only [wrapExtern, Candle.implicitClock, hn, if_true] at h1
          cases h1
          cases t with
          | zero => cases hj; rw [hn] at hp; cases hp
          | succ t => exact ih s k os₁ _ hs (fun i h => hi i (by simp [h])) h2 t j o hj ho hp
        · have hi0 := hi i (by simp)
          simp only [wrapExtern, Candle.implicitClock, hn] at h1
          cases hm : m.step s i with
          | error p => rw [hm] at h1; cases h1
          | ok r =>
            obtain ⟨o₂, s₃⟩ := r
            rw [hm] at h1
            cases h1
            have hf : Full i := hi0.2.resolve_left hn
            cases t with
            | zero =>
              cases ho
              exact hs [i] [o₁] s₁ (by simpa using ⟨hi0.1, hf⟩)
                (by simp only [Machine.runFrom, hm, bind, Except.bind]) o₁ (by simp)
            | succ t =>
              refine ih s₁ _ os₁ _ (fun js os' s' hj hrun o' ho' => ?_)
                (fun i h => hi i (by simp [h])) h2 t j o hj ho hp
              refine hs (i :: js) (o₁ :: os') s' ?_ ?_ o' (by simp [ho'])
              · intro j' hj'
                rcases List.mem_cons.1 hj' with rfl | hj'
                · exact ⟨hi0.1, hf⟩
                · exact hj j' hj'
              · simp only [Machine.runFrom, hm, hrun, bind, Except.bind]
    intro is os hi hr t i o ht hto hp
    obtain ⟨⟨os', s'⟩, h1, h2⟩ := ok_bind.1 hr
    cases h2
    refine key is m.init 0 _ s' (fun js os s' hj hrun => h js os hj ?_) hi h1 t i o ht hto hp
    simp only [Machine.run, hrun, bind, Except.bind]

/-- The programs of which C20 and C30 are proved: they do not use `#[universal_pre]`, what they
declare `extern` is what they say and answers completely, and their nodes are `Sober`. -/
structure Covered (X : Extern) (p : SrcProg) (p' : Prog) : Prop where
  extern : ExternOk X p
  complete : ∀ attrs f ins outs m, ⟨attrs, .extNode f ins outs⟩ ∈ p → X.nodes f = some m → ∀ θ,
    Complete m (substTy θ (flatTuple (argTypes ins)))
  generics : DistinctGenerics p
  plain : ∀ d ∈ p, hasAny d.attrs ["universal_pre"] = false
  sober : ∀ n, .node n ∈ p'.decls → ∃ K, Sober n K

theorem covered_nodes (A : Arith) (X : Extern) {p : SrcProg} {p' : Prog} {w : List Report}
    {I : Items} (h : decl (compile p) = .done w (some p')) (hl : link A X p'.decls = .ok I)
    (hc : Covered X p p') {attrs : List Attribute} {src : SrcNode} (hs : ⟨attrs, .node src⟩ ∈ p) :
    ∃ sigs consts n ms K, InProg Good I.consts sigs consts attrs src n ms ∧
      Setting I.consts ms sigs consts n K ∧ I.nodes src.name = some (n.machine A I.consts ms) ∧
      Linked ms I.nodes n.blocks := by
  obtain ⟨q, hq, hp⟩ := accepted_passes h
  obtain ⟨hl1, hl2⟩ := link_ok hl
  rcases linkConsts_typed (A := A) (X := X) hp
      (fun a x t hm => hc.extern.consts a x t (hq.mem_iff.1 hm)) (g := fun _ => none)
      (fun x t h => by cases h) with he | ⟨g, h1, -, h3, h4⟩
  · rw [hl1] at he; cases he
  · rw [hl1] at h1
    cases h1
    obtain ⟨sigs, consts, n, ms, k1, k2, k3, k4⟩ := linkNodes_ind (A := A) (X := X) Good hp
      (fun d hm => hc.generics d (hq.mem_iff.1 hm)) (by
        intro a f ins outs m hm hX
        obtain ⟨m', e1, e2⟩ := hc.extern.nodes a f ins outs (hq.mem_iff.1 hm)
        rw [hX] at e1
        cases e1
        exact ⟨fun θ => wrapExtern_respects (e2 θ),
          fun θ => wrapExtern_answers (hc.complete a f ins outs m (hq.mem_iff.1 hm) hX θ)⟩)
      (by
        intro sigs consts a src n ms hm hn hin
        obtain ⟨K, hK⟩ := hc.sober n hn
        have hset := setting_of_inProg hin (hc.plain _ (hq.mem_iff.1 hm)) hK
        obtain ⟨p1, p2, p3⟩ := passes_sig hin.passes
        rw [translateArgs_ty] at p2 p3
        refine ⟨fun θ => ?_, fun θ => ?_⟩
        · have := C28_node (A := A) hin.wf hset.ready hset.constsOk (fun i b hb => by
            obtain ⟨m, gens, ins, outs, e1, e2, e3⟩ := hset.subs i b hb
            exact ⟨m, gens, ins, outs, e1, e2, fun θ => (e3 θ).1⟩) θ
          rw [p2, p3] at this
          exact this
        · have := node_answers (A := A) hset θ
          rw [p2] at this
          exact this)
      (fun x t h => by cases h) h3 h4 (N := fun _ => none) (fun _ _ => rfl)
      (fun f s h => by cases h) hl2 attrs src (hq.mem_iff.2 hs)
    obtain ⟨K, hK⟩ := hc.sober n k1
    exact ⟨sigs, consts, n, ms, K, k2, setting_of_inProg k2 (hc.plain _ hs) hK, k3, k4⟩

/-- C20, for the programs that are `Covered`.  Every node of an accepted program, given inputs of
its type that are complete or absent, has complete outputs at the instants where its inputs are
present: nothing uninitialised is ever observed.

What is missing: `C20_counterexample_*` below show that the rest of C20 is false of the code. -/
theorem C20_program_partial (A : Arith) (X : Extern) {p : SrcProg} {p' : Prog} {w : List Report}
    {I : Items} (h : decl (compile p) = .done w (some p')) (hl : link A X p'.decls = .ok I)
    (hc : Covered X p p') {attrs : List Attribute} {src : SrcNode} (hs : ⟨attrs, .node src⟩ ∈ p) :
    ∃ m, I.nodes src.name = some m ∧ ∀ θ is os,
      (∀ i ∈ is, ValTy (substTy θ (flatTuple (argTypes src.inputs))) i ∧
        (i.firstIsNil = true ∨ Full i)) → m.run is = .ok os →
      ∀ (t : Nat) i o, is[t]? = some i → os[t]? = some o → i.firstIsNil = false → Full o := by
  obtain ⟨sigs, consts, n, ms, K, k1, k2, k3, k4⟩ := covered_nodes A X h hl hc hs
  obtain ⟨p1, p2, p3⟩ := passes_sig k1.passes
  rw [translateArgs_ty] at p2
  refine ⟨_, k3, fun θ => ?_⟩
  have := (node_answers (A := A) k2 θ).full
  rw [p2] at this
  exact this

theorem declared_src {b : Bool} {o : TyOpts} {sigs : String → Option Sig}
    {consts : String → Option TyBase} {src : SrcNode} {n : Node} (h : Passes b o sigs consts src n)
    {a : ArgsTy} (ha : a ∈ src.inputs ++ src.outputs ++ src.locals) {x : String} (hx : x ∈ a.ids) :
    ∃ v ∈ declared n, v.name = x ∧ v.clk = a.clk := by
  obtain ⟨n₁, n₂, c, ctx, clk, m, K, hf⟩ := Den.passes_final h
  have key : ∀ (as : List ArgsTy), a ∈ as → ∃ v ∈ setDepths m (translateArgs as), v.name = x ∧
      v.clk = a.clk := by
    intro as hm
    refine ⟨_, List.mem_map.2 ⟨⟨x, a.base, a.clk, 0⟩, List.mem_flatMap.2 ⟨a, hm, ?_⟩, rfl⟩, rfl, rfl⟩
    exact List.mem_map.2 ⟨x, hx, rfl⟩
  rw [hf.final, hf.same, hf.start]
  simp only [declared, Node.withDepths, Node.withClocks, Node.fill, List.mem_append] at ha ⊢
  rcases ha with (ha | ha) | ha
  · obtain ⟨v, h1, h2⟩ := key _ ha; exact ⟨v, .inl (.inl h1), h2⟩
  · obtain ⟨v, h1, h2⟩ := key _ ha; exact ⟨v, .inl (.inr h1), h2⟩
  · obtain ⟨v, h1, h2⟩ := key _ ha; exact ⟨v, .inr h1, h2⟩

/-- C30, for the variables of the programs that are `Covered`.  In every solution of the equations
of a node of an accepted program (by C47 these are the runs of the node), with complete inputs of its
type: a variable declared without a clock has a value at every instant of the node, and a variable
declared `when x` (`whenot x`) has one exactly at the instants where `x` is true (false).

What is missing: `C30_counterexample_*` below show that the rest of C30 is false of the code. -/
theorem C30_program_partial (A : Arith) (X : Extern) {p : SrcProg} {p' : Prog} {w : List Report}
    {I : Items} (h : decl (compile p) = .done w (some p')) (hl : link A X p'.decls = .ok I)
    (hc : Covered X p p') {attrs : List Attribute} {src : SrcNode} (hs : ⟨attrs, .node src⟩ ∈ p)
    (θ : Subst) {S : String → Nat → Nillable Scalar} {is : List Value}
    (hsol : SrcSolution ⟨A, SrcNode.vars src, S, I.consts, I.nodes⟩ src is)
    (hi : ∀ i ∈ is, ValTy (substTy θ (flatTuple (argTypes src.inputs))) i ∧ Full i)
    {a : ArgsTy} (ha : a ∈ src.inputs ++ src.outputs ++ src.locals) {x : String} (hx : x ∈ a.ids)
    {t : Nat} (ht : t < is.length) : S x t ≠ .nil ↔ Due S a.clk t := by
  obtain ⟨sigs, consts, n, ms, K, k1, k2, k3, k4⟩ := covered_nodes A X h hl hc hs
  obtain ⟨p1, p2, p3⟩ := passes_sig k1.passes
  rw [translateArgs_ty] at p2
  obtain ⟨v, v1, v2, v3⟩ := declared_src k1.passes ha hx
  have hp := k1.passes
  rw [show (meaning attrs).universalPre = false from hc.plain _ hs] at hp
  have hsol' := (solution_passes (A := A) (glob := I.consts) hp k4 ⟨S, default, fun _ => .leaf ()⟩
    is).2 hsol
  have hv := node_present k2 θ hsol' (by rw [p2]; exact fun i h => (hi i h).1)
    (fun i h => (hi i h).2) t ht x a.clk.intoClk
    (by rw [← v2, ← v3]; exact declared_clk k2.sober.clocks.declared v1)
  have hact : Active S a.clk.intoClk t ↔ Due S a.clk t := by
    rcases a.clk with ⟨_ | _, y⟩ | _ | _ <;> rfl
  rw [← hact]
  constructor
  · intro hne
    by_contra hn
    exact hne (hv.2 hn _ (by simp [Tup.leaves]))
  · intro ha
    exact hv.1 ha _ (by simp [Tup.leaves])

/-- C30, for expressions of the programs that are `Covered`.  In the same situation, the expression
on the right of an equation or in an assertion that has the clock `k` by the clock rules has, when it
is evaluated, a complete value at the instants of `k` and is nil at the others. -/
theorem C30_expression_partial (A : Arith) (X : Extern) {p : SrcProg} {p' : Prog} {w : List Report}
    {I : Items} (h : decl (compile p) = .done w (some p')) (hl : link A X p'.decls = .ok I)
    (hc : Covered X p p') {attrs : List Attribute} {src : SrcNode} (hs : ⟨attrs, .node src⟩ ∈ p)
    (θ : Subst) {S : String → Nat → Nillable Scalar} {is : List Value}
    (hsol : SrcSolution ⟨A, SrcNode.vars src, S, I.consts, I.nodes⟩ src is)
    (hi : ∀ i ∈ is, ValTy (substTy θ (flatTuple (argTypes src.inputs))) i ∧ Full i) :
    ∃ n ms K, I.nodes src.name = some (n.machine A I.consts ms) ∧ NodeClocked true n K ∧
      ∀ st ∈ n.stmts, ∀ e ∈ evaluated st, ∀ k, HasClock true K e k →
        ∀ t, t < is.length → ∀ v,
          den A I.consts ms ⟨S, default, fun _ => .leaf ()⟩ 0 e t = .ok v →
            PresentOn S k t v := by
  obtain ⟨sigs, consts, n, ms, K, k1, k2, k3, k4⟩ := covered_nodes A X h hl hc hs
  obtain ⟨p1, p2, p3⟩ := passes_sig k1.passes
  rw [translateArgs_ty] at p2
  have hp := k1.passes
  rw [show (meaning attrs).universalPre = false from hc.plain _ hs] at hp
  have hsol' := (solution_passes (A := A) (glob := I.consts) hp k4 ⟨S, default, fun _ => .leaf ()⟩
    is).2 hsol
  have hit : ∀ i ∈ is, ValTy (substTy θ (flatTuple (n.inputs.map (·.ty)))) i := by
    rw [p2]; exact fun i h => (hi i h).1
  have hall := node_present k2 θ hsol' hit (fun i h => (hi i h).2)
  refine ⟨n, ms, K, k3, k2.sober.clocks, fun st hst e he k hk t ht v hv => ?_⟩
  exact evaluated_present k2 hst he hk (k2.sane θ hsol' hit ht st hst e he)
    (fun u hu x d _ hd => hall (u - d) (by omega) x) hv

/-! ## Example

```
extern node next(x: int) returns (y: int);
node inc(x: int) returns (y: int); let y = next(x); tel
node choose(b: bool; x: int) returns (y, last: int);
var a: int when b; c: int whenot b;
let
  a = inc(x when b);
  c = last whenot b;
  y = merge b a c;
  last = if x < 10 then 0 -> pre y else 1;
tel
``` -/

/-- The extern node: adds one. -/
def exNext : Machine where
  σ := Unit
  init := ()
  outTy := .leaf ()
  step := fun _ i => match i with
    | .leaf (.defined (.int x)) => .ok (.leaf (.defined (.int (x + 1))), ())
    | _ => .ok (.leaf .nil, ())

/-- The node with clocks. -/
def exChooseNode : SrcNode where
  name := "choose"
  inputs := [⟨["b"], .bool, .implicit⟩, ⟨["x"], .int, .implicit⟩]
  outputs := [⟨["y", "last"], .int, .implicit⟩]
  locals := [⟨["a"], .int, .explicit true "b"⟩, ⟨["c"], .int, .explicit false "b"⟩]
  defs := [
    .def_ (.var "a") (.call "inc" [.left (.var "x") [(.when, .var "b")]] false),
    .def_ (.var "c") (.left (.var "last") [(.whenot, .var "b")]),
    .def_ (.var "y") (.merge (.var "b") (.var "a") (.var "c")),
    .def_ (.var "last") (.ifx (.cmp (.var "x") [(.lt, .lit (.int 10))])
      (.arrow (.lit (.int 0)) [.pre (.var "y")]) (.lit (.int 1)))]

/-- The program. -/
def exChoose : SrcProg := [
  ⟨[], .extNode "next" [⟨["x"], .int, .implicit⟩] [⟨["y"], .int, .implicit⟩]⟩,
  ⟨[], .node {
    name := "inc"
    inputs := [⟨["x"], .int, .implicit⟩]
    outputs := [⟨["y"], .int, .implicit⟩]
    locals := []
    defs := [.def_ (.var "y") (.call "next" [.var "x"] false)] }⟩,
  ⟨[], .node exChooseNode⟩]
/-- Its external items. -/
def exChooseExtern : Extern where
  consts := fun _ => none
  nodes := fun f => if f = "next" then some exNext else none

/-- Whether the nodes of the compiled program pass the test for `Sober`. -/
def allSober (p : SrcProg) : Bool :=
  match outcome p with
  | some (_, p') => p'.decls.all fun d => match d with
    | .node n => sober n
    | _ => true
  | none => false

theorem exChoose_sober : allSober exChoose = true := by decide +kernel

theorem allSober_sound {p : SrcProg} (h : allSober p = true) {w : List Report} {p' : Prog}
    (hp : decl (compile p) = .done w (some p')) : ∀ n, .node n ∈ p'.decls → ∃ K, Sober n K := by
  intro n hn
  have ho : outcome p = some (w, p') := by simp only [outcome, hp]
  simp only [allSober, ho, List.all_eq_true] at h
  exact ⟨_, sober_sound (h _ hn)⟩

theorem exNext_step {s : Unit} {i : Value} (h : ValTy (.single .int) i) :
    ∃ o, exNext.step s i = .ok (o, ()) ∧ ValTy (.single .int) o ∧ (Full i → Full o) := by
  cases i with
  | tup hd tl => cases h
  | leaf l =>
    cases l with
    | nil => exact ⟨_, rfl, fun _ h => (by cases h), fun h => h⟩
    | defined x =>
      cases x with
      | int x => exact ⟨_, rfl, fun _ h => (by cases h; trivial), fun _ => by simp [Full, Tup.leaves]⟩
      | _ => exact absurd (h _ rfl) id

theorem exNext_run : ∀ {is : List Value} {s : Unit}, (∀ i ∈ is, ValTy (.single .int) i) →
    ∃ os, exNext.runFrom s is = .ok (os, ()) ∧ (∀ o ∈ os, ValTy (.single .int) o) ∧
      ((∀ i ∈ is, Full i) → ∀ o ∈ os, Full o)
  | [], s, _ => ⟨[], rfl, by simp, by simp⟩
  | i :: is, s, h => by
    obtain ⟨o, h1, h2, h3⟩ := exNext_step (s := s) (h i (by simp))
    obtain ⟨os, k1, k2, k3⟩ := exNext_run (is := is) (s := ()) fun j hj => h j (by simp [hj])
    refine ⟨o :: os, by simp only [Machine.runFrom, h1, k1, bind, Except.bind], ?_, ?_⟩
    · intro o' ho'
      rcases List.mem_cons.1 ho' with rfl | ho'
      · exact h2
      · exact k2 o' ho'
    · intro hf o' ho'
      rcases List.mem_cons.1 ho' with rfl | ho'
      · exact h3 (hf i (by simp))
      · exact k3 (fun j hj => hf j (by simp [hj])) o' ho'

theorem exChoose_covered {w : List Report} {p' : Prog}
    (h : decl (compile exChoose) = .done w (some p')) : Covered exChooseExtern exChoose p' where
  extern := {
    consts := by
      intro attrs x ty h
      simp [exChoose] at h
    nodes := by
      intro attrs f ins outs h
      simp only [exChoose, List.mem_cons, SrcDecl.mk.injEq, reduceCtorEq, and_false, or_false,
        SrcItem.extNode.injEq, List.not_mem_nil] at h
      obtain ⟨-, rfl, rfl, rfl⟩ := h
      refine ⟨exNext, rfl, fun θ => ⟨?_, fun _ h => by cases h⟩⟩
      intro is hi
      obtain ⟨os, k1, k2, -⟩ := exNext_run (is := is) (s := ()) hi
      refine ⟨fun p hp => ?_, fun os' s' h => ?_⟩
      · have : exNext.runFrom () is = .error p := hp
        rw [k1] at this; cases this
      · have : exNext.runFrom () is = .ok (os', s') := h
        rw [k1] at this; cases this
        exact k2 }
  complete := by
    intro attrs f ins outs m h hm θ is os hi hr
    simp only [exChoose, List.mem_cons, SrcDecl.mk.injEq, reduceCtorEq, and_false, or_false,
      SrcItem.extNode.injEq, List.not_mem_nil] at h
    obtain ⟨-, rfl, rfl, rfl⟩ := h
    cases hm
    obtain ⟨os', k1, -, k3⟩ := exNext_run (is := is) (s := ()) fun i h => (hi i h).1
    obtain ⟨⟨os₁, s₁⟩, e1, e2⟩ := ok_bind.1 hr
    have e1 : exNext.runFrom () is = .ok (os₁, s₁) := e1
    rw [k1] at e1
    cases e1
    cases e2
    exact k3 fun i h => (hi i h).2
  generics := by
    intro d hd
    simp only [exChoose, List.mem_cons, List.not_mem_nil, or_false] at hd
    rcases hd with rfl | rfl | rfl <;> decide
  plain := by
    intro d hd
    simp only [exChoose, List.mem_cons, List.not_mem_nil, or_false] at hd
    rcases hd with rfl | rfl | rfl <;> rfl
  sober := allSober_sound exChoose_sober h

/-- Which components of the outputs of the node `f` are nil, over a history. -/
def nilsIn (X : Extern) (p : SrcProg) (f : String) (is : List Value) :
    Option (List (List Bool)) :=
  match itemsOf X p with
  | none => none
  | some I =>
    match I.nodes f with
    | none => none
    | some m => (m.run is).toOption.map fun os => os.map fun o => o.leaves.map fun l =>
        match l with
        | .nil => true
        | .defined _ => false

/-- Inputs of `choose`. -/
def exPair (b : Bool) (x : Int64) : Value :=
  .tup (.leaf (.defined (.bool b))) [.leaf (.defined (.int x))]

/-- The whole chain, run. -/
theorem exChoose_runs :
    nilsIn exChooseExtern exChoose "choose" [exPair true 1, exPair false 2, exPair true 20] =
      some [[false, false], [false, false], [false, false]] := by decide +kernel

/-- Non-vacuity of C20 and C30: the program is accepted, linked, covered and runs. -/
example : ∃ w p' I, decl (compile exChoose) = .done w (some p') ∧
    link exArith exChooseExtern p'.decls = .ok I ∧ Covered exChooseExtern exChoose p' := by
  have h : (itemsOf exChooseExtern exChoose).isSome = true := by
    have := exChoose_runs
    unfold nilsIn at this
    split at this <;> simp_all
  obtain ⟨I, h⟩ := Option.isSome_iff_exists.1 h
  obtain ⟨w, p', h1, hl⟩ := itemsOf_some h
  exact ⟨w, p', I, h1, hl, exChoose_covered h1⟩

/-! ## Counterexamples

What `Covered` excludes, C20 and C30 are false of. -/

/-- No external items. -/
def noExtern : Extern := ⟨fun _ => none, fun _ => none⟩

/-- A program of one node with one integer input `x`, one boolean input `b` and one integer output
`o`, and perhaps a node to call. -/
def oneNode (attrs : List Attribute) (e : Src) : SrcProg := [
  ⟨attrs, .node {
    name := "f"
    inputs := [⟨["b"], .bool, .implicit⟩, ⟨["x"], .int, .implicit⟩]
    outputs := [⟨["o"], .int, .implicit⟩]
    locals := []
    defs := [.def_ (.var "o") e] }⟩,
  ⟨[], .node {
    name := "id"
    inputs := [⟨["x"], .int, .implicit⟩]
    outputs := [⟨["y"], .int, .implicit⟩]
    locals := []
    defs := [.def_ (.var "y") (.var "x")] }⟩,
  ⟨[], .node {
    name := "snd"
    inputs := [⟨["x", "y"], .int, .implicit⟩]
    outputs := [⟨["z"], .int, .implicit⟩]
    locals := []
    defs := [.def_ (.var "z") (.arrow (.var "y") [.pre (.var "y")])] }⟩]

/-- `#[universal_pre]`. -/
def universal : List Attribute := [⟨"universal_pre", [], [], 0⟩]

/-- F1.  Under `#[universal_pre]`, `o = 0 -> 0 -> pre pre x` is accepted; `o` is nil at instant 1. -/
theorem C20_counterexample_nested_arrow :
    nilsIn noExtern (oneNode universal (.arrow (.lit (.int 0)) [.lit (.int 0), .pre (.pre (.var "x"))]))
      "f" [exPair true 1, exPair true 2, exPair true 3] = some [[false], [true], [false]] := by
  decide +kernel

/-- F2.  `o = pre id(1)` is accepted; `o` is nil at instant 0. -/
theorem C20_counterexample_delayed_call :
    nilsIn noExtern (oneNode [] (.pre (.call "id" [.lit (.int 1)] false)))
      "f" [exPair true 1, exPair true 2] = some [[true], [false]] := by
  decide +kernel

/-- F17.  `o = 0 -> snd(x, pre x)`, where `snd` returns the previous value of its second argument, is
accepted: the right of the `->` is computed at instant 0, and what `snd` reads then is nil at
instant 1. -/
theorem C20_counterexample_partial_call :
    nilsIn noExtern (oneNode [] (.arrow (.lit (.int 0)) [.call "snd" [.var "x", .pre (.var "x")] false]))
      "f" [exPair true 1, exPair true 2, exPair true 3] = some [[false], [true], [false]] := by
  decide +kernel

/-- F11.  `o = 0 -> x when b` is accepted although `o` is declared without a clock; it is nil when
`b` is false. -/
theorem C30_counterexample_arrow :
    nilsIn noExtern (oneNode [] (.arrow (.lit (.int 0)) [.left (.var "x") [(.when, .var "b")]]))
      "f" [exPair false 1, exPair false 2, exPair true 3] = some [[false], [true], [false]] := by
  decide +kernel

/-- F12.  `y = if true then 1 else (x when b)` where `y` is declared `when b`, and
`o = merge b count(y) (0 whenot b)` where `count` counts its activations. -/
def exConstCond : SrcProg := [
  ⟨[], .node {
    name := "f"
    inputs := [⟨["b"], .bool, .implicit⟩, ⟨["x"], .int, .implicit⟩]
    outputs := [⟨["o"], .int, .implicit⟩]
    locals := [⟨["y"], .int, .explicit true "b"⟩]
    defs := [
      .def_ (.var "y") (.ifx (.lit (.bool true)) (.lit (.int 1))
        (.paren [.left (.var "x") [(.when, .var "b")]] false)),
      .def_ (.var "o") (.merge (.var "b") (.paren [.call "count" [.var "y"] false] false)
        (.paren [.left (.lit (.int 0)) [(.whenot, .var "b")]] false))] }⟩,
  ⟨[], .node {
    name := "count"
    inputs := [⟨["x"], .int, .implicit⟩]
    outputs := [⟨["n"], .int, .implicit⟩]
    locals := []
    defs := [.def_ (.var "n") (.arrow (.lit (.int 1))
      [.left (.lit (.int 1)) [(.add, .pre (.var "n"))]])] }⟩]

/-- F12.  It is accepted; `b` is true for the first time at instant 1 but this is the second time that
`y` is present. -/
theorem C30_counterexample_condition :
    runIn noExtern exConstCond "f" [exPair false 1, exPair true 2, exPair true 3] =
      some [some 0, some 2, some 3] := by
  decide +kernel

end Chandeliers.Props
