import Verif.Lemmas.SteadyProg
import Verif.Props.Presence
import Verif.Props.Legal

/-!
# When values are present, with `#[universal_pre]`

C20 and C30, for programs that mix nodes with and without `#[universal_pre]`.
-/

set_option autoImplicit false

namespace Chandeliers.Props
open Chandeliers.San Chandeliers.Spec Chandeliers.Syn Chandeliers.Err Chandeliers.Prg Chandeliers.Pres
open Chandeliers.Spec.Static

/-- The programs of which C20 and C30 are proved here: what they declare `extern` is what they say and
answers completely, their nodes without `#[universal_pre]` are `Sober`, and those with it are `Tidy`
and steady. -/
structure Regular (X : Extern) (p : SrcProg) (p' : Prog) : Prop where
  extern : ExternOk X p
  complete : ∀ attrs f ins outs m, ⟨attrs, .extNode f ins outs⟩ ∈ p → X.nodes f = some m → ∀ θ,
    Complete m (substTy θ (flatTuple (argTypes ins)))
  generics : DistinctGenerics p
  sober : ∀ attrs src n, ⟨attrs, .node src⟩ ∈ p → hasAny attrs ["universal_pre"] = false →
    .node n ∈ p'.decls → n.name = src.name → ∃ K, Sober n K
  tidy : TidyProg p
  steady : ∀ attrs src, ⟨attrs, .node src⟩ ∈ p → hasAny attrs ["universal_pre"] = true →
    SteadyNode (meaning attrs) src

/-- The programs without `#[universal_pre]` that are `Covered` are also among these. -/
theorem Covered.regular {X : Extern} {p : SrcProg} {p' : Prog} (h : Covered X p p') :
    Regular X p p' where
  extern := h.extern
  complete := h.complete
  generics := h.generics
  sober := fun _ _ n _ _ hn _ => h.sober n hn
  tidy := by
    intro attrs src hs hu
    rw [show hasAny attrs ["universal_pre"] = false from h.plain _ hs] at hu
    cases hu
  steady := by
    intro attrs src hs hu
    rw [show hasAny attrs ["universal_pre"] = false from h.plain _ hs] at hu
    cases hu

theorem legal_literals {p : SrcProg} (hL : Legal p) {attrs : List Attribute} {src : SrcNode}
    (hs : ⟨attrs, .node src⟩ ∈ p) :
    ∀ e ∈ src.defs.map SrcStmt.expr, ∀ l ∈ literals e, Denotes l := by
  intro x hx l hl
  obtain ⟨st, hst, rfl⟩ := List.mem_map.1 hx
  have hn : LegalNode _ _ _ src := hL.items _ hs
  obtain ⟨t, ht⟩ := Den.legalStmt_ty (hn.stmts st hst)
  exact Den.literal_denotes ((Den.hasTy_known _ ht).1 l hl)

section
variable {A : Arith} {X : Extern} {p : SrcProg} {p' : Prog} {w : List Report} {I : Items}

theorem regular_legal (h : decl (compile p) = .done w (some p')) (hc : Regular X p p') : Legal p :=
  (C50_accepted hc.generics).1 ⟨w, p', h⟩

theorem regular_good (hL : Legal p) (hc : Regular X p p') {q : SrcProg} (hq : q.Perm p)
    {g : Globals} {sigs : String → Option Sig} {consts : String → Option TyBase}
    {attrs : List Attribute} {src : SrcNode} {n : Node} {ms : List Machine}
    (hm : ⟨attrs, .node src⟩ ∈ q) (hn : .node n ∈ p'.decls)
    (hin : InProg Good g sigs consts attrs src n ms) :
    Good (n.machine A g ms) ((meaning attrs).generics, argTypes src.inputs, argTypes src.outputs) := by
  have hm := hq.mem_iff.1 hm
  cases hu : (meaning attrs).universalPre with
  | true =>
    exact Std.universal_good hin hu (hc.tidy attrs src hm hu) (hc.steady attrs src hm hu)
      (legal_literals hL hm)
  | false =>
    obtain ⟨K, hK⟩ := hc.sober attrs src n hm hu hn (passes_sig hin.passes).1
    have hset := setting_of_inProg hin hu hK
    obtain ⟨p1, p2, p3⟩ := passes_sig hin.passes
    rw [translateArgs_ty] at p2 p3
    refine ⟨fun θ => ?_, fun θ => ?_⟩
    · have := C28_node (A := A) hin.wf hset.ready hset.constsOk (fun i b hb => by
        obtain ⟨m, gens, ins, outs, e1, e2, e3⟩ := hset.subs i b hb
        exact ⟨m, gens, ins, outs, e1, e2, fun θ => (e3 θ).1⟩) θ
      rw [p2, p3] at this
      exact this
    · have := node_answers (A := A) hset θ
      rw [p2] at this
      exact this

theorem passes_consts {sigs : String → Option Sig} {consts : String → Option TyBase}
    {q : List SrcDecl} {ds : List San.Decl} (h : ProgPasses sigs consts q ds) {x : String}
    {t : TyBase} : (x, t) ∈ q.filterMap constant →
    (∃ c, .const c ∈ ds ∧ c.name = x ∧ c.ty = t) ∨ ∃ c, .extConst c ∈ ds ∧ c.name = x ∧ c.ty = t := by
  induction h with
  | nil => intro hm; cases hm
  | @const sigs consts attrs c c' ds ds' ht h hn hs ih =>
    intro hm
    have e := const_translate_name ht
    rw [List.filterMap_cons] at hm
    simp only [constant] at hm
    rcases List.mem_cons.1 hm with e' | hm
    · cases e'
      exact .inl ⟨c', List.mem_cons_self .., e.1, e.2⟩
    · rcases ih hm with ⟨c, h1, h2⟩ | ⟨c, h1, h2⟩
      · exact .inl ⟨c, List.mem_cons_of_mem _ h1, h2⟩
      · exact .inr ⟨c, List.mem_cons_of_mem _ h1, h2⟩
  | @extConst sigs consts attrs y ty ds ds' hn hs ih =>
    intro hm
    rw [List.filterMap_cons] at hm
    simp only [constant] at hm
    rcases List.mem_cons.1 hm with e' | hm
    · cases e'
      exact .inr ⟨_, List.mem_cons_self .., rfl, rfl⟩
    · rcases ih hm with ⟨c, h1, h2⟩ | ⟨c, h1, h2⟩
      · exact .inl ⟨c, List.mem_cons_of_mem _ h1, h2⟩
      · exact .inr ⟨c, List.mem_cons_of_mem _ h1, h2⟩
  | node h hn hs ih =>
    intro hm
    rcases ih hm with ⟨c, h1, h2⟩ | ⟨c, h1, h2⟩
    · exact .inl ⟨c, List.mem_cons_of_mem _ h1, h2⟩
    · exact .inr ⟨c, List.mem_cons_of_mem _ h1, h2⟩
  | extNode h hd hn hs ih =>
    intro hm
    rcases ih hm with ⟨c, h1, h2⟩ | ⟨c, h1, h2⟩
    · exact .inl ⟨c, List.mem_cons_of_mem _ h1, h2⟩
    · exact .inr ⟨c, List.mem_cons_of_mem _ h1, h2⟩

/-- The constants and the nodes of such a program. -/
theorem regular_items (A : Arith) (X : Extern) {p : SrcProg} {p' : Prog} {w : List Report}
    {I : Items} (h : decl (compile p) = .done w (some p')) (hl : link A X p'.decls = .ok I)
    (hc : Regular X p p') :
    ConstsOk (find (p.filterMap constant)) I.consts ∧
    (∀ f s, find (p.filterMap nodeSig) f = some s → ∃ m, I.nodes f = some m ∧ Good m s) ∧
    ∀ attrs src, ⟨attrs, .node src⟩ ∈ p → ∃ m, I.nodes src.name = some m ∧
      Good m ((meaning attrs).generics, argTypes src.inputs, argTypes src.outputs) := by
  have hL := regular_legal h hc
  obtain ⟨q, hq, hp⟩ := accepted_passes h
  obtain ⟨hl1, hl2⟩ := link_ok hl
  rcases linkConsts_typed (A := A) (X := X) hp
      (fun a x t hm => hc.extern.consts a x t (hq.mem_iff.1 hm)) (g := fun _ => none)
      (fun x t h => by cases h) with he | ⟨g, h1, -, h3, h4⟩
  · rw [hl1] at he; cases he
  · rw [hl1] at h1
    cases h1
    have hext : ∀ a f ins outs m, ⟨a, .extNode f ins outs⟩ ∈ q → X.nodes f = some m →
        Good (wrapExtern m) ((meaning a).generics, argTypes ins, argTypes outs) := by
      intro a f ins outs m hm hX
      obtain ⟨m', e1, e2⟩ := hc.extern.nodes a f ins outs (hq.mem_iff.1 hm)
      rw [hX] at e1
      cases e1
      exact ⟨fun θ => wrapExtern_respects (e2 θ),
        fun θ => wrapExtern_answers (hc.complete a f ins outs m (hq.mem_iff.1 hm) hX θ)⟩
    have hnode : ∀ attrs src, ⟨attrs, .node src⟩ ∈ p → ∃ m, I.nodes src.name = some m ∧
        Good m ((meaning attrs).generics, argTypes src.inputs, argTypes src.outputs) := by
      intro attrs src hs
      obtain ⟨sigs, consts, n, ms, k1, k2, k3, k4⟩ := linkNodes_ind (A := A) (X := X) Good hp
        (fun d hm => hc.generics d (hq.mem_iff.1 hm)) hext
        (fun sigs consts a src n ms hm hn hin => regular_good hL hc hq hm hn hin)
        (fun x t h => by cases h) h3 h4 (N := fun _ => none) (fun _ _ => rfl)
        (fun f s h => by cases h) hl2 attrs src (hq.mem_iff.2 hs)
      exact ⟨_, k3, regular_good hL hc hq (hq.mem_iff.2 hs) k1 k2⟩
    refine ⟨?_, ?_, hnode⟩
    · intro x t hx
      have hm := Den.find_some_mem hx
      rw [← (hq.filterMap constant).mem_iff] at hm
      rcases passes_consts hp hm with ⟨c, e1, rfl, rfl⟩ | ⟨c, e1, rfl, rfl⟩
      · exact h3 c e1
      · exact h4 c e1
    · intro f s hf
      obtain ⟨⟨a, i⟩, hd, hs⟩ := List.mem_filterMap.1 (Den.find_some_mem hf)
      cases i with
      | const => cases hs
      | extConst => cases hs
      | node src => cases hs; exact hnode a src hd
      | extNode f ins outs =>
        cases hs
        obtain ⟨m, e1, e2⟩ := (linkNodes_values (A := A) (X := X) hp (N := fun _ => none)
          (fun _ _ => rfl) hl2).2.2 a f ins outs (hq.mem_iff.2 hd)
        exact ⟨_, e2, hext a f ins outs m (hq.mem_iff.2 hd) e1⟩

/-- What surrounds the expressions of a node with `#[universal_pre]`. -/
theorem regular_around (h : decl (compile p) = .done w (some p')) (hl : link A X p'.decls = .ok I)
    (hc : Regular X p p') {attrs : List Attribute} {src : SrcNode} (hs : ⟨attrs, .node src⟩ ∈ p)
    (hu : hasAny attrs ["universal_pre"] = true) {S : String → Nat → Nillable Scalar} :
    Std.Around (scope (meaning attrs) (find (p.filterMap constant)) (find (p.filterMap nodeSig)) src)
      ⟨A, SrcNode.vars src, S, I.consts, I.nodes⟩ (SrcNode.clocks src) := by
  obtain ⟨k1, k2, -⟩ := regular_items A X h hl hc
  exact Std.around ((regular_legal h hc).items _ hs) hu (hc.steady attrs src hs hu).written k1 k2

end

/-- C20, for the programs that are `Regular`.  Every node of an accepted program, with or without
`#[universal_pre]`, given inputs of its type that are complete or absent, has complete outputs at the
instants where its inputs are present: nothing uninitialised is ever observed.

What is missing: `C20_counterexample_*` show that the rest of C20 is false of the code. -/
theorem C20_universal_partial (A : Arith) (X : Extern) {p : SrcProg} {p' : Prog} {w : List Report}
    {I : Items} (h : decl (compile p) = .done w (some p')) (hl : link A X p'.decls = .ok I)
    (hc : Regular X p p') {attrs : List Attribute} {src : SrcNode} (hs : ⟨attrs, .node src⟩ ∈ p) :
    ∃ m, I.nodes src.name = some m ∧ ∀ θ is os,
      (∀ i ∈ is, ValTy (substTy θ (flatTuple (argTypes src.inputs))) i ∧
        (i.firstIsNil = true ∨ Full i)) → m.run is = .ok os →
      ∀ (t : Nat) i o, is[t]? = some i → os[t]? = some o → i.firstIsNil = false → Full o := by
  obtain ⟨-, -, k⟩ := regular_items A X h hl hc
  obtain ⟨m, k1, k2⟩ := k attrs src hs
  exact ⟨m, k1, fun θ => (k2.2 θ).full⟩

/-- C30, for the variables of the nodes with `#[universal_pre]` of the programs that are `Regular`.
In every solution of the equations of the node (by C59 these are its runs), with complete inputs of
its type: a variable declared without a clock has a value at every instant of the node, and a
variable declared `when x` (`whenot x`) has one exactly at the instants where `x` is true (false).

What is missing: `C30_counterexample_*` show that the rest of C30 is false of the code. -/
theorem C30_universal_partial (A : Arith) (X : Extern) {p : SrcProg} {p' : Prog} {w : List Report}
    {I : Items} (h : decl (compile p) = .done w (some p')) (hl : link A X p'.decls = .ok I)
    (hc : Regular X p p') {attrs : List Attribute} {src : SrcNode} (hs : ⟨attrs, .node src⟩ ∈ p)
    (hu : hasAny attrs ["universal_pre"] = true)
    (θ : Subst) {S : String → Nat → Nillable Scalar} {is : List Value}
    (hsol : UniSolution ⟨A, SrcNode.vars src, S, I.consts, I.nodes⟩ (SrcNode.clocks src) src is)
    (hi : ∀ i ∈ is, ValTy (substTy θ (flatTuple (argTypes src.inputs))) i ∧ Full i)
    {a : ArgsTy} (ha : a ∈ src.inputs ++ src.outputs ++ src.locals) {x : String} (hx : x ∈ a.ids)
    {t : Nat} (ht : t < is.length) : S x t ≠ .nil ↔ Due S a.clk t := by
  have har := regular_around (S := S) h hl hc hs hu
  have hleg : LegalNode _ _ _ src := (regular_legal h hc).items _ hs
  have hv := Std.node_good hleg har (hc.tidy attrs src hs hu).flat
    ((hc.steady attrs src hs hu).steady _ _) hi hsol t ht x ⟨x, a.base, a.clk.intoClk⟩
    (Std.scope_finds hleg (Std.mem_varsOf.2 ⟨a, ha, x, hx, rfl⟩))
  have hact : Active S a.clk.intoClk t ↔ Due S a.clk t := by
    rcases a.clk with ⟨_ | _, y⟩ | _ | _ <;> rfl
  rw [← hact]
  constructor
  · intro hne
    by_contra hn
    exact hne (hv.2.2 hn _ (by simp [Tup.leaves]))
  · intro ha
    exact hv.2.1 ha _ (by simp [Tup.leaves])

/-- At least `r` instants of the clock `k` come before the instant `t`. -/
def Later (S : String → Nat → Nillable Scalar) (k : Clk) (r t : Nat) : Prop :=
  ∃ us : List Nat, us.Nodup ∧ us.length = r ∧ ∀ u ∈ us, u < t ∧ Active S k u

/-- C30, for expressions of the nodes with `#[universal_pre]` of the programs that are `Regular`.  In
the same situation take any expression that is of type `τ`, that is on clock `k`, and that is late by
`r` (`Steady`).  Its value, if it can be computed, is of this type, it is complete at the instants of
`k` that come after at least `r` other instants of `k`, and it is nil at all the others. -/
theorem C30_universal_expression_partial (A : Arith) (X : Extern) {p : SrcProg} {p' : Prog}
    {w : List Report} {I : Items} (h : decl (compile p) = .done w (some p'))
    (hl : link A X p'.decls = .ok I) (hc : Regular X p p') {attrs : List Attribute} {src : SrcNode}
    (hs : ⟨attrs, .node src⟩ ∈ p) (hu : hasAny attrs ["universal_pre"] = true)
    (θ : Subst) {S : String → Nat → Nillable Scalar} {is : List Value}
    (hsol : UniSolution ⟨A, SrcNode.vars src, S, I.consts, I.nodes⟩ (SrcNode.clocks src) src is)
    (hi : ∀ i ∈ is, ValTy (substTy θ (flatTuple (argTypes src.inputs))) i ∧ Full i)
    {e : Src} {τ : TyTuple} {k : Clk} {r : Nat} (hf : noOneTuple e = true)
    (hτ : HasTy (scope (meaning attrs) (find (p.filterMap constant)) (find (p.filterMap nodeSig)) src)
      e τ)
    (hk : HasClk (scope (meaning attrs) (find (p.filterMap constant)) (find (p.filterMap nodeSig)) src)
      e k)
    (hr : Steady (scope (meaning attrs) (find (p.filterMap constant)) (find (p.filterMap nodeSig)) src)
      e r)
    {t : Nat} (ht : t < is.length) {v : Value}
    (hv : uni ⟨A, SrcNode.vars src, S, I.consts, I.nodes⟩ (SrcNode.clocks src) e t = some v) :
    ValTy (substTy θ τ) v ∧ (Active S k t ∧ Later S k r t → Full v) ∧
      (¬ (Active S k t ∧ Later S k r t) → Blank v) := by
  have har := regular_around (S := S) h hl hc hs hu
  have hleg : LegalNode _ _ _ src := (regular_legal h hc).items _ hs
  have hall := Std.node_good hleg har (hc.tidy attrs src hs hu).flat
    ((hc.steady attrs src hs hu).steady _ _) hi hsol
  obtain ⟨h1, h2⟩ := Std.uni_at (θ := θ) har e hτ hk hr hf
    ⟨fun u hu x _ => hall u (by omega) x, fun x _ => hall t ht x⟩ hv
  exact ⟨h1, fun hc => h2.1 ⟨hc.1, Std.ticks_list.2 hc.2⟩,
    fun hc => h2.2 fun hc' => hc ⟨hc'.1, Std.ticks_list.1 hc'.2⟩⟩

/-! ## Example

```
node acc(x : int) returns (y : int);
let y = x + (0 fby y); tel

#[universal_pre]
node mixed(b : bool; x : int) returns (y, z : int);
var v, w : int when b; u : int whenot b;
let
  v = acc(x when b);
  w = (0 when b) -> pre v;
  u = x whenot b;
  y = merge b w u;
  z = 0 -> pre y -> pre pre y;
  assert x < 10 or not b;
tel
``` -/

/-- The node with `#[universal_pre]`. -/
def exBlendNode : SrcNode where
  name := "mixed"
  inputs := [⟨["b"], .bool, .implicit⟩, ⟨["x"], .int, .implicit⟩]
  outputs := [⟨["y", "z"], .int, .implicit⟩]
  locals := [⟨["v", "w"], .int, .explicit true "b"⟩, ⟨["u"], .int, .explicit false "b"⟩]
  defs := [
    .def_ (.var "v") (.call "acc" [.left (.var "x") [(.when, .var "b")]] false),
    .def_ (.var "w") (.arrow (.left (.lit (.int 0)) [(.when, .var "b")]) [.pre (.var "v")]),
    .def_ (.var "u") (.left (.var "x") [(.whenot, .var "b")]),
    .def_ (.var "y") (.merge (.var "b") (.var "w") (.var "u")),
    .def_ (.var "z") (.arrow (.lit (.int 0)) [.pre (.var "y"), .pre (.pre (.var "y"))]),
    .assert (.left (.cmp (.var "x") [(.lt, .lit (.int 10))]) [(.or, .not (.var "b"))])]

/-- The program. -/
def exBlend : SrcProg := [
  ⟨[], .node {
    name := "acc"
    inputs := [⟨["x"], .int, .implicit⟩]
    outputs := [⟨["y"], .int, .implicit⟩]
    locals := []
    defs := [.def_ (.var "y") (.left (.var "x")
      [(.add, .paren [.fby (.lit (.int 0)) [.var "y"]] false)])] }⟩,
  ⟨universal, .node exBlendNode⟩]

/-- The integers, or nil, in the outputs of the node `f` over a history. -/
def intsIn (X : Extern) (p : SrcProg) (f : String) (is : List Value) :
    Option (List (List (Option Int64))) :=
  match itemsOf X p with
  | none => none
  | some I =>
    match I.nodes f with
    | none => none
    | some m => (m.run is).toOption.map fun os => os.map fun o => o.leaves.map fun l =>
        match l with
        | .defined (.int x) => some x
        | _ => none

/-- A history. -/
def exBlendInputs : List Value :=
  [exPair true 1, exPair false 2, exPair true 3, exPair false 4, exPair true 5]

theorem exBlend_runs : intsIn noExtern exBlend "mixed" exBlendInputs =
    some [[some 0, some 0], [some 2, some 0], [some 1, some 0], [some 4, some 2],
        [some 4, some 1]] := by
  decide +kernel

/-- Whether the nodes of the compiled program with the given name pass the test for `Sober`. -/
def soberNamed (p : SrcProg) (f : String) : Bool :=
  match outcome p with
  | some (_, p') => p'.decls.all fun d => match d with
    | .node n => n.name != f || sober n
    | _ => true
  | none => false

theorem exBlend_sober : soberNamed exBlend "acc" = true := by decide +kernel

theorem soberNamed_sound {p : SrcProg} {f : String} (h : soberNamed p f = true) {w : List Report}
    {p' : Prog} (hp : decl (compile p) = .done w (some p')) {n : Node} (hn : .node n ∈ p'.decls)
    (e : n.name = f) : ∃ K, Sober n K := by
  have ho : outcome p = some (w, p') := by simp only [outcome, hp]
  simp only [soberNamed, ho, List.all_eq_true] at h
  have := h _ hn
  simp only [e, bne_self_eq_false, Bool.false_or] at this
  exact ⟨_, sober_sound this⟩

theorem exBlend_steady : SteadyNode (meaning universal) exBlendNode where
  steady := by
    intro consts nodes st hst
    simp only [exBlendNode, List.mem_cons, List.not_mem_nil, or_false] at hst
    rcases hst with rfl | rfl | rfl | rfl | rfl | rfl
    · exact ⟨0, by simp [SrcStmt.expr, Steady, AllSteady, LeftSteady, Static.guard, Mixes]⟩
    · refine ⟨0, ?_⟩
      simp [SrcStmt.expr, Steady, ArrowSteady, LeftSteady, Static.guard, Mixes]
    · exact ⟨0, by simp [SrcStmt.expr, Steady, LeftSteady, Static.guard, Mixes]⟩
    · exact ⟨0, by simp [SrcStmt.expr, Steady]⟩
    · refine ⟨0, ?_⟩
      simp [SrcStmt.expr, Steady, ArrowSteady]
    · refine ⟨0, ?_⟩
      simp only [SrcStmt.expr, Steady, CmpSteady, LeftSteady, Static.guard, Mixes]
      refine ⟨0, ⟨0, rfl, 0, rfl, .inl rfl, .inl rfl, rfl, fun S' _ h => ?_⟩, .inr (.inl rfl), 0,
        rfl, .inl rfl, rfl⟩
      simp [HasTy, literalType] at h
  written := by
    intro a ha
    simp only [exBlendNode, List.cons_append, List.nil_append, List.mem_cons, List.not_mem_nil,
      or_false] at ha
    rcases ha with rfl | rfl | rfl | rfl | rfl <;> exact fun h => by cases h

theorem exBlend_regular {w : List Report} {p' : Prog}
    (h : decl (compile exBlend) = .done w (some p')) : Regular noExtern exBlend p' where
  extern := by
    constructor <;> intros <;> rename_i h <;> simp [exBlend] at h
  complete := by
    intro a f ins outs m hm
    simp [exBlend] at hm
  generics := by
    intro d hd
    simp only [exBlend, List.mem_cons, List.not_mem_nil, or_false] at hd
    rcases hd with rfl | rfl <;> decide
  sober := by
    intro attrs src n hs hu hn e
    simp only [exBlend, List.mem_cons, List.not_mem_nil, or_false] at hs
    rcases hs with hs | hs
    · cases hs
      exact soberNamed_sound exBlend_sober h hn e
    · cases hs
      cases hu
  tidy := by
    intro attrs src hs hu
    simp only [exBlend, List.mem_cons, List.not_mem_nil, or_false] at hs
    rcases hs with hs | hs
    · cases hs
      cases hu
    · cases hs
      refine ⟨⟨?_, by decide⟩, by decide⟩
      intro a ha b x hx
      simp only [exBlendNode, List.cons_append, List.nil_append, List.mem_cons, List.not_mem_nil,
        or_false] at ha
      rcases ha with rfl | rfl | rfl | rfl | rfl <;> cases hx <;> decide
  steady := by
    intro attrs src hs hu
    simp only [exBlend, List.mem_cons, List.not_mem_nil, or_false] at hs
    rcases hs with hs | hs
    · cases hs
      cases hu
    · cases hs
      exact exBlend_steady

/-- Non-vacuity of C20 and C30: the program is accepted, linked, regular and runs; what the node with
`#[universal_pre]` does is a solution of its equations, with complete inputs of its type. -/
example : ∃ w p' I, decl (compile exBlend) = .done w (some p') ∧
    link exArith noExtern p'.decls = .ok I ∧ Regular noExtern exBlend p' ∧
    ∃ S, UniSolution ⟨exArith, SrcNode.vars exBlendNode, S, I.consts, I.nodes⟩
        (SrcNode.clocks exBlendNode) exBlendNode exBlendInputs ∧
      ∀ i ∈ exBlendInputs,
        ValTy (substTy (fun _ => .int) (flatTuple (argTypes exBlendNode.inputs))) i ∧ Full i := by
  have hr := exBlend_runs
  unfold intsIn at hr
  split at hr
  · cases hr
  rename_i I hI
  obtain ⟨w, p', h, hl⟩ := itemsOf_some hI
  have hc := exBlend_regular h
  split at hr
  · cases hr
  rename_i m hm
  refine ⟨w, p', I, h, hl, hc, ?_⟩
  obtain ⟨m', k1, k2⟩ := C59_program exArith noExtern h hl hc.extern hc.generics
    (fun n hn => (C59_tidy h hc.generics hc.tidy n hn).2.2) (attrs := universal)
    (src := exBlendNode) (by simp [exBlend]) rfl
  have : exBlendNode.name = "mixed" := rfl
  rw [this, hm] at k1
  cases k1
  cases ho : m.run exBlendInputs with
  | error e => rw [ho] at hr; cases hr
  | ok os =>
    obtain ⟨S, hS, -⟩ := (k2 _ _).1 ho
    refine ⟨S, hS, ?_⟩
    intro i hi
    simp only [exBlendInputs, List.mem_cons, List.not_mem_nil, or_false] at hi
    have key : ∀ b x, ValTy (substTy (fun _ => .int) (flatTuple (argTypes exBlendNode.inputs)))
        (exPair b x) ∧ Full (exPair b x) := by
      intro b x
      refine ⟨⟨fun _ h => ?_, fun _ h => ?_, trivial⟩, ?_⟩
      · cases h; exact trivial
      · cases h; exact trivial
      · simp [Full, exPair, Tup.leaves, Tup.leavesList]
    rcases hi with rfl | rfl | rfl | rfl | rfl <;> exact key _ _

/-- Non-vacuity of C30 for expressions: `pre pre y` is an integer, it is on the clock of the node, and
it is late by two instants. -/
example (consts : String → Option TyBase) (nodes : String → Option Sig) :
    HasTy (scope (meaning universal) consts nodes exBlendNode) (.pre (.pre (.var "y")))
      (.single .int) ∧
    HasClk (scope (meaning universal) consts nodes exBlendNode) (.pre (.pre (.var "y"))) .implicit ∧
    Steady (scope (meaning universal) consts nodes exBlendNode) (.pre (.pre (.var "y"))) 2 := by
  refine ⟨?_, ?_, ?_⟩
  · rfl
  · exact ⟨⟨rfl, fun h => by cases h⟩, fun h => by cases h⟩
  · simp [Steady]

end Chandeliers.Props
