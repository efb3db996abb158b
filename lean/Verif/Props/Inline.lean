import Verif.Lemmas.Inline
import Verif.Props.Timely

/-! # C63: a call can be replaced by the body of the node -/

set_option autoImplicit false

namespace Chandeliers.Props
open Chandeliers.Err Chandeliers.San Chandeliers.Spec Chandeliers.Syn Chandeliers.Rep Chandeliers.Prg
open Chandeliers.Spec.Static

section
variable {X : Extern} {p : SrcProg} {p' : Prog} {w : List Report}

theorem legal_targets (hL : Legal p) {attrs : List Attribute} {f : SrcNode}
    (hf : ⟨attrs, .node f⟩ ∈ p) : ∀ st ∈ f.defs, ∀ x ∈ stmtTargets st, x ∈ SrcNode.vars f := by
  intro st hst x hx
  have hleg : LegalNode _ _ _ f := hL.items _ hf
  cases st with
  | assert e => simp [stmtTargets] at hx
  | def_ q e =>
    obtain ⟨⟨t, h1, -⟩, -⟩ := hleg.stmts _ hst
    have := Den.target_scope q h1 x hx
    by_contra hv
    rw [var_none.2 hv] at this
    cases this

theorem legal_input (hL : Legal p) {attrs : List Attribute} {f : SrcNode} (hf : ⟨attrs, .node f⟩ ∈ p)
    {a : ArgsTy} (ha : a ∈ f.inputs) {x : String} (hx : x ∈ a.ids) : Always a.clk.intoClk := by
  have hleg : LegalNode _ _ _ f := hL.items _ hf
  exact hleg.interface.present ⟨x, a.base, a.clk.intoClk⟩ (List.mem_append_left _
    (List.mem_flatMap.2 ⟨a, ha, List.mem_map_of_mem hx⟩))

theorem closed_of_legal (hL : Legal p) {attrs : List Attribute} {f : SrcNode}
    (hf : ⟨attrs, .node f⟩ ∈ p) : Closed f where
  targets := legal_targets hL hf
  clocks := by
    intro x b y hx
    have hleg : LegalNode _ _ _ f := hL.items _ hf
    rw [SrcNode.clocks] at hx
    split at hx
    · rename_i a ha
      have hm := List.mem_of_find?_eq_some ha
      have hxa : x ∈ a.ids := by simpa using List.find?_some ha
      have hv : (⟨x, a.base, a.clk.intoClk⟩ : Var) ∈ varsOf (f.inputs ++ f.outputs ++ f.locals) :=
        List.mem_flatMap.2 ⟨a, hm, List.mem_map_of_mem hxa⟩
      obtain ⟨l, r, e⟩ := List.append_of_mem hv
      obtain ⟨v, hv, h1, -⟩ := hleg.vars.clocks l _ r e y (by
        rw [hx]
        cases b
        · exact .inr rfl
        · exact .inl rfl)
      have hw : v ∈ varsOf (f.inputs ++ f.outputs ++ f.locals) := by
        rw [e]
        exact List.mem_append_left _ hv
      obtain ⟨a', ha', hw⟩ := List.mem_flatMap.1 hw
      obtain ⟨z, hz, rfl⟩ := List.mem_map.1 hw
      rw [← h1]
      exact ids_vars ha' hz
    · cases hx

/-- The two nodes run alike when the streams that the equations describe are present. -/
theorem inline_runs {val : Sem} (hv : Usual val) {A : Arith} {g : Globals}
    {N : String → Option Machine} {f n n' : SrcNode} (c : Inlining f n n') (ht : Closed f)
    {mf m m' : Machine} (hN : N f.name = some mf) (hf : Runs val A g N (SrcNode.clocks f) f mf)
    (hm : Runs val A g N (SrcNode.clocks n) n m) (hm' : Runs val A g N (SrcNode.clocks n') n' m')
    {is os : List Value}
    (hto : ∀ S, Solves val ⟨A, SrcNode.vars n, S, g, N⟩ (SrcNode.clocks n) n (is.filter present) →
      ∀ t, t < (is.filter present).length →
        ∀ a ∈ n.inputs ++ n.outputs ++ n.locals, ∀ x ∈ a.ids, a.clk = .implicit → S x t ≠ .nil)
    (hfrom : ∀ S, Solves val ⟨A, SrcNode.vars n', S, g, N⟩ (SrcNode.clocks n') n' (is.filter present) →
      ∀ t, t < (is.filter present).length → ∀ a ∈ f.inputs, ∀ b ∈ n'.locals,
        b.clk = renameClock c.ρ a.clk → ∀ x ∈ a.ids, c.ρ x ∈ b.ids → S (c.ρ x) t ≠ .nil) :
    m.run is = .ok os ↔ m'.run is = .ok os := by
  rw [hm, hm', c.outputs]
  constructor
  · rintro ⟨S, hS, rfl⟩
    obtain ⟨a, ha, hk, y, hy, hr⟩ := c.always
    obtain ⟨S', h1, h2⟩ := inline_to hv c hN hf ht hS fun t hlt =>
      ⟨y, hr, hto S hS t hlt a ha y hy hk⟩
    exact ⟨S', h1, by rw [h2]⟩
  · rintro ⟨S', hS, rfl⟩
    obtain ⟨h1, h2⟩ := inline_from hv c hN hf ht hS fun t hlt x hx => by
      obtain ⟨a, ha, hx⟩ := List.mem_flatMap.1 hx
      have hm : (a.ids.map c.ρ, renameClock c.ρ a.clk) ∈ n'.locals.map fun a => (a.ids, a.clk) := by
        rw [c.locals]
        refine List.mem_map.2 ⟨renameArgs c.ρ a, ?_, rfl⟩
        simp only [List.mem_append]
        exact .inr (List.mem_map_of_mem (by simp [ha]))
      obtain ⟨b, hb, e⟩ := List.mem_map.1 hm
      injection e with e1 e2
      exact hfrom S' hS t hlt a ha b hb e2 x hx (by rw [e1]; exact List.mem_map_of_mem hx)
    exact ⟨S', h1, by rw [h2]⟩

/-- The clocks of the arguments of an accepted node. -/
theorem legal_due (hL : Legal p) {attrs : List Attribute} {f : SrcNode} (hf : ⟨attrs, .node f⟩ ∈ p)
    {a : ArgsTy} (ha : a ∈ f.inputs) {x : String} (hx : x ∈ a.ids) {ρ : String → String}
    {S : String → Nat → Nillable Scalar} {t : Nat} : Due S (renameClock ρ a.clk) t := by
  have hk := legal_input hL hf ha hx
  cases hq : a.clk with
  | explicit b z => rw [hq] at hk; cases b <;> exact hk.elim
  | implicit => trivial
  | adaptative => trivial

theorem filter_full {θ : Subst} {ty : TyTuple} {is : List Value}
    (hi : ∀ i ∈ is, ValTy (substTy θ ty) i ∧ (i.firstIsNil = true ∨ Full i)) :
    ∀ i ∈ is.filter present, ValTy (substTy θ ty) i ∧ Full i := by
  intro i hm
  obtain ⟨h1, h2⟩ := List.mem_filter.1 hm
  obtain ⟨h3, h4 | h4⟩ := hi i h1
  · simp [present, h4] at h2
  · exact ⟨h3, h4⟩

end

/-- C63.  A node `n` without `#[universal_pre]` has an equation that is a call to a node `f` of the same
program, also without `#[universal_pre]`; in `n'` that equation is replaced by the body of `f`.  If the
program is accepted and `Orderly`, both nodes do the same: they return for the same inputs, complete or
absent, and with the same outputs. -/
theorem C63_inline (A : Arith) (X : Extern) {p : SrcProg} {p' : Prog} {w : List Report} {I : Items}
    (h : decl (compile p) = .done w (some p')) (hl : link A X p'.decls = .ok I) (hc : Orderly X p)
    {attrsf attrs attrs' : List Attribute} {f n n' : SrcNode} (hf : ⟨attrsf, .node f⟩ ∈ p)
    (hn : ⟨attrs, .node n⟩ ∈ p) (hn' : ⟨attrs', .node n'⟩ ∈ p)
    (huf : hasAny attrsf ["universal_pre"] = false) (hu : hasAny attrs ["universal_pre"] = false)
    (hu' : hasAny attrs' ["universal_pre"] = false) (c : Inlining f n n') :
    ∃ m m', I.nodes n.name = some m ∧ I.nodes n'.name = some m' ∧ ∀ θ is os,
      (∀ i ∈ is, ValTy (substTy θ (flatTuple (argTypes n.inputs))) i ∧
        (i.firstIsNil = true ∨ Full i)) → (m.run is = .ok os ↔ m'.run is = .ok os) := by
  have hL : Legal p := (C50_accepted hc.generics).1 ⟨w, p', h⟩
  obtain ⟨mf, f1, f2⟩ := C47_program A X h hl hf huf
  obtain ⟨m, m1, m2⟩ := C47_program A X h hl hn hu
  obtain ⟨m', m1', m2'⟩ := C47_program A X h hl hn' hu'
  refine ⟨m, m', m1, m1', fun θ is os hi => ?_⟩
  have hfull := filter_full hi
  refine inline_runs refSem_usual c (closed_of_legal hL hf) f1
    (fun is os => by simp only [solves_ref]; exact f2 is os)
    (fun is os => by simp only [solves_ref]; exact m2 is os)
    (fun is os => by simp only [solves_ref]; exact m2' is os) ?_ ?_
  · intro S hS t hlt a ha x hx hk
    exact (C30_source_partial A X h hl hc hn hu θ (solves_ref.1 hS) hfull ha hx hlt).2
      (by rw [hk]; trivial)
  · intro S hS t hlt a ha b hb hk x hx hr
    refine (C30_source_partial A X h hl hc hn' hu' θ (solves_ref.1 hS) (by rw [c.inputs]; exact hfull)
      (List.mem_append_right _ hb) hr hlt).2 ?_
    rw [hk]
    exact legal_due hL hf ha hx

/-- C63.  The same when the three nodes have `#[universal_pre]`. -/
theorem C63_universal (A : Arith) (X : Extern) {p : SrcProg} {p' : Prog} {w : List Report} {I : Items}
    (h : decl (compile p) = .done w (some p')) (hl : link A X p'.decls = .ok I) (hc : Orderly X p)
    {attrsf attrs attrs' : List Attribute} {f n n' : SrcNode} (hf : ⟨attrsf, .node f⟩ ∈ p)
    (hn : ⟨attrs, .node n⟩ ∈ p) (hn' : ⟨attrs', .node n'⟩ ∈ p)
    (huf : hasAny attrsf ["universal_pre"] = true) (hu : hasAny attrs ["universal_pre"] = true)
    (hu' : hasAny attrs' ["universal_pre"] = true) (c : Inlining f n n') :
    ∃ m m', I.nodes n.name = some m ∧ I.nodes n'.name = some m' ∧ ∀ θ is os,
      (∀ i ∈ is, ValTy (substTy θ (flatTuple (argTypes n.inputs))) i ∧
        (i.firstIsNil = true ∨ Full i)) → (m.run is = .ok os ↔ m'.run is = .ok os) := by
  have hL : Legal p := (C50_accepted hc.generics).1 ⟨w, p', h⟩
  have hb := fun n hn => (C59_tidy h hc.generics hc.tidy n hn).2.2
  obtain ⟨mf, f1, f2⟩ := C59_program A X h hl hc.extern hc.generics hb hf huf
  obtain ⟨m, m1, m2⟩ := C59_program A X h hl hc.extern hc.generics hb hn hu
  obtain ⟨m', m1', m2'⟩ := C59_program A X h hl hc.extern hc.generics hb hn' hu'
  refine ⟨m, m', m1, m1', fun θ is os hi => ?_⟩
  have hfull := filter_full hi
  refine inline_runs uni_usual c (closed_of_legal hL hf) f1
    (fun is os => by simp only [solves_uni]; exact f2 is os)
    (fun is os => by simp only [solves_uni]; exact m2 is os)
    (fun is os => by simp only [solves_uni]; exact m2' is os) ?_ ?_
  · intro S hS t hlt a ha x hx hk
    exact (C30_source_universal_partial A X h hl hc hn hu θ (solves_uni.1 hS) hfull ha hx hlt).2
      (by rw [hk]; trivial)
  · intro S hS t hlt a ha b hb hk x hx hr
    refine (C30_source_universal_partial A X h hl hc hn' hu' θ (solves_uni.1 hS)
      (by rw [c.inputs]; exact hfull) (List.mem_append_right _ hb) hr hlt).2 ?_
    rw [hk]
    exact legal_due hL hf ha hx

/-! ## Example

```
const k: int = 1;
node acc(x: int) returns (s, d: int);
let s = x + (0 fby s); d = k -> pre s; assert s < 100; tel
node caller(x: int) returns (o: int);
var a, b: int;
let (a, b) = acc(x + k); o = a * b; tel
node inlined(x: int) returns (o: int);
var a, b: int; x', s', d': int;
let
  x' = x + k; s' = x' + (0 fby s'); d' = k -> pre s'; assert s' < 100; (a, b) = (s', d');
  o = a * b;
tel
``` -/

/-- The node that is called. -/
def exCallee : SrcNode where
  name := "acc"
  inputs := [⟨["x"], .int, .implicit⟩]
  outputs := [⟨["s", "d"], .int, .implicit⟩]
  locals := []
  defs := [
    .def_ (.var "s") (.left (.var "x") [(.add, .paren [.fby (.lit (.int 0)) [.var "s"]] false)]),
    .def_ (.var "d") (.arrow (.var "k") [.pre (.var "s")]),
    .assert (.cmp (.var "s") [(.lt, .lit (.int 100))])]

/-- The node that calls it. -/
def exCallNode : SrcNode where
  name := "caller"
  inputs := [⟨["x"], .int, .implicit⟩]
  outputs := [⟨["o"], .int, .implicit⟩]
  locals := [⟨["a", "b"], .int, .implicit⟩]
  defs := [
    .def_ (.tuple [.var "a", .var "b"] false)
      (.call "acc" [.left (.var "x") [(.add, .var "k")]] false),
    .def_ (.var "o") (.left (.var "a") [(.mul, .var "b")])]

/-- The node where the call is replaced. -/
def exInlined : SrcNode where
  name := "inlined"
  inputs := [⟨["x"], .int, .implicit⟩]
  outputs := [⟨["o"], .int, .implicit⟩]
  locals := [⟨["a", "b"], .int, .implicit⟩, ⟨["x_"], .int, .implicit⟩, ⟨["s_", "d_"], .int, .implicit⟩]
  defs := [
    .def_ (.var "x_") (.left (.var "x") [(.add, .var "k")]),
    .def_ (.var "s_") (.left (.var "x_") [(.add, .paren [.fby (.lit (.int 0)) [.var "s_"]] false)]),
    .def_ (.var "d_") (.arrow (.var "k") [.pre (.var "s_")]),
    .assert (.cmp (.var "s_") [(.lt, .lit (.int 100))]),
    .def_ (.tuple [.var "a", .var "b"] false) (.paren [.var "s_", .var "d_"] false),
    .def_ (.var "o") (.left (.var "a") [(.mul, .var "b")])]

/-- The program. -/
def exInline : SrcProg := [
  ⟨[], .const ⟨"k", .int, .lit (.int 1)⟩⟩,
  ⟨[], .node exCallee⟩, ⟨[], .node exCallNode⟩, ⟨[], .node exInlined⟩]

theorem exInline_caller : intsIn noExtern exInline "caller" [exInt 3, exInt 4, exInt 5] =
    some [[some 4], [some 36], [some 135]] := by
  decide +kernel

theorem exInline_inlined : intsIn noExtern exInline "inlined" [exInt 3, exInt 4, exInt 5] =
    some [[some 4], [some 36], [some 135]] := by
  decide +kernel

/-- Both panic when the assertion of `acc` fails. -/
theorem exInline_panics : intsIn noExtern exInline "caller" [exInt 3, exInt 99] = none ∧
    intsIn noExtern exInline "inlined" [exInt 3, exInt 99] = none := by
  decide +kernel

/-- The replacement. -/
def exInlining : Inlining exCallee exCallNode exInlined where
  ρ x := if x = "x" then "x_" else if x = "s" then "s_" else if x = "d" then "d_" else x
  before := []
  after := [.def_ (.var "o") (.left (.var "a") [(.mul, .var "b")])]
  result := .tuple [.var "a", .var "b"] false
  args := [.left (.var "x") [(.add, .var "k")]]
  comma := false
  inputs := rfl
  outputs := rfl
  locals := by decide
  call := rfl
  body := rfl
  arity := rfl
  inj := by decide
  fix := by decide
  fresh := by decide
  visible := by decide
  always := ⟨⟨["a", "b"], .int, .implicit⟩, by simp [exCallNode], rfl, "a",
    by simp, by simp [targets, targetsList]⟩

theorem exCallee_timely : TimelyNode (meaning []) exCallee where
  timely := by
    intro consts nodes st hst
    simp only [exCallee, List.mem_cons, List.not_mem_nil, or_false] at hst
    have hs : (scope (meaning []) consts nodes exCallee).var "s" = some ⟨"s", .int, .implicit⟩ := rfl
    have hk : (scope (meaning []) consts nodes exCallee).var "k" = none := rfl
    rcases hst with rfl | rfl | rfl
    · simp [SrcStmt.expr, Timely, AllTimely, LeftTimely, FbyTimely, OnBase, HasClk, Always, hs]
    · simp [SrcStmt.expr, Timely, ArrowTimely, OnBase, HasClk, Always, hs, hk]
    · simp only [SrcStmt.expr, Timely, CmpTimely]
      exact ⟨trivial, trivial, fun S' _ h => by simp [HasTy, literalType] at h⟩
  written := by
    intro a ha
    simp only [exCallee, List.cons_append, List.nil_append, List.append_nil, List.mem_cons,
      List.not_mem_nil, or_false] at ha
    rcases ha with rfl | rfl <;> exact fun h => by cases h

theorem exCallNode_timely : TimelyNode (meaning []) exCallNode where
  timely := by
    intro consts nodes st hst
    simp only [exCallNode, List.mem_cons, List.not_mem_nil, or_false] at hst
    rcases hst with rfl | rfl
    · simp [SrcStmt.expr, Timely, AllTimely, LeftTimely, AllReady, Static.Ready, Static.LeftReady]
    · simp [SrcStmt.expr, Timely, LeftTimely]
  written := by
    intro a ha
    simp only [exCallNode, List.cons_append, List.nil_append, List.mem_cons, List.not_mem_nil,
      or_false] at ha
    rcases ha with rfl | rfl | rfl <;> exact fun h => by cases h

theorem exInlined_timely : TimelyNode (meaning []) exInlined where
  timely := by
    intro consts nodes st hst
    simp only [exInlined, List.mem_cons, List.not_mem_nil, or_false] at hst
    have hs : (scope (meaning []) consts nodes exInlined).var "s_" = some ⟨"s_", .int, .implicit⟩ := rfl
    have hk : (scope (meaning []) consts nodes exInlined).var "k" = none := rfl
    rcases hst with rfl | rfl | rfl | rfl | rfl | rfl
    · simp [SrcStmt.expr, Timely, LeftTimely]
    · simp [SrcStmt.expr, Timely, AllTimely, LeftTimely, FbyTimely, OnBase, HasClk, Always, hs]
    · simp [SrcStmt.expr, Timely, ArrowTimely, OnBase, HasClk, Always, hs, hk]
    · simp only [SrcStmt.expr, Timely, CmpTimely]
      exact ⟨trivial, trivial, fun S' _ h => by simp [HasTy, literalType] at h⟩
    · simp [SrcStmt.expr, Timely, AllTimely]
    · simp [SrcStmt.expr, Timely, LeftTimely]
  written := by
    intro a ha
    simp only [exInlined, List.cons_append, List.nil_append, List.mem_cons, List.not_mem_nil,
      or_false] at ha
    rcases ha with rfl | rfl | rfl | rfl | rfl <;> exact fun h => by cases h

theorem exInline_orderly : Orderly noExtern exInline where
  extern := by
    constructor <;> intros <;> rename_i h <;> simp [exInline] at h
  complete := by
    intro a f ins outs m hm
    simp [exInline] at hm
  generics := by
    intro d hd
    simp only [exInline, List.mem_cons, List.not_mem_nil, or_false] at hd
    rcases hd with rfl | rfl | rfl | rfl <;> decide
  timely := by
    intro attrs src hs hu
    simp only [exInline, List.mem_cons, List.not_mem_nil, or_false] at hs
    rcases hs with hs | hs | hs | hs <;> cases hs
    · exact exCallee_timely
    · exact exCallNode_timely
    · exact exInlined_timely
  tidy := by
    intro attrs src hs hu
    simp only [exInline, List.mem_cons, List.not_mem_nil, or_false] at hs
    rcases hs with hs | hs | hs | hs <;> cases hs <;> cases hu
  steady := by
    intro attrs src hs hu
    simp only [exInline, List.mem_cons, List.not_mem_nil, or_false] at hs
    rcases hs with hs | hs | hs | hs <;> cases hs <;> cases hu

/-- Non-vacuity of C63: the program above is accepted and linked, its nodes run, and C63 applies. -/
example : ∃ w p' I, decl (compile exInline) = .done w (some p') ∧
    link exArith noExtern p'.decls = .ok I ∧
    ∃ m m', I.nodes "caller" = some m ∧ I.nodes "inlined" = some m' ∧ ∀ (xs : List Int64) os,
      m.run (xs.map exInt) = .ok os ↔ m'.run (xs.map exInt) = .ok os := by
  have hr := exInline_caller
  unfold intsIn at hr
  split at hr
  · cases hr
  rename_i I hI
  obtain ⟨w, p', h, hl⟩ := itemsOf_some hI
  obtain ⟨m, m', h1, h2, h3⟩ := C63_inline exArith noExtern h hl exInline_orderly (f := exCallee)
    (n := exCallNode) (n' := exInlined) (attrsf := []) (attrs := []) (attrs' := [])
    (by simp [exInline]) (by simp [exInline]) (by simp [exInline]) rfl rfl rfl exInlining
  refine ⟨w, p', I, h, hl, m, m', h1, h2, fun xs os => h3 (fun _ => .int) _ os ?_⟩
  intro i hi
  obtain ⟨x, -, rfl⟩ := List.mem_map.1 hi
  refine ⟨fun _ h => ?_, .inr ?_⟩
  · cases h; exact trivial
  · simp [Full, exInt, Tup.leaves]

/-! ## The same program with `#[universal_pre]` -/

/-- The program. -/
def exInlineUni : SrcProg := [
  ⟨[], .const ⟨"k", .int, .lit (.int 1)⟩⟩,
  ⟨universal, .node exCallee⟩, ⟨universal, .node exCallNode⟩, ⟨universal, .node exInlined⟩]

theorem exInlineUni_caller : intsIn noExtern exInlineUni "caller" [exInt 3, exInt 4, exInt 5] =
    some [[some 4], [some 36], [some 135]] := by
  decide +kernel

theorem exInlineUni_inlined : intsIn noExtern exInlineUni "inlined" [exInt 3, exInt 4, exInt 5] =
    some [[some 4], [some 36], [some 135]] := by
  decide +kernel

theorem exCallee_steady : SteadyNode (meaning universal) exCallee where
  steady := by
    intro consts nodes st hst
    simp only [exCallee, List.mem_cons, List.not_mem_nil, or_false] at hst
    rcases hst with rfl | rfl | rfl
    · exact ⟨0, by simp [SrcStmt.expr, Steady, AllSteady, LeftSteady, FbySteady, Static.guard, Mixes]⟩
    · exact ⟨0, by simp [SrcStmt.expr, Steady, ArrowSteady]⟩
    · refine ⟨0, ?_⟩
      simp only [SrcStmt.expr, Steady, CmpSteady]
      refine ⟨0, rfl, 0, rfl, .inl rfl, .inl rfl, rfl, fun S' _ h => ?_⟩
      simp [HasTy, literalType] at h
  written := exCallee_timely.written

theorem exCallNode_steady : SteadyNode (meaning universal) exCallNode where
  steady := by
    intro consts nodes st hst
    simp only [exCallNode, List.mem_cons, List.not_mem_nil, or_false] at hst
    rcases hst with rfl | rfl
    · exact ⟨0, by simp [SrcStmt.expr, Steady, AllSteady, LeftSteady, Static.guard, Mixes]⟩
    · exact ⟨0, by simp [SrcStmt.expr, Steady, LeftSteady, Static.guard, Mixes]⟩
  written := exCallNode_timely.written

theorem exInlined_steady : SteadyNode (meaning universal) exInlined where
  steady := by
    intro consts nodes st hst
    simp only [exInlined, List.mem_cons, List.not_mem_nil, or_false] at hst
    rcases hst with rfl | rfl | rfl | rfl | rfl | rfl
    · exact ⟨0, by simp [SrcStmt.expr, Steady, LeftSteady, Static.guard, Mixes]⟩
    · exact ⟨0, by simp [SrcStmt.expr, Steady, AllSteady, LeftSteady, FbySteady, Static.guard, Mixes]⟩
    · exact ⟨0, by simp [SrcStmt.expr, Steady, ArrowSteady]⟩
    · refine ⟨0, ?_⟩
      simp only [SrcStmt.expr, Steady, CmpSteady]
      refine ⟨0, rfl, 0, rfl, .inl rfl, .inl rfl, rfl, fun S' _ h => ?_⟩
      simp [HasTy, literalType] at h
    · exact ⟨0, by simp [SrcStmt.expr, Steady, AllSteady]⟩
    · exact ⟨0, by simp [SrcStmt.expr, Steady, LeftSteady, Static.guard, Mixes]⟩
  written := exInlined_timely.written

theorem exInlineUni_orderly : Orderly noExtern exInlineUni where
  extern := by
    constructor <;> intros <;> rename_i h <;> simp [exInlineUni] at h
  complete := by
    intro a f ins outs m hm
    simp [exInlineUni] at hm
  generics := by
    intro d hd
    simp only [exInlineUni, List.mem_cons, List.not_mem_nil, or_false] at hd
    rcases hd with rfl | rfl | rfl | rfl <;> decide
  timely := by
    intro attrs src hs hu
    simp only [exInlineUni, List.mem_cons, List.not_mem_nil, or_false] at hs
    rcases hs with hs | hs | hs | hs <;> cases hs <;> cases hu
  tidy := by
    intro attrs src hs hu
    simp only [exInlineUni, List.mem_cons, List.not_mem_nil, or_false] at hs
    rcases hs with hs | hs | hs | hs <;> cases hs <;>
      refine ⟨⟨?_, by decide⟩, by decide⟩ <;> intro a ha b x hx <;>
      simp [exCallee, exCallNode, exInlined] at ha
    · rcases ha with rfl | rfl <;> cases hx
    · rcases ha with rfl | rfl | rfl <;> cases hx
    · rcases ha with rfl | rfl | rfl | rfl | rfl <;> cases hx
  steady := by
    intro attrs src hs hu
    simp only [exInlineUni, List.mem_cons, List.not_mem_nil, or_false] at hs
    rcases hs with hs | hs | hs | hs <;> cases hs
    · exact exCallee_steady
    · exact exCallNode_steady
    · exact exInlined_steady

/-- Non-vacuity of C63 with `#[universal_pre]`. -/
example : ∃ w p' I, decl (compile exInlineUni) = .done w (some p') ∧
    link exArith noExtern p'.decls = .ok I ∧
    ∃ m m', I.nodes "caller" = some m ∧ I.nodes "inlined" = some m' ∧ ∀ (xs : List Int64) os,
      m.run (xs.map exInt) = .ok os ↔ m'.run (xs.map exInt) = .ok os := by
  have hr := exInlineUni_caller
  unfold intsIn at hr
  split at hr
  · cases hr
  rename_i I hI
  obtain ⟨w, p', h, hl⟩ := itemsOf_some hI
  obtain ⟨m, m', h1, h2, h3⟩ := C63_universal exArith noExtern h hl exInlineUni_orderly (f := exCallee)
    (n := exCallNode) (n' := exInlined) (attrsf := universal) (attrs := universal)
    (attrs' := universal) (by simp [exInlineUni]) (by simp [exInlineUni]) (by simp [exInlineUni])
    rfl rfl rfl exInlining
  refine ⟨w, p', I, h, hl, m, m', h1, h2, fun xs os => h3 (fun _ => .int) _ os ?_⟩
  intro i hi
  obtain ⟨x, -, rfl⟩ := List.mem_map.1 hi
  refine ⟨fun _ h => ?_, .inr ?_⟩
  · cases h; exact trivial
  · simp [Full, exInt, Tup.leaves]

/-! ## The call must be made at every instant

```
node acc(x: int) returns (s: int);
let s = x + (0 fby s); tel
node sampled(b: bool; x: int) returns (o: int);
var a: int when b;
let a = acc(x when b); o = merge b a (0 whenot b); tel
node inlined(b: bool; x: int) returns (o: int);
var a, x', s': int when b;
let x' = x when b; s' = x' + (0 fby s'); a = s'; o = merge b a (0 whenot b); tel
``` -/

/-- A program where the result of the call has a clock. -/
def exSampled : SrcProg := [
  ⟨[], .node {
    name := "acc"
    inputs := [⟨["x"], .int, .implicit⟩]
    outputs := [⟨["s"], .int, .implicit⟩]
    locals := []
    defs := [.def_ (.var "s") (.left (.var "x")
      [(.add, .paren [.fby (.lit (.int 0)) [.var "s"]] false)])] }⟩,
  ⟨[], .node {
    name := "sampled"
    inputs := [⟨["b"], .bool, .implicit⟩, ⟨["x"], .int, .implicit⟩]
    outputs := [⟨["o"], .int, .implicit⟩]
    locals := [⟨["a"], .int, .explicit true "b"⟩]
    defs := [.def_ (.var "a") (.call "acc" [.left (.var "x") [(.when, .var "b")]] false),
      .def_ (.var "o") (.merge (.var "b") (.var "a")
        (.paren [.left (.lit (.int 0)) [(.whenot, .var "b")]] false))] }⟩,
  ⟨[], .node {
    name := "inlined"
    inputs := [⟨["b"], .bool, .implicit⟩, ⟨["x"], .int, .implicit⟩]
    outputs := [⟨["o"], .int, .implicit⟩]
    locals := [⟨["a", "x_", "s_"], .int, .explicit true "b"⟩]
    defs := [.def_ (.var "x_") (.left (.var "x") [(.when, .var "b")]),
      .def_ (.var "s_") (.left (.var "x_") [(.add, .paren [.fby (.lit (.int 0)) [.var "s_"]] false)]),
      .def_ (.var "a") (.var "s_"),
      .def_ (.var "o") (.merge (.var "b") (.var "a")
        (.paren [.left (.lit (.int 0)) [(.whenot, .var "b")]] false))] }⟩]

/-- Without `#[universal_pre]`, a call that is not made at every instant cannot be replaced by the body
of its node: the node counts the instants where it is called, its body those of the node it is in. -/
theorem C63_sampled_differs :
    intsIn noExtern exSampled "sampled" [exPair true 1, exPair false 2, exPair true 3] =
      some [[some 1], [some 0], [some 4]] ∧
    intsIn noExtern exSampled "inlined" [exPair true 1, exPair false 2, exPair true 3] =
      some [[some 1], [some 0], [none]] := by
  decide +kernel

end Chandeliers.Props
