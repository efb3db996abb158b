import Verif.Lemmas.ClockReports
import Verif.Lemmas.TranslateNode

/-! # C46: the clock checker against the clock rules -/

set_option autoImplicit false

namespace Chandeliers.Props
open Chandeliers.Err Chandeliers.San Chandeliers.Spec Chandeliers.Clk Chandeliers.Syn

/-- A node to be checked: what the translation of a source node gives, with its statements in
another order and possibly with the types of its registers. -/
structure Compiled (universalPre : Bool) (n : SrcNode) (n' : Node) : Prop where
  translated : ∃ n₁, n.translate universalPre = .ok n₁ ∧ n'.stmts.Perm n₁.stmts ∧
    n'.inputs = n₁.inputs ∧ n'.outputs = n₁.outputs ∧ n'.locals = n₁.locals
  names : ((declared n').map (·.name)).Nodup

theorem Compiled.fetched {b : Bool} {n : SrcNode} {n' : Node} (h : Compiled b n n') :
    (∀ id f, (id, f) ∈ n'.stmts.flatMap fetchesIn ↔ .updateRegister id f ∈ n'.stmts) ∧
    (∀ id ∈ initialised n'.stmts, ∃ f, .updateRegister id f ∈ n'.stmts) := by
  obtain ⟨n₁, h1, h2, -⟩ := h.translated
  obtain ⟨c, h3, rfl⟩ := Den.node_translate h1
  obtain ⟨new, hb⟩ := Den.built_stmts h3
  have hs : c.stmts = new := by simpa using hb.stmts
  subst hs
  have hu : ∀ (sts : List Stmt) id, id ∈ updated sts → ∃ f, .updateRegister id f ∈ sts := by
    intro sts id
    induction sts with
    | nil => simp [updated]
    | cons st sts ih =>
      intro hm
      cases st with
      | updateRegister i f =>
        simp only [updated, List.mem_cons] at hm
        rcases hm with rfl | hm
        · exact ⟨f, by simp⟩
        · obtain ⟨f, hf⟩ := ih hm
          exact ⟨f, by simp [hf]⟩
      | _ =>
        simp only [updated] at hm
        obtain ⟨f, hf⟩ := ih hm
        exact ⟨f, by simp [hf]⟩
  have hi : ∀ (sts : List Stmt) id, id ∈ initialised sts ↔ ∃ i k, .initRegister id i k ∈ sts := by
    intro sts id
    induction sts with
    | nil => simp [initialised]
    | cons st sts ih => cases st <;> simp [initialised, ih, exists_or]
  refine ⟨fun id f => ?_, fun id hid => ?_⟩
  · rw [h2.mem_iff, ← hb.fetched]
    simp only [List.mem_flatMap, h2.mem_iff]
  · obtain ⟨i, k, hm⟩ := (hi _ _).1 hid
    rw [h2.mem_iff] at hm
    have : id ∈ initialised c.stmts := (hi _ _).2 ⟨i, k, hm⟩
    rw [hb.inits.mem_iff, ← hb.updates.mem_iff] at this
    obtain ⟨f, hf⟩ := hu _ _ this
    exact ⟨f, h2.mem_iff.2 hf⟩

/-- C46: the clock check of a node succeeds without reporting anything exactly when the node obeys
the clock rules. -/
theorem C46_exact {σ : Type} {b : Bool} {n : SrcNode} {n' : Node} (h : Compiled b n n')
    (a : EAccum Diag) (s : σ) :
    (∃ n'' a' s', n'.clockcheck (a, s) = (.some n'', (a', s')) ∧ a'.err = a.err) ↔
      ∃ K, NodeClocked true n' K := by
  constructor
  · rintro ⟨n'', a', s', h1, h2⟩
    obtain ⟨_, _, K, _, hK, _⟩ := node_clk_sound h.names h1
    exact ⟨K, hK h2⟩
  · rintro ⟨K, hK⟩
    obtain ⟨n'', ⟨a', s'⟩, h1, h2⟩ := node_clk_complete h.names hK (fun id hid => by
      obtain ⟨f, hf⟩ := h.fetched.2 id hid
      exact ⟨f, (h.fetched.1 id f).2 hf⟩) (a, s)
    exact ⟨n'', a', s', h1, h2 rfl⟩

/-- C46: a node is let through, possibly with reports, exactly when it obeys the clock rules but
for the two sides of delayed arrows, that may be on any clocks. -/
theorem C46_lenient {σ : Type} {b : Bool} {n : SrcNode} {n' : Node} (h : Compiled b n n')
    (a : EAccum Diag) (s : σ) :
    (∃ n'' a' s', n'.clockcheck (a, s) = (.some n'', (a', s'))) ↔ ∃ K, NodeClocked false n' K := by
  constructor
  · rintro ⟨n'', a', s', h1⟩
    obtain ⟨_, _, K, hK, _⟩ := node_clk_sound h.names h1
    exact ⟨K, hK⟩
  · rintro ⟨K, hK⟩
    obtain ⟨n'', ⟨a', s'⟩, h1, _⟩ := node_clk_complete h.names hK (fun id hid => by
      obtain ⟨f, hf⟩ := h.fetched.2 id hid
      exact ⟨f, (h.fetched.1 id f).2 hf⟩) (a, s)
    exact ⟨n'', a', s', h1⟩

/-- C46: the checked node is the same one where each register steps on the clock of the expression
that feeds it. -/
theorem C46_registers {σ : Type} {b : Bool} {n : SrcNode} {n' n'' : Node} (h : Compiled b n n')
    {a a' : EAccum Diag} {s s' : σ} (hc : n'.clockcheck (a, s) = (.some n'', (a', s'))) :
    ∃ K clk, NodeClocked false n' K ∧ n'' = Node.withClocks clk n' ∧
      ∀ id ∈ initialised n'.stmts, ∃ f k, .updateRegister id f ∈ n'.stmts ∧ HasClock false K f k ∧
        clk id = clockExpr k := by
  obtain ⟨_, _, K, hK, _, clk, h1, h2⟩ := node_clk_sound h.names hc
  refine ⟨K, clk, hK, h1, fun id hid => ?_⟩
  obtain ⟨f, k, h3, h4, h5⟩ := h2 id hid
  exact ⟨f, k, (h.fetched.1 id f).1 h3, h4, h5⟩

/-- C46: a program refused by the clock check has an error report (and reports are never lost). -/
theorem C46_refusals_report {σ : Type} (ds : List San.Decl) (a : EAccum Diag) (s : σ) :
    (∃ es ws, (progClockcheck ds (a, s)).2.1.err = a.err ++ es ∧
      (progClockcheck ds (a, s)).2.1.warn = a.warn ++ ws) ∧
    ((progClockcheck ds (a, s)).1 = .none →
      ∃ e es, (progClockcheck ds (a, s)).2.1.err = a.err ++ e :: es) :=
  have h := prog_appends (σ := σ) ds
  ⟨h.grows (a, s), h.none_err (a, s)⟩

/-- Under the rules a variable has one clock, that of its declaration. -/
theorem C46_declared {strict : Bool} {n : Node} {K : String → Option Clk}
    (h : NodeClocked strict n K) {v : TyVar} (hv : v ∈ declared n) :
    K v.name = some v.clk.intoClk :=
  (h.declared _ _).2 ⟨v, hv, rfl, rfl⟩

/-! ## A node that keeps a register on a slow clock

`#[universal_pre] node slow(b : bool; x : int) returns (o : int); var y : int when b;
let y = 0 fby (x when b); o = merge b y (x whenot b); tel` -/

/-- The source. -/
def exSlow : SrcNode where
  name := "slow"
  inputs := [⟨["b"], .bool, .implicit⟩, ⟨["x"], .int, .implicit⟩]
  outputs := [⟨["o"], .int, .implicit⟩]
  locals := [⟨["y"], .int, .explicit true "b"⟩]
  defs := [
    .def_ (.var "o") (.merge (.var "b") (.var "y")
      (.paren [.left (.var "x") [(.whenot, .var "b")]] false)),
    .def_ (.var "y") (.fby (.left (.lit (.int 0)) [(.when, .var "b")])
      [.paren [.left (.var "x") [(.when, .var "b")]] false])]

/-- Its translation. -/
def exSlowNode : Node where
  name := "slow"
  inputs := [⟨"b", .bool, .implicit, 0⟩, ⟨"x", .int, .implicit, 0⟩]
  outputs := [⟨"o", .int, .implicit, 0⟩]
  locals := [⟨"y", .int, .explicit true "b", 0⟩]
  blocks := []
  stmts := [
    .let_ (.single "o") (.merge (.var "b" 0) (.var "y" 0)
      (.dummyParen (.clock .whenot (.var "x" 0) (.var "b" 0)))),
    .updateRegister 0 (.dummyParen (.clock .when (.var "x" 0) (.var "b" 0))),
    .initRegister 0 (some (.clock .when (.lit (.int 0)) (.var "b" 0))) none,
    .let_ (.single "y") (.fetchFby 0 (.clock .when (.lit (.int 0)) (.var "b" 0))
      (.dummyParen (.clock .when (.var "x" 0) (.var "b" 0))))]
  registers := [none]
  flips := 0

theorem exSlow_compiled : Compiled true exSlow exSlowNode where
  translated := ⟨exSlowNode, rfl, .rfl, rfl, rfl, rfl⟩
  names := by decide

/-- It obeys the rules, hence is accepted. -/
example : ∃ K, NodeClocked true exSlowNode K :=
  (C46_exact exSlow_compiled ⟨[], []⟩ ()).1 ⟨_, _, _, rfl, rfl⟩

/-- Its register steps when `b` is true. -/
example : ((exSlowNode.clockcheck ((⟨[], []⟩ : EAccum Diag), ())).1 =
    .some (Node.withClocks (fun _ => .var "b" 0) exSlowNode)) := rfl

/-- With `o = merge b (x whenot b) y` it is refused. -/
def exSlowBad : SrcNode :=
  { exSlow with defs := [
    .def_ (.var "o") (.merge (.var "b")
      (.paren [.left (.var "x") [(.whenot, .var "b")]] false) (.var "y"))] ++ exSlow.defs.drop 1 }

/-- Its translation. -/
def exSlowBadNode : Node :=
  { exSlowNode with stmts := [.let_ (.single "o") (.merge (.var "b" 0)
      (.dummyParen (.clock .whenot (.var "x" 0) (.var "b" 0))) (.var "y" 0))] ++
      exSlowNode.stmts.drop 1 }

/-- It breaks the rules. -/
example : Compiled true exSlowBad exSlowBadNode ∧ ¬∃ K, NodeClocked false exSlowBadNode K := by
  have hc : Compiled true exSlowBad exSlowBadNode :=
    ⟨⟨_, rfl, .rfl, rfl, rfl, rfl⟩, by decide⟩
  refine ⟨hc, fun h => ?_⟩
  obtain ⟨n'', a', s', h⟩ := (C46_lenient hc ⟨[], []⟩ ()).2 h
  cases h

end Chandeliers.Props
