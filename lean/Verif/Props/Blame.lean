import Verif.Lemmas.BlameNames

/-!
# C55: every message of the compiler is true of the program
-/

set_option autoImplicit false

namespace Chandeliers.Props
open Chandeliers.San Chandeliers.Syn Chandeliers.Spec Chandeliers.Err

/-- C55.  What the compiler prints about a program, whether it refuses it or accepts it with
warnings, is true of this program: each message blames a declaration, a statement, an expression or
an attribute that is there, and the names, types, clocks and depths that it prints are those that
the rules give. -/
theorem C55_true {p : SrcProg} {es : List Report} {r : Option Prog}
    (h : decl (compile p) = .done es r) : ∀ e ∈ es, ReportTrue p e := by
  obtain ⟨es', ws', h1, h2, h3⟩ := Tell.compile_true p
  unfold decl at h
  rcases hr : compile p (EAccum.default, ()) with ⟨x, a, u⟩
  rw [hr] at h h1
  simp only at h1
  subst h1
  cases x with
  | abort => cases h
  | none =>
    simp only at h
    split at h
    · cases h; exact h2
    · cases h
  | some q => cases h; exact h3

/-- C55.  A program without attributes is accepted without a message, or refused because of what it
declares. -/
theorem C55_plain {p : SrcProg} {es : List Report} {r : Option Prog}
    (h : decl (compile p) = .done es r) (hp : ∀ d ∈ p, d.attrs = []) :
    ∀ e ∈ es, ∀ a, e ≠ Report.attribute a := by
  rintro e he a rfl
  cases C55_true h _ he with
  | «attribute» hd hb =>
    have := hp _ hd
    cases hb with
    | malformed ha => rw [this] at ha; cases ha
    | inapplicable ha => rw [this] at ha; cases ha
    | duplicate e => simp [this] at e
    | conflicting e => simp [this] at e

/-- C55.  A message about definitions (something that is not defined, is defined twice, from itself,
or in a cycle) is true of the source: of its equations, of the expressions of its constants, of its
calls. -/
theorem C55_definitions {p : SrcProg} {es : List Report} {r : Option Prog}
    (h : decl (compile p) = .done es r) {e : GErr Reference} (he : Report.causality e ∈ es) :
    Static.SrcCausal p e := by
  cases C55_true h _ he with
  | causality hq hb => exact Tell.causal_source hq hb

/-- C55.  When a message says that a node is not declared, some node calls it, and the program
declares none of this name. -/
theorem C55_unknown_node {p : SrcProg} {es : List Report} {r : Option Prog}
    (h : decl (compile p) = .done es r) {f : String} (he : Report.check (.funNotFound f) ∈ es) :
    (∃ g, Static.NodeCalls p g f) ∧ f ∉ (p.filterMap Static.nodeSig).map (·.1) := by
  cases C55_true h _ he with
  | check hq hb => exact Tell.called_source hq hb

/-- C55.  When a message says that a variable is not declared, the program uses this name where it
is neither a variable of the node nor a constant of the program. -/
theorem C55_unknown_name {p : SrcProg} {es : List Report} {r : Option Prog}
    (h : decl (compile p) = .done es r) {x : String} (he : Report.check (.varNotFound x) ∈ es) :
    Static.UnknownName p x := by
  cases C55_true h _ he with
  | check hq hb => exact Tell.unknown_source hq hb

/-- C55.  The types or clocks that a message opposes are not the same: the compiler never says that
a type is not itself. -/
theorem C55_differ {p : SrcProg} {es : List Report} {r : Option Prog}
    (h : decl (compile p) = .done es r) {d : Diag} (he : Report.check d ∈ es) :
    Static.Disagree d := by
  cases C55_true h _ he with
  | check hq hb => exact Tell.blame_differ hb

/-- `node f(x: int) returns (y: float); let y = x; tel` -/
def exMixed : SrcProg := [
  ⟨[], .node {
    name := "f"
    inputs := [⟨["x"], .int, .implicit⟩]
    outputs := [⟨["y"], .float, .implicit⟩]
    locals := []
    defs := [.def_ (.var "y") (.var "x")] }⟩]

/-- Non-vacuity of `C55_true` and `C55_differ`: `float` and `int` are said to differ, in this
order. -/
example : ∃ es, decl (compile exMixed) = .done es none ∧
    .check (.typeMismatch (.single .float) (.single .int)) ∈ es := by
  refine ⟨[.check (.typeMismatch (.single .float) (.single .int))], ?_, by simp⟩
  rfl

/-- `node f(x: int) returns (y: int); var z, t: int; let y = x; z = t + y; t = z; tel` -/
def exRound : SrcProg := [
  ⟨[], .node {
    name := "f"
    inputs := [⟨["x"], .int, .implicit⟩]
    outputs := [⟨["y"], .int, .implicit⟩]
    locals := [⟨["z", "t"], .int, .implicit⟩]
    defs := [.def_ (.var "y") (.var "x"),
      .def_ (.var "z") (.left (.var "t") [(.add, .var "y")]), .def_ (.var "t") (.var "z")] }⟩]

theorem exRound_run : decl (compile exRound) =
    .done [.causality (.cycle [.localVarName "t", .localVarName "z"])] none := by
  rfl

/-- Non-vacuity of `C55_definitions`: `z` and `t` are defined from each other, and `y` is not one of
them. -/
example : Static.SrcCausal exRound (.cycle [.localVarName "t", .localVarName "z"]) :=
  C55_definitions exRound_run (List.mem_singleton.2 rfl)

/-- `node f(x: int) returns (y: int); let y = g(x); tel` -/
def exLost : SrcProg := [
  ⟨[], .node {
    name := "f"
    inputs := [⟨["x"], .int, .implicit⟩]
    outputs := [⟨["y"], .int, .implicit⟩]
    locals := []
    defs := [.def_ (.var "y") (.call "g" [.var "x"] true)] }⟩]

theorem exLost_run : decl (compile exLost) = .done [.check (.funNotFound "g")] none := by
  rfl

/-- Non-vacuity of `C55_unknown_node`: `f` calls `g`, that is not declared. -/
example : ∃ f, Static.NodeCalls exLost f "g" :=
  (C55_unknown_node exLost_run (List.mem_singleton.2 rfl)).1

/-- `node f(x: int) returns (y: int); let y = x + k; tel` -/
def exLostName : SrcProg := [
  ⟨[], .node {
    name := "f"
    inputs := [⟨["x"], .int, .implicit⟩]
    outputs := [⟨["y"], .int, .implicit⟩]
    locals := []
    defs := [.def_ (.var "y") (.left (.var "x") [(.add, .var "k")])] }⟩]

theorem exLostName_run : decl (compile exLostName) = .done [.check (.varNotFound "k")] none := by
  rfl

/-- Non-vacuity of `C55_unknown_name`: `k` is neither a variable of `f` nor a constant. -/
example : Static.UnknownName exLostName "k" :=
  C55_unknown_name exLostName_run (List.mem_singleton.2 rfl)

/-- `#[trace] #[trace] node f(x: int) returns (y: int); let y = x; tel` -/
def exTwiceTraced : SrcProg := [
  ⟨[⟨"trace", [], [], 0⟩, ⟨"trace", [], [], 1⟩], .node {
    name := "f"
    inputs := [⟨["x"], .int, .implicit⟩]
    outputs := [⟨["y"], .int, .implicit⟩]
    locals := []
    defs := [.def_ (.var "y") (.var "x")] }⟩]

/-- Non-vacuity of `C55_true` on a program that is accepted with a warning. -/
example : ∃ q, decl (compile exTwiceTraced) = .done [.attribute (.duplicate .trace)] (some q) :=
  ⟨_, rfl⟩

end Chandeliers.Props
