import Verif.San.Emit
import Verif.Spec.Panics

/-!
# What a program offers to Rust, and how Rust reads the emitted code
-/

set_option autoImplicit false

namespace Chandeliers.Spec
open Chandeliers.San Chandeliers.Syn

/-- How the crate is compiled: `cargo build` or `cargo test`. -/
inductive Build where
  | normal | test
  deriving DecidableEq, Repr

/-- Code for tests exists only when tests are built. -/
def Build.has : Build → Bool → Bool
  | .test, _ => true
  | .normal, testOnly => !testOnly

/-! ## What the program says -/

/-- The items that a declaration offers to Rust, as its attributes say: with `#[export]` (which
`#[pub]` implies) a `struct` or a constant of its name, with `#[main]` a function `main`, with
`#[test]` a test of its name.  They are public if `#[pub]` says so, but for the `struct` of a node
that also has `#[trait]`; functions always are. -/
def offeredItems (d : SrcDecl) : List Item :=
  let o := meaning d.attrs
  let main : List Item := if o.main.isSome then [⟨.fn, "main", true, false, false⟩] else []
  match d.item with
  | .node n =>
    (if o.export_ then [⟨.struct_, n.name, o.isPub && !o.implTrait, false, false⟩] else []) ++
    main ++ if o.test.isSome then [⟨.fn, n.name, true, false, true⟩] else []
  | .extNode _ _ _ => main
  | .const c => if o.export_ then [⟨.const, c.name, o.isPub, false, false⟩] else []
  | .extConst _ _ => []

/-- The method `step` of an exported node: it is that of the trait `Step` with `#[trait]`, and else
as public as the node. -/
def offeredSteps (d : SrcDecl) : List StepFn :=
  let o := meaning d.attrs
  match d.item with
  | .node n => if o.export_ then [⟨n.name, o.implTrait, o.isPub && !o.implTrait, false⟩] else []
  | _ => []

/-- The items that the user has to supply. -/
def needed (d : SrcDecl) : List RustName :=
  match d.item with
  | .extNode f _ _ => [(.types, f)]
  | .extConst x _ => [(.values, x)]
  | _ => []

/-- The names of the items that a program offers in a build. -/
def offeredNames (b : Build) (p : SrcProg) : List RustName :=
  ((p.flatMap offeredItems).filter fun i => b.has i.testOnly).map Item.rust

/-- The constants that Rust knows under the name they have in the program. -/
def knownConsts (p : SrcProg) : List String := p.flatMap fun d =>
  match d.item with
  | .const c => if (meaning d.attrs).export_ then [c.name] else []
  | .extConst x _ => [x]
  | _ => []

/-- The variables of a declaration. -/
def variablesOf : SrcItem → List String
  | .node n => argNames n.inputs ++ argNames n.outputs ++ argNames n.locals
  | .extNode _ ins outs => argNames ins ++ argNames outs
  | _ => []

/-- Names that only the compiler makes up. -/
def Internal (x : String) : Prop := ∃ e : Entity, e.sanitized = x

/-- Names that the emitted code takes from the prelude of Rust. -/
def preludeNames : List String := ["i64", "f64", "bool", "usize", "Default"]

/-- Variables of the emitted code that are not called after those of the program. -/
def reservedVars : List String :=
  ["inputs", "sys", "real", "expected", "initial", "continued", "_ext", "_this", "_clk"]

/-- The nodes that are called by the code emitted for a declaration, outside of tests if `b` is the
normal build: the nodes in its equations, and the node itself if it is exported or run by `main`. -/
inductive Calls (b : Build) : SrcDecl → String → Prop
  | inside {attrs src f} (hb : b.has (meaning attrs).test.isSome)
    (h : ∃ st ∈ src.defs, f ∈ callees (SrcStmt.expr st)) : Calls b ⟨attrs, .node src⟩ f
  | exported {attrs src} (h : (meaning attrs).export_) : Calls b ⟨attrs, .node src⟩ src.name
  | main {attrs src} (h : (meaning attrs).main.isSome) : Calls b ⟨attrs, .node src⟩ src.name

/-- The names of a program do not get in the way of the emitted code. -/
structure Sensible (b : Build) (p : SrcProg) : Prop where
  /-- What is offered and what is needed have different names: in particular there is one `main`. -/
  distinct : (offeredNames b p ++ p.flatMap needed).Nodup
  /-- No name is one of the compiler's. -/
  internal : ∀ n ∈ offeredNames b p ++ p.flatMap needed, ¬ Internal n.2
  /-- No type is called as one of Rust. -/
  prelude : ∀ x, (Space.types, x) ∈ offeredNames b p ++ p.flatMap needed → x ∉ preludeNames
  /-- Nor are type variables, which are not called as the node either, and are distinct. -/
  generics : ∀ d ∈ p, ∀ g ∈ (meaning d.attrs).generics, ¬ Internal g ∧ g ∉ preludeNames ∧
    (∀ i ∈ offeredItems d, g ≠ i.name) ∧ ∀ n ∈ needed d, g ≠ n.2
  once : DistinctGenerics p
  /-- Constants that Rust knows are not called as a variable of the emitted code. -/
  consts : ∀ x ∈ knownConsts p, x ∉ reservedVars
  /-- Nor as a variable of a node that is traced. -/
  traced : ∀ d ∈ p, (meaning d.attrs).trace.isSome → ∀ v ∈ variablesOf d.item,
    v ∉ knownConsts p ∧ ¬ Internal v
  /-- External constants are of one of the three types of the language, and none is called
  `Type`. -/
  externs : ∀ attrs x ty, ⟨attrs, .extConst x ty⟩ ∈ p → x ≠ "Type" ∧ ∀ g, ty ≠ .other g
  /-- Nodes that are called are not tests, unless tests are built. -/
  tests : ∀ d ∈ p, ∀ f, Calls b d f → ∀ attrs src, ⟨attrs, .node src⟩ ∈ p → src.name = f →
    b.has (meaning attrs).test.isSome

/-! ## How Rust reads the code -/

/-- The items of the code in a build. -/
def itemNames (b : Build) (E : List Code) : List RustName :=
  ((E.flatMap Code.items).filter fun i => b.has i.testOnly).map Item.rust

/-- The items of the user that the code refers to. -/
def userNames (E : List Code) : List RustName := (E.flatMap Code.uses).filterMap fun
  | .user n => some n
  | _ => none

/-- The names that are local to a piece of code. -/
def localNames (c : Code) : List RustName := c.inner ++ c.params.map fun g => (.types, g)

/-- A name in some piece of code is resolved to what it is meant to be: what is local to the code
comes first, then the items in scope, then the prelude. -/
def Means (b : Build) (E : List Code) (c : Code) : Use → Prop
  | .param x => (.types, x) ∉ c.inner ∧ x ∈ c.params
  | .item n => n ∉ localNames c ∧ n ∈ itemNames b E ∧ n ∉ userNames E
  | .user n => n ∉ localNames c ∧ n ∉ itemNames b E
  | .prelude x => (.types, x) ∉ localNames c ∧ (.types, x) ∉ itemNames b E ∧
    (.types, x) ∉ userNames E

/-- Rust can resolve the names of the code, and they are what they are meant to be. -/
structure Resolves (b : Build) (E : List Code) : Prop where
  /-- No item is defined twice. -/
  once : (itemNames b E).Nodup
  /-- The methods `step` that are called exist. -/
  steps : ∀ c ∈ E.flatMap Code.calls, b.has c.testOnly →
    ∃ s ∈ E.flatMap Code.steps, s.owner = c.owner ∧ b.has s.testOnly
  /-- An identifier of a pattern is not a constant, which would make it a test of equality. -/
  binds : ∀ x ∈ E.flatMap Code.binds, (∀ i ∈ E.flatMap Code.items, i.kind = .const → i.name ≠ x) ∧
    (.values, x) ∉ userNames E
  /-- No type parameter is given twice. -/
  params : ∀ c ∈ E, c.params.Nodup
  /-- All other names are resolved as they should be. -/
  uses : ∀ c ∈ E, ∀ u ∈ c.uses, Means b E c u

end Chandeliers.Spec
