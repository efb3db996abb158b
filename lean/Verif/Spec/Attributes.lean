import Verif.Syn.Options

/-! # What attributes mean -/

namespace Chandeliers.Spec
open Chandeliers.Syn Chandeliers.San

/-- The number of steps given by `#[main]` or `#[test]`: the argument, 100 if there is none. -/
def steps (a : Attribute) : Nat :=
  match a.targets with
  | [.int n] => n.toNat
  | _ => 100

/-- Where and how `#[trace]` prints. -/
def tracing (a : Attribute) : TraceFile × TraceFormat × TraceFormat :=
  (if a.params = ["stderr"] then .stdErr else .stdOut,
   match a.targets with
   | [.str o] => (.empty, .str o)
   | [.str i, .str o] => (.str i, .str o)
   | _ => (.default, .default))

/-- The lint that `#[rustc_allow]` or `#[clippy_allow]` allows. -/
def allowed (a : Attribute) : Option Allow :=
  if a.action = "rustc_allow" then a.params.head?.map .rustc
  else if a.action = "clippy_allow" then a.params.head?.map .clippy
  else none

/-- The text of a `#[doc]`. -/
def docText (a : Attribute) : Option String :=
  if a.action = "doc" then (match a.targets with | [.str s] => some s | _ => none) else none

/-- Some attribute has one of these names. -/
def hasAny (as : List Attribute) (names : List String) : Bool := as.any fun a => a.action ∈ names

/-- The last attribute with this name. -/
def lastNamed (as : List Attribute) (name : String) : Option Attribute :=
  (as.filter fun a => a.action = name).getLast?

/-- The options a list of attributes stands for: the last `trace`, `main` and `test` count, the
flags are set by any occurrence and `pub` implies `export`, the lists collect all occurrences in
order. -/
def meaning (as : List Attribute) : NodeOptions where
  trace := (lastNamed as "trace").map tracing
  export_ := hasAny as ["export", "pub"]
  isPub := hasAny as ["pub"]
  main := (lastNamed as "main").map steps
  test := (lastNamed as "test").map steps
  rustcAllow := as.filterMap allowed
  doc := as.filterMap docText
  implTrait := hasAny as ["trait"]
  generics := (as.filter fun a => a.action = "generic").flatMap (·.params)
  universalPre := hasAny as ["universal_pre"]

/-- Attributes that are written correctly. -/
def wellFormed (a : Attribute) : Prop :=
  (a.action = "trace" ∧ a.params ∈ [[], ["stdout"], ["stderr"]] ∧
    (a.targets = [] ∨ (∃ o, a.targets = [.str o]) ∨ ∃ i o, a.targets = [.str i, .str o])) ∨
  (a.action ∈ ["export", "pub", "trait", "universal_pre"] ∧ a.params = [] ∧ a.targets = []) ∨
  (a.action ∈ ["main", "test"] ∧ a.params = [] ∧ (a.targets = [] ∨ ∃ n, a.targets = [.int n])) ∨
  (a.action ∈ ["rustc_allow", "clippy_allow"] ∧ (∃ x, a.params = [x]) ∧ a.targets = []) ∨
  (a.action = "doc" ∧ a.params = [] ∧ ∃ s, a.targets = [.str s]) ∨
  (a.action = "generic" ∧ a.targets = [] ∧ a.params.Nodup ∧
    ∀ t ∈ a.params, t ∉ ["int", "float", "bool"])

/-- Numbers are not negative and fit in a machine word. -/
def smallNumbers (a : Attribute) : Prop := ∀ n, AttrLit.int n ∈ a.targets →
  0 ≤ n ∧ n < 2 ^ 64

/-- The names of the attributes that may not be put on a declaration of some kind. -/
def inapplicable : DeclKind → List String
  | .node => []
  | .extNode => ["export", "doc", "pub", "trait", "test", "universal_pre"]
  | .const => ["trace", "main", "trait", "test", "generic", "universal_pre"]
  | .extConst => ["trace", "export", "main", "doc", "pub", "trait", "test", "generic",
      "universal_pre"]

end Chandeliers.Spec
