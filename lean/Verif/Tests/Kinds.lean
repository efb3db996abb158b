import Verif.Syn.Parse
import Verif.San.Run
import Verif.San.Std
import Verif.Spec.Attributes

/-!
# Comparison of the model with the test suite of the project

These are tests of the model, not properties: the programs of `/repo/chandeliers-lus/tests` are given
to the model as tokens, and what it reports is compared with the expected messages that the project
records in its `.stderr` files.  The other modules of this directory are written by
`tools/conformance.py`, which reads both from `/repo`.
-/

set_option autoImplicit false

namespace Chandeliers.Tests
open San Syn Err

/-- What can be read in a message.  Expressions and tuple types are left out. -/
inductive Kind where
  | syntaxError
  | malformed (action : String)
  | inapplicable (attr : Opt) (construct : DeclKind)
  | duplicate (attr : Opt)
  | conflicting (this other : Opt)
  | undefined (x : Reference)
  | redefined (x : Reference)
  | redefinedInput (x : Reference)
  | itself (x : Reference)
  | cycle (xs : List Reference)
  | again (x : String)
  | varNotFound (x : String)
  | funNotFound (f : String)
  | notYet (x : String)
  | notConst
  | notAssociative
  | badLiteral
  | mismatch
  | notScalar (ts : List TyBase)
  | binop (op : BinOp) (expect : Expect) (left right : TyBase)
  | cmp (op : CmpOp) (expect : Expect) (left right : TyBase)
  | unop (op : UnOp) (expect : Expect) (inner : TyBase)
  | notBool (what : String) (inner : TyBase)
  | notPositive (x : String) (available attempted : Nat)
  | shallowPre
  | tooSlow (slow : Clk)
  | notAClock
  | notComparable (first second : Clk)
  | notIdentical (first second : Clk)
  | unusedGeneric (t : String)
  | undeclaredGeneric (t : String)
  | unsatisfied (t : String) (previous new : TyBase)
  | signature (inputs outputs : Bool)
  | other
  deriving DecidableEq

/-- The types of a flat tuple. -/
def flatTypes : TyTuple → List TyBase
  | .single t => [t]
  | .multiple ts => ts.filterMap fun
    | .single t => some t
    | .multiple _ => none

/-- Messages of the checks. -/
def ofDiag : Diag → Kind
  | .typeMismatch _ _ => .mismatch
  | .varNotFound x => .varNotFound x
  | .funNotFound f => .funNotFound f
  | .tyVarNotFound x => .notYet x
  | .notConst _ => .notConst
  | .binopMismatch op e l r => .binop op e l r
  | .cmpMismatch op e l r => .cmp op e l r
  | .unopMismatch op e i => .unop op e i
  | .boolRequired w i => .notBool w i
  | .declTwice x => .again x
  | .notPositive x a b => .notPositive x a b
  | .shallowPre _ => .shallowPre
  | .unhandledLit => .badLiteral
  | .cmpNotAssociative => .notAssociative
  | .clkTooSlow c => .tooSlow c
  | .notAClock _ => .notAClock
  | .clkNotComparable a b => .notComparable a b
  | .clkNotIdentical a b => .notIdentical a b
  | .unusedGeneric t => .unusedGeneric t
  | .unsatGeneric t a b => .unsatisfied t a b
  | .undeclaredGeneric t => .undeclaredGeneric t
  | .executableSig a b => .signature a b
  | .scalarNotTuple t => .notScalar (flatTypes t)

/-- All messages. -/
def ofReport : Report → Kind
  | .attribute (.malformed a) => .malformed a
  | .attribute (.duplicate o) => .duplicate o
  | .attribute (.conflicting o o') => .conflicting o o'
  | .attribute (.inapplicable o k) => .inapplicable o k
  | .translation .cmpNotAssociative => .notAssociative
  | .translation .unhandledLitType => .badLiteral
  | .translation .notConst => .notConst
  | .translation .abort => .other
  | .causality (.undeclared x) => .undefined x
  | .causality (.providedByContext x) => .redefinedInput x
  | .causality (.declTwice x) => .redefined x
  | .causality (.dependsOnItself x) => .itself x
  | .causality (.cycle xs) => .cycle xs
  | .causality .abort => .other
  | .causality .fuel => .other
  | .check d => ofDiag d

/-- What one invocation of the macro gives: whether there is code, and the messages. -/
def outcome (ts : List Tok) : Bool × List Kind :=
  match expand ts with
  | none => (false, [.syntaxError])
  | some .panic => (false, [.other])
  | some (.done w p) => (p.isSome, w.map ofReport)

/-- The messages for a file, in order. -/
def messages (file : List (List Tok)) : List Kind := file.flatMap fun ts => (outcome ts).2

/-- All the invocations in a file give code, without a message. -/
def accepted (file : List (List Tok)) : Bool := file.all fun ts => outcome ts = (true, [])

/-- Arithmetic without floats. -/
def intsOnly : Arith where
  overflowChecks := true
  fbin := fun _ x _ => x
  fneg := id
  feq := fun x y => x == y
  fcmp := fun _ _ => none

/-- The driver of a node returns after `k` iterations; 100 for a driver without bound. -/
def returns (m : Machine) (k : Nat) : Bool :=
  match Nat.repeat (Driver.next m) (k + 1) (Driver.start m k) with
  | .returned => true
  | _ => false

/-- The node that a declaration names. -/
def nodeName : SrcItem → Option String
  | .node n => some n.name
  | .extNode f _ _ => some f
  | _ => none

/-- All the drivers of the programs of a file, one after the other: each program can use what the
preceding ones define.  The answers are those of the drivers, in order. -/
def drives : Extern → List (List Tok) → List Bool
  | _, [] => []
  | X, ts :: rest =>
    match parseProg ts with
    | none => [false]
    | some p =>
      match decl (compile p) with
      | .done _ (some p') =>
        match link intsOnly X p'.decls with
        | .error _ => [false]
        | .ok I =>
          (p.flatMap fun d =>
            match (nodeName d.item).bind I.nodes with
            | none => []
            | some m =>
              [(Spec.meaning d.attrs).main, (Spec.meaning d.attrs).test].filterMap fun k =>
                k.map (returns m)) ++
          drives ⟨fun x => (I.consts x).orElse fun _ => X.consts x,
            fun f => (I.nodes f).orElse fun _ => X.nodes f⟩ rest
      | _ => [false]

/-- From no external items. -/
def runs (file : List (List Tok)) : List Bool := drives ⟨fun _ => none, fun _ => none⟩ file

end Chandeliers.Tests
