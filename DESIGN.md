# Formal model of chandeliers: design

The subject is the Lustre-to-Rust compiler in `/repo`: its runtime library (`chandeliers-sem`), its
front end (`chandeliers-syn`), its middle end (`chandeliers-san`), its error accumulator
(`chandeliers-err`), the entry point that chains the passes (`chandeliers-lus`) and its library of
nodes (`chandeliers-std`).
The model lives in `lean/Verif/`.

| modules                   | what they model                                                         |
|---------------------------|-------------------------------------------------------------------------|
| `Sem/*`                   | runtime library: nillables, histories, embed/trusted, registers, macros |
| `San/Ast`                 | the sanitised AST (`chandeliers-san/src/ast`)                           |
| `San/Eval`, `San/Value`   | meaning of the Rust code emitted by `chandeliers-san/src/codegen`       |
| `San/Rust`, `San/Quote`   | the emitted Rust code itself: a fragment of Rust with its meaning, the macros of `chandeliers-sem`, the methods `step` |
| `San/Graph`, `San/Causality` | dependency graph, strongly connected components, scheduling          |
| `San/Typecheck`           | type checker of expressions, nodes and programs                         |
| `San/Clockcheck`          | clock checker                                                           |
| `San/Positivity`          | depth checker and sizes of histories                                    |
| `San/ConstExpr`           | constants: code generation and evaluation by rustc                      |
| `San/Run`                 | the drivers emitted for `#[main]` and `#[test]`                         |
| `San/Trace`               | what `#[trace]` prints                                                  |
| `San/Emit`                | names, visibility and uses of the items emitted for each declaration    |
| `San/Std`                 | the library of nodes                                                    |
| `San/Names`, `San/Options`, `San/Diag` | names of generated items, options and their uses, error messages |
| `Syn/Parse`               | the parser, from Rust tokens to programs                                |
| `Syn/Ast`, `Syn/Translate`| the parsed AST and its translation                                      |
| `Syn/Options`             | parsing and interpretation of attributes                                |
| `Syn/Prog`                | whole programs: translation, all passes, code generation, linking       |
| `Err/*`                   | error accumulator, pipeline and `decl!`, spans and transparent data     |
| `Spec/*`                  | independent specifications: streams, Lustre semantics, typing rules, clock rules |
| `Lemmas/*`                | proofs                                                                  |
| `Tests/*`                 | comparison of the model with the test suite of the project              |
| `Props/*`                 | the property theorems (named `Cnn_...`), with non-vacuity examples      |

## Trusted base

* Lean 4.33.0's kernel.  Every theorem depends at most on `propext`, `Classical.choice` and
  `Quot.sound`.  There are no axioms of our own, no `sorry`, no compiled evaluation.  A few examples
  use `decide +kernel`, which is evaluation by the kernel.
* The reading of `/repo` into the model; every definition cites the file and lines it models.
* Rust's own semantics for the fragment that the compiler emits, as modelled in `San/Rust`: order of
  evaluation, field update, shadowing, patterns.  The theorems are about `San/Eval`, which is the
  meaning of the program; C64 proves that the emitted code, with its macros expanded, has that
  meaning, and C69 that this code is what Rust reads in the emitted tokens.  `San/Read` is our reading
  of Rust's grammar for these tokens (priorities of operators, blocks, paths, keywords) and of the
  patterns of the macros of `chandeliers-sem`.  The drivers and the traces are modelled by their
  meaning only.

### How the model was compared with the code

The code cannot be run here, but the project keeps, next to its tests, the messages that rustc is
expected to print.  `tools/conformance.py` turns all the `decl!` of `chandeliers-lus/tests` into tokens
and reads the expected messages; `Tests/Refused`, `Tests/Accepted` and `Tests/Runs` check, by
evaluation in the kernel, that the model gives the same messages with the same names, operators,
types, clocks and depths in the same order (71 files; the messages that rustc itself gives about the
emitted code are left out), that it accepts the others without a message (56 files), and that the
drivers of the 20 files that have some return without a panic.  The expressions and tuple types that
are printed in a few of these messages are not compared.  These are tests of the model, and no
property rests on them.

### What is not modelled

* Rust's lexer and `syn` itself: the model starts from the token trees that rustc gives to the
  macro.  The `syn` functions that the parser calls (`peek`, `fork`, `parse_terminated`,
  `parenthesized!`...) and the code that `syn_derive` generates are modelled by what they read.
  Invisible groups and the messages of syntax errors are not modelled.  The theorems about the
  passes are stated on parsed trees (`Syn/Ast`, which contains every tree that the parser builds,
  and more: levels of the grammar are merged); C49 relates them to tokens.
* The wording of error messages, their spans and their suggestions (what they blame and the names,
  types, clocks and depths that they print are modelled, C55), and `quote!` token streams, except
  those of the values of constants and of the bodies of the methods `step` (C69): only the meaning of
  the rest is modelled.
* Spans, except in `Err/Span` (C41).  Their joins panic on malformed spans; that is not modelled.
* rustc's checks on the emitted code, other than: names are bound, tuples have the right shape
  (`Panic.rejected` in the model), constants are evaluated without arithmetic errors, names are
  resolved to what is meant (C54).  In particular trait bounds of generic code, privacy at the places
  where an item is used and the linting attributes are not.
* In C54: the `use` declarations inside of emitted bodies, hygiene of the macros of
  `chandeliers-sem`, lifetimes, and the contents of `#[doc]`.
* In the formats of `#[trace]`, format parameters (`{x:>8}`); `Display` of `f64` is abstract.
* What `as f64`, `as i64`, `f64::ceil` and `f64::floor` compute (`Rust` in `San/Std`), and the random
  generator: the numbers that it gives to a node are an arbitrary sequence, the same for all the
  instances of that node.
* Strings, doc comments, `rustc_allow` contents.
* IEEE arithmetic is abstract (`Arith`), as is the choice between panicking and wrapping integer
  overflow.

## Modelling conventions

* A Rust panic is an explicit error value (`Except Panic`); code that rustc would reject (an unbound
  local, a missing field, a tuple of the wrong shape) is also an explicit error.  A panic of the
  compiler itself is `Res.abort`.
* `&mut self` methods return the new state.  `Option<T>` with `&mut EAccum` is the monad `Chk`.
* Tuples of arity 1 to 11 are modelled as tuples of any arity (the code provides impls up to 11).
* `AllNil::auto_size()` chooses its shape by Rust type inference; the model takes the shape from the
  sibling value or node signature that inference unifies it with.
* Programs are linked (`link`) in two rounds, constants then nodes, since Rust items may be used
  before they are declared.  External items are arbitrary machines.

## Properties: what is modelled and how it is proved

* C01-C03: `Sem/Nillable`, `Sem/Candle`.  Case analysis, for an arbitrary scalar type and operation.
* C04-C05: `Sem/TimeTravel`.  Indexed family mirroring `O`/`S`; refinement to the list of the most
  recent values, induction over capacity and updates.
* C06-C07: `Sem/Stepping`.  Universe of nested tuple types, structural induction.
* C08-C09: `San/Eval`.  `step` on a first-nil input; induction over the history, for any node.
* C10-C13: `Sem/Registers`.  Induction over the history of cycles, against a specification reading
  the history only.
* C14-C15: `Sem/Candle`, `San/Eval`.  Case analysis; C14 for whole nodes by C45.  `San/Twice` is the
  emitted code where `merge!` evaluates its switch twice, as the macro is written; it is equal to
  `San/Eval` on accepted programs, since C46 only lets variables through.
* C16, C17, C19: `Syn/Translate` against `Spec/Reference` and `Spec/Lustre`.  Induction over
  expressions, with the delay generalised.
* C18: all passes in `#[universal_pre]` mode against `Spec/Clocked`, where presence is defined first
  and `pre`, `fby`, `->` count present instants.  Induction over time and over expressions; the
  memory of registers and flips is related to the present past.  False as stated (F9, F12, proved),
  hence `_partial`.  `C18_source_partial` asks for conditions on the source only (`Spec/Timely`,
  `Spec/Steady`, `Spec/Prompt`): `Spec/Universal`, which is exact by C59, is compared with
  `Spec/Clocked`, and the solution in the latter is shown to be unique.
* C42: the outputs of a node are those of the solution of its equations in `Spec/Lustre` without
  `#[universal_pre]` and in `Spec/Clocked` with it (uniqueness, by induction over time and over the
  order of statements); the two references agree on nodes without clocks.  False as stated (F9,
  proved), hence `_partial`.  `C42_source_partial` is about the two nodes in one program, with
  conditions on the source only.
* C20: `San/Positivity` exactly, and whole accepted programs, by induction over time and over the
  declarations.  False as stated (F1, F2, F17, proved), hence `_partial`: for complete external nodes,
  nodes without `#[universal_pre]` that are `Sober` (`Spec/Presence`) and nodes with it that are
  `Steady` (`Spec/Steady`, on the source: how many instants of its clock each expression is late by).
  `TimelyNode` (`Spec/Timely`, on the source) implies `Sober`, by induction over the translation; the
  `C20_source_partial` theorem and those of C18, C30 and C42 only look at the source.
* C21: `San/Positivity` + `San/Eval`.  Induction over expressions.
* C22-C25: `San/Graph`, `San/Causality`.  Model of the Tarjan traversal with its stack and marks;
  invariants.
* C26: `San/Eval`.  The run of a node is the solution of a set of equations (C45), which does not
  depend on their order.  For programs, by induction over the declarations in the order in which they
  are scheduled, with C53 for the nodes that they call.
* C27: `San/Typecheck`.  Structural induction over type tuples, substitution as specification.
* C28: `San/Typecheck` + `San/Eval`.  Preservation and progress for expressions; for nodes by
  induction over the statements; for programs by induction over the declarations.
* C29: `San/ConstExpr`.  Structural induction.  When every part of the constant has a value and no
  NaN is ordered, both evaluations agree.  Otherwise the converse direction is false (two
  counterexamples), hence the `_partial`.
* C30: `San/Clockcheck` + `San/Eval`, for the variables and the equations of whole programs.  False
  as stated (F11, F12, proved), hence `_partial`, with the conditions of C20.  With
  `#[universal_pre]`, about every solution of the equations of the node (C59): induction over time and
  over the equations, with the number of instants of each clock so far.
* C31-C32, C40: `Syn/Translate`.  Induction over chains; invariants of the translation context.
* C33-C34: `Syn/Options`, `San/Options`.  Induction over attribute lists and fetch histories.
* C35: `San/Run`.  Induction over the number of steps; for whole programs with C47.
* C36, C38: `San/Eval`.  Independence of slots; simulation of the wrapper.
* C37, C43: `Err`.  Invariants of the monad `Chk`.
* C39: string suffix argument.
* C41: equality on spanned values.
* C44: `San/Typecheck` against the typing rules of `Spec/Typing`, in both directions.
* C45: `San/Eval` against `Spec/Solutions`.  Induction over time, inside it over the statements.
* C46: `San/Clockcheck` against the rules of `Spec/Clocks`, in both directions.
* C47: all passes (`Spec/Compile`, `Spec/Program`), composed from C16, C22, C26, C44, C45, C46.
* C48: all passes, `Spec/Panics` states the conditions.  Each pass is shown not to abort given what
  the previous ones establish (`Lemmas/Quiet*`), and not to fail without recording an error.  Panics
  of `syn` itself and exhaustion of the stack are not modelled.
* C49: `Syn/Parse` against the grammar of `Spec/Grammar`, an inductive relation that does not tell how
  to parse.  Soundness and completeness by induction on the bound on nesting, with what may follow
  an expression of each level as invariant.
* C50: all passes against the static rules of `Spec/Legal`, which are about source programs.  Each
  rule is related to the checks on the translation, by induction on expressions (`Lemmas/Legal*`); the
  scheduling of declarations and equations is related to acyclicity by C22 and C23.
* C51: `San/Trace`, the emitted code with its prints, a writer monad over `San/Eval`.  Erasing the
  prints gives `San/Eval` back (induction over expressions, statements and programs); the messages are
  described in `Spec/Trace`, with the values of the solutions of C45 and C47.
* C52: `San/Std`, wrapped as external nodes are.  Induction on the history; the numbers drawn are a
  parameter.
* C53: `San/Eval`.  A simulation between the executions of a node with the two families of subnodes
  (`Lemmas/Replace`), over expressions, statements, steps and declarations.
* C54: `San/Emit` against `Spec/Emit`, where `Resolves` is how Rust looks names up.  By cases on the
  emitted pieces of code, with C39 for the names, C50 for what a program mentions, and the typing of
  bodies (`Lemmas/Closed`) for the type variables of subnodes and registers.
* C55: all passes, with the messages of `San/Diag`, against `Spec/Blame`, which says for each message
  what makes it true.  A Hoare logic for the monad `Chk` (`Lemmas/Tells`) bounds what each function
  reports; induction over expressions, statements and declarations.  Messages about definitions and
  names are then related to the source (`Spec/BlameSrc`); cycles use C24, whose statement now says
  that a reported cycle leaves nothing out.
* C56: `San/Eval` with `overflowChecks` on and off (`Spec/Builds`).  The simulation of C53, made
  asymmetric: the first execution may stop on a panic of a given kind (`Upto` in `Spec/Replace`).
* C57: the same model.  A logical relation (`ValRel` in `Spec/Parametric`: equality at ordinary types,
  any relation at type variables) is carried through expressions, statements and bodies, then
  through the linked items with the induction of C28, made generic in the property of nodes
  (`linkNodes_have`).  Commutation with maps and "nothing new" are instances of the relation.
  External generic nodes are assumed to be parametric.
* C58: the same model.  A pass that succeeds gives the same result in a state that knows more
  (`Follows` in `Lemmas/Follows`), so a declaration becomes the same in all tables that know what it
  uses; the emitted items do not look at constants they do not mention (`machine_globals`), which makes
  the linked machines equal.  Acceptance of parts and unions goes through C50; what a declaration needs
  is `Spec/Modular`.
* C59: the same model, with the reference of `Spec/Universal`, which says what registers do from the
  history only (`lastKept`).  Each register of the emitted code is shown to hold what the reference
  says (`Lemmas/UniversalDen`), and conversely a solution of the reference fills the registers
  (`uniFlow`); C45 does the rest.  `Spec/Guards` gives conditions on the source under which rustc
  accepts the code.
* C60: the same model.  `Spec/Refactor` says what it is to exchange expressions, to add parentheses
  and to replace a variable by its definition.  The references of C17 and C59 are compared on both
  sources (`Lemmas/Exchange`, `Lemmas/Unfold`), the linked programs are compared declaration by
  declaration (`Lemmas/Refactor`), and acceptance goes through C50 (`Lemmas/Rewrite`).
* C61 and C62: the same way, with `Spec/Rename` for what it is to remove and to rename.  A solution of
  the equations of the original node is one of the smaller node (`Lemmas/Slice`), or one under the
  new names (`Lemmas/Rename`).
* C63: `Spec/Inline` says what it is to replace a call by the body of its node.  The call is a run of
  the machine of its node, and C47 (C59 with `#[universal_pre]`) turns it into a solution of the equations of that node; the two
  solutions are put together under the fresh names (`Lemmas/Inline`).  That the arguments are present
  at every instant comes from C30.
* C64: `San/Rust` is a fragment of Rust that knows nothing of Lustre, `San/Quote` the translation of
  nodes to it, with Rust names and with the macros expanded as they are written.  The environments and
  the states of both sides are related and the relation is kept by every expression and statement
  (`Lemmas/Quote`), up to executions that rustc would not have let be; C28 says that there are none on
  inputs of the declared types.  For external nodes, which may do anything on other inputs, the
  argument goes through nodes that check their inputs (`Lemmas/QuoteExtern`).
* C65: `Spec/Split` says what an `extern` declaration stands for and which Rust items are around the
  invocations.  Legality (C50) only looks at names and types, which are the same; what a declaration
  becomes is the argument of C58, with the types of the whole program; the nodes are related by C53,
  and an exported node seen through an `extern` declaration is itself by C38.  That a node is marked
  `#[export]` is needed for Rust to see it, and is not needed in the model.
* C66: puts C28, C47, C48, C49, C50, C59 and C64 together; `Spec/EndToEnd` says what a node means, with
  registers or without.
* C67: an instance of the framework of C60, with `Spec/Laws` as the replacements; each law keeps types,
  clocks, depths, dependencies and values, at all instants including negative ones, and steps compose.
  Equations that hold in one semantics only, or only of total operators, are shown not to be laws.
* C68: `Spec/Relabel` says what it is to change names.  Legality, solutions and values of constants do
  not change under other names (`Lemmas/RenameLegal`, `Lemmas/RenameNode`, `Lemmas/Relabel`); acceptance
  goes through C50, and the linked programs are compared declaration by declaration
  (`Lemmas/RelabelProg`).  Which identifiers Rust accepts is not modelled.
* C69: `San/Text` gives the tokens that are emitted, with the panics of the compiler as a token that
  nobody can read, and `San/Read` reads tokens as Rust does, knowing nothing of who wrote them: by
  climbing priorities in constants, and by the rules of the macros in steps.  By induction on
  expressions, for every continuation of the text that can occur, what is read is the tree of C64 and
  the rest of the text is left (`Lemmas/ReadConst`, `ReadExpr`, `ReadNode`); whole programs follow
  declaration by declaration (`Lemmas/ReadLink`).  The depth of the reader is bounded by a number, and
  the theorems say that the result is the same from some number on.  Deptys, traces, items around the
  methods and spans are not in the text.
* C70: `Spec/SampleTexts` has the tokens of programs of `src/lib.rs` and `examples`, `Spec/Samples` says what a
  struct answers.  The texts are read and compiled by evaluation in the kernel, C66 and C69 turn the
  emitted text into equations, and the equations are solved by induction on instants (`Lemmas/SampleRuns`,
  `Lemmas/SampleAdder`, `Lemmas/SamplePrev`, `Lemmas/SampleMore`, `Lemmas/SampleConsts`), or shown to have no solution where the program panics.
  `Lemmas/SampleMain` goes on to the functions `main` (with the drivers of C35) and to later invocations that use
  the exported structs (with C64_export).
  `Spec/SamplePrints` and `Lemmas/SamplePrints` are about what the programs with `#[trace]` print: there the
  compiled nodes are run by the model of traces (C51) and not by reading the emitted text, which has no traces.

## Findings

Places where the code does not do what one would expect.  Those marked (proved) are theorems.

* F1: the depth checker accepts `0 -> 0 -> pre pre x` under `#[universal_pre]`, which is nil at
  instant 1 (proved, `C20_counterexample_nested_arrow`).
* F2: the depth checker ignores the delay of calls: `pre f(1)` is accepted at depth 0 and is nil at
  instant 0 (proved, `C20_counterexample_delayed_call`).
* F3: a register is initialised again when the value that was scheduled is nil (proved,
  `C11_reinitialises_counterexample`).
* F4: the clock of a register is not a dependency of its initialisation, so the emitted Rust may
  read a variable before it is bound, and rustc refuses it.  Hence the hypotheses `BoundBeforeUse`
  and `InputClocks`, which is stronger.
* F5: in the default mode `pre 1` is `1` at instant 0, not nil.
* F6: a type variable repeated across two `#[generic]` attributes is not reported and makes the
  compiler panic; so does a call of a node whose signature uses an undeclared type variable, or
  that declares one it does not use (proved, the `C48_counterexample` theorems).
* F7: `later!` does not evaluate its left-hand side after the delay, so the calls in it are not
  stepped; both branches of an `if` are always evaluated.
* F8: ordering comparisons with NaN are nil, equality is false.
* F9: `(pre x) -> y` under `#[universal_pre]` delays the flip (proved, `C18_counterexample_arrow`,
  `C42_counterexample_arrow`).
* F10: one-element tuples in registers give ill-typed Rust.  Hence the hypothesis `FlatRegisters`.
* F11: the clock checker records errors about the sides of `->` without failing (proved,
  `C46_lenient`), and `decl!` drops the errors when there is a program to emit
  (proved, `C30_counterexample_arrow`).
* F12: `if true then 1 else (x when b)` gets the clock of `x when b` but is present when `b` is false
  (proved, `C30_counterexample_condition`, `C18_counterexample_condition`).
* F13: `7 -> (8 fby pre x)` under `#[universal_pre]` is accepted and is 8 at instant 1, although
  `pre x` was nil at instant 0, because of F3.
* F14: a raw exported name can be equal to the generated name of another item (proved,
  `C39_raw_clash_counterexample`).
* F15: a float literal that overflows to infinity makes code generation panic (proved,
  `C48_counterexample_float`).
* F16: in the default mode the right-hand side of `->` and `fby` is evaluated from the start, so
  `0 -> 10 / x` panics at instant 0 when `x` is 0.
* F17: `0 -> f(x, pre y)` is accepted, but `f` is stepped at instant 0 with a partly nil input
  (proved, `C20_counterexample_partial_call`).
* F18: an integer literal of at least 2^63, or a number in an attribute that is negative or at least
  2^64, makes the compiler panic (proved, `C48_counterexample_int`, `C48_counterexample_attribute`,
  `C48_counterexample_negative`).
* F19: the `step` of a `#[test]` node is only emitted under `#[cfg(test)]`, so a program where another
  node calls it or that exports it does not compile outside of tests (proved, `C54_test_called`,
  `C54_called_test`).
* F20: `random_float` is documented as uniform between `f64::MIN` and `f64::MAX`; `gen::<f64>()` of the
  crate `rand` is uniform in `[0, 1)` (not modelled).
* F21: the compiler does not check that there is one `#[main]`, nor that `main` or the name of a test
  is not also the name of an exported constant: rustc then finds two items of one name (proved,
  `C54_two_mains`, `C54_once`).
* F22: a variable of a traced node called as an exported or external constant is not bound but
  compared with the constant (proved, `C54_traced_clash`).  The same holds for such constants called
  `inputs`, `sys`, `initial`, `continued`..., and `extern const Type` is captured by a `struct` of the
  emitted code; `Sensible` in `Spec/Emit` has the list.
* F23: with `#[trait]` the `struct` of a `#[pub]` node is not public (proved, `C54_pub_trait`).
* F24: without registers a variable cannot be replaced by its definition under a delay if this is a
  constant: with `c = 5`, `0 -> count(pre c)` and `0 -> count(pre 5)` differ, because of F5: the call
  starts one instant earlier (proved, `C60_not_constants`).
* F25: an external node without outputs that returns `nil` on present inputs, as its type allows, is
  given `()` instead by the struct emitted for it (proved, `C64_unit_output`).
* Constants: NaN comparisons and the lazy `if` make a constant differ from the same expression in a
  node (proved, `C29_nan_counterexample`, `C29_lazy_if_counterexample`).
* Warnings are emitted at the error level; among conflicting attributes the last one wins;
  `#[test(n)]` does not warn about conflicts.
* `extern const X: T` with a type variable for type is accepted (excluded by `ExternOk`).
