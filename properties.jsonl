{"id": "C01", "title": "Nil contaminates arithmetic", "statement": "Applying + - * / % & | ^ to two nillable values, or unary - and ! to one, yields nil exactly when some operand is nil; when all operands are defined it yields the defined result of the scalar operation (or its panic), never nil.", "quantifier": "every operator, every scalar type, every pair of nillable operands", "why_tests_cant": "the scalar domain is infinite and the operator set is open (any T with the trait)", "anchors": ["chandeliers-sem/src/nillable.rs: nillable_impl_ops_binary, nillable_impl_ops_unary", "chandeliers-sem/src/candle.rs: binop, unop"]}
{"id": "C02", "title": "Comparison operators obey their negation and symmetry laws", "statement": "cmp!(op; a, b) is defined exactly when both operands are defined (and, for < <= > >=, comparable); whenever defined, < is the negation of >=, > of <=, == of !=, a<b equals b>a, a<=b equals (a<b or a==b) for a total order; an incomparable pair (NaN) gives nil for all four ordering operators.", "quantifier": "every pair of nillable operands of every partially ordered scalar type", "why_tests_cant": "quantifies over all values and all partial orders", "anchors": ["chandeliers-sem/src/candle.rs: cmp, nillable_cmp_ord, nillable_cmp_eq", "chandeliers-sem/src/nillable.rs: Nillable::cmp, Nillable::eq"]}
{"id": "C03", "title": "Identity test is an equivalence, partial equality is nil-strict", "statement": "`is` is reflexive, symmetric and transitive on nillable values whenever the scalar equality is, nil is identical only to nil, and `assert_is!` panics exactly when its operands are not identical; `eq` answers exactly on defined pairs and agrees there with `is`.", "quantifier": "all nillable values over all scalar equalities", "why_tests_cant": "universal algebraic laws over an infinite domain", "anchors": ["chandeliers-sem/src/nillable.rs: Nillable::is, Nillable::eq, assert_is"]}
{"id": "C04", "title": "History returns the d-th most recent value", "statement": "After any sequence of updates of a fresh history that remembers k+1 values, reading d steps ago (1<=d<=k+1) returns the d-th most recently pushed value, and nil if fewer than d values were pushed.", "quantifier": "all depths k, all update sequences, all d", "why_tests_cant": "unbounded depth and unbounded update sequences", "anchors": ["chandeliers-sem/src/time_travel.rs: O, S, Ago::ago, Update::update, Downcast::downcast"]}
{"id": "C05", "title": "History reads panic exactly out of range", "statement": "Reading d steps ago from a history of k+1 values panics exactly when d=0 or d>k+1; updates never change the capacity; extending by one value adds exactly one slot and moves the given value to the front without losing any remembered value.", "quantifier": "all depths, contents and distances", "why_tests_cant": "unbounded depth", "anchors": ["chandeliers-sem/src/time_travel.rs: Ago::ago, Extend::extend, Update::update"]}
{"id": "C06", "title": "embed/trusted round trip", "statement": "trusted(embed(v)) = v for every nested tuple of scalars, and trusted(w) panics exactly when w has a nil leaf, otherwise embed(trusted(w)) = w.", "quantifier": "every nested tuple type and every value of it", "why_tests_cant": "infinitely many tuple shapes", "anchors": ["chandeliers-sem/src/stepping.rs: Embed, Trusted"]}
{"id": "C07", "title": "All-nil and first-is-nil are consistent", "statement": "AllNil::auto_size() of any nested tuple type is nil in every leaf and first_is_nil of it is true; first_is_nil of an embedded value is false; first_is_nil depends only on the leftmost leaf.", "quantifier": "every nested tuple type", "why_tests_cant": "infinitely many shapes", "anchors": ["chandeliers-sem/src/nillable.rs: AllNil, FirstIsNil"]}
{"id": "C08", "title": "An inactive implicit clock freezes a node", "statement": "Calling step of a generated node with inputs whose first component is nil returns an all-nil output and leaves the node's entire state unchanged.", "quantifier": "every node, every reachable state, every such input", "why_tests_cant": "quantifies over all programs and all histories", "anchors": ["chandeliers-sem/src/candle.rs: implicit_clock", "chandeliers-san/src/codegen/mod.rs: Node step"]}
{"id": "C09", "title": "Stuttering invariance", "statement": "For any input history, deleting the instants at which the first input is nil does not change the outputs at the remaining instants: a node called on a slower clock behaves as if run alone on the filtered stream.", "quantifier": "every node, every input history, every pattern of absent instants", "why_tests_cant": "unbounded histories and interleavings of absence", "anchors": ["chandeliers-sem/src/candle.rs: implicit_clock", "chandeliers-san/src/codegen/mod.rs: Node step, external step wrapper"]}
{"id": "C10", "title": "Flip fires exactly once", "statement": "In any sequence of test-and-set calls on a fresh flip, the first returns true and all later ones false.", "quantifier": "all call sequences", "why_tests_cant": "unbounded sequences", "anchors": ["chandeliers-sem/src/registers.rs: Flip::tas"]}
{"id": "C11", "title": "Register implements clocked fby", "statement": "Driving a fresh register each cycle with (clock, init, get, schedule, commit), where init and the scheduled value are defined exactly at the instants the clock is true, reads out: nil at inactive instants, the init value at the first active instant, and afterwards the value scheduled at the previous active instant.", "quantifier": "all clock/value histories", "why_tests_cant": "unbounded histories with arbitrary activation patterns", "anchors": ["chandeliers-sem/src/registers.rs: Register", "chandeliers-san/src/codegen/mod.rs: InitRegister, UpdateRegister, FetchRegister"]}
{"id": "C12", "title": "Register implements clocked pre", "statement": "The same protocol without an initial value reads out nil at the first active instant and the value scheduled at the previous active instant afterwards.", "quantifier": "all clock/value histories", "why_tests_cant": "unbounded histories", "anchors": ["chandeliers-sem/src/registers.rs: Register"]}
{"id": "C13", "title": "Register read and schedule commute", "statement": "Within one cycle, scheduling the next value does not affect what get returns, so the relative order of a register's read and its update is irrelevant.", "quantifier": "all registers states, all operation orders within a cycle", "why_tests_cant": "all interleavings", "anchors": ["chandeliers-sem/src/registers.rs: schedule, get, commit"]}
{"id": "C14", "title": "Assertions fail exactly on false or nil", "statement": "A node with `assert e` behaves like the node without it on every input history where e is true at every instant of the node; it panics on a history where e is false or nil at some instant.", "quantifier": "all nodes, assertions and input histories", "why_tests_cant": "all programs", "anchors": ["chandeliers-sem/src/candle.rs: truth", "chandeliers-san/src/codegen/mod.rs: Statement::Assert"]}
{"id": "C15", "title": "Sampling and merging truth tables", "statement": "`e when b` is e when b is true and nil otherwise, `e whenot b` dually; `merge b (x when b) (y whenot b)` is x or y according to b and nil when b is nil; `if` with a nil condition is nil; when both branches are sampled complementarily `merge` equals `if`. In accepted programs it does not matter that the code emitted for `merge` evaluates its switch twice.", "quantifier": "all guards, all branch values, all accepted programs", "why_tests_cant": "all tuple shapes and values", "anchors": ["chandeliers-sem/src/candle.rs: when, whenot, merge, ifx"]}
{"id": "C16", "title": "Default-mode translation preserves stream semantics", "statement": "For every expression compiled without universal_pre, the generated code at instant t equals the reference stream semantics (pre shifts, fby shifts with initial value, -> switches after the first instant, other operators pointwise) wherever the reference is initialised.", "quantifier": "all expressions, all nesting depths of pre/fby/->, all instants, all histories", "why_tests_cant": "unbounded expression nesting and time", "anchors": ["chandeliers-syn/src/translate/mod.rs: Fby, Pre, Then, Var, Call translations", "chandeliers-sem/src/candle.rs: var, later, substep", "chandeliers-san/src/codegen/mod.rs"]}
{"id": "C17", "title": "Unparenthesised arrow chain emits its i-th arm at instant i", "statement": "In default mode `e0 -> e1 -> ... -> en` produces e_i at instant i for i<n and e_n from instant n on; with right-nested parentheses it produces e0 then the last arm forever.", "quantifier": "all chain lengths and all instants", "why_tests_cant": "unbounded chain length", "anchors": ["chandeliers-syn/src/translate/mod.rs: Then", "README.md"]}
{"id": "C18", "title": "universal_pre translation preserves clocked stream semantics", "statement": "For every expression compiled with universal_pre, generated code equals the clocked reference semantics of pre, fby and -> (advance only at instants where the operand is present), wherever the reference is initialised.", "quantifier": "all expressions, clocks, instants and histories", "why_tests_cant": "unbounded histories and activation patterns", "anchors": ["chandeliers-syn/src/translate/mod.rs: Fby, Pre, Then", "chandeliers-sem/src/registers.rs", "chandeliers-san/src/codegen/mod.rs"]}
{"id": "C19", "title": "A delayed call is the delay of the call", "statement": "In default mode `pre^n f(e)` at instant t>=n equals f(e) at instant t-n; the subnode is not advanced before instant n, and sees exactly the argument stream from its beginning.", "quantifier": "all nodes f, depths n, argument streams, instants", "why_tests_cant": "unbounded depth and history", "anchors": ["chandeliers-sem/src/candle.rs: substep", "chandeliers-syn/src/translate/mod.rs: Call"]}
{"id": "C20", "title": "Accepted programs never observe an uninitialised value", "statement": "If the positivity check accepts a node, no reachable instant reads an uninitialised value.", "quantifier": "all accepted nodes and histories", "why_tests_cant": "all programs", "anchors": ["chandeliers-san/src/positivity.rs"]}
{"id": "C21", "title": "Accepted programs never look too far into the past", "statement": "For every node accepted by the positivity check the remembered depth of each variable is at least every distance at which its generated code reads it, so no history read panics and no missing field is referenced; depths are minimal.", "quantifier": "all accepted nodes, all reads, all instants", "why_tests_cant": "all programs", "anchors": ["chandeliers-san/src/positivity.rs: make_positive", "chandeliers-san/src/codegen/mod.rs: strictly_positive", "chandeliers-sem/src/time_travel.rs: ago"]}
{"id": "C22", "title": "Scheduling keeps every statement exactly once", "statement": "If causality scheduling succeeds, the scheduled sequence is a permutation of the submitted sequence.", "quantifier": "all dependency graphs", "why_tests_cant": "unbounded graphs", "anchors": ["chandeliers-san/src/causality/graph.rs: Graph::scheduling"]}
{"id": "C23", "title": "Scheduling defines before use", "statement": "In a successful schedule each element comes after the providers of everything it requires.", "quantifier": "all dependency graphs", "why_tests_cant": "unbounded graphs", "anchors": ["chandeliers-san/src/causality/graph.rs: Tarjan, Graph::scheduling"]}
{"id": "C24", "title": "Causality errors are exact", "statement": "Scheduling fails exactly when a symbol supplied by the context is also provided by an element, some symbol is provided twice, a symbol of the interface is provided by nobody, or the requirement relation has a cycle (of length one or more); every other input is accepted, the error names symbols of which it is true, and the scheduler always terminates without crashing. (A required symbol that nobody provides and that is not in the interface is not an error here: later passes report it.)", "quantifier": "all dependency graphs", "why_tests_cant": "unbounded graphs; tests only show specific cycles", "anchors": ["chandeliers-san/src/causality/graph.rs: Graph::scheduling"]}
{"id": "C25", "title": "Every variable has exactly one definition", "statement": "In an accepted node every output and local is defined by exactly one equation and no input is redefined.", "quantifier": "all accepted nodes", "why_tests_cant": "all programs", "anchors": ["chandeliers-san/src/causality/mod.rs: Node causality", "chandeliers-san/src/causality/graph.rs: must_provide, already_provided"]}
{"id": "C26", "title": "The order of equations and declarations is irrelevant", "statement": "Two nodes that differ only by the order of their equations are indistinguishable: the compiler accepts both or neither, and on every input history both panic or both return the same outputs. The same holds for two programs that differ only by the order of their declarations and of the equations of their nodes: same constants, same nodes, each with the same behaviour.", "quantifier": "all nodes as the translation builds them and all programs, all orders of their equations and declarations, all input histories including absent inputs", "why_tests_cant": "all permutations and histories", "anchors": ["chandeliers-san/src/causality/graph.rs", "chandeliers-san/src/codegen/mod.rs: Statement"]}
{"id": "C27", "title": "Type unification is sound and complete", "statement": "Matching the formal type of a generic node against actual argument types succeeds exactly when a substitution of the generics makes them equal; the recorded substitution is that one and applying it to the formal output type gives the call's type.", "quantifier": "all type tuples and generic assignments", "why_tests_cant": "unbounded nesting of tuples", "anchors": ["chandeliers-san/src/typecheck.rs: TyUnifier, identical, substitute"]}
{"id": "C28", "title": "Well-typed expressions evaluate to values of their type", "statement": "Evaluating an expression accepted at type T in a well-typed state never gets stuck on a type mismatch, and yields a value of type T (possibly nil).", "quantifier": "all accepted expressions and well-typed states", "why_tests_cant": "all programs", "anchors": ["chandeliers-san/src/typecheck.rs: Expr typecheck, Bin::accepts, Un::accepts, Cmp::accepts", "chandeliers-san/src/codegen/mod.rs"]}
{"id": "C29", "title": "Accepted constants compile and mean the same as in a node", "statement": "A constant expression accepted by the const check never aborts code generation and its value equals that of the same expression evaluated inside a node at any instant.", "quantifier": "all constant expressions", "why_tests_cant": "unbounded expressions", "anchors": ["chandeliers-san/src/typecheck.rs: is_const", "chandeliers-san/src/codegen/constexpr.rs"]}
{"id": "C30", "title": "Clock soundness", "statement": "An expression accepted with clock `on v` (resp. `off v`) is non-nil, once initialised, exactly at the instants where v is true (resp. false); an expression on the implicit clock is non-nil at every instant of the node.", "quantifier": "all accepted expressions and histories", "why_tests_cant": "all programs and histories", "anchors": ["chandeliers-san/src/clockcheck.rs"]}
{"id": "C31", "title": "Associativity and operand order", "statement": "Left-associative operator chains are compiled to left-nested applications with operands in source order, right-associative ones to right-nested, operands are each translated exactly once; a comparison of three or more operands is rejected.", "quantifier": "chains of every length", "why_tests_cant": "unbounded chain length", "anchors": ["chandeliers-syn/src/translate/mod.rs: assoc::left_associative, right_associative, Cmp"]}
{"id": "C32", "title": "Every stateful operator has its own slot", "statement": "In a translated node the subnode, register and flip identifiers occurring in the statements are exactly 0..n-1 for the n slots declared, each used once.", "quantifier": "all nodes", "why_tests_cant": "unbounded expressions", "anchors": ["chandeliers-syn/src/translate/mod.rs: ExprCtx blocks, registers, flips"]}
{"id": "C33", "title": "Attribute handling", "statement": "Options projected onto a declaration are exactly those supported for it and any other that was set is reported; for repeated attributes the last one wins; `pub` implies `export`; absent attributes leave defaults.", "quantifier": "all attribute lists", "why_tests_cant": "unbounded lists", "anchors": ["chandeliers-syn/src/translate/options.rs: SetOpt, Decl", "chandeliers-san/src/ast/options.rs"]}
{"id": "C34", "title": "Unused option detection", "statement": "assert_used fails exactly when some declared usage site of an option was never fetched, and passes for options fetched at all their sites.", "quantifier": "all fetch histories", "why_tests_cant": "all histories", "anchors": ["chandeliers-san/src/ast/options.rs: UseOpt"]}
{"id": "C35", "title": "main and test drive exactly n steps", "statement": "The generated main/test body calls step exactly n times on a fresh node when n>0, never stops when n=0, and panics at the first step whose unit output is nil or which itself panics. In an accepted program compiled in the default mode, `main(n)` returns exactly when the equations of its node have a solution over n instants at which the assertions hold, and panics otherwise; with n=0 it runs for as long as there is one.", "quantifier": "all n and nodes, all accepted programs", "why_tests_cant": "unbounded n", "anchors": ["chandeliers-san/src/codegen/options.rs: fn_main, fn_test"]}
{"id": "C36", "title": "Instances are isolated", "statement": "Two calls of the same node in one body, or two instances of a node, do not influence each other: the output of a call depends only on the arguments received by that call.", "quantifier": "all nodes, histories and interleavings of calls", "why_tests_cant": "unbounded interleavings", "anchors": ["chandeliers-san/src/codegen/mod.rs: __nodes", "chandeliers-sem/src/candle.rs: substep"]}
{"id": "C37", "title": "Error accumulation", "statement": "A scope closes successfully exactly when all computations run in it succeeded; all of them are run; errors and warnings are reported in order and compilation is fatal exactly when an error was recorded, warnings never being fatal.", "quantifier": "all sequences of computations", "why_tests_cant": "unbounded sequences", "anchors": ["chandeliers-err/src/lib.rs: EAccum, EAccumScope"]}
{"id": "C38", "title": "Wrapper transparency", "statement": "The external wrapper of a node behaves exactly like the wrapped node on every input history, and its own clock counter never influences outputs.", "quantifier": "all nodes and histories", "why_tests_cant": "unbounded histories", "anchors": ["chandeliers-san/src/codegen/mod.rs: ExtNode/Node wrapper step"]}
{"id": "C39", "title": "Generated names never clash", "statement": "Sanitised identifiers of locals, nodes and globals are pairwise distinct for distinct source entities in one invocation.", "quantifier": "all identifiers", "why_tests_cant": "infinite string domain", "anchors": ["chandeliers-san/src/codegen/mod.rs: Sanitizer for names"]}
{"id": "C40", "title": "Local variables shadow globals", "statement": "A name occurring in an expression denotes the local variable when one with this name is declared in the node, otherwise the global constant; only local reads are subject to delays.", "quantifier": "all declarations and names", "why_tests_cant": "all programs", "anchors": ["chandeliers-syn/src/translate/mod.rs: Var"]}
{"id": "C41", "title": "Source positions never influence compilation", "statement": "Equality, hashing and therefore every lookup by name are independent of spans.", "quantifier": "all spanned values", "why_tests_cant": "all values", "anchors": ["chandeliers-err/src/transparent.rs", "chandeliers-san/src/sp.rs"]}
{"id": "C42", "title": "The two compilation modes agree", "statement": "For nodes without clocked operands and without unparenthesised chains of arrows of length three or more, compilation with and without universal_pre produce the same outputs wherever the reference semantics is initialised.", "quantifier": "all such nodes, all histories", "why_tests_cant": "all programs and histories", "anchors": ["chandeliers-syn/src/translate/mod.rs", "chandeliers-sem/src/registers.rs"]}
{"id": "C43", "title": "Type and depth checking report an error exactly when they refuse", "statement": "Type checking and the check of depths never remove a diagnostic. When one of them refuses a program at least one error has been added to the diagnostics. When it accepts a program no error has been added.", "quantifier": "all programs, all diagnostics already accumulated", "why_tests_cant": "a refusal without explanation or an acceptance with an error may hide behind any combination of declarations", "anchors": ["chandeliers-san/src/typecheck.rs", "chandeliers-san/src/positivity.rs", "chandeliers-err/src/lib.rs: EAccum"]}
{"id": "C44", "title": "The type checker accepts exactly the well-typed programs", "statement": "An expression, a constant, a node or a program is accepted by the type checker if and only if it can be typed with the typing rules of the language, and the type computed for an expression is its only type.", "quantifier": "all expressions, constants, nodes and programs", "why_tests_cant": "infinitely many programs; both directions of the equivalence matter", "anchors": ["chandeliers-san/src/typecheck.rs: Typecheck"]}
{"id": "C45", "title": "A node computes the solution of its equations", "statement": "On every input history, a node returns outputs without panicking exactly when its equations, read as equations between streams with no state and no order of evaluation, have a solution over the instants where the inputs are present, and then the outputs are those of the solution. The solution is unique.", "quantifier": "all nodes as the compiler builds them, all subnodes, all input histories", "why_tests_cant": "relates unbounded runs to streams for every program", "anchors": ["chandeliers-san/src/codegen/mod.rs", "chandeliers-sem/src/candle.rs", "chandeliers-sem/src/registers.rs", "chandeliers-sem/src/time_travel.rs"]}
{"id": "C46", "title": "The clock checker accepts exactly the well-clocked nodes", "statement": "For every node obtained from a source node by translation and reordering, clock checking succeeds without any report exactly when the node obeys the clock rules (operands compatible, `when`/`whenot` guards are variables, `merge` branches on the two complementary clocks, `pre`/`fby` operands on one clock, equations between equal clocks, interface and assertions on the base clock); each register is then stepped on the clock of the expression that feeds it; and a refused program always has an error report.", "quantifier": "all source nodes in both translation modes, all orders of their statements, all previously recorded diagnostics", "why_tests_cant": "The rules are recursive over unbounded expressions and nested registers, and both directions (every ill-clocked node refused, every well-clocked node accepted) range over all programs.", "anchors": ["chandeliers-san/src/clockcheck.rs::Expr::clockcheck", "chandeliers-san/src/clockcheck.rs::Sp<Clk>::refine", "chandeliers-san/src/clockcheck.rs::Node::clockcheck"]}
{"id": "C47", "title": "An accepted program does exactly what its source equations say", "statement": "When the compiler accepts a node written in the default mode, the Rust code it emits for it returns outputs on an input history exactly when the equations of the source text (with `pre`, `->`, `fby`, `when`, `merge` and node calls read as operations on whole histories, with no state, no temporaries and no order of evaluation) have a solution over the instants where the inputs are present, and the outputs are those of the solution.", "quantifier": "all accepted source programs, all their nodes, all input histories, all arithmetic and external items", "why_tests_cant": "It composes every pass of the compiler, over all programs and unbounded histories.", "anchors": ["chandeliers-lus/src/lib.rs::prog_pipeline", "chandeliers-syn/src/translate/mod.rs", "chandeliers-san/src/causality/mod.rs", "chandeliers-san/src/typecheck.rs", "chandeliers-san/src/clockcheck.rs", "chandeliers-san/src/positivity.rs", "chandeliers-san/src/codegen/mod.rs"]}
{"id": "C48", "title": "The compiler does not panic: it emits code or an error", "statement": "For every parsed program whose literals denote values (integers from -2^63 to 2^63 - 1, finite floats), whose attribute numbers are from 0 to 2^64 - 1, and whose called nodes declare each of their type variables once and use each of them in an input, the macro terminates without panicking, and either emits code or reports at least one error. Each of these conditions is needed: without it there is a program on which the macro panics.", "quantifier": "all parsed source programs, with any attributes, in both translation modes", "why_tests_cant": "The panics are unwraps and unreachable branches whose safety depends on invariants built by earlier passes over unbounded programs; tests only exercise some paths through them.", "anchors": ["chandeliers-lus/src/lib.rs::decl", "chandeliers-lus/src/lib.rs::prog_pipeline", "chandeliers-syn/src/translate/mod.rs", "chandeliers-san/src/causality/mod.rs", "chandeliers-san/src/typecheck.rs", "chandeliers-san/src/clockcheck.rs", "chandeliers-san/src/positivity.rs", "chandeliers-san/src/codegen/mod.rs"]}
{"id": "C49", "title": "Programs are read according to the grammar, in one way", "statement": "A sequence of tokens given to the macro is read as a program exactly when the grammar of the language derives that program from it; otherwise a syntax error is reported. No sequence of tokens has two readings: precedences, the extent of the last branch of a conditional, prefix operators, tuples with trailing commas, attributes and declarations are all determined.", "quantifier": "all finite sequences of Rust token trees, of any length and nesting", "why_tests_cant": "Ambiguities and missed readings of a hand-written parser with lookahead appear only on particular combinations of operators and nesting, out of infinitely many inputs.", "anchors": ["chandeliers-syn/src/ast.rs::expr", "chandeliers-syn/src/ast.rs::op", "chandeliers-syn/src/ast.rs::LusIdent", "chandeliers-syn/src/ast.rs::Node", "chandeliers-syn/src/ast.rs::Prog", "chandeliers-syn/src/ast.rs::punctuated_parse_separated_nonempty_costly", "chandeliers-lus/src/lib.rs::decl"]}
{"id": "C50", "title": "Exactly the legal programs are accepted", "statement": "The macro emits code for a program if and only if the program is legal: its attributes are ones that apply to the declarations they are on, names are declared once, no constant or node depends on itself, and in every node each equation is well typed, well clocked and reads nothing before it is initialised, every output and local is defined exactly once and no input is, and no variable depends on itself within an instant. The rules are stated on the source text's syntax, without reference to what the compiler turns it into. Anything else is refused with at least one error. In particular neither the order of declarations nor that of equations matters.", "quantifier": "all programs, of any number and size of declarations, in both translation modes; all orders of declarations and equations", "why_tests_cant": "Rejecting a legal program or accepting an illegal one may need a particular combination of operators, clocks, delays, generic calls and mutual references; tests sample finitely many programs and cannot show that the two sets agree.", "anchors": ["chandeliers-syn/src/translate/mod.rs", "chandeliers-san/src/causality/mod.rs", "chandeliers-san/src/typecheck.rs", "chandeliers-san/src/clockcheck.rs", "chandeliers-san/src/positivity.rs", "chandeliers-lus/src/lib.rs::decl"]}
{"id": "C51", "title": "Tracing shows the values and changes nothing", "statement": "Adding #[trace] to any nodes of an accepted program, to stdout or stderr and with the default or any user formats that mention only variables of the node, does not change what any node returns nor whether it panics. A traced node prints nothing while its inputs are absent. When they are present it prints first its input message with the values of its inputs, then whatever the nodes that it calls print, then its output message with the values that it returns at that instant; over a history these are the values that its equations define. If the step panics, what was printed before is kept and the output message is missing. The default format prints one line with the name of the node and each variable with its value. Nodes that are not traced print nothing of their own.", "quantifier": "all programs, all choices of traced nodes and formats, all input histories with absences and panics, all external nodes", "why_tests_cant": "Interleavings of messages of nested calls, inactive instants, panics and arbitrary formats cannot be enumerated, and transparency is about every program and every history.", "anchors": ["chandeliers-san/src/codegen/options.rs::traces", "chandeliers-san/src/codegen/mod.rs::internal_impl", "chandeliers-san/src/ast/options.rs::TraceFormat", "chandeliers-sem/src/nillable.rs::Display"]}
{"id": "C52", "title": "The library nodes do what they say, at the right instants", "statement": "In any accepted program that declares them extern with their types, the conversions float_of_int, int_of_float, ceil and floor have no memory, never panic, return nothing at the instants where their input is absent, and at the others return the conversion of the input of that same instant. random_int, random_float and random_bool return nothing when they are not active, and a new number of their type, drawn exactly once, at each instant when they are. The library provides what such a program declares, at the declared types, so that the guarantees on accepted programs apply to programs that use it.", "quantifier": "all accepted programs that use the library, all input histories with absences, all results of the conversions of Rust, all sequences of random numbers", "why_tests_cant": "Histories with absences and sequences of random numbers are unbounded, and the guarantee is for every program that uses the library.", "anchors": ["chandeliers-std/src/cast.rs::float_of_int", "chandeliers-std/src/cast.rs::int_of_float", "chandeliers-std/src/cast.rs::ceil", "chandeliers-std/src/cast.rs::floor", "chandeliers-std/src/rand.rs::random_int", "chandeliers-std/src/rand.rs::random_float", "chandeliers-std/src/rand.rs::random_bool"]}
{"id": "C53", "title": "A node can be replaced by one that behaves the same", "statement": "What a node does depends on the nodes it calls, extern or not, only through what they return: if each is replaced by another of the same type that returns the same outputs and panics on the same input histories, whatever state it keeps, then the node returns the same outputs and panics on the same histories. The wrappers emitted for exported and extern nodes keep this, and a whole program linked with such replacements is accepted or refused by rustc as before, with the same constants and with nodes that behave the same.", "quantifier": "all nodes and programs, all pairs of families of subnodes with the same input/output behaviour but any internal states, all input histories including absent inputs", "why_tests_cant": "The replaced nodes have arbitrary internal states, and the histories on which they and their callers must agree are unbounded.", "anchors": ["chandeliers-san/src/codegen/mod.rs: Node, ExtNode", "chandeliers-sem/src/candle.rs: substep", "chandeliers-sem/src/stepping.rs: Step, Embed"]}
{"id": "C54", "title": "A program offers to Rust what its attributes say, and its code means what the compiler meant", "statement": "The items that an accepted program offers to the Rust code around it are exactly those that its attributes ask for: a struct or a constant of its own name for each exported declaration, public exactly with #[pub] (unless the struct implements a trait), one function main for each #[main], one test of the same name for each #[test]; everything else it emits is hidden and has a name that only the compiler makes up. It takes from Rust exactly the items declared extern. If the names of the program do not collide with one another or with a short list of reserved names, then Rust resolves every name in the emitted code to what the compiler meant by it, in normal and in test builds: no item is defined twice, every step method that is called exists, no pattern is turned into a comparison with a constant, every type variable is declared, every item is found. Collisions, two mains or calls to test nodes are not reported by the compiler.", "quantifier": "all accepted programs with any attributes, both kinds of build, all positions of the program in the crate (identifiers of the macro invocation)", "why_tests_cant": "Names, attributes and the ways in which declarations refer to each other are unbounded; a test compiles one program.", "anchors": ["chandeliers-san/src/codegen/mod.rs: Node, ExtNode, Const, ExtConst, internal_decl, internal_impl, external_decl", "chandeliers-san/src/codegen/options.rs: traces, fn_main, fn_test, pub_qualifier, generic_params", "chandeliers-syn/src/translate/options.rs"]}
{"id": "C55", "title": "Every message of the compiler is true of the program", "statement": "Whatever the compiler reports about a program, errors when it refuses it and warnings when it accepts it, is true of this program. A message about types blames an expression, an equation, an assertion or a constant that is there, and the types it prints are the ones that the typing rules give to the two sides it opposes, in this order; they are never the same. The same holds for clocks, for the depths of past values, for signatures and generics. A variable said to be undefined, defined twice, defined from itself or in a cycle is so in the source, and a cycle that is reported leaves out nothing that is in it. A node or variable said not to be declared is used and is not declared. A complaint about an attribute is about one that is written, on a declaration of that kind.", "quantifier": "all source programs with any attributes, accepted or refused; all messages of all passes after parsing", "why_tests_cant": "A test shows the messages of some wrong programs; that no message is ever misleading is about all programs, including those wrong in several ways at once.", "anchors": ["chandeliers-san/src/typecheck.rs", "chandeliers-san/src/clockcheck.rs", "chandeliers-san/src/positivity.rs", "chandeliers-san/src/causality/mod.rs", "chandeliers-san/src/causality/graph.rs: Graph", "chandeliers-san/src/codegen/options.rs", "chandeliers-err/src/error.rs", "chandeliers-err/src/lib.rs: EAccum", "chandeliers-syn/src/translate/mod.rs", "chandeliers-syn/src/translate/options.rs", "chandeliers-lus/src/lib.rs: decl"]}
{"id": "C56", "title": "A release build does what the debug build does, up to overflow", "statement": "Compile one program with overflow checks and without. rustc accepts both or refuses both for the same reason, and the constants have the same values. On every history of inputs, every node either stops on an arithmetic error in the build with checks, or does exactly the same in both: same outputs or same panic. So what was observed in a debug build holds in release, and when the release build panics the debug build does too.", "quantifier": "all programs, all external items that behave alike in both builds, all histories of inputs", "why_tests_cant": "Tests run in one build, and on the inputs that were tried.", "anchors": ["chandeliers-san/src/codegen/mod.rs", "chandeliers-san/src/codegen/constexpr.rs", "chandeliers-sem/src/candle.rs: binop, unop"]}
{"id": "C57", "title": "A generic node never looks at values of its type variables", "statement": "A node declared with type variables treats the values of these types as opaque. Change these values in the history of inputs in any way, even into values of another type: the node returns the same outputs with the same change made to them, or panics in the same way, and its outputs of ordinary types stay equal. In particular at every instant a value it returns at a type variable is one it was given at that type, then or before: it makes up none. So the one Rust item that is emitted is right for every instance of the type variables.", "quantifier": "all accepted programs, all generic nodes in them, all external items that are parametric themselves, all relations or maps between values, all histories of inputs", "why_tests_cant": "A test instantiates the type variables with a few types and tries a few values; that the node depends on no value of any type is a statement about pairs of runs.", "anchors": ["chandeliers-san/src/typecheck.rs: TyUnifier, GenericParams, instantiate", "chandeliers-san/src/codegen/mod.rs", "chandeliers-syn/src/translate/options.rs: generics", "chandeliers-lus/tests/pass/poly"]}
{"id": "C58", "title": "Declarations do not depend on what else is declared", "statement": "What a declaration compiles to, and what it does, only depend on it and on what it uses. If the declarations of an accepted program are among those of another accepted program, in any order, the same code is emitted for them, its constants have the same values and its nodes are the same machines. Declarations that the others do not use can be removed: what is left is accepted and does what it did. Two accepted programs that share no name make one accepted program that has exactly the constants and nodes of both.", "quantifier": "all pairs of programs one of which contains the other, or that share no name; all orders of declarations; all arithmetic, all external items, all histories", "why_tests_cant": "The compiler goes through all declarations with shared tables of types, shared numbering and one dependency graph; a test shows that a few programs do not interfere, not that no program ever does.", "anchors": ["chandeliers-lus/src/lib.rs: decl", "chandeliers-lus/src/pipeline.rs", "chandeliers-san/src/causality: Causality for Prog", "chandeliers-san/src/typecheck.rs: Typecheck for Prog, TyCtx", "chandeliers-san/src/codegen/mod.rs"]}
{"id": "C59", "title": "What a node with universal_pre computes, exactly", "statement": "A node compiled with #[universal_pre] computes what a reference by recursion on its source says, on every history of inputs: pre and fby give the last value that was not nil, only when the clock of the expression is on; -> gives its left side the first time that this is not nil and its right side afterwards. Nothing else is asked of the program than that it is accepted and that rustc accepts the code: the runs of the node are exactly the solutions of its equations, it panics exactly when they have none, they have at most one, and the order of equations does not matter. When the clocks of such nodes are inputs and they use no tuple of one element, rustc accepts the code, so the whole chain from the text of the program to the behaviour of all its nodes is settled.", "quantifier": "all programs, with and without #[universal_pre] on each node; all external items of the declared types; all histories of inputs, nil values included", "why_tests_cant": "Registers under clocks depend on the whole history and on which values were nil when; tests compare a few traces with expected outputs.", "anchors": ["chandeliers-syn/src/translate/mod.rs: universal_pre, registers", "chandeliers-san/src/codegen/mod.rs: FetchRegister, UpdateRegister, Substep", "chandeliers-sem/src/registers.rs", "chandeliers-san/src/clockcheck.rs", "chandeliers-lus/tests/pass"]}
{"id": "C60", "title": "Equal expressions can be exchanged", "statement": "Programs can be refactored. If in the nodes of a program expressions are exchanged for others with the same value, parentheses are added, or uses of a variable are replaced by its definition (or the other way round), the program is still accepted and does the same: the constants have the same values, and every node returns the same outputs on the same histories and panics on the same histories, nodes that call the changed ones included. Without #[universal_pre], a definition that already has a value before the first instant, such as a constant, must not get under a delay: there the code does not satisfy the property. The order of equations and declarations does not matter either, also with registers.", "quantifier": "all programs, with and without #[universal_pre] on each node; all places in expressions, however deep; all external items of the declared types; all arithmetic; all histories of inputs", "why_tests_cant": "Replacing a call by another one duplicates its state, and delays move the time at which it is read; a test compares two versions of one program on a few histories.", "anchors": ["chandeliers-syn/src/translate/mod.rs: translation of expressions, pre, fby, calls", "chandeliers-san/src/clockcheck.rs", "chandeliers-san/src/typecheck.rs", "chandeliers-san/src/positivity.rs", "chandeliers-san/src/causality", "chandeliers-san/src/codegen/mod.rs"]}
{"id": "C61", "title": "Unused variables, equations and assertions can be removed", "statement": "If from the nodes of an accepted program local variables are removed that nothing that stays uses, with their equations, and any assertions, the program is still accepted. The constants have the same values, and whenever a node of the original program returns outputs on a history of inputs, the node of the new program returns the same outputs; it can only panic less (an unused equation can overflow or divide by zero, and an assertion can fail).", "quantifier": "all programs, with and without #[universal_pre] on each node; all sets of removed variables and assertions; all external items of the declared types; all arithmetic; all histories of inputs", "why_tests_cant": "The order in which equations are executed depends on all of them, and so does the numbering of the registers and of the called nodes; a test compares two versions of one program on a few histories.", "anchors": ["chandeliers-syn/src/translate/mod.rs: translation of nodes, variables, assertions", "chandeliers-san/src/causality", "chandeliers-san/src/typecheck.rs", "chandeliers-san/src/clockcheck.rs", "chandeliers-san/src/positivity.rs", "chandeliers-san/src/codegen/mod.rs"]}
{"id": "C62", "title": "Names of variables do not matter", "statement": "If the variables of the nodes of an accepted program (inputs, outputs, local variables) are given other names, different from each other and from those of the constants that the node uses, and the names are changed everywhere, clocks included, the program is still accepted and does the same: the constants have the same values, and every node returns the same outputs on the same histories and panics on the same histories.", "quantifier": "all programs, with and without #[universal_pre] on each node; all new names, exchanged names included; all external items of the declared types; all arithmetic; all histories of inputs", "why_tests_cant": "Variables and constants share a namespace in the analyses, and the order of equations depends on the names; a test tries a few names.", "anchors": ["chandeliers-syn/src/translate/mod.rs: translation of nodes, variables, assertions", "chandeliers-san/src/causality", "chandeliers-san/src/typecheck.rs", "chandeliers-san/src/clockcheck.rs", "chandeliers-san/src/positivity.rs", "chandeliers-san/src/codegen/mod.rs"]}
{"id": "C63", "title": "A call can be replaced by the body of the node", "statement": "An equation that is a call `results = f(args)`, made at every instant, to a node of the same program, both nodes with #[universal_pre] or both without, can be replaced by the body of `f`: an equation for each input, the equations and assertions of `f` with fresh names for its variables, and an equation that gives the outputs to the results. In accepted programs whose expressions are present when they should be (conditions on the source: without #[universal_pre] operands of -> and fby on the clock of the node, with it registers read once they are filled, arguments of calls not partly initialised, no comparison of floats, branches of a constant condition on one clock), both nodes return on the same histories of inputs, complete or absent, with the same outputs, and panic on the same histories. When the call is only made at some instants and there is no #[universal_pre], the two differ: a node counts the instants where it is called.", "quantifier": "all programs that meet the conditions; all called nodes, with any state; all fresh names; all arguments; all external items of the declared types; all arithmetic; all histories of inputs", "why_tests_cant": "A call is compiled to an instance with its own clock, memory and position in the schedule, its body to equations among the others; that both agree must hold for every body and every history.", "anchors": ["chandeliers-syn/src/translate/mod.rs: translation of calls", "chandeliers-san/src/codegen/mod.rs: substep, node step", "chandeliers-sem/src/stepping.rs: Step, implicit clock", "chandeliers-san/src/causality"]}
{"id": "C64", "title": "The emitted Rust code behaves as the program", "statement": "The Rust code that the macro emits for an accepted program, after expansion of the runtime macros, behaves as the program. Each constant is a `const` item and each node a struct, under names made of the name in the program, the number of the macro invocation and the kind of item; the fields, local variables, subnodes and registers that the body of `step` names are the ones that hold the variables, histories, calls and registers of the program; no name is captured by another. If the external items are of their declared types then on every history of inputs of the type of the node, at any instance of its type variables, the struct returns the outputs of the node or panics with the same panic; without #[universal_pre] the histories of the struct are the solutions of the equations in the source. The wrapper of an exported node answers as the node at the instants where inputs are present and returns nil at the others. External nodes without outputs must not return nil: the wrapper turns it into ().", "quantifier": "all accepted programs, with or without #[universal_pre]; all external items of the declared types, with any state; all arithmetic; all invocation numbers; all histories of well-typed inputs, complete, partial or absent", "why_tests_cant": "The emitted code is put together from macros that nest, bind names and evaluate operands in an order of their own; that this agrees with the program for every nesting, every choice of names and every history is not a matter of examples.", "anchors": ["chandeliers-san/src/codegen/mod.rs: ToTokens of expressions, statements, nodes, wrappers of exported and extern nodes", "chandeliers-sem/src/candle.rs: macros", "chandeliers-san/src/codegen/mod.rs: names of emitted items"]}
{"id": "C65", "title": "A program can be split over several invocations of the macro", "statement": "Declarations can be moved to another invocation of the macro, where they are exported, and replaced by `extern` declarations with the same name and type. For every accepted program and every part of it that has all that it needs, the part alone and the program with `extern` declarations in the place of the part are both accepted; when rustc accepts the whole it accepts both, the constants have the same values, and every node gives on every history of inputs the same outputs, or the same panic, as in the whole program. Conversely a program and another one that uses it through `extern` declarations can be put in a single invocation: it is accepted, and everything does what it did.", "quantifier": "all accepted programs, all closed parts of them, all external items with any state, all arithmetic, all histories of inputs", "why_tests_cant": "The wrappers of exported and of external nodes test the clock again and count steps of their own, and the order, the registers and the types are computed separately in each invocation; that nothing changes must hold for every program, every way to split it and every history.", "anchors": ["chandeliers-san/src/codegen/mod.rs: wrappers of exported nodes and of extern nodes, extern constants", "chandeliers-san/src/typecheck.rs: signatures of extern nodes", "chandeliers-san/src/causality/mod.rs", "chandeliers-syn/src/translate/mod.rs: extern declarations"]}
{"id": "C66", "title": "From the text to the emitted code", "statement": "Whatever tokens are given to the macro, it reports a syntax error exactly when they do not read as a program; otherwise there is one reading, and unless this reading has one of the listed flaws on which the macro itself panics (literals that denote no value, numbers too large for a machine word, type variables of called nodes that are repeated, undeclared or unused) the macro reports an error when the program is not legal and emits code when it is. The emitted code is refused by rustc only for an arithmetic error in a constant; otherwise every constant is a `const` item with the value of its definition, and every node, with #[universal_pre] or not, is a struct that on every history of inputs of its type returns exactly the outputs that its equations define, which are of its type, and panics only for a reason that the equations show.", "quantifier": "all token streams; all accepted programs, mixing nodes with and without #[universal_pre]; all external items of the declared types, with any state; all arithmetic; all invocation numbers; all histories of well-typed inputs", "why_tests_cant": "It is about all inputs of the compiler and all executions of all that it emits.", "anchors": ["src/lib.rs: decl", "chandeliers-syn/src/ast.rs", "chandeliers-syn/src/translate/mod.rs", "chandeliers-san/src: causality, typecheck, clockcheck, positivity, codegen", "chandeliers-sem/src/candle.rs"]}
{"id": "C67", "title": "Laws of the language", "statement": "Expressions can be rewritten with algebraic laws, anywhere in an accepted program and any number of times, without any effect on acceptance, constants, outputs or panics: parentheses and chains of one element are transparent, chains of left associative operators and of `fby` can be regrouped; without #[universal_pre], `pre` distributes over operators, comparisons, conditionals and tuples and leaves literals and constants as they are, `a -> pre b` can be replaced by `a fby b`, `e -> e` by `e`, and `->` and `fby` between tuples by tuples of `->` and `fby`; with #[universal_pre], `a -> b -> c` is `a -> (b -> c)`. The laws that need the other semantics, and the distribution of `->` over partial operators, are not laws: there are programs that tell the two sides apart.", "quantifier": "all accepted programs, all places and sequences of rewriting steps, all external items of the declared types, all arithmetic, all histories of inputs", "why_tests_cant": "A refactoring is safe only if both sides agree for all subexpressions, in all contexts, at all instants, including the instants before the first one where operands are evaluated early, and on all panics.", "anchors": ["chandeliers-san/src/causality/mod.rs", "chandeliers-san/src/typecheck.rs", "chandeliers-san/src/clockcheck.rs", "chandeliers-san/src/positivity.rs", "chandeliers-sem/src/candle.rs: macros", "chandeliers-syn/src/translate/mod.rs"]}
{"id": "C68", "title": "Names of nodes and constants do not matter", "statement": "The nodes and the constants of a program, those declared `extern` included, can be given other names, one to one, and so can the variables of its nodes, as long as inside a node different things keep different names. The program with other names is accepted exactly when the original is; rustc refuses both or neither, for the same reason; otherwise, under their other names, constants have the same values and nodes give the same outputs on every history of inputs, or both panic. If a constant gets the name of a variable of a node that uses it, this does not hold.", "quantifier": "all programs, all bijections between names of nodes and between names of constants, all renamings of variables that are one to one on what each node mentions, all external items, all histories of inputs", "why_tests_cant": "Names reach tables, graphs of dependencies, shadowing rules and emitted identifiers; a test tries a few names, and says nothing about the next ones.", "anchors": ["chandeliers-syn/src/translate/mod.rs: Src translation, shadow_glob, blocks", "chandeliers-san/src/causality/depends.rs: Provide, Require", "chandeliers-san/src/typecheck.rs: TyCtx, extfun, extvar", "chandeliers-san/src/codegen/mod.rs: constants, nodes and calls"]}
{"id": "C69", "title": "Rust reads in the emitted text what the compiler meant", "statement": "The tokens that the compiler emits for the value of a constant, and for the method that steps a node, an external node or an exported node, are read by Rust in exactly one way, as the expressions and statements that the compiler meant: no operator takes the operand of another one, an `if` inside of an expression ends where it should, no generated name is a keyword, arguments of macros are separated where they should. So the constants have the values of the source, and the runs of the emitted text are the solutions of the equations of the source. The compiler panics while writing the text exactly when a literal has no Rust text or the clock or type of a register is unknown, and never for an accepted program.", "quantifier": "all accepted programs, all their constants and nodes, all nestings of expressions, all external items, all histories of inputs, all numbers of invocation", "why_tests_cant": "The way a token is read depends on everything around it; there are infinitely many nestings, and a missing parenthesis only shows where priorities disagree.", "anchors": ["chandeliers-san/src/codegen/constexpr.rs: const_expr_tokens", "chandeliers-san/src/codegen/mod.rs: ToTokens for Expr, Statement, VarTuple, Node", "chandeliers-sem/src/candle.rs: macros"]}
{"id": "C70", "title": "The programs that come with the project do what is said of them", "statement": "From their tokens to the emitted text: `count` returns 0, 1, 2... and `fib` the Fibonacci sequence, as long as 64 bits are enough, and panic there when overflow checks are on; `counting_twice` counts like the `count` that it calls and `counting_late` two instants later; `sum` and `randsum` return the sum of all that was received; the assertion of `foo` fails after exactly ten instants; the assertion on the generic delay never fails; all the arms of `a() -> b() -> c()` run from the first instant on, and the comparison with seven literals fails at the eighth instant; `0 -> pre x` is the same with and without `#[universal_pre]`, and the node that compares both never panics; both adders of the example add three bits, the node that compares them always returns true, and the node that feeds it never panics; the unreliable counter of the other example counts the random numbers that are at most 0.9, and the node that compares it with the reliable one panics at its first instant if the first number is, and never otherwise. What one invocation of the macro exports does the same when another one uses it: `counting_twice` on the `count` of the invocation before, and both counters of the example. The functions `main` end accordingly: those of the adder, of the delay, of `then_assoc` and of `univpre` return, that of `foo` panics, and that of the example panics if the first random number is at most 0.9 and returns otherwise. The program `fizzbuzz`, with the `#[trace]` of its nodes, writes on the standard output, line after line, what is said instead of 1, 2, 3... in the game of Fizz buzz, and `zero_then_one` writes 0, then 1 forever; the node of the module `format`, whose `#[trace]` has no argument, writes its three inputs on a line and its three outputs on another, and `addition_correct` writes the number of the instant before and after its assertion. Two swaps by the generic node `swap` give the values back; the exported node `test` with `#[trait]` returns the sum of all that it has received; the assertion `1 + 1 = 2` never fails and its `#[test]` passes; and `true fby false fby false fby b`, with `#[universal_pre]`, is true at every third instant, forever. Constants that are declared before those they use, and that use constants of Rust, have the expected values; the exported node `add` returns the sum of its inputs; and with the library, the assertion that `float_of_int(5)` is greater than 0.0 never fails, and the opposite one fails at once.", "quantifier": "all instants up to the overflow of 64-bit integers (all instants for the adders), all histories of inputs, all answers of the random nodes written in Rust, both settings of overflow checks, all numbers of invocation", "why_tests_cant": "The tests of the project run these programs for a few instants, on a few random numbers; the claims are about all instants and all inputs.", "anchors": ["src/lib.rs: count, fib, counting_twice, counting_late, sum, randsum, foo, then_assoc, ipre, univpre, fizzbuzz, zero_then_one, generic, by_trait, addition_correct, chained_fbys, format, add, test, failing, constants A to E", "examples/fulladder/src/main.rs", "examples/features/src/main.rs"]}
