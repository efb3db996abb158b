import Verif.Syn.Parse

/-!
# Programs that come with the project

The tokens of some of the programs in `src/lib.rs` and `examples/`, as rustc gives them to the macro.
-/

set_option autoImplicit false

namespace Chandeliers.Spec.Samples
open San Syn

/-- src/lib.rs 240-246 -/
def countText : List Tok :=
  [.punct '#' false, .group .bracket [.ident "pub"], .ident "node", .ident "count",
   .group .paren [], .ident "returns", .group .paren [.ident "x", .punct ':' false, .ident "int"],
   .punct ';' false, .ident "let", .ident "x", .punct '=' false, .lit (.int 0), .punct '-' true,
   .punct '>' false, .ident "pre", .ident "x", .punct '+' false, .lit (.int 1), .punct ';' false,
   .ident "tel", .punct ';' false]

/-- src/lib.rs 248-261 -/
def fibText : List Tok :=
  [.punct '#' false, .group .bracket [.ident "doc",
   .group .paren [.lit (.str "Value of the Fibonacci sequence at index 0")]], .punct '#' false,
   .group .bracket [.ident "pub"], .ident "const", .ident "FIB0", .punct ':' false, .ident "int",
   .punct '=' false, .lit (.int 0), .punct ';' false, .punct '#' false,
   .group .bracket [.ident "doc",
   .group .paren [.lit (.str "Value of the Fibonacci sequence at index 1")]], .punct '#' false,
   .group .bracket [.ident "pub"], .ident "const", .ident "FIB1", .punct ':' false, .ident "int",
   .punct '=' false, .lit (.int 1), .punct ';' false, .punct '#' false,
   .group .bracket [.ident "pub"], .ident "node", .ident "fib", .group .paren [], .ident "returns",
   .group .paren [.ident "x", .punct ':' false, .ident "int"], .punct ';' false, .ident "let",
   .ident "x", .punct '=' false, .ident "FIB0", .punct '-' true, .punct '>' false, .ident "FIB1",
   .punct '-' true, .punct '>' false, .ident "pre", .ident "x", .punct '+' false, .ident "pre",
   .ident "pre", .ident "x", .punct ';' false, .ident "tel", .punct ';' false]

/-- src/lib.rs 263-279 -/
def countingText : List Tok :=
  [.ident "extern", .ident "node", .ident "count", .group .paren [], .ident "returns",
   .group .paren [.ident "out", .punct ':' false, .ident "int"], .punct ';' false,
   .punct '#' false, .group .bracket [.ident "pub"], .ident "node", .ident "counting_twice",
   .group .paren [], .ident "returns", .group .paren [.ident "out", .punct ':' false,
   .ident "int"], .punct ';' false, .ident "var", .ident "b", .punct ':' false, .ident "bool",
   .punct ';' false, .ident "let", .ident "b", .punct '=' false, .ident "true", .ident "fby",
   .group .paren [.ident "not", .ident "b"], .punct ';' false, .ident "out", .punct '=' false,
   .ident "if", .ident "true", .ident "then", .ident "count", .group .paren [], .ident "else",
   .ident "count", .group .paren [], .punct ';' false, .ident "tel", .punct ';' false,
   .punct '#' false, .group .bracket [.ident "pub"], .ident "node", .ident "counting_late",
   .group .paren [], .ident "returns", .group .paren [.ident "out", .punct ':' false,
   .ident "int"], .punct ';' false, .ident "let", .ident "out", .punct '=' false, .lit (.int 0),
   .ident "fby", .lit (.int 0), .ident "fby", .ident "count", .group .paren [], .punct ';' false,
   .ident "tel", .punct ';' false]

/-- src/lib.rs 331-346 -/
def sumsText : List Tok :=
  [.ident "extern", .ident "node", .ident "RandomInt", .group .paren [], .ident "returns",
   .group .paren [.ident "r", .punct ':' false, .ident "int"], .punct ';' false, .ident "node",
   .ident "sum", .group .paren [.ident "inc", .punct ':' false, .ident "int"], .ident "returns",
   .group .paren [.ident "s", .punct ':' false, .ident "int"], .punct ';' false, .ident "let",
   .ident "s", .punct '=' false, .ident "inc", .punct '+' false, .group .paren [.lit (.int 0),
   .ident "fby", .ident "s"], .punct ';' false, .ident "tel", .punct ';' false, .punct '#' false,
   .group .bracket [.ident "pub"], .punct '#' false, .group .bracket [.ident "rustc_allow",
   .group .bracket [.ident "dead_code"]], .ident "node", .ident "randsum", .group .paren [],
   .ident "returns", .group .paren [.ident "r", .punct ',' false, .ident "s", .punct ':' false,
   .ident "int"], .punct ';' false, .ident "let", .ident "r", .punct '=' false, .ident "RandomInt",
   .group .paren [], .punct ';' false, .ident "s", .punct '=' false, .ident "sum",
   .group .paren [.ident "r"], .punct ';' false, .ident "tel", .punct ';' false]

/-- src/lib.rs 390-398 -/
def tenText : List Tok :=
  [.punct '#' false, .group .bracket [.ident "main"], .ident "node", .ident "foo",
   .group .paren [], .ident "returns", .group .paren [], .punct ';' false, .ident "var",
   .ident "n", .punct ':' false, .ident "int", .punct ';' false, .ident "let", .ident "n",
   .punct '=' false, .lit (.int 0), .ident "fby", .ident "n", .punct '+' false, .lit (.int 1),
   .punct ';' false, .ident "assert", .ident "n", .punct '<' false, .lit (.int 10),
   .punct ';' false, .ident "tel", .punct ';' false]

/-- src/lib.rs 435-474 -/
def assocText : List Tok :=
  [.ident "node", .ident "count", .group .paren [], .ident "returns", .group .paren [.ident "n",
   .punct ':' false, .ident "int"], .punct ';' false, .ident "let", .ident "n", .punct '=' false,
   .lit (.int 0), .ident "fby", .ident "n", .punct '+' false, .lit (.int 1), .punct ';' false,
   .ident "tel", .punct ';' false, .ident "node", .ident "a", .group .paren [], .ident "returns",
   .group .paren [.ident "i", .punct ',' false, .ident "j", .punct ':' false, .ident "int"],
   .punct ';' false, .ident "let", .ident "i", .punct '=' false, .lit (.int 0), .punct ';' false,
   .ident "j", .punct '=' false, .ident "count", .group .paren [], .punct ';' false, .ident "tel",
   .punct ';' false, .ident "node", .ident "b", .group .paren [], .ident "returns",
   .group .paren [.ident "i", .punct ',' false, .ident "j", .punct ':' false, .ident "int"],
   .punct ';' false, .ident "let", .ident "i", .punct '=' false, .lit (.int 1), .punct ';' false,
   .ident "j", .punct '=' false, .ident "count", .group .paren [], .punct ';' false, .ident "tel",
   .punct ';' false, .ident "node", .ident "c", .group .paren [], .ident "returns",
   .group .paren [.ident "i", .punct ',' false, .ident "j", .punct ':' false, .ident "int"],
   .punct ';' false, .ident "let", .ident "i", .punct '=' false, .lit (.int 2), .punct ';' false,
   .ident "j", .punct '=' false, .ident "count", .group .paren [], .punct ';' false, .ident "tel",
   .punct ';' false, .punct '#' false, .group .bracket [.ident "trace"], .ident "node",
   .ident "testing", .group .paren [], .ident "returns", .group .paren [.ident "i",
   .punct ',' false, .ident "j", .punct ':' false, .ident "int"], .punct ';' false, .ident "let",
   .group .paren [.ident "i", .punct ',' false, .ident "j"], .punct '=' false, .ident "a",
   .group .paren [], .punct '-' true, .punct '>' false, .ident "b", .group .paren [],
   .punct '-' true, .punct '>' false, .ident "c", .group .paren [], .punct ';' false, .ident "tel",
   .punct ';' false, .ident "node", .ident "witness", .group .paren [], .ident "returns",
   .group .paren [.ident "i", .punct ',' false, .ident "j", .punct ':' false, .ident "int"],
   .punct ';' false, .ident "let", .group .paren [.ident "i", .punct ',' false, .ident "j"],
   .punct '=' false, .group .paren [.lit (.int 0), .punct ',' false, .lit (.int 0)],
   .punct '-' true, .punct '>' false, .group .paren [.lit (.int 1), .punct ',' false,
   .lit (.int 1)], .punct '-' true, .punct '>' false, .group .paren [.lit (.int 2),
   .punct ',' false, .lit (.int 2)], .punct '-' true, .punct '>' false,
   .group .paren [.lit (.int 2), .punct ',' false, .lit (.int 3)], .punct '-' true,
   .punct '>' false, .group .paren [.lit (.int 2), .punct ',' false, .lit (.int 4)],
   .punct '-' true, .punct '>' false, .group .paren [.lit (.int 2), .punct ',' false,
   .lit (.int 5)], .punct '-' true, .punct '>' false, .group .paren [.lit (.int 2),
   .punct ',' false, .lit (.int 6)], .punct ';' false, .ident "tel", .punct ';' false,
   .punct '#' false, .group .bracket [.ident "main", .group .paren [.lit (.int 2)]],
   .punct '#' false, .group .bracket [.ident "rustc_allow", .group .bracket [.ident "dead_code"]],
   .ident "node", .ident "system", .group .paren [], .ident "returns", .group .paren [],
   .punct ';' false, .ident "var", .ident "ti", .punct ',' false, .ident "tj", .punct ',' false,
   .ident "wi", .punct ',' false, .ident "wj", .punct ':' false, .ident "int", .punct ';' false,
   .ident "let", .group .paren [.ident "ti", .punct ',' false, .ident "tj"], .punct '=' false,
   .ident "testing", .group .paren [], .punct ';' false, .group .paren [.ident "wi",
   .punct ',' false, .ident "wj"], .punct '=' false, .ident "witness", .group .paren [],
   .punct ';' false, .ident "assert", .ident "ti", .punct '=' false, .ident "wi", .punct ';' false,
   .ident "assert", .ident "tj", .punct '=' false, .ident "wj", .punct ';' false, .ident "tel",
   .punct ';' false]

/-- src/lib.rs 588-600 -/
def delayText : List Tok :=
  [.punct '#' false, .group .bracket [.ident "generic", .group .bracket [.ident "T"]],
   .ident "node", .ident "ipre", .group .paren [.ident "t", .punct ',' false, .ident "i",
   .punct ':' false, .ident "T"], .ident "returns", .group .paren [.ident "o", .punct ':' false,
   .ident "T"], .punct ';' false, .ident "let", .ident "o", .punct '=' false, .ident "i",
   .punct '-' true, .punct '>' false, .ident "pre", .ident "t", .punct ';' false, .ident "tel",
   .punct ';' false, .punct '#' false, .group .bracket [.ident "main"], .ident "node",
   .ident "main", .group .paren [], .ident "returns", .group .paren [], .punct ';' false,
   .ident "var", .ident "n", .punct ':' false, .ident "int", .punct ';' false, .ident "let",
   .ident "n", .punct '=' false, .lit (.int 0), .ident "fby", .ident "n", .punct '+' false,
   .lit (.int 1), .punct ';' false, .ident "assert", .ident "ipre", .group .paren [.ident "n",
   .punct ',' false, .punct '-' false, .lit (.int 1)], .punct '=' false,
   .group .paren [.punct '-' false, .lit (.int 1), .ident "fby", .ident "n"], .punct ';' false,
   .ident "tel", .punct ';' false]

/-- src/lib.rs 634-650 -/
def prevText : List Tok :=
  [.punct '#' false, .group .bracket [.ident "universal_pre"], .ident "node",
   .ident "prev_testing", .group .paren [.ident "x", .punct ':' false, .ident "int"],
   .ident "returns", .group .paren [.ident "y", .punct ':' false, .ident "int"], .punct ';' false,
   .ident "let", .ident "y", .punct '=' false, .lit (.int 0), .punct '-' true, .punct '>' false,
   .ident "pre", .ident "x", .punct ';' false, .ident "tel", .punct ';' false, .ident "node",
   .ident "prev_witness", .group .paren [.ident "x", .punct ':' false, .ident "int"],
   .ident "returns", .group .paren [.ident "y", .punct ':' false, .ident "int"], .punct ';' false,
   .ident "let", .ident "y", .punct '=' false, .lit (.int 0), .punct '-' true, .punct '>' false,
   .ident "pre", .ident "x", .punct ';' false, .ident "tel", .punct ';' false, .punct '#' false,
   .group .bracket [.ident "main"], .ident "node", .ident "main_prev", .group .paren [],
   .ident "returns", .group .paren [], .punct ';' false, .ident "var", .ident "n",
   .punct ':' false, .ident "int", .punct ';' false, .ident "let", .ident "n", .punct '=' false,
   .lit (.int 0), .punct '-' true, .punct '>' false, .lit (.int 5), .punct '-' true,
   .punct '>' false, .lit (.int 4), .punct '-' true, .punct '>' false, .lit (.int 3),
   .punct '-' true, .punct '>' false, .group .paren [.ident "pre", .ident "n", .punct '+' false,
   .ident "pre", .ident "pre", .ident "n", .punct '*' false, .ident "pre", .ident "pre",
   .ident "pre", .ident "n"], .punct '%' false, .lit (.int 100), .punct ';' false, .ident "assert",
   .ident "prev_testing", .group .paren [.ident "n"], .punct '=' false, .ident "prev_witness",
   .group .paren [.ident "n"], .punct ';' false, .ident "tel", .punct ';' false]

/-- examples/fulladder/src/main.rs 7-59 -/
def adderText : List Tok :=
  [.ident "node", .ident "full_add", .group .paren [.ident "a", .punct ',' false, .ident "b",
   .punct ',' false, .ident "c", .punct ':' false, .ident "bool"], .ident "returns",
   .group .paren [.ident "s", .punct ',' false, .ident "co", .punct ':' false, .ident "bool"],
   .punct ';' false, .ident "let", .ident "s", .punct '=' false, .group .paren [.ident "a",
   .punct '<' true, .punct '>' false, .ident "b"], .punct '<' true, .punct '>' false, .ident "c",
   .punct ';' false, .ident "co", .punct '=' false, .group .paren [.ident "a", .ident "and",
   .ident "b"], .ident "or", .group .paren [.ident "a", .ident "and", .ident "c"], .ident "or",
   .group .paren [.ident "b", .ident "and", .ident "c"], .punct ';' false, .ident "tel",
   .punct ';' false, .ident "node", .ident "half_add", .group .paren [.ident "a", .punct ',' false,
   .ident "b", .punct ':' false, .ident "bool"], .ident "returns", .group .paren [.ident "s",
   .punct ',' false, .ident "co", .punct ':' false, .ident "bool"], .punct ';' false, .ident "let",
   .ident "s", .punct '=' false, .group .paren [.ident "a", .punct '<' true, .punct '>' false,
   .ident "b"], .punct ';' false, .ident "co", .punct '=' false, .group .paren [.ident "a",
   .ident "and", .ident "b"], .punct ';' false, .ident "tel", .punct ';' false, .ident "node",
   .ident "full_add_h", .group .paren [.ident "a", .punct ',' false, .ident "b", .punct ',' false,
   .ident "c", .punct ':' false, .ident "bool"], .ident "returns", .group .paren [.ident "s",
   .punct ',' false, .ident "co", .punct ':' false, .ident "bool"], .punct ';' false, .ident "var",
   .ident "s1", .punct ',' false, .ident "c1", .punct ',' false, .ident "c2", .punct ':' false,
   .ident "bool", .punct ';' false, .ident "let", .group .paren [.ident "s1", .punct ',' false,
   .ident "c1"], .punct '=' false, .ident "half_add", .group .paren [.ident "a", .punct ',' false,
   .ident "b"], .punct ';' false, .group .paren [.ident "s", .punct ',' false, .ident "c2"],
   .punct '=' false, .ident "half_add", .group .paren [.ident "c", .punct ',' false, .ident "s1"],
   .punct ';' false, .ident "co", .punct '=' false, .group .paren [.ident "c1", .ident "or",
   .ident "c2"], .punct ';' false, .ident "tel", .punct ';' false, .ident "node",
   .ident "equivalence", .group .paren [.ident "a", .punct ',' false, .ident "b", .punct ',' false,
   .ident "c", .punct ':' false, .ident "bool"], .ident "returns", .group .paren [.ident "ok",
   .punct ':' false, .ident "bool"], .punct ';' false, .ident "var", .ident "s1", .punct ',' false,
   .ident "co1", .punct ',' false, .ident "s2", .punct ',' false, .ident "co2", .punct ':' false,
   .ident "bool", .punct ';' false, .ident "let", .group .paren [.ident "s1", .punct ',' false,
   .ident "co1"], .punct '=' false, .ident "full_add", .group .paren [.ident "a", .punct ',' false,
   .ident "b", .punct ',' false, .ident "c"], .punct ';' false, .group .paren [.ident "s2",
   .punct ',' false, .ident "co2"], .punct '=' false, .ident "full_add_h",
   .group .paren [.ident "a", .punct ',' false, .ident "b", .punct ',' false, .ident "c"],
   .punct ';' false, .ident "ok", .punct '=' false, .group .paren [.ident "s1", .punct '=' false,
   .ident "s2"], .ident "and", .group .paren [.ident "co1", .punct '=' false, .ident "co2"],
   .punct ';' false, .ident "tel", .punct ';' false, .ident "extern", .ident "node",
   .ident "random_bool", .group .paren [], .ident "returns", .group .paren [.ident "b",
   .punct ':' false, .ident "bool"], .punct ';' false, .punct '#' false,
   .group .bracket [.ident "main", .group .paren [.lit (.int 100)]], .ident "node",
   .ident "system", .group .paren [], .ident "returns", .group .paren [], .punct ';' false,
   .ident "var", .ident "a", .punct ',' false, .ident "b", .punct ',' false, .ident "c",
   .punct ',' false, .ident "ok", .punct ':' false, .ident "bool", .punct ';' false,
   .ident "enumerate", .punct ':' false, .ident "int", .punct ';' false, .ident "let",
   .ident "enumerate", .punct '=' false, .lit (.int 0), .ident "fby", .ident "enumerate",
   .punct '+' false, .lit (.int 1), .punct ';' false, .ident "a", .punct '=' false,
   .ident "random_bool", .group .paren [], .punct ';' false, .ident "b", .punct '=' false,
   .ident "random_bool", .group .paren [], .punct ';' false, .ident "c", .punct '=' false,
   .ident "random_bool", .group .paren [], .punct ';' false, .ident "ok", .punct '=' false,
   .ident "equivalence", .group .paren [.ident "a", .punct ',' false, .ident "b", .punct ',' false,
   .ident "c"], .punct ';' false, .ident "assert", .ident "ok", .punct ';' false, .ident "tel",
   .punct ';' false]

/-- examples/features/src/main.rs 3-37 -/
def countersText : List Tok :=
  [.punct '#' false, .group .bracket [.ident "trace", .group .bracket [.ident "stderr"]],
   .ident "extern", .ident "node", .ident "random_float", .group .paren [], .ident "returns",
   .group .paren [.ident "f", .punct ':' false, .ident "float"], .punct ';' false,
   .punct '#' false, .group .bracket [.ident "export"], .punct '#' false,
   .group .bracket [.ident "rustc_allow", .group .bracket [.ident "dead_code"]], .punct '#' false,
   .group .bracket [.ident "doc",
   .group .paren [.lit (.str "Probability that this entire test will fail on the first execution.")]],
   .ident "const", .ident "PROBA_FAIL", .punct ':' false, .ident "float", .punct '=' false,
   .lit (.float (some ⟨4606281698874543309⟩)), .punct ';' false, .punct '#' false,
   .group .bracket [.ident "rustc_allow", .group .bracket [.ident "unused_variables"]],
   .punct '#' false, .group .bracket [.ident "doc",
   .group .paren [.lit (.str "Return `true` with probability `PROBA_SUCCESS`.")]],
   .punct '#' false, .group .bracket [.ident "doc",
   .group .paren [.lit (.str "Note: the input is ignored")]], .ident "node",
   .ident "ignore_input_and_pick_random", .group .paren [.ident "i", .punct ':' false,
   .ident "int"], .ident "returns", .group .paren [.ident "b", .punct ':' false, .ident "bool"],
   .punct ';' false, .ident "let", .ident "b", .punct '=' false, .ident "random_float",
   .group .paren [], .punct '<' true, .punct '=' false, .ident "PROBA_FAIL", .punct ';' false,
   .ident "tel", .punct ';' false, .punct '#' false, .group .bracket [.ident "export"],
   .punct '#' false, .group .bracket [.ident "doc",
   .group .paren [.lit (.str "Increasing counter starting at 0 or 1 with a certain probability.")]],
   .punct '#' false, .group .bracket [.ident "doc",
   .group .paren [.lit (.str "Has a certain probability of returning the same value twice in a row.")]],
   .ident "node", .ident "unreliable_counter", .group .paren [], .ident "returns",
   .group .paren [.ident "n", .punct ':' false, .ident "int"], .punct ';' false, .ident "let",
   .ident "n", .punct '=' false, .group .paren [.ident "if", .ident "ignore_input_and_pick_random",
   .group .paren [.lit (.int 42)], .ident "then", .lit (.int 1), .ident "else", .lit (.int 0)],
   .punct '+' false, .group .paren [.lit (.int 0), .ident "fby", .ident "n"], .punct ';' false,
   .ident "tel", .punct ';' false, .punct '#' false, .group .bracket [.ident "export"],
   .punct '#' false, .group .bracket [.ident "trait"], .punct '#' false,
   .group .bracket [.ident "trace"], .punct '#' false, .group .bracket [.ident "doc",
   .group .paren [.lit (.str "Strictly increasing counter starting at 0.")]], .ident "node",
   .ident "reliable_counter", .group .paren [], .ident "returns", .group .paren [.ident "n",
   .punct ':' false, .ident "int"], .punct ';' false, .ident "let", .ident "n", .punct '=' false,
   .lit (.int 0), .ident "fby", .ident "n", .punct '+' false, .lit (.int 1), .punct ';' false,
   .ident "tel", .punct ';' false]

/-- examples/features/src/main.rs 39-60 -/
def raceText : List Tok :=
  [.punct '#' false, .group .bracket [.ident "trace"], .ident "extern", .ident "node",
   .ident "unreliable_counter", .group .paren [], .ident "returns", .group .paren [.ident "n",
   .punct ':' false, .ident "int"], .punct ';' false, .ident "extern", .ident "node",
   .ident "reliable_counter", .group .paren [], .ident "returns", .group .paren [.ident "n",
   .punct ':' false, .ident "int"], .punct ';' false, .punct '#' false,
   .group .bracket [.ident "main", .group .paren [.lit (.int 15)]], .punct '#' false,
   .group .bracket [.ident "pub"], .punct '#' false, .group .bracket [.ident "doc",
   .group .paren [.lit (.str "Verify that the strictly increasing counter is at least as big")]],
   .punct '#' false, .group .bracket [.ident "doc",
   .group .paren [.lit (.str "as the increasing counter. There is currently a bug on purpose")]],
   .punct '#' false, .group .bracket [.ident "doc",
   .group .paren [.lit (.str "in the implementation because there is a certain probability that")]],
   .punct '#' false, .group .bracket [.ident "doc",
   .group .paren [.lit (.str "the unreliable counter starts at 1.")]], .punct '#' false,
   .group .bracket [.ident "doc",
   .group .paren [.lit (.str "This results in a `PROBA_SUCCESS` probability of this node failing")]],
   .punct '#' false, .group .bracket [.ident "doc",
   .group .paren [.lit (.str "its execution after one step, and a `1 - PROBA_SUCCESS` probability")]],
   .punct '#' false, .group .bracket [.ident "doc",
   .group .paren [.lit (.str "of it running forever.")]], .ident "node", .ident "system",
   .group .paren [], .ident "returns", .group .paren [], .punct ';' false, .ident "var",
   .ident "c1", .punct ',' false, .ident "c2", .punct ':' false, .ident "int", .punct ';' false,
   .ident "let", .ident "c1", .punct '=' false, .ident "unreliable_counter", .group .paren [],
   .punct ';' false, .ident "c2", .punct '=' false, .ident "reliable_counter", .group .paren [],
   .punct ';' false, .ident "assert", .ident "c1", .punct '<' true, .punct '=' false, .ident "c2",
   .punct ';' false, .ident "tel", .punct ';' false]

/-- The program of src/lib.rs 530-558, in the module `fizzbuzz`. -/
def fizzbuzzText : List Tok :=
  [.punct '#' false, .group .bracket [.ident "trace", .group .paren [.lit (.str "Fizz")]],
   .ident "node", .ident "fizz", .group .paren [], .ident "returns", .group .paren [],
   .punct ';' false, .ident "let", .ident "tel", .punct ';' false, .punct '#' false,
   .group .bracket [.ident "trace", .group .paren [.lit (.str "Buzz")]], .ident "node",
   .ident "buzz", .group .paren [], .ident "returns", .group .paren [], .punct ';' false,
   .ident "let", .ident "tel", .punct ';' false, .punct '#' false, .group .bracket [.ident "trace",
   .group .paren [.lit (.str "{n}")]], .ident "node", .ident "id", .group .paren [.ident "n",
   .punct ':' false, .ident "int"], .ident "returns", .group .paren [], .punct ';' false,
   .ident "let", .ident "tel", .punct ';' false, .punct '#' false, .group .bracket [.ident "trace",
   .group .paren [.lit (.str "\n")]], .ident "node", .ident "newline", .group .paren [],
   .ident "returns", .group .paren [], .punct ';' false, .ident "let", .ident "tel",
   .punct ';' false, .punct '#' false, .group .bracket [.ident "main",
   .group .paren [.lit (.int 30)]], .ident "node", .ident "main", .group .paren [],
   .ident "returns", .group .paren [], .punct ';' false, .ident "var", .ident "n", .punct ':' false,
   .ident "int", .punct ';' false, .ident "div_3", .punct ',' false, .ident "div_5",
   .punct ',' false, .ident "div_either", .punct ':' false, .ident "bool", .punct ';' false,
   .ident "let", .ident "n", .punct '=' false, .lit (.int 1), .ident "fby", .ident "n",
   .punct '+' false, .lit (.int 1), .punct ';' false, .ident "div_3", .punct '=' false,
   .group .paren [.ident "n", .punct '%' false, .lit (.int 3)], .punct '=' false, .lit (.int 0),
   .punct ';' false, .ident "div_5", .punct '=' false, .group .paren [.ident "n", .punct '%' false,
   .lit (.int 5)], .punct '=' false, .lit (.int 0), .punct ';' false, .ident "div_either",
   .punct '=' false, .ident "div_3", .ident "or", .ident "div_5", .punct ';' false,
   .group .paren [], .punct '=' false, .ident "fizz", .group .paren [.group .paren [],
   .ident "when", .ident "div_3"], .punct ';' false, .group .paren [], .punct '=' false,
   .ident "buzz", .group .paren [.group .paren [], .ident "when", .ident "div_5"], .punct ';' false,
   .group .paren [], .punct '=' false, .ident "id", .group .paren [.ident "n", .ident "whenot",
   .ident "div_either"], .punct ';' false, .group .paren [], .punct '=' false, .ident "newline",
   .group .paren [], .punct ';' false, .ident "tel", .punct ';' false]

/-- The program of src/lib.rs 623-631. -/
def zeroOneText : List Tok :=
  [.punct '#' false, .group .bracket [.ident "main", .group .paren [.lit (.int 100)]],
   .punct '#' false, .group .bracket [.ident "trace", .group .paren [.lit (.str "{i}")]],
   .ident "node", .ident "zero_then_one", .group .paren [], .ident "returns", .group .paren [],
   .punct ';' false, .ident "var", .ident "i", .punct ':' false, .ident "int", .punct ';' false,
   .ident "let", .ident "i", .punct '=' false, .lit (.int 0), .punct '-' true, .punct '>' false,
   .lit (.int 1), .punct ';' false, .ident "tel", .punct ';' false]

/-- The program of src/lib.rs 573-583, in the module `generic`. -/
def swapText : List Tok :=
  [.punct '#' false, .group .bracket [.ident "generic", .group .bracket [.ident "T",
   .punct ',' false, .ident "U"]], .ident "node", .ident "swap", .group .paren [.ident "t0",
   .punct ':' false, .ident "T", .punct ';' false, .ident "u0", .punct ':' false, .ident "U"],
   .ident "returns", .group .paren [.ident "u1", .punct ':' false, .ident "U", .punct ';' false,
   .ident "t1", .punct ':' false, .ident "T"], .punct ';' false, .ident "let", .ident "t1",
   .punct '=' false, .ident "t0", .punct ';' false, .ident "u1", .punct '=' false, .ident "u0",
   .punct ';' false, .ident "tel", .punct ';' false, .punct '#' false,
   .group .bracket [.ident "main"], .ident "node", .ident "main", .group .paren [],
   .ident "returns", .group .paren [], .punct ';' false, .ident "var", .ident "x", .punct ':' false,
   .ident "int", .punct ';' false, .ident "y", .punct ':' false, .ident "float", .punct ';' false,
   .ident "let", .group .paren [.ident "x", .punct ',' false, .ident "y"], .punct '=' false,
   .ident "swap", .group .paren [.ident "swap", .group .paren [.lit (.int 1), .punct ',' false,
   .lit (.float (some ⟨4602678819172646912⟩))]], .punct ';' false, .ident "tel", .punct ';' false]

/-- The program of src/lib.rs 512-515, in the module `by_trait`. -/
def traitText : List Tok :=
  [.punct '#' false, .group .bracket [.ident "trait"], .punct '#' false,
   .group .bracket [.ident "export"], .ident "node", .ident "test", .group .paren [.ident "i",
   .punct ':' false, .ident "int"], .ident "returns", .group .paren [.ident "o", .punct ':' false,
   .ident "int"], .punct ';' false, .ident "let", .ident "o", .punct '=' false, .ident "i",
   .punct '+' false, .group .paren [.lit (.int 0), .ident "fby", .ident "o"], .punct ';' false,
   .ident "tel", .punct ';' false]

/-- The program of src/lib.rs 563-568. -/
def addText : List Tok :=
  [.punct '#' false, .group .bracket [.ident "trace", .group .paren [.lit (.str "<- {_clk}"),
   .punct ',' false, .lit (.str "-> {_clk}")]], .punct '#' false, .group .bracket [.ident "test"],
   .ident "node", .ident "addition_correct", .group .paren [], .ident "returns", .group .paren [],
   .punct ';' false, .ident "let", .ident "assert", .lit (.int 1), .punct '+' false, .lit (.int 1),
   .punct '=' false, .lit (.int 2), .punct ';' false, .ident "tel"]

/-- The program of src/lib.rs 655-658, in the module `chained_fbys`. -/
def fbysText : List Tok :=
  [.punct '#' false, .group .bracket [.ident "universal_pre"], .punct '#' false,
   .group .bracket [.ident "trace", .group .paren [.lit (.str "testing {b}\n")]], .ident "node",
   .ident "testing", .group .paren [], .ident "returns", .group .paren [.ident "b",
   .punct ':' false, .ident "bool"], .punct ';' false, .ident "let", .ident "b", .punct '=' false,
   .ident "true", .ident "fby", .ident "false", .ident "fby", .ident "false", .ident "fby",
   .ident "b", .punct ';' false, .ident "tel", .punct ';' false]

/-- The program of src/lib.rs 521-524, in the module `format`. -/
def formatText : List Tok :=
  [.punct '#' false, .group .bracket [.ident "trace"], .punct '#' false,
   .group .bracket [.ident "clippy_allow", .group .bracket [.ident "many_single_char_names"]],
   .ident "node", .ident "foo", .group .paren [.ident "a", .punct ',' false, .ident "b",
   .punct ',' false, .ident "c", .punct ':' false, .ident "int"], .ident "returns",
   .group .paren [.ident "x", .punct ',' false, .ident "y", .punct ',' false, .ident "z",
   .punct ':' false, .ident "int"], .punct ';' false, .ident "let", .group .paren [.ident "x",
   .punct ',' false, .ident "y", .punct ',' false, .ident "z"], .punct '=' false,
   .group .paren [.ident "a", .punct ',' false, .ident "b", .punct ',' false, .ident "c"],
   .punct ';' false, .ident "tel", .punct ';' false]

/-- The program of src/lib.rs 55-66. -/
def constsText : List Tok :=
  [.punct '#' false, .group .bracket [.ident "rustc_allow", .group .bracket [.ident "dead_code"]],
   .ident "const", .ident "A", .punct ':' false, .ident "int", .punct '=' false, .ident "B",
   .punct '+' false, .ident "Z", .punct ';' false, .punct '#' false,
   .group .bracket [.ident "rustc_allow", .group .bracket [.ident "dead_code"]], .ident "const",
   .ident "B", .punct ':' false, .ident "int", .punct '=' false, .ident "Z", .punct ';' false,
   .punct '#' false, .group .bracket [.ident "rustc_allow", .group .bracket [.ident "dead_code"]],
   .ident "const", .ident "C", .punct ':' false, .ident "int", .punct '=' false, .ident "A",
   .punct ';' false, .ident "extern", .ident "const", .ident "W", .punct ':' false, .ident "int",
   .punct ';' false, .punct '#' false, .group .bracket [.ident "rustc_allow",
   .group .bracket [.ident "dead_code"]], .ident "const", .ident "D", .punct ':' false,
   .ident "int", .punct '=' false, .ident "C", .punct '+' false, .ident "E", .punct ';' false,
   .punct '#' false, .group .bracket [.ident "rustc_allow", .group .bracket [.ident "dead_code"]],
   .ident "const", .ident "E", .punct ':' false, .ident "int", .punct '=' false, .ident "W",
   .punct '+' false, .ident "Z", .punct ';' false, .ident "extern", .ident "const", .ident "Z",
   .punct ':' false, .ident "int", .punct ';' false]

/-- The program of src/lib.rs 146-151. -/
def sumText : List Tok :=
  [.punct '#' false, .group .bracket [.ident "export"], .punct '#' false,
   .group .bracket [.ident "rustc_allow", .group .bracket [.ident "dead_code"]], .ident "node",
   .ident "add", .group .paren [.ident "a", .punct ',' false, .ident "b", .punct ':' false,
   .ident "int"], .ident "returns", .group .paren [.ident "sum", .punct ':' false, .ident "int"],
   .punct ';' false, .ident "let", .ident "sum", .punct '=' false, .ident "a", .punct '+' false,
   .ident "b", .punct ';' false, .ident "tel"]

/-- The program of src/lib.rs 162-170. -/
def castText : List Tok :=
  [.ident "extern", .ident "node", .ident "float_of_int", .group .paren [.ident "i",
   .punct ':' false, .ident "int"], .ident "returns", .group .paren [.ident "f", .punct ':' false,
   .ident "float"], .punct ';' false, .punct '#' false, .group .bracket [.ident "pub"],
   .ident "node", .ident "test", .group .paren [], .ident "returns", .group .paren [],
   .punct ';' false, .ident "var", .ident "x", .punct ':' false, .ident "float", .punct ';' false,
   .ident "let", .ident "x", .punct '=' false, .ident "float_of_int", .group .paren [.lit (.int 5)],
   .punct ';' false, .ident "assert", .ident "x", .punct '>' false, .lit (.float (some ⟨0⟩)),
   .punct ';' false, .ident "tel"]

/-- The program of src/lib.rs 180-188. -/
def failingText : List Tok :=
  [.ident "extern", .ident "node", .ident "float_of_int", .group .paren [.ident "i",
   .punct ':' false, .ident "int"], .ident "returns", .group .paren [.ident "f", .punct ':' false,
   .ident "float"], .punct ';' false, .punct '#' false, .group .bracket [.ident "pub"],
   .ident "node", .ident "failing", .group .paren [], .ident "returns", .group .paren [],
   .punct ';' false, .ident "var", .ident "x", .punct ':' false, .ident "float", .punct ';' false,
   .ident "let", .ident "x", .punct '=' false, .ident "float_of_int", .group .paren [.lit (.int 5)],
   .punct ';' false, .ident "assert", .ident "x", .punct '<' true, .punct '=' false,
   .lit (.float (some ⟨0⟩)), .punct ';' false, .ident "tel"]

end Chandeliers.Spec.Samples
