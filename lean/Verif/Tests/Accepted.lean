import Verif.Tests.Kinds

/-!
# Tests that the macro must accept

Written by `tools/conformance.py`: do not edit.
-/

set_option autoImplicit false
set_option maxRecDepth 100000

namespace Chandeliers.Tests
open San Syn Err

/-- chandeliers-lus/tests/compile_fail/ui/options/pub.rs -/
example : accepted [
    [.punct '#' false, .group .bracket [.ident "export"], .ident "node", .ident "private",
     .group .paren [], .ident "returns", .group .paren [], .punct ';' false, .ident "let",
     .ident "tel", .punct ';' false, .punct '#' false, .group .bracket [.ident "export"],
     .ident "const", .ident "PRIVATE", .punct ':' false, .ident "int", .punct '=' false,
     .lit (.int 0), .punct ';' false, .punct '#' false, .group .bracket [.ident "pub"],
     .ident "node", .ident "public", .group .paren [], .ident "returns", .group .paren [],
     .punct ';' false, .ident "let", .ident "tel", .punct ';' false, .punct '#' false,
     .group .bracket [.ident "pub"], .ident "const", .ident "PUBLIC", .punct ':' false,
     .ident "int", .punct '=' false, .lit (.int 0), .punct ';' false]] = true := by
  decide +kernel

/-- chandeliers-lus/tests/compile_fail/ui/tc/extern/dupdef.rs -/
example : accepted [
    [.punct '#' false, .group .bracket [.ident "export"], .ident "const", .ident "X",
     .punct ':' false, .ident "int", .punct '=' false, .lit (.int 0), .punct ';' false],
    [.punct '#' false, .group .bracket [.ident "export"], .ident "const", .ident "X",
     .punct ':' false, .ident "int", .punct '=' false, .lit (.int 0), .punct ';' false],
    [.punct '#' false, .group .bracket [.ident "export"], .ident "node", .ident "foo",
     .group .paren [], .ident "returns", .group .paren [], .punct ';' false, .ident "let",
     .ident "tel"],
    [.punct '#' false, .group .bracket [.ident "export"], .ident "node", .ident "foo",
     .group .paren [], .ident "returns", .group .paren [], .punct ';' false, .ident "let",
     .ident "tel"]] = true := by
  decide +kernel

/-- chandeliers-lus/tests/compile_fail/ui/tc/extern/missing-const.rs -/
example : accepted [
    [.ident "extern", .ident "const", .ident "MISSING", .punct ':' false, .ident "float",
     .punct ';' false, .ident "node", .ident "foo", .group .paren [], .ident "returns",
     .group .paren [.ident "f", .punct ':' false, .ident "float"], .punct ';' false, .ident "let",
     .ident "f", .punct '=' false, .ident "MISSING", .punct ';' false, .ident "tel",
     .punct ';' false]] = true := by
  decide +kernel

/-- chandeliers-lus/tests/compile_fail/ui/tc/extern/missing-node.rs -/
example : accepted [
    [.ident "extern", .ident "node", .ident "missing", .group .paren [], .ident "returns",
     .group .paren [], .punct ';' false]] = true := by
  decide +kernel

/-- chandeliers-lus/tests/compile_fail/ui/tc/extern/no-default-node.rs -/
example : accepted [
    [.ident "extern", .ident "node", .ident "no_default", .group .paren [], .ident "returns",
     .group .paren [], .punct ';' false]] = true := by
  decide +kernel

/-- chandeliers-lus/tests/compile_fail/ui/tc/extern/no-step-node.rs -/
example : accepted [
    [.ident "extern", .ident "node", .ident "not_impl_step", .group .paren [], .ident "returns",
     .group .paren [], .punct ';' false]] = true := by
  decide +kernel

/-- chandeliers-lus/tests/compile_fail/ui/tc/extern/wrong-in-node.rs -/
example : accepted [
    [.ident "extern", .ident "node", .ident "wrong_step_sig", .group .paren [], .ident "returns",
     .group .paren [.ident "f", .punct ':' false, .ident "float"], .punct ';' false]] = true := by
  decide +kernel

/-- chandeliers-lus/tests/compile_fail/ui/tc/extern/wrong-out-node.rs -/
example : accepted [
    [.ident "extern", .ident "node", .ident "wrong_step_sig", .group .paren [.ident "i",
     .punct ',' false, .ident "j", .punct ':' false, .ident "int"], .ident "returns",
     .group .paren [.ident "b", .punct ':' false, .ident "bool"], .punct ';' false]] = true := by
  decide +kernel

/-- chandeliers-lus/tests/compile_fail/ui/tc/extern/wrong-ty-const.rs -/
example : accepted [
    [.ident "extern", .ident "const", .ident "WRONG_TY", .punct ':' false, .ident "float",
     .punct ';' false, .ident "node", .ident "foo", .group .paren [], .ident "returns",
     .group .paren [.ident "f", .punct ':' false, .ident "float"], .punct ';' false, .ident "let",
     .ident "f", .punct '=' false, .ident "WRONG_TY", .punct ';' false, .ident "tel"]] = true := by
  decide +kernel

/-- chandeliers-lus/tests/warn/dead_code/exported.rs -/
example : accepted [
    [.punct '#' false, .group .bracket [.ident "export"], .ident "node", .ident "foo",
     .group .paren [], .ident "returns", .group .paren [], .punct ';' false, .ident "let",
     .ident "tel", .punct ';' false, .punct '#' false, .group .bracket [.ident "export"],
     .ident "const", .ident "FOO", .punct ':' false, .ident "int", .punct '=' false, .lit (.int 0),
     .punct ';' false]] = true := by
  decide +kernel

/-- chandeliers-lus/tests/warn/dead_code/hidden-main.rs -/
example : accepted [
    [.punct '#' false, .group .bracket [.ident "main"], .ident "node", .ident "foo",
     .group .paren [], .ident "returns", .group .paren [], .punct ';' false, .ident "let",
     .ident "tel", .punct ';' false]] = true := by
  decide +kernel

/-- chandeliers-lus/tests/warn/dead_code/never-read.rs -/
example : accepted [
    [.ident "node", .ident "foo", .group .paren [.ident "x", .punct ':' false, .ident "int"],
     .ident "returns", .group .paren [.ident "y", .punct ':' false, .ident "int"],
     .punct ';' false, .ident "var", .ident "z", .punct ':' false, .ident "int", .punct ';' false,
     .ident "let", .ident "y", .punct '=' false, .ident "x", .punct ';' false, .ident "z",
     .punct '=' false, .lit (.int 1), .punct ';' false, .ident "tel", .punct ';' false]] = true := by
  decide +kernel

/-- chandeliers-lus/tests/warn/dead_code/unused-import.rs -/
example : accepted [
    [.punct '#' false, .group .bracket [.ident "export"], .ident "const", .ident "X",
     .punct ':' false, .ident "int", .punct '=' false, .lit (.int 0), .punct ';' false,
     .punct '#' false, .group .bracket [.ident "export"], .ident "node", .ident "foo",
     .group .paren [], .ident "returns", .group .paren [], .punct ';' false, .ident "let",
     .ident "tel", .punct ';' false],
    [.punct '#' false, .group .bracket [.ident "rustc_allow",
     .group .bracket [.ident "dead_code"]], .ident "extern", .ident "const", .ident "X",
     .punct ':' false, .ident "int", .punct ';' false, .punct '#' false,
     .group .bracket [.ident "rustc_allow", .group .bracket [.ident "dead_code"]], .ident "extern",
     .ident "node", .ident "foo", .group .paren [], .ident "returns", .group .paren [],
     .punct ';' false],
    [.ident "extern", .ident "const", .ident "X", .punct ':' false, .ident "int", .punct ';' false,
     .ident "extern", .ident "node", .ident "foo", .group .paren [], .ident "returns",
     .group .paren [], .punct ';' false]] = true := by
  decide +kernel

/-- chandeliers-lus/tests/warn/dead_code/unused-toplevel.rs -/
example : accepted [
    [.ident "node", .ident "foo", .group .paren [], .ident "returns", .group .paren [],
     .punct ';' false, .ident "let", .ident "tel", .punct ';' false, .ident "const", .ident "X",
     .punct ':' false, .ident "int", .punct '=' false, .lit (.int 0), .punct ';' false]] = true := by
  decide +kernel

/-- chandeliers-lus/tests/warn/dead_code/unused.rs -/
example : accepted [
    [.ident "node", .ident "count1", .group .paren [], .ident "returns", .group .paren [.ident "n",
     .punct ':' false, .ident "int"], .punct ';' false, .ident "let", .ident "n", .punct '=' false,
     .lit (.int 0), .ident "fby", .ident "n", .punct '+' false, .lit (.int 1), .punct ';' false,
     .ident "tel", .punct ';' false, .ident "node", .ident "count2", .group .paren [],
     .ident "returns", .group .paren [.ident "n", .punct ':' false, .ident "int"],
     .punct ';' false, .ident "let", .ident "n", .punct '=' false, .lit (.int 0), .ident "fby",
     .ident "n", .punct '+' false, .lit (.int 1), .punct ';' false, .ident "tel", .punct ';' false,
     .ident "node", .ident "count3", .group .paren [], .ident "returns", .group .paren [.ident "n",
     .punct ':' false, .ident "int"], .punct ';' false, .ident "let", .ident "n", .punct '=' false,
     .lit (.int 0), .ident "fby", .ident "n", .punct '+' false, .lit (.int 1), .punct ';' false,
     .ident "tel", .punct ';' false, .ident "const", .ident "X", .punct ':' false, .ident "int",
     .punct '=' false, .lit (.int 0), .punct ';' false, .punct '#' false,
     .group .bracket [.ident "main"], .ident "node", .ident "system", .group .paren [],
     .ident "returns", .group .paren [], .punct ';' false, .ident "let", .ident "assert",
     .ident "count1", .group .paren [], .punct '=' false, .ident "count3", .group .paren [],
     .punct ';' false, .ident "tel"]] = true := by
  decide +kernel

/-- chandeliers-lus/tests/pass/given/ex001.rs -/
example : accepted [
    [.punct '#' false, .group .bracket [.ident "export"], .ident "node", .ident "check",
     .group .paren [.ident "_x", .punct ':' false, .ident "bool"], .ident "returns",
     .group .paren [.ident "OK", .punct ':' false, .ident "bool"], .punct ';' false, .ident "var",
     .ident "n1", .punct ',' false, .ident "n2", .punct ':' false, .ident "int", .punct ';' false,
     .ident "let", .ident "n1", .punct '=' false, .lit (.int 0), .punct '-' true, .punct '>' false,
     .ident "pre", .ident "n1", .punct '+' false, .lit (.int 1), .punct ';' false, .ident "n2",
     .punct '=' false, .lit (.int 1), .punct '-' true, .punct '>' false, .ident "pre", .ident "n2",
     .punct '+' false, .lit (.int 1), .punct ';' false, .ident "OK", .punct '=' false,
     .group .paren [.ident "n1", .punct '+' false, .lit (.int 1)], .punct '=' false, .ident "n2",
     .punct ';' false, .ident "tel"]] = true := by
  decide +kernel

/-- chandeliers-lus/tests/pass/given/ex002.rs -/
example : accepted [
    [.punct '#' false, .group .bracket [.ident "export"], .ident "node", .ident "check",
     .group .paren [.ident "_x", .punct ':' false, .ident "bool"], .ident "returns",
     .group .paren [.ident "OK", .punct ':' false, .ident "bool"], .punct ';' false, .ident "var",
     .ident "n1", .punct ',' false, .ident "n2", .punct ':' false, .ident "int", .punct ';' false,
     .ident "let", .ident "n1", .punct '=' false, .lit (.int 0), .punct '-' true, .punct '>' false,
     .ident "pre", .ident "n1", .punct '+' false, .lit (.int 1), .punct ';' false, .ident "n2",
     .punct '=' false, .lit (.int 0), .punct '-' true, .punct '>' false,
     .group .paren [.lit (.int 1), .punct '-' true, .punct '>' false, .ident "pre",
     .group .paren [.ident "n2", .punct '+' false, .lit (.int 1)]], .punct ';' false, .ident "OK",
     .punct '=' false, .ident "n1", .punct '=' false, .ident "n2", .punct ';' false, .ident "tel"]] = true := by
  decide +kernel

/-- chandeliers-lus/tests/pass/given/ex003.rs -/
example : accepted [
    [.punct '#' false, .group .bracket [.ident "export"], .ident "node", .ident "check",
     .group .paren [.ident "_x", .punct ':' false, .ident "bool"], .ident "returns",
     .group .paren [.ident "OK", .punct ':' false, .ident "bool"], .punct ';' false, .ident "var",
     .ident "n1", .punct ',' false, .ident "n2", .punct ':' false, .ident "int", .punct ';' false,
     .ident "b1", .punct ',' false, .ident "b2", .punct ':' false, .ident "bool", .punct ';' false,
     .ident "let", .ident "n1", .punct '=' false, .lit (.int 0), .punct '-' true, .punct '>' false,
     .ident "pre", .ident "n1", .punct '+' false, .lit (.int 1), .punct ';' false, .ident "n2",
     .punct '=' false, .lit (.int 0), .punct '-' true, .punct '>' false, .ident "pre",
     .group .paren [.lit (.int 0), .punct '-' true, .punct '>' false, .ident "pre",
     .group .paren [.ident "n1", .punct '+' false, .lit (.int 2)]], .punct ';' false, .ident "b1",
     .punct '=' false, .ident "false", .punct '-' true, .punct '>' false, .ident "true",
     .punct ';' false, .ident "b2", .punct '=' false, .ident "false", .punct '-' true,
     .punct '>' false, .ident "pre", .ident "b1", .punct ';' false, .ident "OK", .punct '=' false,
     .ident "if", .ident "b1", .ident "and", .ident "b2", .ident "then", .ident "n1",
     .punct '=' false, .ident "n2", .ident "else", .ident "true", .punct ';' false, .ident "tel"]] = true := by
  decide +kernel

/-- chandeliers-lus/tests/pass/given/ex004.rs -/
example : accepted [
    [.ident "node", .ident "incr", .group .paren [.ident "tic", .punct ':' false, .ident "bool"],
     .ident "returns", .group .paren [.ident "cpt", .punct ':' false, .ident "int"],
     .punct ';' false, .ident "let", .ident "cpt", .punct '=' false, .group .paren [.lit (.int 0),
     .punct '-' true, .punct '>' false, .ident "pre", .ident "cpt"], .punct '+' false, .ident "if",
     .ident "tic", .ident "then", .lit (.int 1), .ident "else", .lit (.int 0), .punct ';' false,
     .ident "tel", .punct ';' false, .punct '#' false, .group .bracket [.ident "export"],
     .ident "node", .ident "check", .group .paren [.ident "x", .punct ':' false, .ident "bool"],
     .ident "returns", .group .paren [.ident "ok", .punct ':' false, .ident "bool"],
     .punct ';' false, .ident "var", .ident "cpt", .punct ':' false, .ident "int",
     .punct ';' false, .ident "let", .ident "cpt", .punct '=' false, .ident "incr",
     .group .paren [.ident "x"], .punct ';' false, .ident "ok", .punct '=' false, .ident "true",
     .punct '-' true, .punct '>' false, .group .paren [.ident "pre", .ident "cpt", .punct '<' true,
     .punct '=' false, .ident "cpt"], .punct ';' false, .ident "tel"]] = true := by
  decide +kernel

/-- chandeliers-lus/tests/pass/options/ext-main.rs -/
example : accepted [
    [.punct '#' false, .group .bracket [.ident "export"], .ident "node", .ident "system",
     .group .paren [], .ident "returns", .group .paren [], .punct ';' false, .ident "let",
     .ident "assert", .ident "true", .punct ';' false, .ident "tel", .punct ';' false],
    [.ident "extern", .ident "node", .ident "system", .group .paren [], .ident "returns",
     .group .paren [], .punct ';' false, .punct '#' false, .group .bracket [.ident "pub"],
     .ident "node", .ident "main", .group .paren [], .ident "returns", .group .paren [],
     .punct ';' false, .ident "let", .group .paren [], .punct '=' false, .ident "system",
     .group .paren [], .punct ';' false, .ident "tel", .punct ';' false],
    [.punct '#' false, .group .bracket [.ident "main", .group .paren [.lit (.int 10)]],
     .ident "extern", .ident "node", .ident "main", .group .paren [], .ident "returns",
     .group .paren [], .punct ';' false]] = true := by
  decide +kernel

/-- chandeliers-lus/tests/pass/options/ext-trace.rs -/
example : accepted [
    [.punct '#' false, .group .bracket [.ident "trace", .group .bracket [.ident "stderr"]],
     .punct '#' false, .group .bracket [.ident "export"], .ident "node", .ident "cumul",
     .group .paren [.ident "i", .punct ':' false, .ident "int"], .ident "returns",
     .group .paren [.ident "s", .punct ':' false, .ident "int"], .punct ';' false, .ident "let",
     .ident "s", .punct '=' false, .ident "i", .punct '+' false, .group .paren [.lit (.int 0),
     .ident "fby", .ident "s"], .punct ';' false, .ident "tel", .punct ';' false],
    [.punct '#' false, .group .bracket [.ident "trace"], .ident "extern", .ident "node",
     .ident "cumul", .group .paren [.ident "i", .punct ':' false, .ident "int"], .ident "returns",
     .group .paren [.ident "s", .punct ':' false, .ident "int"], .punct ';' false,
     .punct '#' false, .group .bracket [.ident "main", .group .paren [.lit (.int 10)]],
     .ident "node", .ident "system", .group .paren [], .ident "returns", .group .paren [],
     .punct ';' false, .ident "var", .ident "i", .punct ':' false, .ident "int", .punct ';' false,
     .ident "let", .ident "i", .punct '=' false, .ident "cumul", .group .paren [.lit (.int 1),
     .ident "fby", .ident "i"], .punct ';' false, .ident "assert", .ident "i", .punct '<' false,
     .lit (.int 1000), .punct ';' false, .ident "tel", .punct ';' false]] = true := by
  decide +kernel

/-- chandeliers-lus/tests/pass/options/main.rs -/
example : accepted [
    [.punct '#' false, .group .bracket [.ident "main"], .ident "node", .ident "system",
     .group .paren [], .ident "returns", .group .paren [], .punct ';' false, .ident "var",
     .ident "n", .punct ':' false, .ident "int", .punct ';' false, .ident "let", .ident "n",
     .punct '=' false, .group .paren [.lit (.int 0), .ident "fby", .ident "n", .punct '+' false,
     .lit (.int 1)], .punct '%' false, .lit (.int 10), .punct ';' false, .ident "assert",
     .ident "n", .punct '<' false, .lit (.int 10), .punct ';' false, .ident "tel"]] = true := by
  decide +kernel

/-- chandeliers-lus/tests/pass/options/once.rs -/
example : accepted [
    [.punct '#' false, .group .bracket [.ident "main", .group .paren [.lit (.int 1)]],
     .ident "node", .ident "system", .group .paren [], .ident "returns", .group .paren [],
     .punct ';' false, .ident "var", .ident "ok", .punct ':' false, .ident "bool",
     .punct ';' false, .ident "let", .ident "ok", .punct '=' false, .ident "true", .punct '-' true,
     .punct '>' false, .ident "false", .punct ';' false, .ident "assert", .ident "ok",
     .punct ';' false, .ident "tel", .punct ';' false]] = true := by
  decide +kernel

/-- chandeliers-lus/tests/pass/options/trace-fmt.rs -/
example : accepted [
    [.punct '#' false, .group .bracket [.ident "trace", .group .paren [.lit (.str "Fizz")]],
     .ident "node", .ident "fizz", .group .paren [], .ident "returns", .group .paren [],
     .punct ';' false, .ident "let", .ident "tel", .punct ';' false, .punct '#' false,
     .group .bracket [.ident "trace", .group .paren [.lit (.str "Buzz")]], .ident "node",
     .ident "buzz", .group .paren [], .ident "returns", .group .paren [], .punct ';' false,
     .ident "let", .ident "tel", .punct ';' false, .punct '#' false,
     .group .bracket [.ident "trace", .group .paren [.lit (.str "{n}")]], .ident "node",
     .ident "id", .group .paren [.ident "n", .punct ':' false, .ident "int"], .ident "returns",
     .group .paren [], .punct ';' false, .ident "let", .ident "tel", .punct ';' false,
     .punct '#' false, .group .bracket [.ident "trace", .group .paren [.lit (.str "\n")]],
     .ident "node", .ident "newline", .group .paren [], .ident "returns", .group .paren [],
     .punct ';' false, .ident "let", .ident "tel", .punct ';' false, .punct '#' false,
     .group .bracket [.ident "main", .group .paren [.lit (.int 30)]], .ident "node", .ident "main",
     .group .paren [], .ident "returns", .group .paren [], .punct ';' false, .ident "var",
     .ident "n", .punct ':' false, .ident "int", .punct ';' false, .ident "div_3",
     .punct ',' false, .ident "div_5", .punct ',' false, .ident "div_either", .punct ':' false,
     .ident "bool", .punct ';' false, .ident "let", .ident "n", .punct '=' false, .lit (.int 1),
     .ident "fby", .ident "n", .punct '+' false, .lit (.int 1), .punct ';' false, .ident "div_3",
     .punct '=' false, .group .paren [.ident "n", .punct '%' false, .lit (.int 3)],
     .punct '=' false, .lit (.int 0), .punct ';' false, .ident "div_5", .punct '=' false,
     .group .paren [.ident "n", .punct '%' false, .lit (.int 5)], .punct '=' false, .lit (.int 0),
     .punct ';' false, .ident "div_either", .punct '=' false, .ident "div_3", .ident "or",
     .ident "div_5", .punct ';' false, .group .paren [], .punct '=' false, .ident "fizz",
     .group .paren [.group .paren [], .ident "when", .ident "div_3"], .punct ';' false,
     .group .paren [], .punct '=' false, .ident "buzz", .group .paren [.group .paren [],
     .ident "when", .ident "div_5"], .punct ';' false, .group .paren [], .punct '=' false,
     .ident "id", .group .paren [.ident "n", .ident "whenot", .ident "div_either"],
     .punct ';' false, .group .paren [], .punct '=' false, .ident "newline", .group .paren [],
     .punct ';' false, .ident "tel", .punct ';' false]] = true := by
  decide +kernel

/-- chandeliers-lus/tests/pass/poly/clkpre.rs -/
example : accepted [
    [.punct '#' false, .group .bracket [.ident "generic", .group .bracket [.ident "T"]],
     .ident "node", .ident "ipre", .group .paren [.ident "t", .punct ',' false, .ident "init",
     .punct ':' false, .ident "T"], .ident "returns", .group .paren [.ident "pt", .punct ':' false,
     .ident "T"], .punct ';' false, .ident "let", .ident "pt", .punct '=' false, .ident "init",
     .punct '-' true, .punct '>' false, .ident "pre", .ident "t", .punct ';' false, .ident "tel",
     .punct ';' false, .punct '#' false, .group .bracket [.ident "main",
     .group .paren [.lit (.int 10)]], .punct '#' false, .group .bracket [.ident "trace",
     .group .paren [.lit (.str "{p}:{q} ")]], .ident "node", .ident "main", .group .paren [],
     .ident "returns", .group .paren [], .punct ';' false, .ident "var", .ident "b",
     .punct ':' false, .ident "bool", .punct ';' false, .ident "n", .punct ':' false, .ident "int",
     .punct ';' false, .ident "p", .punct ',' false, .ident "q", .punct ':' false, .ident "int",
     .ident "when", .ident "b", .punct ';' false, .ident "let", .ident "b", .punct '=' false,
     .ident "true", .ident "fby", .ident "true", .ident "fby", .ident "false", .ident "fby",
     .ident "b", .punct ';' false, .ident "n", .punct '=' false, .lit (.int 1), .ident "fby",
     .ident "n", .punct '+' false, .lit (.int 1), .punct ';' false, .ident "p", .punct '=' false,
     .ident "n", .ident "when", .ident "b", .punct ';' false, .ident "q", .punct '=' false,
     .ident "ipre", .group .paren [.group .paren [.ident "n", .punct ',' false, .lit (.int 0)],
     .ident "when", .ident "b"], .punct ';' false, .ident "tel", .punct ';' false]] = true := by
  decide +kernel

/-- chandeliers-lus/tests/pass/poly/extern.rs -/
example : accepted [
    [.punct '#' false, .group .bracket [.ident "generic", .group .bracket [.ident "T"]],
     .punct '#' false, .group .bracket [.ident "export"], .punct '#' false,
     .group .bracket [.ident "trace", .group .paren [.lit (.str "{_t}\n")]], .ident "node",
     .ident "show", .group .paren [.ident "_t", .punct ':' false, .ident "T"], .ident "returns",
     .group .paren [], .punct ';' false, .ident "let", .ident "tel", .punct ';' false],
    [.punct '#' false, .group .bracket [.ident "generic", .group .bracket [.ident "T"]],
     .ident "extern", .ident "node", .ident "show", .group .paren [.ident "t", .punct ':' false,
     .ident "T"], .ident "returns", .group .paren [], .punct ';' false, .punct '#' false,
     .group .bracket [.ident "main", .group .paren [.lit (.int 1)]], .ident "node", .ident "main",
     .group .paren [], .ident "returns", .group .paren [], .punct ';' false, .ident "let",
     .group .paren [], .punct '=' false, .ident "show", .group .paren [.lit (.int 42)],
     .punct ';' false, .group .paren [], .punct '=' false, .ident "show",
     .group .paren [.ident "true"], .punct ';' false, .group .paren [], .punct '=' false,
     .ident "show", .group .paren [.lit (.float (some ⟨4614253070214989087⟩))], .punct ';' false,
     .ident "tel", .punct ';' false]] = true := by
  decide +kernel

/-- chandeliers-lus/tests/pass/poly/initpre.rs -/
example : accepted [
    [.punct '#' false, .group .bracket [.ident "generic", .group .bracket [.ident "T"]],
     .ident "node", .ident "ipre", .group .paren [.ident "t", .punct ',' false, .ident "i",
     .punct ':' false, .ident "T"], .ident "returns", .group .paren [.ident "o", .punct ':' false,
     .ident "T"], .punct ';' false, .ident "let", .ident "o", .punct '=' false, .ident "i",
     .punct '-' true, .punct '>' false, .ident "pre", .ident "t", .punct ';' false, .ident "tel",
     .punct ';' false, .punct '#' false, .group .bracket [.ident "main"], .ident "node",
     .ident "main", .group .paren [], .ident "returns", .group .paren [], .punct ';' false,
     .ident "var", .ident "n", .punct ':' false, .ident "int", .punct ';' false, .ident "let",
     .ident "n", .punct '=' false, .lit (.int 0), .ident "fby", .ident "n", .punct '+' false,
     .lit (.int 1), .punct ';' false, .ident "assert", .ident "ipre", .group .paren [.ident "n",
     .punct ',' false, .punct '-' false, .lit (.int 1)], .punct '=' false,
     .group .paren [.punct '-' false, .lit (.int 1), .ident "fby", .ident "n"], .punct ';' false,
     .ident "tel", .punct ';' false]] = true := by
  decide +kernel

/-- chandeliers-lus/tests/pass/poly/pre.rs -/
example : accepted [
    [.punct '#' false, .group .bracket [.ident "generic", .group .bracket [.ident "T"]],
     .ident "node", .ident "ipre", .group .paren [.ident "t", .punct ',' false, .ident "i",
     .punct ':' false, .ident "T"], .ident "returns", .group .paren [.ident "o", .punct ':' false,
     .ident "T"], .punct ';' false, .ident "let", .ident "o", .punct '=' false, .ident "i",
     .punct '-' true, .punct '>' false, .ident "pre", .ident "t", .punct ';' false, .ident "tel",
     .punct ';' false, .punct '#' false, .group .bracket [.ident "main"], .ident "node",
     .ident "main", .group .paren [], .ident "returns", .group .paren [], .punct ';' false,
     .ident "var", .ident "n", .punct ':' false, .ident "int", .punct ';' false, .ident "let",
     .ident "n", .punct '=' false, .lit (.int 0), .ident "fby", .ident "n", .punct '+' false,
     .lit (.int 1), .punct ';' false, .ident "assert", .ident "ipre", .group .paren [.ident "n",
     .punct ',' false, .punct '-' false, .lit (.int 1)], .punct '=' false,
     .group .paren [.punct '-' false, .lit (.int 1), .ident "fby", .ident "n"], .punct ';' false,
     .ident "tel", .punct ';' false]] = true := by
  decide +kernel

/-- chandeliers-lus/tests/pass/poly/swap.rs -/
example : accepted [
    [.punct '#' false, .group .bracket [.ident "generic", .group .bracket [.ident "T",
     .punct ',' false, .ident "U"]], .punct '#' false, .group .bracket [.ident "trace",
     .group .paren [.lit (.str "{t0} <-> {u0}\n")]], .ident "node", .ident "swap",
     .group .paren [.ident "t0", .punct ':' false, .ident "T", .punct ';' false, .ident "u0",
     .punct ':' false, .ident "U"], .ident "returns", .group .paren [.ident "u1", .punct ':' false,
     .ident "U", .punct ';' false, .ident "t1", .punct ':' false, .ident "T"], .punct ';' false,
     .ident "let", .ident "t1", .punct '=' false, .ident "t0", .punct ';' false, .ident "u1",
     .punct '=' false, .ident "u0", .punct ';' false, .ident "tel", .punct ';' false,
     .punct '#' false, .group .bracket [.ident "main", .group .paren [.lit (.int 1)]],
     .ident "node", .ident "main", .group .paren [], .ident "returns", .group .paren [],
     .punct ';' false, .ident "var", .ident "_x", .punct ':' false, .ident "int", .punct ';' false,
     .ident "_y", .punct ':' false, .ident "float", .punct ';' false, .ident "let",
     .group .paren [.ident "_x", .punct ',' false, .ident "_y"], .punct '=' false, .ident "swap",
     .group .paren [.ident "swap", .group .paren [.lit (.int 1), .punct ',' false,
     .lit (.float (some ⟨4602678819172646912⟩))]], .punct ';' false, .ident "tel",
     .punct ';' false]] = true := by
  decide +kernel

/-- chandeliers-lus/tests/pass/registers/chained-fby.rs -/
example : accepted [
    [.punct '#' false, .group .bracket [.ident "trace",
     .group .paren [.lit (.str "witness {b}\n")]], .ident "node", .ident "witness",
     .group .paren [], .ident "returns", .group .paren [.ident "b", .punct ':' false,
     .ident "bool"], .punct ';' false, .ident "let", .ident "b", .punct '=' false, .ident "true",
     .ident "fby", .ident "false", .ident "fby", .ident "false", .ident "fby", .ident "b",
     .punct ';' false, .ident "tel", .punct ';' false, .punct '#' false,
     .group .bracket [.ident "universal_pre"], .punct '#' false, .group .bracket [.ident "trace",
     .group .paren [.lit (.str "testing {b}\n")]], .ident "node", .ident "testing",
     .group .paren [], .ident "returns", .group .paren [.ident "b", .punct ':' false,
     .ident "bool"], .punct ';' false, .ident "let", .ident "b", .punct '=' false, .ident "true",
     .ident "fby", .ident "false", .ident "fby", .ident "false", .ident "fby", .ident "b",
     .punct ';' false, .ident "tel", .punct ';' false, .punct '#' false,
     .group .bracket [.ident "main", .group .paren [.lit (.int 20)]], .ident "node", .ident "main",
     .group .paren [], .ident "returns", .group .paren [], .punct ';' false, .ident "let",
     .ident "assert", .ident "testing", .group .paren [], .punct '=' false, .ident "witness",
     .group .paren [], .punct ';' false, .ident "tel", .punct ';' false]] = true := by
  decide +kernel

/-- chandeliers-lus/tests/pass/registers/clocked.rs -/
example : accepted [
    [.ident "node", .ident "foo", .group .paren [], .ident "returns", .group .paren [.ident "i",
     .punct ':' false, .ident "int"], .punct ';' false, .ident "let", .ident "i", .punct '=' false,
     .lit (.int 0), .ident "fby", .ident "i", .punct '+' false, .lit (.int 1), .punct ';' false,
     .ident "tel", .punct ';' false, .punct '#' false, .group .bracket [.ident "main",
     .group .paren [.lit (.int 100)]], .punct '#' false, .group .bracket [.ident "universal_pre"],
     .punct '#' false, .group .bracket [.ident "trace",
     .group .paren [.lit (.str "{toggle}=> {witness}=={testing}\n")]], .ident "node",
     .ident "main", .group .paren [], .ident "returns", .group .paren [], .punct ';' false,
     .ident "var", .ident "toggle", .punct ':' false, .ident "bool", .punct ';' false,
     .ident "witness", .punct ',' false, .ident "testing", .punct ':' false, .ident "int",
     .ident "when", .ident "toggle", .punct ';' false, .ident "let", .ident "toggle",
     .punct '=' false, .ident "true", .ident "fby", .ident "false", .ident "fby", .ident "false",
     .ident "fby", .ident "toggle", .punct ';' false, .ident "witness", .punct '=' false,
     .ident "foo", .group .paren [.group .paren [], .ident "when", .ident "toggle"],
     .punct ';' false, .ident "testing", .punct '=' false, .group .paren [.lit (.int 0),
     .ident "when", .ident "toggle"], .ident "fby", .ident "testing", .punct '+' false,
     .lit (.int 1), .punct ';' false, .ident "assert", .ident "merge", .ident "toggle",
     .group .paren [.ident "witness", .punct '=' false, .ident "testing"], .ident "true",
     .punct ';' false, .ident "tel", .punct ';' false]] = true := by
  decide +kernel

/-- chandeliers-lus/tests/pass/registers/fby.rs -/
example : accepted [
    [.punct '#' false, .group .bracket [.ident "universal_pre"], .punct '#' false,
     .group .bracket [.ident "trace", .group .paren [.lit (.str "testing {x}\n")]], .ident "node",
     .ident "fby_testing", .group .paren [.ident "x", .punct ':' false, .ident "int"],
     .ident "returns", .group .paren [.ident "y", .punct ':' false, .ident "int"],
     .punct ';' false, .ident "let", .ident "y", .punct '=' false, .lit (.int 0), .ident "fby",
     .ident "x", .punct ';' false, .ident "tel", .punct ';' false, .punct '#' false,
     .group .bracket [.ident "trace", .group .paren [.lit (.str "witness {x}\n")]], .ident "node",
     .ident "fby_witness", .group .paren [.ident "x", .punct ':' false, .ident "int"],
     .ident "returns", .group .paren [.ident "y", .punct ':' false, .ident "int"],
     .punct ';' false, .ident "let", .ident "y", .punct '=' false, .lit (.int 0), .ident "fby",
     .ident "x", .punct ';' false, .ident "tel", .punct ';' false, .punct '#' false,
     .group .bracket [.ident "main", .group .paren [.lit (.int 10)]], .ident "node", .ident "main",
     .group .paren [], .ident "returns", .group .paren [], .punct ';' false, .ident "var",
     .ident "n", .punct ':' false, .ident "int", .punct ';' false, .ident "let", .ident "n",
     .punct '=' false, .lit (.int 0), .punct '-' true, .punct '>' false, .lit (.int 5),
     .punct '-' true, .punct '>' false, .lit (.int 4), .punct '-' true, .punct '>' false,
     .lit (.int 3), .punct '-' true, .punct '>' false, .group .paren [.ident "pre", .ident "n",
     .punct '+' false, .ident "pre", .ident "pre", .ident "n", .punct '*' false, .ident "pre",
     .ident "pre", .ident "pre", .ident "n"], .punct '%' false, .lit (.int 100), .punct ';' false,
     .ident "assert", .ident "fby_testing", .group .paren [.ident "n"], .punct '=' false,
     .ident "fby_witness", .group .paren [.ident "n"], .punct ';' false, .ident "tel",
     .punct ';' false]] = true := by
  decide +kernel

/-- chandeliers-lus/tests/pass/registers/pre.rs -/
example : accepted [
    [.punct '#' false, .group .bracket [.ident "universal_pre"], .punct '#' false,
     .group .bracket [.ident "trace", .group .paren [.lit (.str "testing {x}\n")]], .ident "node",
     .ident "prev_testing", .group .paren [.ident "x", .punct ':' false, .ident "int"],
     .ident "returns", .group .paren [.ident "y", .punct ':' false, .ident "int"],
     .punct ';' false, .ident "let", .ident "y", .punct '=' false, .lit (.int 0), .punct '-' true,
     .punct '>' false, .ident "pre", .ident "x", .punct ';' false, .ident "tel", .punct ';' false,
     .punct '#' false, .group .bracket [.ident "trace",
     .group .paren [.lit (.str "witness {x}\n")]], .ident "node", .ident "prev_witness",
     .group .paren [.ident "x", .punct ':' false, .ident "int"], .ident "returns",
     .group .paren [.ident "y", .punct ':' false, .ident "int"], .punct ';' false, .ident "let",
     .ident "y", .punct '=' false, .lit (.int 0), .punct '-' true, .punct '>' false, .ident "pre",
     .ident "x", .punct ';' false, .ident "tel", .punct ';' false, .punct '#' false,
     .group .bracket [.ident "main", .group .paren [.lit (.int 10)]], .ident "node", .ident "main",
     .group .paren [], .ident "returns", .group .paren [], .punct ';' false, .ident "var",
     .ident "n", .punct ':' false, .ident "int", .punct ';' false, .ident "let", .ident "n",
     .punct '=' false, .lit (.int 0), .punct '-' true, .punct '>' false, .lit (.int 5),
     .punct '-' true, .punct '>' false, .lit (.int 4), .punct '-' true, .punct '>' false,
     .lit (.int 3), .punct '-' true, .punct '>' false, .group .paren [.ident "pre", .ident "n",
     .punct '+' false, .ident "pre", .ident "pre", .ident "n", .punct '*' false, .ident "pre",
     .ident "pre", .ident "pre", .ident "n"], .punct '%' false, .lit (.int 100), .punct ';' false,
     .ident "assert", .ident "prev_testing", .group .paren [.ident "n"], .punct '=' false,
     .ident "prev_witness", .group .paren [.ident "n"], .punct ';' false, .ident "tel",
     .punct ';' false]] = true := by
  decide +kernel

/-- chandeliers-lus/tests/pass/std/counters.rs -/
example : accepted [
    [.ident "node", .ident "counting", .group .paren [], .ident "returns",
     .group .paren [.ident "n", .punct ':' false, .ident "int"], .punct ';' false, .ident "let",
     .ident "n", .punct '=' false, .lit (.int 0), .ident "fby", .ident "n", .punct '+' false,
     .lit (.int 1), .punct ';' false, .ident "tel", .punct ';' false, .ident "node",
     .ident "counting_twice", .group .paren [], .ident "returns", .group .paren [.ident "n",
     .punct ':' false, .ident "int"], .punct ';' false, .ident "var", .ident "b", .punct ':' false,
     .ident "bool", .punct ';' false, .ident "let", .ident "b", .punct '=' false, .ident "true",
     .ident "fby", .ident "not", .ident "b", .punct ';' false, .ident "n", .punct '=' false,
     .ident "if", .ident "b", .ident "then", .ident "counting", .group .paren [], .ident "else",
     .ident "counting", .group .paren [], .punct ';' false, .ident "tel", .punct ';' false,
     .ident "node", .ident "counting_late_fby", .group .paren [], .ident "returns",
     .group .paren [.ident "n", .punct ':' false, .ident "int"], .punct ';' false, .ident "let",
     .ident "n", .punct '=' false, .lit (.int 0), .ident "fby", .lit (.int 0), .ident "fby",
     .ident "counting", .group .paren [], .punct ';' false, .ident "tel", .punct ';' false,
     .ident "node", .ident "counting_late_then", .group .paren [], .ident "returns",
     .group .paren [.ident "n", .punct ':' false, .ident "int"], .punct ';' false, .ident "let",
     .ident "n", .punct '=' false, .lit (.int 0), .punct '-' true, .punct '>' false, .lit (.int 0),
     .punct '-' true, .punct '>' false, .lit (.int 0), .punct '-' true, .punct '>' false,
     .ident "pre", .ident "pre", .ident "pre", .ident "counting", .group .paren [],
     .punct ';' false, .ident "tel", .punct ';' false, .ident "node", .ident "counting_catchup",
     .group .paren [], .ident "returns", .group .paren [.ident "n", .punct ':' false,
     .ident "int"], .punct ';' false, .ident "let", .ident "n", .punct '=' false, .lit (.int 0),
     .punct '-' true, .punct '>' false, .lit (.int 0), .punct '-' true, .punct '>' false,
     .lit (.int 0), .punct '-' true, .punct '>' false, .ident "counting", .group .paren [],
     .punct ';' false, .ident "tel", .punct ';' false, .punct '#' false,
     .group .bracket [.ident "main", .group .paren [.lit (.int 10)]], .ident "node",
     .ident "system", .group .paren [], .ident "returns", .group .paren [], .punct ';' false,
     .ident "var", .ident "n", .punct ':' false, .ident "int", .punct ';' false, .ident "let",
     .ident "n", .punct '=' false, .lit (.int 0), .ident "fby", .ident "n", .punct '+' false,
     .lit (.int 1), .punct ';' false, .ident "assert", .ident "counting_twice", .group .paren [],
     .punct '=' false, .ident "n", .punct ';' false, .ident "assert", .ident "counting_late_fby",
     .group .paren [], .punct '=' false, .group .paren [.lit (.int 0), .ident "fby", .lit (.int 0),
     .ident "fby", .ident "n"], .punct ';' false, .ident "assert", .ident "counting_late_then",
     .group .paren [], .punct '=' false, .group .paren [.lit (.int 0), .ident "fby", .lit (.int 0),
     .ident "fby", .lit (.int 0), .ident "fby", .ident "n"], .punct ';' false, .ident "assert",
     .ident "counting_catchup", .group .paren [], .punct '=' false, .group .paren [.lit (.int 0),
     .punct '-' true, .punct '>' false, .lit (.int 0), .punct '-' true, .punct '>' false,
     .lit (.int 0), .punct '-' true, .punct '>' false, .ident "n"], .punct ';' false, .ident "tel",
     .punct ';' false]] = true := by
  decide +kernel

/-- chandeliers-lus/tests/pass/std/floateq.rs -/
example : accepted [
    [.ident "node", .ident "fabs", .group .paren [.ident "i", .punct ':' false, .ident "float"],
     .ident "returns", .group .paren [.ident "o", .punct ':' false, .ident "float"],
     .punct ';' false, .ident "let", .ident "o", .punct '=' false, .ident "if", .ident "i",
     .punct '>' false, .lit (.float (some ⟨0⟩)), .ident "then", .ident "i", .ident "else",
     .punct '-' false, .ident "i", .punct ';' false, .ident "tel", .punct ';' false,
     .punct '#' false, .group .bracket [.ident "export"], .ident "node", .ident "rounding_error",
     .group .paren [], .ident "returns", .group .paren [], .punct ';' false, .ident "let",
     .ident "assert", .ident "fabs", .group .paren [.lit (.float (some ⟨4591870180066957722⟩)),
     .punct '+' false, .lit (.float (some ⟨4596373779694328218⟩)), .punct '-' false,
     .lit (.float (some ⟨4599075939470750515⟩))], .punct '<' false,
     .lit (.float (some ⟨4562254508917369340⟩)), .punct ';' false, .ident "tel"]] = true := by
  decide +kernel

/-- chandeliers-lus/tests/pass/std/fulladder.rs -/
example : accepted [
    [.ident "node", .ident "full_add", .group .paren [.ident "a", .punct ',' false, .ident "b",
     .punct ',' false, .ident "c", .punct ':' false, .ident "bool"], .ident "returns",
     .group .paren [.ident "s", .punct ',' false, .ident "co", .punct ':' false, .ident "bool"],
     .punct ';' false, .ident "let", .ident "s", .punct '=' false, .group .paren [.ident "a",
     .punct '<' true, .punct '>' false, .ident "b"], .punct '<' true, .punct '>' false, .ident "c",
     .punct ';' false, .ident "co", .punct '=' false, .group .paren [.ident "a", .ident "and",
     .ident "b"], .ident "or", .group .paren [.ident "a", .ident "and", .ident "c"], .ident "or",
     .group .paren [.ident "b", .ident "and", .ident "c"], .punct ';' false, .ident "tel",
     .punct ';' false, .ident "node", .ident "half_add", .group .paren [.ident "a",
     .punct ',' false, .ident "b", .punct ':' false, .ident "bool"], .ident "returns",
     .group .paren [.ident "s", .punct ',' false, .ident "co", .punct ':' false, .ident "bool"],
     .punct ';' false, .ident "let", .ident "s", .punct '=' false, .group .paren [.ident "a",
     .punct '<' true, .punct '>' false, .ident "b"], .punct ';' false, .ident "co",
     .punct '=' false, .group .paren [.ident "a", .ident "and", .ident "b"], .punct ';' false,
     .ident "tel", .punct ';' false, .ident "node", .ident "full_add_h", .group .paren [.ident "a",
     .punct ',' false, .ident "b", .punct ',' false, .ident "c", .punct ':' false, .ident "bool"],
     .ident "returns", .group .paren [.ident "s", .punct ',' false, .ident "co", .punct ':' false,
     .ident "bool"], .punct ';' false, .ident "var", .ident "s1", .punct ',' false, .ident "c1",
     .punct ',' false, .ident "c2", .punct ':' false, .ident "bool", .punct ';' false,
     .ident "let", .group .paren [.ident "s1", .punct ',' false, .ident "c1"], .punct '=' false,
     .ident "half_add", .group .paren [.ident "a", .punct ',' false, .ident "b"], .punct ';' false,
     .group .paren [.ident "s", .punct ',' false, .ident "c2"], .punct '=' false,
     .ident "half_add", .group .paren [.ident "c", .punct ',' false, .ident "s1"],
     .punct ';' false, .ident "co", .punct '=' false, .group .paren [.ident "c1", .ident "or",
     .ident "c2"], .punct ';' false, .ident "tel", .punct ';' false, .ident "node",
     .ident "equivalence", .group .paren [.ident "a", .punct ',' false, .ident "b",
     .punct ',' false, .ident "c", .punct ':' false, .ident "bool"], .ident "returns",
     .group .paren [.ident "ok", .punct ':' false, .ident "bool"], .punct ';' false, .ident "var",
     .ident "s1", .punct ',' false, .ident "co1", .punct ',' false, .ident "s2", .punct ',' false,
     .ident "co2", .punct ':' false, .ident "bool", .punct ';' false, .ident "let",
     .group .paren [.ident "s1", .punct ',' false, .ident "co1"], .punct '=' false,
     .ident "full_add", .group .paren [.ident "a", .punct ',' false, .ident "b", .punct ',' false,
     .ident "c"], .punct ';' false, .group .paren [.ident "s2", .punct ',' false, .ident "co2"],
     .punct '=' false, .ident "full_add_h", .group .paren [.ident "a", .punct ',' false,
     .ident "b", .punct ',' false, .ident "c"], .punct ';' false, .ident "ok", .punct '=' false,
     .group .paren [.ident "s1", .punct '=' false, .ident "s2"], .ident "and",
     .group .paren [.ident "co1", .punct '=' false, .ident "co2"], .punct ';' false, .ident "tel",
     .punct ';' false, .punct '#' false, .group .bracket [.ident "main",
     .group .paren [.lit (.int 8)]], .ident "node", .ident "system", .group .paren [],
     .ident "returns", .group .paren [], .punct ';' false, .ident "var", .ident "a",
     .punct ',' false, .ident "b", .punct ',' false, .ident "c", .punct ',' false, .ident "ok",
     .punct ':' false, .ident "bool", .punct ';' false, .ident "enumerate", .punct ':' false,
     .ident "int", .punct ';' false, .ident "let", .ident "enumerate", .punct '=' false,
     .lit (.int 0), .ident "fby", .ident "enumerate", .punct '+' false, .lit (.int 1),
     .punct ';' false, .ident "a", .punct '=' false, .group .paren [.ident "enumerate",
     .ident "and", .lit (.int 1)], .punct '>' false, .lit (.int 0), .punct ';' false, .ident "b",
     .punct '=' false, .group .paren [.ident "enumerate", .ident "and", .lit (.int 2)],
     .punct '>' false, .lit (.int 0), .punct ';' false, .ident "c", .punct '=' false,
     .group .paren [.ident "enumerate", .ident "and", .lit (.int 4)], .punct '>' false,
     .lit (.int 0), .punct ';' false, .ident "ok", .punct '=' false, .ident "equivalence",
     .group .paren [.ident "a", .punct ',' false, .ident "b", .punct ',' false, .ident "c"],
     .punct ';' false, .ident "assert", .ident "ok", .punct ';' false, .ident "tel",
     .punct ';' false]] = true := by
  decide +kernel

/-- chandeliers-lus/tests/pass/std/merge.rs -/
example : accepted [
    [.ident "node", .ident "foo", .group .paren [.ident "b", .punct ':' false, .ident "bool",
     .punct ';' false, .ident "x", .punct ',' false, .ident "y", .punct ':' false, .ident "int"],
     .ident "returns", .group .paren [.ident "i", .punct ':' false, .ident "int"],
     .punct ';' false, .ident "let", .ident "i", .punct '=' false, .ident "merge", .ident "b",
     .group .paren [.ident "x", .ident "when", .ident "b"], .group .paren [.ident "y",
     .ident "whenot", .ident "b"], .punct ';' false, .ident "tel", .punct ';' false,
     .punct '#' false, .group .bracket [.ident "main", .group .paren [.lit (.int 10)]],
     .ident "node", .ident "main", .group .paren [], .ident "returns", .group .paren [],
     .punct ';' false, .ident "var", .ident "b", .punct ':' false, .ident "bool", .punct ';' false,
     .ident "n", .punct ',' false, .ident "x", .punct ',' false, .ident "y", .punct ',' false,
     .ident "r1", .punct ',' false, .ident "r2", .punct ':' false, .ident "int", .punct ';' false,
     .ident "let", .ident "n", .punct '=' false, .lit (.int 0), .ident "fby", .lit (.int 2),
     .punct '*' false, .ident "n", .punct ';' false, .ident "b", .punct '=' false, .ident "true",
     .ident "fby", .ident "false", .ident "fby", .ident "false", .ident "fby", .ident "b",
     .punct ';' false, .ident "x", .punct '=' false, .ident "n", .punct '%' false, .lit (.int 7),
     .punct ';' false, .ident "y", .punct '=' false, .group .paren [.lit (.int 3),
     .punct '*' false, .ident "n"], .punct '%' false, .lit (.int 17), .punct ';' false,
     .ident "r1", .punct '=' false, .ident "foo", .group .paren [.ident "b", .punct ',' false,
     .ident "x", .punct ',' false, .ident "y"], .punct ';' false, .ident "r2", .punct '=' false,
     .ident "if", .ident "b", .ident "then", .ident "x", .ident "else", .ident "y",
     .punct ';' false, .ident "assert", .ident "r1", .punct '=' false, .ident "r2",
     .punct ';' false, .ident "tel", .punct ';' false]] = true := by
  decide +kernel

/-- chandeliers-lus/tests/pass/std/rand.rs -/
example : accepted [
    [.ident "extern", .ident "node", .ident "RandomInt", .group .paren [], .ident "returns",
     .group .paren [.ident "r", .punct ':' false, .ident "int"], .punct ';' false, .ident "extern",
     .ident "const", .ident "MOD", .punct ':' false, .ident "int", .punct ';' false, .ident "node",
     .ident "sum", .group .paren [.ident "inc", .punct ':' false, .ident "int"], .ident "returns",
     .group .paren [.ident "s", .punct ':' false, .ident "int"], .punct ';' false, .ident "let",
     .ident "s", .punct '=' false, .group .paren [.ident "inc", .punct '+' false,
     .group .paren [.lit (.int 0), .ident "fby", .ident "s"]], .punct '%' false, .ident "MOD",
     .punct ';' false, .ident "tel", .punct ';' false, .punct '#' false,
     .group .bracket [.ident "export"], .ident "node", .ident "randsum", .group .paren [],
     .ident "returns", .group .paren [.ident "r", .punct ',' false, .ident "s", .punct ':' false,
     .ident "int"], .punct ';' false, .ident "let", .ident "r", .punct '=' false,
     .ident "RandomInt", .group .paren [], .punct '%' false, .ident "MOD", .punct ';' false,
     .ident "s", .punct '=' false, .ident "sum", .group .paren [.ident "r"], .punct ';' false,
     .ident "tel", .punct ';' false]] = true := by
  decide +kernel

/-- chandeliers-lus/tests/pass/std/slow.rs -/
example : accepted [
    [.punct '#' false, .group .bracket [.ident "trace", .group .bracket [.ident "stderr"]],
     .ident "node", .ident "counter", .group .paren [], .ident "returns",
     .group .paren [.ident "n", .punct ':' false, .ident "int"], .punct ';' false, .ident "let",
     .ident "n", .punct '=' false, .lit (.int 0), .ident "fby", .ident "n", .punct '+' false,
     .lit (.int 1), .punct ';' false, .ident "tel", .punct ';' false, .punct '#' false,
     .group .bracket [.ident "trace", .group .bracket [.ident "stderr"]], .ident "node",
     .ident "blink", .group .paren [], .ident "returns", .group .paren [.ident "b",
     .punct ':' false, .ident "bool"], .punct ';' false, .ident "let", .ident "b",
     .punct '=' false, .ident "true", .ident "fby", .ident "not", .ident "b", .punct ';' false,
     .ident "tel", .punct ';' false, .punct '#' false, .group .bracket [.ident "main",
     .group .paren [.lit (.int 10)]], .ident "node", .ident "system", .group .paren [],
     .ident "returns", .group .paren [], .punct ';' false, .ident "var", .ident "b",
     .punct ':' false, .ident "bool", .punct ';' false, .ident "n1", .punct ':' false,
     .ident "int", .ident "when", .ident "b", .punct ';' false, .ident "n2", .punct ':' false,
     .ident "int", .ident "whenot", .ident "b", .punct ';' false, .ident "let", .ident "b",
     .punct '=' false, .ident "blink", .group .paren [], .punct ';' false, .ident "n1",
     .punct '=' false, .ident "counter", .group .paren [.group .paren [], .ident "when",
     .ident "b"], .punct ';' false, .ident "n2", .punct '=' false, .ident "counter",
     .group .paren [.group .paren [], .ident "whenot", .ident "b"], .punct ';' false,
     .ident "assert", .group .paren [.ident "merge", .ident "b", .ident "n1", .ident "n2",
     .punct '=' false, .lit (.int 0), .punct '-' true, .punct '>' false, .lit (.int 0),
     .punct '-' true, .punct '>' false, .lit (.int 1), .punct '-' true, .punct '>' false,
     .lit (.int 1), .punct '-' true, .punct '>' false, .lit (.int 2), .punct '-' true,
     .punct '>' false, .lit (.int 2), .punct '-' true, .punct '>' false, .lit (.int 3),
     .punct '-' true, .punct '>' false, .lit (.int 3), .punct '-' true, .punct '>' false,
     .lit (.int 4), .punct '-' true, .punct '>' false, .lit (.int 4)], .punct ';' false,
     .ident "tel", .punct ';' false]] = true := by
  decide +kernel

/-- chandeliers-lus/tests/pass/syn/args.rs -/
example : accepted [
    [.ident "node", .ident "zero", .group .paren [], .ident "returns", .group .paren [],
     .punct ';' false, .ident "let", .ident "tel", .punct ';' false, .ident "node",
     .ident "test_zero", .group .paren [], .ident "returns", .group .paren [], .punct ';' false,
     .ident "let", .group .paren [], .punct '=' false, .ident "zero",
     .group .paren [.group .paren [.group .paren []]], .punct ';' false, .ident "tel",
     .punct ';' false, .ident "node", .ident "one", .group .paren [.ident "_i", .punct ':' false,
     .ident "int"], .ident "returns", .group .paren [], .punct ';' false, .ident "let",
     .ident "tel", .punct ';' false, .ident "node", .ident "test_one", .group .paren [],
     .ident "returns", .group .paren [], .punct ';' false, .ident "let", .group .paren [],
     .punct '=' false, .ident "one", .group .paren [.group .paren [.lit (.int 1)]],
     .punct ';' false, .ident "tel", .punct ';' false, .ident "node", .ident "two",
     .group .paren [.ident "_i", .punct ',' false, .ident "_j", .punct ':' false, .ident "int"],
     .ident "returns", .group .paren [], .punct ';' false, .ident "let", .ident "tel",
     .punct ';' false, .ident "node", .ident "test_two", .group .paren [], .ident "returns",
     .group .paren [], .punct ';' false, .ident "let", .group .paren [], .punct '=' false,
     .ident "two", .group .paren [.group .paren [.lit (.int 1), .punct ',' false, .lit (.int 2)]],
     .punct ';' false, .ident "tel", .punct ';' false, .ident "node", .ident "three",
     .group .paren [.ident "_i", .punct ',' false, .ident "_j", .punct ',' false, .ident "_k",
     .punct ':' false, .ident "int"], .ident "returns", .group .paren [], .punct ';' false,
     .ident "let", .ident "tel", .punct ';' false, .ident "node", .ident "test_three",
     .group .paren [], .ident "returns", .group .paren [], .punct ';' false, .ident "let",
     .group .paren [], .punct '=' false, .ident "three",
     .group .paren [.group .paren [.lit (.int 1), .punct ',' false, .lit (.int 2),
     .punct ',' false, .lit (.int 3)]], .punct ';' false, .ident "tel", .punct ';' false]] = true := by
  decide +kernel

/-- chandeliers-lus/tests/pass/syn/assoc.rs -/
example : accepted [
    [.punct '#' false, .group .bracket [.ident "export"], .ident "node", .ident "assoc",
     .group .paren [], .ident "returns", .group .paren [], .punct ';' false, .ident "let",
     .ident "assert", .lit (.int 5), .punct '-' false, .lit (.int 1), .punct '-' false,
     .lit (.int 1), .punct '-' false, .lit (.int 1), .punct '=' false, .lit (.int 2),
     .punct ';' false, .ident "assert", .lit (.int 5), .punct '-' false, .lit (.int 1),
     .punct '+' false, .lit (.int 2), .punct '=' false, .lit (.int 6), .punct ';' false,
     .ident "assert", .lit (.int 8), .punct '/' false, .lit (.int 2), .punct '/' false,
     .lit (.int 2), .punct '=' false, .lit (.int 2), .punct ';' false, .ident "assert",
     .lit (.int 8), .punct '/' false, .lit (.int 2), .punct '*' false, .lit (.int 4),
     .punct '=' false, .lit (.int 16), .punct ';' false, .ident "assert", .lit (.int 1),
     .punct '*' false, .lit (.int 2), .punct '+' false, .lit (.int 1), .punct '*' false,
     .lit (.int 2), .punct '=' false, .lit (.int 4), .punct ';' false, .ident "assert",
     .punct '-' true, .punct '-' false, .ident "pre", .punct '-' true, .punct '-' false,
     .lit (.int 4), .punct '=' false, .lit (.int 4), .punct ';' false, .ident "tel"]] = true := by
  decide +kernel

/-- chandeliers-lus/tests/pass/syn/fby-assoc.rs -/
example : accepted [
    [.ident "node", .ident "count", .group .paren [], .ident "returns", .group .paren [.ident "n",
     .punct ':' false, .ident "int"], .punct ';' false, .ident "let", .ident "n", .punct '=' false,
     .lit (.int 0), .ident "fby", .ident "n", .punct '+' false, .lit (.int 1), .punct ';' false,
     .ident "tel", .punct ';' false, .ident "node", .ident "a", .group .paren [], .ident "returns",
     .group .paren [.ident "i", .punct ',' false, .ident "j", .punct ':' false, .ident "int"],
     .punct ';' false, .ident "let", .ident "i", .punct '=' false, .lit (.int 0), .punct ';' false,
     .ident "j", .punct '=' false, .ident "count", .group .paren [], .punct ';' false,
     .ident "tel", .punct ';' false, .ident "node", .ident "b", .group .paren [], .ident "returns",
     .group .paren [.ident "i", .punct ',' false, .ident "j", .punct ':' false, .ident "int"],
     .punct ';' false, .ident "let", .ident "i", .punct '=' false, .lit (.int 1), .punct ';' false,
     .ident "j", .punct '=' false, .ident "count", .group .paren [], .punct ';' false,
     .ident "tel", .punct ';' false, .ident "node", .ident "c", .group .paren [], .ident "returns",
     .group .paren [.ident "i", .punct ',' false, .ident "j", .punct ':' false, .ident "int"],
     .punct ';' false, .ident "let", .ident "i", .punct '=' false, .lit (.int 2), .punct ';' false,
     .ident "j", .punct '=' false, .ident "count", .group .paren [], .punct ';' false,
     .ident "tel", .punct ';' false, .punct '#' false, .group .bracket [.ident "trace",
     .group .bracket [.ident "stderr"]], .ident "node", .ident "testing", .group .paren [],
     .ident "returns", .group .paren [.ident "i", .punct ',' false, .ident "j", .punct ':' false,
     .ident "int"], .punct ';' false, .ident "let", .group .paren [.ident "i", .punct ',' false,
     .ident "j"], .punct '=' false, .ident "a", .group .paren [], .ident "fby", .ident "b",
     .group .paren [], .ident "fby", .ident "c", .group .paren [], .punct ';' false, .ident "tel",
     .punct ';' false, .ident "node", .ident "witness", .group .paren [], .ident "returns",
     .group .paren [.ident "i", .punct ',' false, .ident "j", .punct ':' false, .ident "int"],
     .punct ';' false, .ident "let", .group .paren [.ident "i", .punct ',' false, .ident "j"],
     .punct '=' false, .group .paren [.lit (.int 0), .punct ',' false, .lit (.int 0)],
     .punct '-' true, .punct '>' false, .group .paren [.lit (.int 1), .punct ',' false,
     .lit (.int 0)], .punct '-' true, .punct '>' false, .group .paren [.lit (.int 2),
     .punct ',' false, .lit (.int 0)], .punct '-' true, .punct '>' false,
     .group .paren [.lit (.int 2), .punct ',' false, .lit (.int 1)], .punct '-' true,
     .punct '>' false, .group .paren [.lit (.int 2), .punct ',' false, .lit (.int 2)],
     .punct '-' true, .punct '>' false, .group .paren [.lit (.int 2), .punct ',' false,
     .lit (.int 3)], .punct '-' true, .punct '>' false, .group .paren [.lit (.int 2),
     .punct ',' false, .lit (.int 4)], .punct ';' false, .ident "tel", .punct ';' false,
     .punct '#' false, .group .bracket [.ident "main", .group .paren [.lit (.int 7)]],
     .ident "node", .ident "system", .group .paren [], .ident "returns", .group .paren [],
     .punct ';' false, .ident "var", .ident "ti", .punct ',' false, .ident "tj", .punct ',' false,
     .ident "wi", .punct ',' false, .ident "wj", .punct ':' false, .ident "int", .punct ';' false,
     .ident "let", .group .paren [.ident "ti", .punct ',' false, .ident "tj"], .punct '=' false,
     .ident "testing", .group .paren [], .punct ';' false, .group .paren [.ident "wi",
     .punct ',' false, .ident "wj"], .punct '=' false, .ident "witness", .group .paren [],
     .punct ';' false, .ident "assert", .ident "ti", .punct '=' false, .ident "wi",
     .punct ';' false, .ident "assert", .ident "tj", .punct '=' false, .ident "wj",
     .punct ';' false, .ident "tel", .punct ';' false]] = true := by
  decide +kernel

/-- chandeliers-lus/tests/pass/syn/iftup.rs -/
example : accepted [
    [.punct '#' false, .group .bracket [.ident "export"], .ident "node", .ident "select",
     .group .paren [.ident "i", .punct ':' false, .ident "bool", .punct ';' false, .ident "a1",
     .punct ',' false, .ident "b1", .punct ',' false, .ident "c1", .punct ',' false, .ident "a2",
     .punct ',' false, .ident "b2", .punct ',' false, .ident "c2", .punct ':' false, .ident "int"],
     .ident "returns", .group .paren [.ident "a", .punct ',' false, .ident "b", .punct ',' false,
     .ident "c", .punct ':' false, .ident "int"], .punct ';' false, .ident "let",
     .group .paren [.ident "a", .punct ',' false, .ident "b", .punct ',' false, .ident "c"],
     .punct '=' false, .ident "if", .ident "i", .ident "then", .group .paren [.ident "a1",
     .punct ',' false, .ident "b1", .punct ',' false, .ident "c1"], .ident "else",
     .group .paren [.ident "a2", .punct ',' false, .ident "b2", .punct ',' false, .ident "c2"],
     .punct ';' false, .group .paren [], .punct '=' false, .ident "if", .ident "not", .ident "i",
     .ident "then", .group .paren [], .ident "else", .group .paren [], .punct ';' false,
     .group .paren [.group .paren [], .punct ',' false, .group .paren []], .punct '=' false,
     .group .paren [.group .paren [], .punct ',' false, .group .paren []], .punct ';' false,
     .ident "tel"]] = true := by
  decide +kernel

/-- chandeliers-lus/tests/pass/syn/node-ordering.rs -/
example : accepted [
    [.ident "node", .ident "f", .group .paren [], .ident "returns", .group .paren [],
     .punct ';' false, .ident "let", .group .paren [], .punct '=' false, .ident "g",
     .group .paren [], .punct ';' false, .ident "tel", .punct ';' false, .ident "node", .ident "g",
     .group .paren [], .ident "returns", .group .paren [], .punct ';' false, .ident "let",
     .group .paren [], .punct '=' false, .ident "h", .group .paren [], .punct ';' false,
     .ident "tel", .punct ';' false, .ident "node", .ident "h", .group .paren [], .ident "returns",
     .group .paren [], .punct ';' false, .ident "let", .ident "tel", .punct ';' false]] = true := by
  decide +kernel

/-- chandeliers-lus/tests/pass/syn/then-assoc.rs -/
example : accepted [
    [.ident "node", .ident "count", .group .paren [], .ident "returns", .group .paren [.ident "n",
     .punct ':' false, .ident "int"], .punct ';' false, .ident "let", .ident "n", .punct '=' false,
     .lit (.int 0), .ident "fby", .ident "n", .punct '+' false, .lit (.int 1), .punct ';' false,
     .ident "tel", .punct ';' false, .ident "node", .ident "a", .group .paren [], .ident "returns",
     .group .paren [.ident "i", .punct ',' false, .ident "j", .punct ':' false, .ident "int"],
     .punct ';' false, .ident "let", .ident "i", .punct '=' false, .lit (.int 0), .punct ';' false,
     .ident "j", .punct '=' false, .ident "count", .group .paren [], .punct ';' false,
     .ident "tel", .punct ';' false, .ident "node", .ident "b", .group .paren [], .ident "returns",
     .group .paren [.ident "i", .punct ',' false, .ident "j", .punct ':' false, .ident "int"],
     .punct ';' false, .ident "let", .ident "i", .punct '=' false, .lit (.int 1), .punct ';' false,
     .ident "j", .punct '=' false, .ident "count", .group .paren [], .punct ';' false,
     .ident "tel", .punct ';' false, .ident "node", .ident "c", .group .paren [], .ident "returns",
     .group .paren [.ident "i", .punct ',' false, .ident "j", .punct ':' false, .ident "int"],
     .punct ';' false, .ident "let", .ident "i", .punct '=' false, .lit (.int 2), .punct ';' false,
     .ident "j", .punct '=' false, .ident "count", .group .paren [], .punct ';' false,
     .ident "tel", .punct ';' false, .punct '#' false, .group .bracket [.ident "trace",
     .group .bracket [.ident "stderr"]], .ident "node", .ident "testing", .group .paren [],
     .ident "returns", .group .paren [.ident "i", .punct ',' false, .ident "j", .punct ':' false,
     .ident "int"], .punct ';' false, .ident "let", .group .paren [.ident "i", .punct ',' false,
     .ident "j"], .punct '=' false, .ident "a", .group .paren [], .punct '-' true,
     .punct '>' false, .ident "b", .group .paren [], .punct '-' true, .punct '>' false, .ident "c",
     .group .paren [], .punct ';' false, .ident "tel", .punct ';' false, .ident "node",
     .ident "witness", .group .paren [], .ident "returns", .group .paren [.ident "i",
     .punct ',' false, .ident "j", .punct ':' false, .ident "int"], .punct ';' false, .ident "let",
     .group .paren [.ident "i", .punct ',' false, .ident "j"], .punct '=' false,
     .group .paren [.lit (.int 0), .punct ',' false, .lit (.int 0)], .punct '-' true,
     .punct '>' false, .group .paren [.lit (.int 1), .punct ',' false, .lit (.int 1)],
     .punct '-' true, .punct '>' false, .group .paren [.lit (.int 2), .punct ',' false,
     .lit (.int 2)], .punct '-' true, .punct '>' false, .group .paren [.lit (.int 2),
     .punct ',' false, .lit (.int 3)], .punct '-' true, .punct '>' false,
     .group .paren [.lit (.int 2), .punct ',' false, .lit (.int 4)], .punct '-' true,
     .punct '>' false, .group .paren [.lit (.int 2), .punct ',' false, .lit (.int 5)],
     .punct '-' true, .punct '>' false, .group .paren [.lit (.int 2), .punct ',' false,
     .lit (.int 6)], .punct ';' false, .ident "tel", .punct ';' false, .punct '#' false,
     .group .bracket [.ident "main", .group .paren [.lit (.int 7)]], .ident "node",
     .ident "system", .group .paren [], .ident "returns", .group .paren [], .punct ';' false,
     .ident "var", .ident "ti", .punct ',' false, .ident "tj", .punct ',' false, .ident "wi",
     .punct ',' false, .ident "wj", .punct ':' false, .ident "int", .punct ';' false, .ident "let",
     .group .paren [.ident "ti", .punct ',' false, .ident "tj"], .punct '=' false,
     .ident "testing", .group .paren [], .punct ';' false, .group .paren [.ident "wi",
     .punct ',' false, .ident "wj"], .punct '=' false, .ident "witness", .group .paren [],
     .punct ';' false, .ident "assert", .ident "ti", .punct '=' false, .ident "wi",
     .punct ';' false, .ident "assert", .ident "tj", .punct '=' false, .ident "wj",
     .punct ';' false, .ident "tel", .punct ';' false]] = true := by
  decide +kernel

/-- chandeliers-lus/tests/pass/syn/tup-feedback.rs -/
example : accepted [
    [.ident "node", .ident "swap", .group .paren [.ident "inl", .punct ',' false, .ident "inr",
     .punct ':' false, .ident "int"], .ident "returns", .group .paren [.ident "outl",
     .punct ',' false, .ident "outr", .punct ':' false, .ident "int"], .punct ';' false,
     .ident "let", .group .paren [.ident "outl", .punct ',' false, .ident "outr"],
     .punct '=' false, .group .paren [.ident "inr", .punct ',' false, .ident "inl"],
     .punct ';' false, .ident "tel", .punct ';' false, .punct '#' false,
     .group .bracket [.ident "export"], .ident "node", .ident "id", .group .paren [.ident "inl",
     .punct ',' false, .ident "inr", .punct ':' false, .ident "int"], .ident "returns",
     .group .paren [.ident "outl", .punct ',' false, .ident "outr", .punct ':' false,
     .ident "int"], .punct ';' false, .ident "let", .group .paren [.ident "outl", .punct ',' false,
     .ident "outr"], .punct '=' false, .ident "swap", .group .paren [.ident "swap",
     .group .paren [.ident "inl", .punct ',' false, .ident "inr"]], .punct ';' false, .ident "tel",
     .punct ';' false]] = true := by
  decide +kernel

/-- chandeliers-lus/tests/pass/syn/unit-arg.rs -/
example : accepted [
    [.ident "node", .ident "foo", .group .paren [], .ident "returns", .group .paren [],
     .punct ';' false, .ident "let", .group .paren [], .punct '=' false,
     .group .paren [.group .paren [.group .paren []]], .punct ';' false,
     .group .paren [.group .paren [], .punct ',' false], .punct '=' false,
     .group .paren [.group .paren [.group .paren [.group .paren []], .punct ',' false]],
     .punct ';' false, .group .paren [.group .paren [.group .paren []]], .punct '=' false,
     .group .paren [], .punct ';' false, .ident "tel", .punct ';' false, .ident "node",
     .ident "bar", .group .paren [], .ident "returns", .group .paren [], .punct ';' false,
     .ident "let", .group .paren [], .punct '=' false, .ident "foo",
     .group .paren [.group .paren [.group .paren []]], .punct ';' false, .ident "tel"]] = true := by
  decide +kernel

/-- chandeliers-lus/tests/pass/ui/assign.rs -/
example : accepted [
    [.ident "node", .ident "test", .group .paren [], .ident "returns", .group .paren [],
     .punct ';' false, .ident "var", .ident "a", .punct ',' false, .ident "b", .punct ',' false,
     .ident "c", .punct ',' false, .ident "d", .punct ',' false, .ident "e", .punct ',' false,
     .ident "f", .punct ',' false, .ident "g", .punct ',' false, .ident "h", .punct ',' false,
     .ident "i", .punct ',' false, .ident "j", .punct ',' false, .ident "k", .punct ',' false,
     .ident "l", .punct ',' false, .ident "m", .punct ',' false, .ident "n", .punct ',' false,
     .ident "o", .punct ',' false, .ident "p", .punct ',' false, .ident "q", .punct ':' false,
     .ident "int", .punct ';' false, .ident "let", .ident "a", .punct '=' false, .lit (.int 1),
     .punct ';' false, .group .paren [.ident "b"], .punct '=' false, .lit (.int 2),
     .punct ';' false, .group .paren [.group .paren [.ident "c"]], .punct '=' false, .lit (.int 3),
     .punct ';' false, .group .paren [.ident "d", .punct ',' false, .group .paren [.ident "e"],
     .punct ',' false, .ident "f"], .punct '=' false, .group .paren [.lit (.int 4),
     .punct ',' false, .lit (.int 5), .punct ',' false, .lit (.int 6)], .punct ';' false,
     .group .paren [.group .paren [.ident "g", .punct ',' false, .ident "h"], .punct ',' false,
     .ident "i"], .punct '=' false, .group .paren [.group .paren [.lit (.int 7), .punct ',' false,
     .group .paren [.group .paren [.lit (.int 8)]]], .punct ',' false,
     .group .paren [.group .paren [.group .paren [.group .paren [.lit (.int 9)]]]]],
     .punct ';' false,
     .group .paren [.group .paren [.group .paren [.group .paren [.group .paren [.group .paren [.ident "j"],
     .punct ',' false]], .punct ',' false]]], .punct '=' false,
     .group .paren [.group .paren [.lit (.int 3), .punct ',' false], .punct ',' false],
     .punct ';' false, .group .paren [.ident "k", .punct ',' false,
     .group .paren [.group .paren [.group .paren [.ident "l", .punct ',' false, .ident "m",
     .punct ',' false, .ident "n"]]], .punct ',' false, .ident "o", .punct ',' false, .ident "p",
     .punct ',' false, .group .paren [.ident "q", .punct ',' false]], .punct '=' false,
     .group .paren [.lit (.int 5), .punct ',' false, .group .paren [.lit (.int 6),
     .punct ',' false, .lit (.int 7), .punct ',' false, .lit (.int 8)], .punct ',' false,
     .lit (.int 9), .punct ',' false, .group .paren [.group .paren [.lit (.int 10)]],
     .punct ',' false, .group .paren [.group .paren [.lit (.int 11), .punct ',' false]],
     .punct ',' false], .punct ';' false, .ident "tel"]] = true := by
  decide +kernel

/-- chandeliers-lus/tests/pass/ui/atomics.rs -/
example : accepted [
    [.ident "extern", .ident "node", .ident "float_of_int", .group .paren [.ident "i",
     .punct ':' false, .ident "int"], .ident "returns", .group .paren [.ident "f",
     .punct ':' false, .ident "float"], .punct ';' false, .ident "node", .ident "foo",
     .group .paren [], .ident "returns", .group .paren [], .punct ';' false, .ident "var",
     .ident "_t", .punct ':' false, .ident "bool", .punct ';' false, .ident "let", .ident "_t",
     .punct '=' false, .ident "not", .ident "pre", .ident "not", .ident "not", .ident "pre",
     .group .paren [.ident "pre", .ident "not", .ident "not", .ident "true", .ident "or",
     .ident "not", .ident "not", .group .paren [.ident "pre", .ident "float_of_int",
     .group .paren [.lit (.int 1)], .punct '>' false, .ident "pre", .punct '-' false, .ident "pre",
     .ident "pre", .punct '-' false, .punct '-' false, .punct '-' false, .punct '-' false,
     .lit (.float (some ⟨0⟩))]], .punct ';' false, .ident "tel"]] = true := by
  decide +kernel

/-- chandeliers-lus/tests/pass/ui/collision.rs -/
example : accepted [
    [.ident "node", .ident "inc", .group .paren [.ident "x", .punct ':' false, .ident "int"],
     .ident "returns", .group .paren [.ident "y", .punct ':' false, .ident "int"],
     .punct ';' false, .ident "let", .ident "y", .punct '=' false, .ident "x", .punct '+' false,
     .lit (.int 1), .punct ';' false, .ident "tel"]] = true := by
  decide +kernel

/-- chandeliers-lus/tests/pass/ui/constexpr.rs -/
example : accepted [
    [.ident "extern", .ident "const", .ident "E", .punct ':' false, .ident "int", .punct ';' false,
     .punct '#' false, .group .bracket [.ident "export"], .ident "const", .ident "B",
     .punct ':' false, .ident "bool", .punct '=' false, .group .paren [.ident "true",
     .punct '=' false, .ident "false"], .ident "or", .ident "not", .group .paren [.ident "true",
     .punct '=' false, .ident "false"], .punct ';' false, .punct '#' false,
     .group .bracket [.ident "export"], .ident "const", .ident "X", .punct ':' false, .ident "int",
     .punct '=' false, .ident "if", .ident "B", .ident "then", .lit (.int 5), .ident "else",
     .lit (.int 42), .punct ';' false, .punct '#' false, .group .bracket [.ident "export"],
     .ident "const", .ident "Y", .punct ':' false, .ident "int", .punct '=' false, .ident "X",
     .punct '+' false, .group .paren [.ident "if", .ident "not", .ident "not", .ident "not",
     .ident "B", .ident "then", .lit (.int 0), .ident "else", .lit (.int 1)], .punct ';' false,
     .punct '#' false, .group .bracket [.ident "export"], .ident "const", .ident "Z",
     .punct ':' false, .ident "bool", .punct '=' false, .group .paren [.lit (.int 2),
     .punct '*' false, .ident "X", .punct '*' false, .ident "Y"], .punct '<' true,
     .punct '=' false, .lit (.int 100), .punct ';' false, .punct '#' false,
     .group .bracket [.ident "export"], .ident "const", .ident "E2", .punct ':' false,
     .ident "int", .punct '=' false, .ident "E", .punct ';' false]] = true := by
  decide +kernel

/-- chandeliers-lus/tests/pass/ui/empty.rs -/
example : accepted [
    [.ident "node", .ident "empty_all", .group .paren [], .ident "returns", .group .paren [],
     .punct ';' false, .ident "let", .ident "tel", .punct ';' false, .ident "node",
     .ident "empty_with_var", .group .paren [], .ident "returns", .group .paren [],
     .punct ';' false, .ident "var", .ident "x", .punct ':' false, .ident "bool", .punct ';' false,
     .ident "let", .ident "x", .punct '=' false, .ident "true", .punct ';' false, .ident "tel",
     .punct ';' false]] = true := by
  decide +kernel

/-- chandeliers-lus/tests/pass/ui/kw.rs -/
example : accepted [
    [.ident "extern", .ident "node", .ident "float_of_int", .group .paren [.ident "i",
     .punct ':' false, .ident "int"], .ident "returns", .group .paren [.ident "f",
     .punct ':' false, .ident "float"], .punct ';' false, .ident "node", .ident "fn",
     .group .paren [.ident "unsafe", .punct ':' false, .ident "int"], .ident "returns",
     .group .paren [.ident "return", .punct ':' false, .ident "float"], .punct ';' false,
     .ident "var", .ident "trait", .punct ':' false, .ident "bool", .punct ';' false, .ident "let",
     .ident "trait", .punct '=' false, .ident "true", .ident "fby", .group .paren [.ident "not",
     .ident "trait"], .punct ';' false, .ident "return", .punct '=' false, .ident "if",
     .ident "trait", .ident "then", .ident "float_of_int", .group .paren [.ident "unsafe"],
     .ident "else", .group .paren [.ident "float_of_int", .group .paren [.ident "unsafe"],
     .punct '+' false, .lit (.float (some ⟨0⟩)), .ident "fby", .ident "return"], .punct ';' false,
     .ident "tel", .punct ';' false, .ident "const", .ident "as", .punct ':' false, .ident "int",
     .punct '=' false, .lit (.int 0), .punct ';' false, .punct '#' false,
     .group .bracket [.ident "export"], .ident "const", .ident "break", .punct ':' false,
     .ident "int", .punct '=' false, .lit (.int 0), .punct ';' false, .ident "const",
     .ident "continue", .punct ':' false, .ident "int", .punct '=' false, .lit (.int 0),
     .punct ';' false, .ident "const", .ident "enum", .punct ':' false, .ident "int",
     .punct '=' false, .lit (.int 0), .punct ';' false, .ident "const", .ident "fn",
     .punct ':' false, .ident "int", .punct '=' false, .lit (.int 0), .punct ';' false,
     .ident "const", .ident "for", .punct ':' false, .ident "int", .punct '=' false, .lit (.int 0),
     .punct ';' false, .ident "const", .ident "impl", .punct ':' false, .ident "int",
     .punct '=' false, .lit (.int 0), .punct ';' false, .ident "const", .ident "in",
     .punct ':' false, .ident "int", .punct '=' false, .lit (.int 0), .punct ';' false,
     .ident "const", .ident "loop", .punct ':' false, .ident "int", .punct '=' false,
     .lit (.int 0), .punct ';' false, .ident "const", .ident "match", .punct ':' false,
     .ident "int", .punct '=' false, .lit (.int 0), .punct ';' false, .ident "const", .ident "mod",
     .punct ':' false, .ident "int", .punct '=' false, .lit (.int 0), .punct ';' false,
     .ident "const", .ident "mut", .punct ':' false, .ident "int", .punct '=' false, .lit (.int 0),
     .punct ';' false, .ident "const", .ident "pub", .punct ':' false, .ident "int",
     .punct '=' false, .lit (.int 0), .punct ';' false, .ident "const", .ident "ref",
     .punct ':' false, .ident "int", .punct '=' false, .lit (.int 0), .punct ';' false,
     .ident "const", .ident "return", .punct ':' false, .ident "int", .punct '=' false,
     .lit (.int 0), .punct ';' false, .ident "const", .ident "struct", .punct ':' false,
     .ident "int", .punct '=' false, .lit (.int 0), .punct ';' false, .ident "const",
     .ident "trait", .punct ':' false, .ident "int", .punct '=' false, .lit (.int 0),
     .punct ';' false, .ident "const", .ident "type", .punct ':' false, .ident "int",
     .punct '=' false, .lit (.int 0), .punct ';' false, .ident "const", .ident "unsafe",
     .punct ':' false, .ident "int", .punct '=' false, .lit (.int 0), .punct ';' false,
     .ident "const", .ident "use", .punct ':' false, .ident "int", .punct '=' false, .lit (.int 0),
     .punct ';' false, .ident "const", .ident "where", .punct ':' false, .ident "int",
     .punct '=' false, .lit (.int 0), .punct ';' false, .ident "const", .ident "while",
     .punct ':' false, .ident "int", .punct '=' false, .lit (.int 0), .punct ';' false,
     .ident "const", .ident "async", .punct ':' false, .ident "int", .punct '=' false,
     .lit (.int 0), .punct ';' false, .ident "const", .ident "await", .punct ':' false,
     .ident "int", .punct '=' false, .lit (.int 0), .punct ';' false, .ident "const", .ident "dyn",
     .punct ':' false, .ident "int", .punct '=' false, .lit (.int 0), .punct ';' false,
     .ident "const", .ident "abstract", .punct ':' false, .ident "int", .punct '=' false,
     .lit (.int 0), .punct ';' false, .ident "const", .ident "become", .punct ':' false,
     .ident "int", .punct '=' false, .lit (.int 0), .punct ';' false, .ident "const", .ident "box",
     .punct ':' false, .ident "int", .punct '=' false, .lit (.int 0), .punct ';' false,
     .ident "const", .ident "do", .punct ':' false, .ident "int", .punct '=' false, .lit (.int 0),
     .punct ';' false, .ident "const", .ident "final", .punct ':' false, .ident "int",
     .punct '=' false, .lit (.int 0), .punct ';' false, .ident "const", .ident "macro",
     .punct ':' false, .ident "int", .punct '=' false, .lit (.int 0), .punct ';' false,
     .ident "const", .ident "override", .punct ':' false, .ident "int", .punct '=' false,
     .lit (.int 0), .punct ';' false, .ident "const", .ident "priv", .punct ':' false,
     .ident "int", .punct '=' false, .lit (.int 0), .punct ';' false, .ident "const",
     .ident "typeof", .punct ':' false, .ident "int", .punct '=' false, .lit (.int 0),
     .punct ';' false, .ident "const", .ident "unsized", .punct ':' false, .ident "int",
     .punct '=' false, .lit (.int 0), .punct ';' false, .ident "const", .ident "virtual",
     .punct ':' false, .ident "int", .punct '=' false, .lit (.int 0), .punct ';' false,
     .ident "const", .ident "yield", .punct ':' false, .ident "int", .punct '=' false,
     .lit (.int 0), .punct ';' false]] = true := by
  decide +kernel

/-- chandeliers-lus/tests/pass/ui/repeated-extern.rs -/
example : accepted [
    [.ident "extern", .ident "const", .ident "T", .punct ':' false, .ident "int", .punct ';' false],
    [.ident "extern", .ident "const", .ident "T", .punct ':' false, .ident "int", .punct ';' false],
    [.ident "extern", .ident "const", .ident "T", .punct ':' false, .ident "int", .punct ';' false]] = true := by
  decide +kernel

/-- chandeliers-lus/tests/pass/ui/same-name.rs -/
example : accepted [
    [.punct '#' false, .group .bracket [.ident "export"], .ident "const", .ident "X",
     .punct ':' false, .ident "int", .punct '=' false, .lit (.int 0), .punct ';' false,
     .punct '#' false, .group .bracket [.ident "export"], .ident "node", .ident "X",
     .group .paren [], .ident "returns", .group .paren [.ident "X", .punct ':' false,
     .ident "int"], .punct ';' false, .ident "let", .ident "X", .punct '=' false, .lit (.int 1),
     .punct ';' false, .ident "tel"]] = true := by
  decide +kernel

/-- chandeliers-lus/tests/pass/ui/unit-tuple.rs -/
example : accepted [
    [.ident "node", .ident "verify", .group .paren [.ident "b", .punct ':' false, .ident "bool"],
     .ident "returns", .group .paren [], .punct ';' false, .ident "let", .ident "assert",
     .ident "b", .punct ';' false, .ident "tel", .punct ';' false, .punct '#' false,
     .group .bracket [.ident "export"], .ident "node", .ident "never_odd",
     .group .paren [.ident "i", .punct ':' false, .ident "int"], .ident "returns",
     .group .paren [], .punct ';' false, .ident "let", .group .paren [], .punct '=' false,
     .ident "verify", .group .paren [.ident "i", .punct '%' false, .lit (.int 2), .punct '=' false,
     .lit (.int 0)], .punct ';' false, .ident "tel", .punct ';' false]] = true := by
  decide +kernel

end Chandeliers.Tests
