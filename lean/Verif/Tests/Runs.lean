import Verif.Tests.Kinds

/-!
# Tests that must run without a panic

Written by `tools/conformance.py`: do not edit.
-/

set_option autoImplicit false
set_option maxRecDepth 100000

namespace Chandeliers.Tests
open San Syn Err

/-- chandeliers-lus/tests/pass/options/ext-main.rs -/
example : runs [
    [.punct '#' false, .group .bracket [.ident "export"], .ident "node", .ident "system",
     .group .paren [], .ident "returns", .group .paren [], .punct ';' false, .ident "let",
     .ident "assert", .ident "true", .punct ';' false, .ident "tel", .punct ';' false],
    [.ident "extern", .ident "node", .ident "system", .group .paren [], .ident "returns",
     .group .paren [], .punct ';' false, .punct '#' false, .group .bracket [.ident "pub"],
     .ident "node", .ident "main", .group .paren [], .ident "returns", .group .paren [],
     .punct ';' false, .ident "let", .group .paren [], .punct '=' false, .ident "system",
     .group .paren [], .punct ';' false, .ident "tel", .punct ';' false],
    [.punct '#' false, .group .bracket [.ident "main", .group .paren [.lit (.int 10)]],
     .ident "extern", .ident "node", .ident "main", .group .paren [], .ident "returns",
     .group .paren [], .punct ';' false]] = [true] := by
  decide +kernel

/-- chandeliers-lus/tests/pass/options/ext-trace.rs -/
example : runs [
    [.punct '#' false, .group .bracket [.ident "trace", .group .bracket [.ident "stderr"]],
     .punct '#' false, .group .bracket [.ident "export"], .ident "node", .ident "cumul",
     .group .paren [.ident "i", .punct ':' false, .ident "int"], .ident "returns",
     .group .paren [.ident "s", .punct ':' false, .ident "int"], .punct ';' false, .ident "let",
     .ident "s", .punct '=' false, .ident "i", .punct '+' false, .group .paren [.lit (.int 0),
     .ident "fby", .ident "s"], .punct ';' false, .ident "tel", .punct ';' false],
    [.punct '#' false, .group .bracket [.ident "trace"], .ident "extern", .ident "node",
     .ident "cumul", .group .paren [.ident "i", .punct ':' false, .ident "int"], .ident "returns",
     .group .paren [.ident "s", .punct ':' false, .ident "int"], .punct ';' false,
     .punct '#' false, .group .bracket [.ident "main", .group .paren [.lit (.int 10)]],
     .ident "node", .ident "system", .group .paren [], .ident "returns", .group .paren [],
     .punct ';' false, .ident "var", .ident "i", .punct ':' false, .ident "int", .punct ';' false,
     .ident "let", .ident "i", .punct '=' false, .ident "cumul", .group .paren [.lit (.int 1),
     .ident "fby", .ident "i"], .punct ';' false, .ident "assert", .ident "i", .punct '<' false,
     .lit (.int 1000), .punct ';' false, .ident "tel", .punct ';' false]] = [true] := by
  decide +kernel

/-- chandeliers-lus/tests/pass/options/main.rs -/
example : runs [
    [.punct '#' false, .group .bracket [.ident "main"], .ident "node", .ident "system",
     .group .paren [], .ident "returns", .group .paren [], .punct ';' false, .ident "var",
     .ident "n", .punct ':' false, .ident "int", .punct ';' false, .ident "let", .ident "n",
     .punct '=' false, .group .paren [.lit (.int 0), .ident "fby", .ident "n", .punct '+' false,
     .lit (.int 1)], .punct '%' false, .lit (.int 10), .punct ';' false, .ident "assert",
     .ident "n", .punct '<' false, .lit (.int 10), .punct ';' false, .ident "tel"]] = [true] := by
  decide +kernel

/-- chandeliers-lus/tests/pass/options/once.rs -/
example : runs [
    [.punct '#' false, .group .bracket [.ident "main", .group .paren [.lit (.int 1)]],
     .ident "node", .ident "system", .group .paren [], .ident "returns", .group .paren [],
     .punct ';' false, .ident "var", .ident "ok", .punct ':' false, .ident "bool",
     .punct ';' false, .ident "let", .ident "ok", .punct '=' false, .ident "true", .punct '-' true,
     .punct '>' false, .ident "false", .punct ';' false, .ident "assert", .ident "ok",
     .punct ';' false, .ident "tel", .punct ';' false]] = [true] := by
  decide +kernel

/-- chandeliers-lus/tests/pass/options/trace-fmt.rs -/
example : runs [
    [.punct '#' false, .group .bracket [.ident "trace", .group .paren [.lit (.str "Fizz")]],
     .ident "node", .ident "fizz", .group .paren [], .ident "returns", .group .paren [],
     .punct ';' false, .ident "let", .ident "tel", .punct ';' false, .punct '#' false,
     .group .bracket [.ident "trace", .group .paren [.lit (.str "Buzz")]], .ident "node",
     .ident "buzz", .group .paren [], .ident "returns", .group .paren [], .punct ';' false,
     .ident "let", .ident "tel", .punct ';' false, .punct '#' false,
     .group .bracket [.ident "trace", .group .paren [.lit (.str "{n}")]], .ident "node",
     .ident "id", .group .paren [.ident "n", .punct ':' false, .ident "int"], .ident "returns",
     .group .paren [], .punct ';' false, .ident "let", .ident "tel", .punct ';' false,
     .punct '#' false, .group .bracket [.ident "trace", .group .paren [.lit (.str "\n")]],
     .ident "node", .ident "newline", .group .paren [], .ident "returns", .group .paren [],
     .punct ';' false, .ident "let", .ident "tel", .punct ';' false, .punct '#' false,
     .group .bracket [.ident "main", .group .paren [.lit (.int 30)]], .ident "node", .ident "main",
     .group .paren [], .ident "returns", .group .paren [], .punct ';' false, .ident "var",
     .ident "n", .punct ':' false, .ident "int", .punct ';' false, .ident "div_3",
     .punct ',' false, .ident "div_5", .punct ',' false, .ident "div_either", .punct ':' false,
     .ident "bool", .punct ';' false, .ident "let", .ident "n", .punct '=' false, .lit (.int 1),
     .ident "fby", .ident "n", .punct '+' false, .lit (.int 1), .punct ';' false, .ident "div_3",
     .punct '=' false, .group .paren [.ident "n", .punct '%' false, .lit (.int 3)],
     .punct '=' false, .lit (.int 0), .punct ';' false, .ident "div_5", .punct '=' false,
     .group .paren [.ident "n", .punct '%' false, .lit (.int 5)], .punct '=' false, .lit (.int 0),
     .punct ';' false, .ident "div_either", .punct '=' false, .ident "div_3", .ident "or",
     .ident "div_5", .punct ';' false, .group .paren [], .punct '=' false, .ident "fizz",
     .group .paren [.group .paren [], .ident "when", .ident "div_3"], .punct ';' false,
     .group .paren [], .punct '=' false, .ident "buzz", .group .paren [.group .paren [],
     .ident "when", .ident "div_5"], .punct ';' false, .group .paren [], .punct '=' false,
     .ident "id", .group .paren [.ident "n", .ident "whenot", .ident "div_either"],
     .punct ';' false, .group .paren [], .punct '=' false, .ident "newline", .group .paren [],
     .punct ';' false, .ident "tel", .punct ';' false]] = [true] := by
  decide +kernel

/-- chandeliers-lus/tests/pass/poly/clkpre.rs -/
example : runs [
    [.punct '#' false, .group .bracket [.ident "generic", .group .bracket [.ident "T"]],
     .ident "node", .ident "ipre", .group .paren [.ident "t", .punct ',' false, .ident "init",
     .punct ':' false, .ident "T"], .ident "returns", .group .paren [.ident "pt", .punct ':' false,
     .ident "T"], .punct ';' false, .ident "let", .ident "pt", .punct '=' false, .ident "init",
     .punct '-' true, .punct '>' false, .ident "pre", .ident "t", .punct ';' false, .ident "tel",
     .punct ';' false, .punct '#' false, .group .bracket [.ident "main",
     .group .paren [.lit (.int 10)]], .punct '#' false, .group .bracket [.ident "trace",
     .group .paren [.lit (.str "{p}:{q} ")]], .ident "node", .ident "main", .group .paren [],
     .ident "returns", .group .paren [], .punct ';' false, .ident "var", .ident "b",
     .punct ':' false, .ident "bool", .punct ';' false, .ident "n", .punct ':' false, .ident "int",
     .punct ';' false, .ident "p", .punct ',' false, .ident "q", .punct ':' false, .ident "int",
     .ident "when", .ident "b", .punct ';' false, .ident "let", .ident "b", .punct '=' false,
     .ident "true", .ident "fby", .ident "true", .ident "fby", .ident "false", .ident "fby",
     .ident "b", .punct ';' false, .ident "n", .punct '=' false, .lit (.int 1), .ident "fby",
     .ident "n", .punct '+' false, .lit (.int 1), .punct ';' false, .ident "p", .punct '=' false,
     .ident "n", .ident "when", .ident "b", .punct ';' false, .ident "q", .punct '=' false,
     .ident "ipre", .group .paren [.group .paren [.ident "n", .punct ',' false, .lit (.int 0)],
     .ident "when", .ident "b"], .punct ';' false, .ident "tel", .punct ';' false]] = [true] := by
  decide +kernel

/-- chandeliers-lus/tests/pass/poly/extern.rs -/
example : runs [
    [.punct '#' false, .group .bracket [.ident "generic", .group .bracket [.ident "T"]],
     .punct '#' false, .group .bracket [.ident "export"], .punct '#' false,
     .group .bracket [.ident "trace", .group .paren [.lit (.str "{_t}\n")]], .ident "node",
     .ident "show", .group .paren [.ident "_t", .punct ':' false, .ident "T"], .ident "returns",
     .group .paren [], .punct ';' false, .ident "let", .ident "tel", .punct ';' false],
    [.punct '#' false, .group .bracket [.ident "generic", .group .bracket [.ident "T"]],
     .ident "extern", .ident "node", .ident "show", .group .paren [.ident "t", .punct ':' false,
     .ident "T"], .ident "returns", .group .paren [], .punct ';' false, .punct '#' false,
     .group .bracket [.ident "main", .group .paren [.lit (.int 1)]], .ident "node", .ident "main",
     .group .paren [], .ident "returns", .group .paren [], .punct ';' false, .ident "let",
     .group .paren [], .punct '=' false, .ident "show", .group .paren [.lit (.int 42)],
     .punct ';' false, .group .paren [], .punct '=' false, .ident "show",
     .group .paren [.ident "true"], .punct ';' false, .group .paren [], .punct '=' false,
     .ident "show", .group .paren [.lit (.float (some ⟨4614253070214989087⟩))], .punct ';' false,
     .ident "tel", .punct ';' false]] = [true] := by
  decide +kernel

/-- chandeliers-lus/tests/pass/poly/initpre.rs -/
example : runs [
    [.punct '#' false, .group .bracket [.ident "generic", .group .bracket [.ident "T"]],
     .ident "node", .ident "ipre", .group .paren [.ident "t", .punct ',' false, .ident "i",
     .punct ':' false, .ident "T"], .ident "returns", .group .paren [.ident "o", .punct ':' false,
     .ident "T"], .punct ';' false, .ident "let", .ident "o", .punct '=' false, .ident "i",
     .punct '-' true, .punct '>' false, .ident "pre", .ident "t", .punct ';' false, .ident "tel",
     .punct ';' false, .punct '#' false, .group .bracket [.ident "main"], .ident "node",
     .ident "main", .group .paren [], .ident "returns", .group .paren [], .punct ';' false,
     .ident "var", .ident "n", .punct ':' false, .ident "int", .punct ';' false, .ident "let",
     .ident "n", .punct '=' false, .lit (.int 0), .ident "fby", .ident "n", .punct '+' false,
     .lit (.int 1), .punct ';' false, .ident "assert", .ident "ipre", .group .paren [.ident "n",
     .punct ',' false, .punct '-' false, .lit (.int 1)], .punct '=' false,
     .group .paren [.punct '-' false, .lit (.int 1), .ident "fby", .ident "n"], .punct ';' false,
     .ident "tel", .punct ';' false]] = [true] := by
  decide +kernel

/-- chandeliers-lus/tests/pass/poly/pre.rs -/
example : runs [
    [.punct '#' false, .group .bracket [.ident "generic", .group .bracket [.ident "T"]],
     .ident "node", .ident "ipre", .group .paren [.ident "t", .punct ',' false, .ident "i",
     .punct ':' false, .ident "T"], .ident "returns", .group .paren [.ident "o", .punct ':' false,
     .ident "T"], .punct ';' false, .ident "let", .ident "o", .punct '=' false, .ident "i",
     .punct '-' true, .punct '>' false, .ident "pre", .ident "t", .punct ';' false, .ident "tel",
     .punct ';' false, .punct '#' false, .group .bracket [.ident "main"], .ident "node",
     .ident "main", .group .paren [], .ident "returns", .group .paren [], .punct ';' false,
     .ident "var", .ident "n", .punct ':' false, .ident "int", .punct ';' false, .ident "let",
     .ident "n", .punct '=' false, .lit (.int 0), .ident "fby", .ident "n", .punct '+' false,
     .lit (.int 1), .punct ';' false, .ident "assert", .ident "ipre", .group .paren [.ident "n",
     .punct ',' false, .punct '-' false, .lit (.int 1)], .punct '=' false,
     .group .paren [.punct '-' false, .lit (.int 1), .ident "fby", .ident "n"], .punct ';' false,
     .ident "tel", .punct ';' false]] = [true] := by
  decide +kernel

/-- chandeliers-lus/tests/pass/poly/swap.rs -/
example : runs [
    [.punct '#' false, .group .bracket [.ident "generic", .group .bracket [.ident "T",
     .punct ',' false, .ident "U"]], .punct '#' false, .group .bracket [.ident "trace",
     .group .paren [.lit (.str "{t0} <-> {u0}\n")]], .ident "node", .ident "swap",
     .group .paren [.ident "t0", .punct ':' false, .ident "T", .punct ';' false, .ident "u0",
     .punct ':' false, .ident "U"], .ident "returns", .group .paren [.ident "u1", .punct ':' false,
     .ident "U", .punct ';' false, .ident "t1", .punct ':' false, .ident "T"], .punct ';' false,
     .ident "let", .ident "t1", .punct '=' false, .ident "t0", .punct ';' false, .ident "u1",
     .punct '=' false, .ident "u0", .punct ';' false, .ident "tel", .punct ';' false,
     .punct '#' false, .group .bracket [.ident "main", .group .paren [.lit (.int 1)]],
     .ident "node", .ident "main", .group .paren [], .ident "returns", .group .paren [],
     .punct ';' false, .ident "var", .ident "_x", .punct ':' false, .ident "int", .punct ';' false,
     .ident "_y", .punct ':' false, .ident "float", .punct ';' false, .ident "let",
     .group .paren [.ident "_x", .punct ',' false, .ident "_y"], .punct '=' false, .ident "swap",
     .group .paren [.ident "swap", .group .paren [.lit (.int 1), .punct ',' false,
     .lit (.float (some ⟨4602678819172646912⟩))]], .punct ';' false, .ident "tel",
     .punct ';' false]] = [true] := by
  decide +kernel

/-- chandeliers-lus/tests/pass/registers/chained-fby.rs -/
example : runs [
    [.punct '#' false, .group .bracket [.ident "trace",
     .group .paren [.lit (.str "witness {b}\n")]], .ident "node", .ident "witness",
     .group .paren [], .ident "returns", .group .paren [.ident "b", .punct ':' false,
     .ident "bool"], .punct ';' false, .ident "let", .ident "b", .punct '=' false, .ident "true",
     .ident "fby", .ident "false", .ident "fby", .ident "false", .ident "fby", .ident "b",
     .punct ';' false, .ident "tel", .punct ';' false, .punct '#' false,
     .group .bracket [.ident "universal_pre"], .punct '#' false, .group .bracket [.ident "trace",
     .group .paren [.lit (.str "testing {b}\n")]], .ident "node", .ident "testing",
     .group .paren [], .ident "returns", .group .paren [.ident "b", .punct ':' false,
     .ident "bool"], .punct ';' false, .ident "let", .ident "b", .punct '=' false, .ident "true",
     .ident "fby", .ident "false", .ident "fby", .ident "false", .ident "fby", .ident "b",
     .punct ';' false, .ident "tel", .punct ';' false, .punct '#' false,
     .group .bracket [.ident "main", .group .paren [.lit (.int 20)]], .ident "node", .ident "main",
     .group .paren [], .ident "returns", .group .paren [], .punct ';' false, .ident "let",
     .ident "assert", .ident "testing", .group .paren [], .punct '=' false, .ident "witness",
     .group .paren [], .punct ';' false, .ident "tel", .punct ';' false]] = [true] := by
  decide +kernel

/-- chandeliers-lus/tests/pass/registers/clocked.rs -/
example : runs [
    [.ident "node", .ident "foo", .group .paren [], .ident "returns", .group .paren [.ident "i",
     .punct ':' false, .ident "int"], .punct ';' false, .ident "let", .ident "i", .punct '=' false,
     .lit (.int 0), .ident "fby", .ident "i", .punct '+' false, .lit (.int 1), .punct ';' false,
     .ident "tel", .punct ';' false, .punct '#' false, .group .bracket [.ident "main",
     .group .paren [.lit (.int 100)]], .punct '#' false, .group .bracket [.ident "universal_pre"],
     .punct '#' false, .group .bracket [.ident "trace",
     .group .paren [.lit (.str "{toggle}=> {witness}=={testing}\n")]], .ident "node",
     .ident "main", .group .paren [], .ident "returns", .group .paren [], .punct ';' false,
     .ident "var", .ident "toggle", .punct ':' false, .ident "bool", .punct ';' false,
     .ident "witness", .punct ',' false, .ident "testing", .punct ':' false, .ident "int",
     .ident "when", .ident "toggle", .punct ';' false, .ident "let", .ident "toggle",
     .punct '=' false, .ident "true", .ident "fby", .ident "false", .ident "fby", .ident "false",
     .ident "fby", .ident "toggle", .punct ';' false, .ident "witness", .punct '=' false,
     .ident "foo", .group .paren [.group .paren [], .ident "when", .ident "toggle"],
     .punct ';' false, .ident "testing", .punct '=' false, .group .paren [.lit (.int 0),
     .ident "when", .ident "toggle"], .ident "fby", .ident "testing", .punct '+' false,
     .lit (.int 1), .punct ';' false, .ident "assert", .ident "merge", .ident "toggle",
     .group .paren [.ident "witness", .punct '=' false, .ident "testing"], .ident "true",
     .punct ';' false, .ident "tel", .punct ';' false]] = [true] := by
  decide +kernel

/-- chandeliers-lus/tests/pass/registers/fby.rs -/
example : runs [
    [.punct '#' false, .group .bracket [.ident "universal_pre"], .punct '#' false,
     .group .bracket [.ident "trace", .group .paren [.lit (.str "testing {x}\n")]], .ident "node",
     .ident "fby_testing", .group .paren [.ident "x", .punct ':' false, .ident "int"],
     .ident "returns", .group .paren [.ident "y", .punct ':' false, .ident "int"],
     .punct ';' false, .ident "let", .ident "y", .punct '=' false, .lit (.int 0), .ident "fby",
     .ident "x", .punct ';' false, .ident "tel", .punct ';' false, .punct '#' false,
     .group .bracket [.ident "trace", .group .paren [.lit (.str "witness {x}\n")]], .ident "node",
     .ident "fby_witness", .group .paren [.ident "x", .punct ':' false, .ident "int"],
     .ident "returns", .group .paren [.ident "y", .punct ':' false, .ident "int"],
     .punct ';' false, .ident "let", .ident "y", .punct '=' false, .lit (.int 0), .ident "fby",
     .ident "x", .punct ';' false, .ident "tel", .punct ';' false, .punct '#' false,
     .group .bracket [.ident "main", .group .paren [.lit (.int 10)]], .ident "node", .ident "main",
     .group .paren [], .ident "returns", .group .paren [], .punct ';' false, .ident "var",
     .ident "n", .punct ':' false, .ident "int", .punct ';' false, .ident "let", .ident "n",
     .punct '=' false, .lit (.int 0), .punct '-' true, .punct '>' false, .lit (.int 5),
     .punct '-' true, .punct '>' false, .lit (.int 4), .punct '-' true, .punct '>' false,
     .lit (.int 3), .punct '-' true, .punct '>' false, .group .paren [.ident "pre", .ident "n",
     .punct '+' false, .ident "pre", .ident "pre", .ident "n", .punct '*' false, .ident "pre",
     .ident "pre", .ident "pre", .ident "n"], .punct '%' false, .lit (.int 100), .punct ';' false,
     .ident "assert", .ident "fby_testing", .group .paren [.ident "n"], .punct '=' false,
     .ident "fby_witness", .group .paren [.ident "n"], .punct ';' false, .ident "tel",
     .punct ';' false]] = [true] := by
  decide +kernel

/-- chandeliers-lus/tests/pass/registers/pre.rs -/
example : runs [
    [.punct '#' false, .group .bracket [.ident "universal_pre"], .punct '#' false,
     .group .bracket [.ident "trace", .group .paren [.lit (.str "testing {x}\n")]], .ident "node",
     .ident "prev_testing", .group .paren [.ident "x", .punct ':' false, .ident "int"],
     .ident "returns", .group .paren [.ident "y", .punct ':' false, .ident "int"],
     .punct ';' false, .ident "let", .ident "y", .punct '=' false, .lit (.int 0), .punct '-' true,
     .punct '>' false, .ident "pre", .ident "x", .punct ';' false, .ident "tel", .punct ';' false,
     .punct '#' false, .group .bracket [.ident "trace",
     .group .paren [.lit (.str "witness {x}\n")]], .ident "node", .ident "prev_witness",
     .group .paren [.ident "x", .punct ':' false, .ident "int"], .ident "returns",
     .group .paren [.ident "y", .punct ':' false, .ident "int"], .punct ';' false, .ident "let",
     .ident "y", .punct '=' false, .lit (.int 0), .punct '-' true, .punct '>' false, .ident "pre",
     .ident "x", .punct ';' false, .ident "tel", .punct ';' false, .punct '#' false,
     .group .bracket [.ident "main", .group .paren [.lit (.int 10)]], .ident "node", .ident "main",
     .group .paren [], .ident "returns", .group .paren [], .punct ';' false, .ident "var",
     .ident "n", .punct ':' false, .ident "int", .punct ';' false, .ident "let", .ident "n",
     .punct '=' false, .lit (.int 0), .punct '-' true, .punct '>' false, .lit (.int 5),
     .punct '-' true, .punct '>' false, .lit (.int 4), .punct '-' true, .punct '>' false,
     .lit (.int 3), .punct '-' true, .punct '>' false, .group .paren [.ident "pre", .ident "n",
     .punct '+' false, .ident "pre", .ident "pre", .ident "n", .punct '*' false, .ident "pre",
     .ident "pre", .ident "pre", .ident "n"], .punct '%' false, .lit (.int 100), .punct ';' false,
     .ident "assert", .ident "prev_testing", .group .paren [.ident "n"], .punct '=' false,
     .ident "prev_witness", .group .paren [.ident "n"], .punct ';' false, .ident "tel",
     .punct ';' false]] = [true] := by
  decide +kernel

/-- chandeliers-lus/tests/pass/std/counters.rs -/
example : runs [
    [.ident "node", .ident "counting", .group .paren [], .ident "returns",
     .group .paren [.ident "n", .punct ':' false, .ident "int"], .punct ';' false, .ident "let",
     .ident "n", .punct '=' false, .lit (.int 0), .ident "fby", .ident "n", .punct '+' false,
     .lit (.int 1), .punct ';' false, .ident "tel", .punct ';' false, .ident "node",
     .ident "counting_twice", .group .paren [], .ident "returns", .group .paren [.ident "n",
     .punct ':' false, .ident "int"], .punct ';' false, .ident "var", .ident "b", .punct ':' false,
     .ident "bool", .punct ';' false, .ident "let", .ident "b", .punct '=' false, .ident "true",
     .ident "fby", .ident "not", .ident "b", .punct ';' false, .ident "n", .punct '=' false,
     .ident "if", .ident "b", .ident "then", .ident "counting", .group .paren [], .ident "else",
     .ident "counting", .group .paren [], .punct ';' false, .ident "tel", .punct ';' false,
     .ident "node", .ident "counting_late_fby", .group .paren [], .ident "returns",
     .group .paren [.ident "n", .punct ':' false, .ident "int"], .punct ';' false, .ident "let",
     .ident "n", .punct '=' false, .lit (.int 0), .ident "fby", .lit (.int 0), .ident "fby",
     .ident "counting", .group .paren [], .punct ';' false, .ident "tel", .punct ';' false,
     .ident "node", .ident "counting_late_then", .group .paren [], .ident "returns",
     .group .paren [.ident "n", .punct ':' false, .ident "int"], .punct ';' false, .ident "let",
     .ident "n", .punct '=' false, .lit (.int 0), .punct '-' true, .punct '>' false, .lit (.int 0),
     .punct '-' true, .punct '>' false, .lit (.int 0), .punct '-' true, .punct '>' false,
     .ident "pre", .ident "pre", .ident "pre", .ident "counting", .group .paren [],
     .punct ';' false, .ident "tel", .punct ';' false, .ident "node", .ident "counting_catchup",
     .group .paren [], .ident "returns", .group .paren [.ident "n", .punct ':' false,
     .ident "int"], .punct ';' false, .ident "let", .ident "n", .punct '=' false, .lit (.int 0),
     .punct '-' true, .punct '>' false, .lit (.int 0), .punct '-' true, .punct '>' false,
     .lit (.int 0), .punct '-' true, .punct '>' false, .ident "counting", .group .paren [],
     .punct ';' false, .ident "tel", .punct ';' false, .punct '#' false,
     .group .bracket [.ident "main", .group .paren [.lit (.int 10)]], .ident "node",
     .ident "system", .group .paren [], .ident "returns", .group .paren [], .punct ';' false,
     .ident "var", .ident "n", .punct ':' false, .ident "int", .punct ';' false, .ident "let",
     .ident "n", .punct '=' false, .lit (.int 0), .ident "fby", .ident "n", .punct '+' false,
     .lit (.int 1), .punct ';' false, .ident "assert", .ident "counting_twice", .group .paren [],
     .punct '=' false, .ident "n", .punct ';' false, .ident "assert", .ident "counting_late_fby",
     .group .paren [], .punct '=' false, .group .paren [.lit (.int 0), .ident "fby", .lit (.int 0),
     .ident "fby", .ident "n"], .punct ';' false, .ident "assert", .ident "counting_late_then",
     .group .paren [], .punct '=' false, .group .paren [.lit (.int 0), .ident "fby", .lit (.int 0),
     .ident "fby", .lit (.int 0), .ident "fby", .ident "n"], .punct ';' false, .ident "assert",
     .ident "counting_catchup", .group .paren [], .punct '=' false, .group .paren [.lit (.int 0),
     .punct '-' true, .punct '>' false, .lit (.int 0), .punct '-' true, .punct '>' false,
     .lit (.int 0), .punct '-' true, .punct '>' false, .ident "n"], .punct ';' false, .ident "tel",
     .punct ';' false]] = [true] := by
  decide +kernel

/-- chandeliers-lus/tests/pass/std/fulladder.rs -/
example : runs [
    [.ident "node", .ident "full_add", .group .paren [.ident "a", .punct ',' false, .ident "b",
     .punct ',' false, .ident "c", .punct ':' false, .ident "bool"], .ident "returns",
     .group .paren [.ident "s", .punct ',' false, .ident "co", .punct ':' false, .ident "bool"],
     .punct ';' false, .ident "let", .ident "s", .punct '=' false, .group .paren [.ident "a",
     .punct '<' true, .punct '>' false, .ident "b"], .punct '<' true, .punct '>' false, .ident "c",
     .punct ';' false, .ident "co", .punct '=' false, .group .paren [.ident "a", .ident "and",
     .ident "b"], .ident "or", .group .paren [.ident "a", .ident "and", .ident "c"], .ident "or",
     .group .paren [.ident "b", .ident "and", .ident "c"], .punct ';' false, .ident "tel",
     .punct ';' false, .ident "node", .ident "half_add", .group .paren [.ident "a",
     .punct ',' false, .ident "b", .punct ':' false, .ident "bool"], .ident "returns",
     .group .paren [.ident "s", .punct ',' false, .ident "co", .punct ':' false, .ident "bool"],
     .punct ';' false, .ident "let", .ident "s", .punct '=' false, .group .paren [.ident "a",
     .punct '<' true, .punct '>' false, .ident "b"], .punct ';' false, .ident "co",
     .punct '=' false, .group .paren [.ident "a", .ident "and", .ident "b"], .punct ';' false,
     .ident "tel", .punct ';' false, .ident "node", .ident "full_add_h", .group .paren [.ident "a",
     .punct ',' false, .ident "b", .punct ',' false, .ident "c", .punct ':' false, .ident "bool"],
     .ident "returns", .group .paren [.ident "s", .punct ',' false, .ident "co", .punct ':' false,
     .ident "bool"], .punct ';' false, .ident "var", .ident "s1", .punct ',' false, .ident "c1",
     .punct ',' false, .ident "c2", .punct ':' false, .ident "bool", .punct ';' false,
     .ident "let", .group .paren [.ident "s1", .punct ',' false, .ident "c1"], .punct '=' false,
     .ident "half_add", .group .paren [.ident "a", .punct ',' false, .ident "b"], .punct ';' false,
     .group .paren [.ident "s", .punct ',' false, .ident "c2"], .punct '=' false,
     .ident "half_add", .group .paren [.ident "c", .punct ',' false, .ident "s1"],
     .punct ';' false, .ident "co", .punct '=' false, .group .paren [.ident "c1", .ident "or",
     .ident "c2"], .punct ';' false, .ident "tel", .punct ';' false, .ident "node",
     .ident "equivalence", .group .paren [.ident "a", .punct ',' false, .ident "b",
     .punct ',' false, .ident "c", .punct ':' false, .ident "bool"], .ident "returns",
     .group .paren [.ident "ok", .punct ':' false, .ident "bool"], .punct ';' false, .ident "var",
     .ident "s1", .punct ',' false, .ident "co1", .punct ',' false, .ident "s2", .punct ',' false,
     .ident "co2", .punct ':' false, .ident "bool", .punct ';' false, .ident "let",
     .group .paren [.ident "s1", .punct ',' false, .ident "co1"], .punct '=' false,
     .ident "full_add", .group .paren [.ident "a", .punct ',' false, .ident "b", .punct ',' false,
     .ident "c"], .punct ';' false, .group .paren [.ident "s2", .punct ',' false, .ident "co2"],
     .punct '=' false, .ident "full_add_h", .group .paren [.ident "a", .punct ',' false,
     .ident "b", .punct ',' false, .ident "c"], .punct ';' false, .ident "ok", .punct '=' false,
     .group .paren [.ident "s1", .punct '=' false, .ident "s2"], .ident "and",
     .group .paren [.ident "co1", .punct '=' false, .ident "co2"], .punct ';' false, .ident "tel",
     .punct ';' false, .punct '#' false, .group .bracket [.ident "main",
     .group .paren [.lit (.int 8)]], .ident "node", .ident "system", .group .paren [],
     .ident "returns", .group .paren [], .punct ';' false, .ident "var", .ident "a",
     .punct ',' false, .ident "b", .punct ',' false, .ident "c", .punct ',' false, .ident "ok",
     .punct ':' false, .ident "bool", .punct ';' false, .ident "enumerate", .punct ':' false,
     .ident "int", .punct ';' false, .ident "let", .ident "enumerate", .punct '=' false,
     .lit (.int 0), .ident "fby", .ident "enumerate", .punct '+' false, .lit (.int 1),
     .punct ';' false, .ident "a", .punct '=' false, .group .paren [.ident "enumerate",
     .ident "and", .lit (.int 1)], .punct '>' false, .lit (.int 0), .punct ';' false, .ident "b",
     .punct '=' false, .group .paren [.ident "enumerate", .ident "and", .lit (.int 2)],
     .punct '>' false, .lit (.int 0), .punct ';' false, .ident "c", .punct '=' false,
     .group .paren [.ident "enumerate", .ident "and", .lit (.int 4)], .punct '>' false,
     .lit (.int 0), .punct ';' false, .ident "ok", .punct '=' false, .ident "equivalence",
     .group .paren [.ident "a", .punct ',' false, .ident "b", .punct ',' false, .ident "c"],
     .punct ';' false, .ident "assert", .ident "ok", .punct ';' false, .ident "tel",
     .punct ';' false]] = [true] := by
  decide +kernel

/-- chandeliers-lus/tests/pass/std/merge.rs -/
example : runs [
    [.ident "node", .ident "foo", .group .paren [.ident "b", .punct ':' false, .ident "bool",
     .punct ';' false, .ident "x", .punct ',' false, .ident "y", .punct ':' false, .ident "int"],
     .ident "returns", .group .paren [.ident "i", .punct ':' false, .ident "int"],
     .punct ';' false, .ident "let", .ident "i", .punct '=' false, .ident "merge", .ident "b",
     .group .paren [.ident "x", .ident "when", .ident "b"], .group .paren [.ident "y",
     .ident "whenot", .ident "b"], .punct ';' false, .ident "tel", .punct ';' false,
     .punct '#' false, .group .bracket [.ident "main", .group .paren [.lit (.int 10)]],
     .ident "node", .ident "main", .group .paren [], .ident "returns", .group .paren [],
     .punct ';' false, .ident "var", .ident "b", .punct ':' false, .ident "bool", .punct ';' false,
     .ident "n", .punct ',' false, .ident "x", .punct ',' false, .ident "y", .punct ',' false,
     .ident "r1", .punct ',' false, .ident "r2", .punct ':' false, .ident "int", .punct ';' false,
     .ident "let", .ident "n", .punct '=' false, .lit (.int 0), .ident "fby", .lit (.int 2),
     .punct '*' false, .ident "n", .punct ';' false, .ident "b", .punct '=' false, .ident "true",
     .ident "fby", .ident "false", .ident "fby", .ident "false", .ident "fby", .ident "b",
     .punct ';' false, .ident "x", .punct '=' false, .ident "n", .punct '%' false, .lit (.int 7),
     .punct ';' false, .ident "y", .punct '=' false, .group .paren [.lit (.int 3),
     .punct '*' false, .ident "n"], .punct '%' false, .lit (.int 17), .punct ';' false,
     .ident "r1", .punct '=' false, .ident "foo", .group .paren [.ident "b", .punct ',' false,
     .ident "x", .punct ',' false, .ident "y"], .punct ';' false, .ident "r2", .punct '=' false,
     .ident "if", .ident "b", .ident "then", .ident "x", .ident "else", .ident "y",
     .punct ';' false, .ident "assert", .ident "r1", .punct '=' false, .ident "r2",
     .punct ';' false, .ident "tel", .punct ';' false]] = [true] := by
  decide +kernel

/-- chandeliers-lus/tests/pass/std/slow.rs -/
example : runs [
    [.punct '#' false, .group .bracket [.ident "trace", .group .bracket [.ident "stderr"]],
     .ident "node", .ident "counter", .group .paren [], .ident "returns",
     .group .paren [.ident "n", .punct ':' false, .ident "int"], .punct ';' false, .ident "let",
     .ident "n", .punct '=' false, .lit (.int 0), .ident "fby", .ident "n", .punct '+' false,
     .lit (.int 1), .punct ';' false, .ident "tel", .punct ';' false, .punct '#' false,
     .group .bracket [.ident "trace", .group .bracket [.ident "stderr"]], .ident "node",
     .ident "blink", .group .paren [], .ident "returns", .group .paren [.ident "b",
     .punct ':' false, .ident "bool"], .punct ';' false, .ident "let", .ident "b",
     .punct '=' false, .ident "true", .ident "fby", .ident "not", .ident "b", .punct ';' false,
     .ident "tel", .punct ';' false, .punct '#' false, .group .bracket [.ident "main",
     .group .paren [.lit (.int 10)]], .ident "node", .ident "system", .group .paren [],
     .ident "returns", .group .paren [], .punct ';' false, .ident "var", .ident "b",
     .punct ':' false, .ident "bool", .punct ';' false, .ident "n1", .punct ':' false,
     .ident "int", .ident "when", .ident "b", .punct ';' false, .ident "n2", .punct ':' false,
     .ident "int", .ident "whenot", .ident "b", .punct ';' false, .ident "let", .ident "b",
     .punct '=' false, .ident "blink", .group .paren [], .punct ';' false, .ident "n1",
     .punct '=' false, .ident "counter", .group .paren [.group .paren [], .ident "when",
     .ident "b"], .punct ';' false, .ident "n2", .punct '=' false, .ident "counter",
     .group .paren [.group .paren [], .ident "whenot", .ident "b"], .punct ';' false,
     .ident "assert", .group .paren [.ident "merge", .ident "b", .ident "n1", .ident "n2",
     .punct '=' false, .lit (.int 0), .punct '-' true, .punct '>' false, .lit (.int 0),
     .punct '-' true, .punct '>' false, .lit (.int 1), .punct '-' true, .punct '>' false,
     .lit (.int 1), .punct '-' true, .punct '>' false, .lit (.int 2), .punct '-' true,
     .punct '>' false, .lit (.int 2), .punct '-' true, .punct '>' false, .lit (.int 3),
     .punct '-' true, .punct '>' false, .lit (.int 3), .punct '-' true, .punct '>' false,
     .lit (.int 4), .punct '-' true, .punct '>' false, .lit (.int 4)], .punct ';' false,
     .ident "tel", .punct ';' false]] = [true] := by
  decide +kernel

/-- chandeliers-lus/tests/pass/syn/fby-assoc.rs -/
example : runs [
    [.ident "node", .ident "count", .group .paren [], .ident "returns", .group .paren [.ident "n",
     .punct ':' false, .ident "int"], .punct ';' false, .ident "let", .ident "n", .punct '=' false,
     .lit (.int 0), .ident "fby", .ident "n", .punct '+' false, .lit (.int 1), .punct ';' false,
     .ident "tel", .punct ';' false, .ident "node", .ident "a", .group .paren [], .ident "returns",
     .group .paren [.ident "i", .punct ',' false, .ident "j", .punct ':' false, .ident "int"],
     .punct ';' false, .ident "let", .ident "i", .punct '=' false, .lit (.int 0), .punct ';' false,
     .ident "j", .punct '=' false, .ident "count", .group .paren [], .punct ';' false,
     .ident "tel", .punct ';' false, .ident "node", .ident "b", .group .paren [], .ident "returns",
     .group .paren [.ident "i", .punct ',' false, .ident "j", .punct ':' false, .ident "int"],
     .punct ';' false, .ident "let", .ident "i", .punct '=' false, .lit (.int 1), .punct ';' false,
     .ident "j", .punct '=' false, .ident "count", .group .paren [], .punct ';' false,
     .ident "tel", .punct ';' false, .ident "node", .ident "c", .group .paren [], .ident "returns",
     .group .paren [.ident "i", .punct ',' false, .ident "j", .punct ':' false, .ident "int"],
     .punct ';' false, .ident "let", .ident "i", .punct '=' false, .lit (.int 2), .punct ';' false,
     .ident "j", .punct '=' false, .ident "count", .group .paren [], .punct ';' false,
     .ident "tel", .punct ';' false, .punct '#' false, .group .bracket [.ident "trace",
     .group .bracket [.ident "stderr"]], .ident "node", .ident "testing", .group .paren [],
     .ident "returns", .group .paren [.ident "i", .punct ',' false, .ident "j", .punct ':' false,
     .ident "int"], .punct ';' false, .ident "let", .group .paren [.ident "i", .punct ',' false,
     .ident "j"], .punct '=' false, .ident "a", .group .paren [], .ident "fby", .ident "b",
     .group .paren [], .ident "fby", .ident "c", .group .paren [], .punct ';' false, .ident "tel",
     .punct ';' false, .ident "node", .ident "witness", .group .paren [], .ident "returns",
     .group .paren [.ident "i", .punct ',' false, .ident "j", .punct ':' false, .ident "int"],
     .punct ';' false, .ident "let", .group .paren [.ident "i", .punct ',' false, .ident "j"],
     .punct '=' false, .group .paren [.lit (.int 0), .punct ',' false, .lit (.int 0)],
     .punct '-' true, .punct '>' false, .group .paren [.lit (.int 1), .punct ',' false,
     .lit (.int 0)], .punct '-' true, .punct '>' false, .group .paren [.lit (.int 2),
     .punct ',' false, .lit (.int 0)], .punct '-' true, .punct '>' false,
     .group .paren [.lit (.int 2), .punct ',' false, .lit (.int 1)], .punct '-' true,
     .punct '>' false, .group .paren [.lit (.int 2), .punct ',' false, .lit (.int 2)],
     .punct '-' true, .punct '>' false, .group .paren [.lit (.int 2), .punct ',' false,
     .lit (.int 3)], .punct '-' true, .punct '>' false, .group .paren [.lit (.int 2),
     .punct ',' false, .lit (.int 4)], .punct ';' false, .ident "tel", .punct ';' false,
     .punct '#' false, .group .bracket [.ident "main", .group .paren [.lit (.int 7)]],
     .ident "node", .ident "system", .group .paren [], .ident "returns", .group .paren [],
     .punct ';' false, .ident "var", .ident "ti", .punct ',' false, .ident "tj", .punct ',' false,
     .ident "wi", .punct ',' false, .ident "wj", .punct ':' false, .ident "int", .punct ';' false,
     .ident "let", .group .paren [.ident "ti", .punct ',' false, .ident "tj"], .punct '=' false,
     .ident "testing", .group .paren [], .punct ';' false, .group .paren [.ident "wi",
     .punct ',' false, .ident "wj"], .punct '=' false, .ident "witness", .group .paren [],
     .punct ';' false, .ident "assert", .ident "ti", .punct '=' false, .ident "wi",
     .punct ';' false, .ident "assert", .ident "tj", .punct '=' false, .ident "wj",
     .punct ';' false, .ident "tel", .punct ';' false]] = [true] := by
  decide +kernel

/-- chandeliers-lus/tests/pass/syn/then-assoc.rs -/
example : runs [
    [.ident "node", .ident "count", .group .paren [], .ident "returns", .group .paren [.ident "n",
     .punct ':' false, .ident "int"], .punct ';' false, .ident "let", .ident "n", .punct '=' false,
     .lit (.int 0), .ident "fby", .ident "n", .punct '+' false, .lit (.int 1), .punct ';' false,
     .ident "tel", .punct ';' false, .ident "node", .ident "a", .group .paren [], .ident "returns",
     .group .paren [.ident "i", .punct ',' false, .ident "j", .punct ':' false, .ident "int"],
     .punct ';' false, .ident "let", .ident "i", .punct '=' false, .lit (.int 0), .punct ';' false,
     .ident "j", .punct '=' false, .ident "count", .group .paren [], .punct ';' false,
     .ident "tel", .punct ';' false, .ident "node", .ident "b", .group .paren [], .ident "returns",
     .group .paren [.ident "i", .punct ',' false, .ident "j", .punct ':' false, .ident "int"],
     .punct ';' false, .ident "let", .ident "i", .punct '=' false, .lit (.int 1), .punct ';' false,
     .ident "j", .punct '=' false, .ident "count", .group .paren [], .punct ';' false,
     .ident "tel", .punct ';' false, .ident "node", .ident "c", .group .paren [], .ident "returns",
     .group .paren [.ident "i", .punct ',' false, .ident "j", .punct ':' false, .ident "int"],
     .punct ';' false, .ident "let", .ident "i", .punct '=' false, .lit (.int 2), .punct ';' false,
     .ident "j", .punct '=' false, .ident "count", .group .paren [], .punct ';' false,
     .ident "tel", .punct ';' false, .punct '#' false, .group .bracket [.ident "trace",
     .group .bracket [.ident "stderr"]], .ident "node", .ident "testing", .group .paren [],
     .ident "returns", .group .paren [.ident "i", .punct ',' false, .ident "j", .punct ':' false,
     .ident "int"], .punct ';' false, .ident "let", .group .paren [.ident "i", .punct ',' false,
     .ident "j"], .punct '=' false, .ident "a", .group .paren [], .punct '-' true,
     .punct '>' false, .ident "b", .group .paren [], .punct '-' true, .punct '>' false, .ident "c",
     .group .paren [], .punct ';' false, .ident "tel", .punct ';' false, .ident "node",
     .ident "witness", .group .paren [], .ident "returns", .group .paren [.ident "i",
     .punct ',' false, .ident "j", .punct ':' false, .ident "int"], .punct ';' false, .ident "let",
     .group .paren [.ident "i", .punct ',' false, .ident "j"], .punct '=' false,
     .group .paren [.lit (.int 0), .punct ',' false, .lit (.int 0)], .punct '-' true,
     .punct '>' false, .group .paren [.lit (.int 1), .punct ',' false, .lit (.int 1)],
     .punct '-' true, .punct '>' false, .group .paren [.lit (.int 2), .punct ',' false,
     .lit (.int 2)], .punct '-' true, .punct '>' false, .group .paren [.lit (.int 2),
     .punct ',' false, .lit (.int 3)], .punct '-' true, .punct '>' false,
     .group .paren [.lit (.int 2), .punct ',' false, .lit (.int 4)], .punct '-' true,
     .punct '>' false, .group .paren [.lit (.int 2), .punct ',' false, .lit (.int 5)],
     .punct '-' true, .punct '>' false, .group .paren [.lit (.int 2), .punct ',' false,
     .lit (.int 6)], .punct ';' false, .ident "tel", .punct ';' false, .punct '#' false,
     .group .bracket [.ident "main", .group .paren [.lit (.int 7)]], .ident "node",
     .ident "system", .group .paren [], .ident "returns", .group .paren [], .punct ';' false,
     .ident "var", .ident "ti", .punct ',' false, .ident "tj", .punct ',' false, .ident "wi",
     .punct ',' false, .ident "wj", .punct ':' false, .ident "int", .punct ';' false, .ident "let",
     .group .paren [.ident "ti", .punct ',' false, .ident "tj"], .punct '=' false,
     .ident "testing", .group .paren [], .punct ';' false, .group .paren [.ident "wi",
     .punct ',' false, .ident "wj"], .punct '=' false, .ident "witness", .group .paren [],
     .punct ';' false, .ident "assert", .ident "ti", .punct '=' false, .ident "wi",
     .punct ';' false, .ident "assert", .ident "tj", .punct '=' false, .ident "wj",
     .punct ';' false, .ident "tel", .punct ';' false]] = [true] := by
  decide +kernel

end Chandeliers.Tests
