import Verif.Tests.Kinds

/-!
# Tests that must be refused, with the messages of the project

Written by `tools/conformance.py`: do not edit.
-/

set_option autoImplicit false
set_option maxRecDepth 100000

namespace Chandeliers.Tests
open San Syn Err

/-- chandeliers-lus/tests/compile_fail/ui/causality/cycle-const.rs -/
example : messages [
    [.ident "const", .ident "A", .punct ':' false, .ident "int", .punct '=' false, .ident "B",
     .punct '+' false, .ident "C", .punct ';' false, .ident "const", .ident "C", .punct ':' false,
     .ident "int", .punct '=' false, .lit (.int 1), .punct ';' false, .ident "const", .ident "B",
     .punct ':' false, .ident "int", .punct '=' false, .ident "D", .punct ';' false,
     .ident "const", .ident "D", .punct ':' false, .ident "int", .punct '=' false, .ident "A",
     .punct ';' false]] =
    [.cycle [.globalVarName "D", .globalVarName "B", .globalVarName "A"]] := by
  decide +kernel

/-- chandeliers-lus/tests/compile_fail/ui/causality/cycle-node.rs -/
example : messages [
    [.ident "node", .ident "foo", .group .paren [.ident "i", .punct ':' false, .ident "int"],
     .ident "returns", .group .paren [.ident "o", .punct ':' false, .ident "int"],
     .punct ';' false, .ident "let", .ident "o", .punct '=' false, .ident "bar",
     .group .paren [.ident "i"], .punct ';' false, .ident "tel", .punct ';' false, .ident "node",
     .ident "bar", .group .paren [.ident "i", .punct ':' false, .ident "int"], .ident "returns",
     .group .paren [.ident "o", .punct ':' false, .ident "int"], .punct ';' false, .ident "let",
     .ident "o", .punct '=' false, .ident "foo", .group .paren [.ident "i"], .punct ';' false,
     .ident "tel", .punct ';' false]] =
    [.cycle [.funName "bar", .funName "foo"]] := by
  decide +kernel

/-- chandeliers-lus/tests/compile_fail/ui/causality/cycle-var.rs -/
example : messages [
    [.ident "node", .ident "foo", .group .paren [.ident "i", .punct ':' false, .ident "int"],
     .ident "returns", .group .paren [.ident "o", .punct ':' false, .ident "int"],
     .punct ';' false, .ident "var", .ident "v", .punct ',' false, .ident "w", .punct ':' false,
     .ident "int", .punct ';' false, .ident "let", .ident "v", .punct '=' false, .ident "o",
     .punct ';' false, .ident "w", .punct '=' false, .ident "i", .punct '+' false, .ident "v",
     .punct ';' false, .ident "o", .punct '=' false, .ident "w", .punct ';' false, .ident "tel",
     .punct ';' false]] =
    [.cycle [.localVarName "w", .localVarName "o", .localVarName "v"]] := by
  decide +kernel

/-- chandeliers-lus/tests/compile_fail/ui/causality/loop.rs -/
example : messages [
    [.ident "const", .ident "X", .punct ':' false, .ident "int", .punct '=' false, .ident "X",
     .punct '+' false, .lit (.int 1), .punct ';' false],
    [.ident "node", .ident "foo", .group .paren [], .ident "returns", .group .paren [.ident "i",
     .punct ':' false, .ident "int"], .punct ';' false, .ident "let", .ident "i", .punct '=' false,
     .ident "foo", .group .paren [], .punct ';' false, .ident "tel"],
    [.ident "node", .ident "bar", .group .paren [], .ident "returns", .group .paren [.ident "f",
     .punct ':' false, .ident "float"], .punct ';' false, .ident "let", .ident "f",
     .punct '=' false, .lit (.float (some ⟨4607182418800017408⟩)), .punct '+' false, .ident "f",
     .punct '*' false, .lit (.float (some ⟨4602678819172646912⟩)), .punct ';' false, .ident "tel",
     .punct ';' false],
    [.ident "node", .ident "foo", .group .paren [], .ident "returns", .group .paren [],
     .punct ';' false, .ident "let", .group .paren [], .punct '=' false, .ident "bar",
     .group .paren [], .punct ';' false, .ident "tel", .punct ';' false, .ident "node",
     .ident "bar", .group .paren [], .ident "returns", .group .paren [], .punct ';' false,
     .ident "let", .group .paren [], .punct '=' false, .ident "foo", .group .paren [],
     .punct ';' false, .ident "tel", .punct ';' false]] =
    [.itself (.globalVarName "X"),
     .itself (.funName "foo"),
     .itself (.localVarName "f"),
     .cycle [.funName "bar", .funName "foo"]] := by
  decide +kernel

/-- chandeliers-lus/tests/compile_fail/ui/causality/positivity.rs -/
example : messages [
    [.ident "node", .ident "normal", .group .paren [.ident "i", .punct ':' false, .ident "int"],
     .ident "returns", .group .paren [.ident "o", .punct ':' false, .ident "int"],
     .punct ';' false, .ident "let", .ident "o", .punct '=' false, .ident "i", .punct ';' false,
     .ident "tel", .punct ';' false],
    [.ident "node", .ident "deep", .group .paren [.ident "i", .punct ':' false, .ident "int"],
     .ident "returns", .group .paren [.ident "o", .punct ':' false, .ident "int"],
     .punct ';' false, .ident "let", .ident "o", .punct '=' false, .lit (.int 0), .punct '-' true,
     .punct '>' false, .lit (.int 0), .punct '-' true, .punct '>' false, .ident "pre",
     .ident "pre", .ident "i", .punct ';' false, .ident "tel", .punct ';' false],
    [.ident "node", .ident "deeper", .group .paren [.ident "i", .punct ':' false, .ident "int"],
     .ident "returns", .group .paren [.ident "o", .punct ':' false, .ident "int"],
     .punct ';' false, .ident "let", .ident "o", .punct '=' false, .lit (.int 0), .punct '-' true,
     .punct '>' false, .lit (.int 0), .punct '-' true, .punct '>' false, .lit (.int 0),
     .punct '-' true, .punct '>' false, .lit (.int 0), .punct '-' true, .punct '>' false,
     .lit (.int 0), .punct '-' true, .punct '>' false, .lit (.int 0), .punct '-' true,
     .punct '>' false, .lit (.int 0), .punct '-' true, .punct '>' false, .ident "pre",
     .ident "pre", .ident "pre", .ident "pre", .ident "pre", .ident "pre", .ident "pre",
     .ident "i", .punct ';' false, .ident "tel", .punct ';' false],
    [.ident "node", .ident "off_by_one", .group .paren [.ident "i", .punct ':' false,
     .ident "int"], .ident "returns", .group .paren [.ident "o", .punct ':' false, .ident "int"],
     .punct ';' false, .ident "let", .ident "o", .punct '=' false, .ident "pre", .ident "i",
     .punct ';' false, .ident "tel", .punct ';' false],
    [.ident "node", .ident "deep_off_by_one", .group .paren [.ident "i", .punct ':' false,
     .ident "int"], .ident "returns", .group .paren [.ident "o", .punct ':' false, .ident "int"],
     .punct ';' false, .ident "let", .ident "o", .punct '=' false, .lit (.int 0), .punct '-' true,
     .punct '>' false, .lit (.int 0), .punct '-' true, .punct '>' false, .ident "pre",
     .ident "pre", .ident "pre", .ident "i", .punct ';' false, .ident "tel", .punct ';' false],
    [.ident "node", .ident "deeper_off_by_one", .group .paren [.ident "i", .punct ':' false,
     .ident "int"], .ident "returns", .group .paren [.ident "o", .punct ':' false, .ident "int"],
     .punct ';' false, .ident "let", .ident "o", .punct '=' false, .lit (.int 0), .punct '-' true,
     .punct '>' false, .lit (.int 0), .punct '-' true, .punct '>' false, .lit (.int 0),
     .punct '-' true, .punct '>' false, .lit (.int 0), .punct '-' true, .punct '>' false,
     .lit (.int 0), .punct '-' true, .punct '>' false, .lit (.int 0), .punct '-' true,
     .punct '>' false, .lit (.int 0), .punct '-' true, .punct '>' false, .ident "pre",
     .ident "pre", .ident "pre", .ident "pre", .ident "pre", .ident "pre", .ident "pre",
     .ident "pre", .ident "i", .punct ';' false, .ident "tel", .punct ';' false],
    [.ident "node", .ident "way_off", .group .paren [.ident "i", .punct ':' false, .ident "int"],
     .ident "returns", .group .paren [.ident "o", .punct ':' false, .ident "int"],
     .punct ';' false, .ident "let", .ident "o", .punct '=' false, .lit (.int 0), .punct '-' true,
     .punct '>' false, .lit (.int 0), .punct '-' true, .punct '>' false, .ident "pre",
     .ident "pre", .ident "pre", .ident "pre", .ident "pre", .ident "pre", .ident "pre",
     .ident "pre", .ident "pre", .ident "i", .punct ';' false, .ident "tel", .punct ';' false]] =
    [.notPositive "i" 0 1,
     .notPositive "i" 2 3,
     .notPositive "i" 7 8,
     .notPositive "i" 2 9] := by
  decide +kernel

/-- chandeliers-lus/tests/compile_fail/ui/causality/redef-const.rs -/
example : messages [
    [.ident "const", .ident "X", .punct ':' false, .ident "int", .punct '=' false, .lit (.int 0),
     .punct ';' false, .ident "const", .ident "X", .punct ':' false, .ident "float",
     .punct '=' false, .lit (.float (some ⟨0⟩)), .punct ';' false]] =
    [.redefined (.globalVarName "X")] := by
  decide +kernel

/-- chandeliers-lus/tests/compile_fail/ui/causality/redef-node-extern.rs -/
example : messages [
    [.ident "extern", .ident "node", .ident "foo", .group .paren [.ident "i", .punct ':' false,
     .ident "int"], .ident "returns", .group .paren [.ident "i", .punct ':' false, .ident "int"],
     .punct ';' false],
    [.ident "extern", .ident "node", .ident "bar", .group .paren [.ident "i", .punct ':' false,
     .ident "int", .punct ';' false, .ident "i", .punct ':' false, .ident "bool"],
     .ident "returns", .group .paren [], .punct ';' false]] =
    [.again "i",
     .again "i"] := by
  decide +kernel

/-- chandeliers-lus/tests/compile_fail/ui/causality/redef-node.rs -/
example : messages [
    [.ident "node", .ident "foo", .group .paren [], .ident "returns", .group .paren [],
     .punct ';' false, .ident "let", .ident "tel", .punct ';' false, .ident "node", .ident "foo",
     .group .paren [], .ident "returns", .group .paren [], .punct ';' false, .ident "let",
     .ident "tel", .punct ';' false]] =
    [.redefined (.funName "foo")] := by
  decide +kernel

/-- chandeliers-lus/tests/compile_fail/ui/causality/redef-var-def.rs -/
example : messages [
    [.ident "node", .ident "foo", .group .paren [], .ident "returns", .group .paren [.ident "a",
     .punct ':' false, .ident "int"], .punct ';' false, .ident "let", .ident "a", .punct '=' false,
     .lit (.int 42), .punct ';' false, .ident "a", .punct '=' false, .lit (.int 7),
     .punct ';' false, .ident "tel", .punct ';' false]] =
    [.redefined (.localVarName "a")] := by
  decide +kernel

/-- chandeliers-lus/tests/compile_fail/ui/causality/redef-var-ii.rs -/
example : messages [
    [.ident "node", .ident "foo", .group .paren [.ident "a", .punct ',' false, .ident "a",
     .punct ':' false, .ident "int"], .ident "returns", .group .paren [], .punct ';' false,
     .ident "let", .ident "tel"]] =
    [.again "a"] := by
  decide +kernel

/-- chandeliers-lus/tests/compile_fail/ui/causality/redef-var-io.rs -/
example : messages [
    [.ident "node", .ident "foo", .group .paren [.ident "a", .punct ':' false, .ident "int"],
     .ident "returns", .group .paren [.ident "a", .punct ':' false, .ident "bool"],
     .punct ';' false, .ident "let", .ident "a", .punct '=' false, .ident "true", .punct ';' false,
     .ident "tel"]] =
    [.redefinedInput (.localVarName "a")] := by
  decide +kernel

/-- chandeliers-lus/tests/compile_fail/ui/causality/redef-var-iv.rs -/
example : messages [
    [.ident "node", .ident "foo", .group .paren [.ident "a", .punct ':' false, .ident "int"],
     .ident "returns", .group .paren [], .punct ';' false, .ident "var", .ident "a",
     .punct ':' false, .ident "float", .punct ';' false, .ident "let", .ident "a",
     .punct '=' false, .lit (.float (some ⟨0⟩)), .punct ';' false, .ident "tel"]] =
    [.redefinedInput (.localVarName "a")] := by
  decide +kernel

/-- chandeliers-lus/tests/compile_fail/ui/causality/redef-var-oo.rs -/
example : messages [
    [.ident "node", .ident "foo", .group .paren [], .ident "returns", .group .paren [.ident "a",
     .punct ':' false, .ident "bool", .punct ';' false, .ident "a", .punct ':' false,
     .ident "int"], .punct ';' false, .ident "let", .ident "a", .punct '=' false, .lit (.int 1),
     .punct ';' false, .ident "tel"]] =
    [.again "a"] := by
  decide +kernel

/-- chandeliers-lus/tests/compile_fail/ui/causality/redef-var-ov.rs -/
example : messages [
    [.ident "node", .ident "foo", .group .paren [], .ident "returns", .group .paren [.ident "a",
     .punct ':' false, .ident "bool"], .punct ';' false, .ident "var", .ident "a",
     .punct ':' false, .ident "int", .punct ';' false, .ident "let", .ident "a", .punct '=' false,
     .lit (.int 0), .punct ';' false, .ident "tel"]] =
    [.again "a"] := by
  decide +kernel

/-- chandeliers-lus/tests/compile_fail/ui/causality/redef-var-vv.rs -/
example : messages [
    [.ident "node", .ident "foo", .group .paren [], .ident "returns", .group .paren [],
     .punct ';' false, .ident "var", .ident "a", .punct ':' false, .ident "int", .punct ';' false,
     .ident "a", .punct ':' false, .ident "int", .punct ';' false, .ident "let", .ident "a",
     .punct '=' false, .lit (.int 1), .punct ';' false, .ident "tel"]] =
    [.again "a"] := by
  decide +kernel

/-- chandeliers-lus/tests/compile_fail/ui/causality/reg-positivity.rs -/
example : messages [
    [.punct '#' false, .group .bracket [.ident "universal_pre"], .ident "node", .ident "foo",
     .group .paren [.ident "i", .punct ':' false, .ident "int"], .ident "returns",
     .group .paren [.ident "o", .punct ':' false, .ident "int"], .punct ';' false, .ident "let",
     .ident "o", .punct '=' false, .ident "pre", .ident "i", .punct ';' false, .ident "tel",
     .punct ';' false]] =
    [.shallowPre] := by
  decide +kernel

/-- chandeliers-lus/tests/compile_fail/ui/causality/undeclared-const.rs -/
example : messages [
    [.ident "const", .ident "B", .punct ':' false, .ident "int", .punct '=' false, .ident "A",
     .punct ';' false]] =
    [.varNotFound "A"] := by
  decide +kernel

/-- chandeliers-lus/tests/compile_fail/ui/causality/undeclared-node.rs -/
example : messages [
    [.punct '#' false, .group .bracket [.ident "trace",
     .group .paren [.lit (.str "testing {x}\n")]], .ident "node", .ident "fby_testing",
     .group .paren [.ident "x", .punct ':' false, .ident "int"], .ident "returns",
     .group .paren [.ident "y", .punct ':' false, .ident "int"], .punct ';' false, .ident "let",
     .ident "y", .punct '=' false, .lit (.int 0), .ident "fby", .ident "x", .punct ';' false,
     .ident "tel", .punct ';' false, .punct '#' false, .group .bracket [.ident "trace",
     .group .paren [.lit (.str "witness {x}\n")]], .ident "node", .ident "prev_witness",
     .group .paren [.ident "x", .punct ':' false, .ident "int"], .ident "returns",
     .group .paren [.ident "y", .punct ':' false, .ident "int"], .punct ';' false, .ident "let",
     .ident "y", .punct '=' false, .lit (.int 0), .ident "fby", .ident "x", .punct ';' false,
     .ident "tel", .punct ';' false, .punct '#' false, .group .bracket [.ident "main",
     .group .paren [.lit (.int 10)]], .ident "node", .ident "main", .group .paren [],
     .ident "returns", .group .paren [], .punct ';' false, .ident "var", .ident "n",
     .punct ':' false, .ident "int", .punct ';' false, .ident "let", .ident "n", .punct '=' false,
     .lit (.int 0), .punct '-' true, .punct '>' false, .lit (.int 5), .punct '-' true,
     .punct '>' false, .lit (.int 4), .punct '-' true, .punct '>' false, .lit (.int 3),
     .punct '-' true, .punct '>' false, .group .paren [.ident "pre", .ident "n", .punct '+' false,
     .ident "pre", .ident "pre", .ident "n", .punct '*' false, .ident "pre", .ident "pre",
     .ident "pre", .ident "n"], .punct '%' false, .lit (.int 100), .punct ';' false,
     .ident "assert", .ident "fby_testing", .group .paren [.ident "n"], .punct '=' false,
     .ident "fby_witness", .group .paren [.ident "n"], .punct ';' false, .ident "tel",
     .punct ';' false]] =
    [.funNotFound "fby_witness"] := by
  decide +kernel

/-- chandeliers-lus/tests/compile_fail/ui/causality/undeclared-var.rs -/
example : messages [
    [.ident "node", .ident "foo", .group .paren [], .ident "returns", .group .paren [.ident "i",
     .punct ':' false, .ident "int"], .punct ';' false, .ident "let", .ident "i", .punct '=' false,
     .ident "absent", .punct ';' false, .ident "tel", .punct ';' false]] =
    [.varNotFound "absent"] := by
  decide +kernel

/-- chandeliers-lus/tests/compile_fail/ui/causality/undef.rs -/
example : messages [
    [.ident "node", .ident "foo", .group .paren [], .ident "returns", .group .paren [.ident "i",
     .punct ':' false, .ident "int"], .punct ';' false, .ident "let", .ident "tel",
     .punct ';' false]] =
    [.undefined (.localVarName "i")] := by
  decide +kernel

/-- chandeliers-lus/tests/compile_fail/ui/clk/bad-binding.rs -/
example : messages [
    [.ident "extern", .ident "node", .ident "random_bool", .group .paren [], .ident "returns",
     .group .paren [.ident "b", .punct ':' false, .ident "bool"], .punct ';' false, .ident "node",
     .ident "system", .group .paren [], .ident "returns", .group .paren [], .punct ';' false,
     .ident "var", .ident "b1", .punct ',' false, .ident "b2", .punct ':' false, .ident "bool",
     .punct ';' false, .ident "_n", .punct ':' false, .ident "int", .ident "when", .ident "b1",
     .punct ';' false, .ident "let", .ident "b1", .punct '=' false, .ident "random_bool",
     .group .paren [], .punct ';' false, .ident "b2", .punct '=' false, .ident "random_bool",
     .group .paren [], .punct ';' false, .ident "_n", .punct '=' false, .lit (.int 1),
     .ident "when", .ident "b2", .punct ';' false, .ident "tel"]] =
    [.notIdentical (.on "b1") (.on "b2")] := by
  decide +kernel

/-- chandeliers-lus/tests/compile_fail/ui/clk/bad-clock.rs -/
example : messages [
    [.ident "node", .ident "ignore", .group .paren [], .ident "returns", .group .paren [],
     .punct ';' false, .ident "let", .ident "tel", .punct ';' false, .ident "node", .ident "b",
     .group .paren [], .ident "returns", .group .paren [.ident "b", .punct ':' false,
     .ident "bool"], .punct ';' false, .ident "let", .ident "b", .punct '=' false, .ident "true",
     .punct ';' false, .ident "tel", .punct ';' false, .ident "node", .ident "foo",
     .group .paren [], .ident "returns", .group .paren [], .punct ';' false, .ident "let",
     .group .paren [], .punct '=' false, .ident "ignore", .group .paren [.group .paren [],
     .ident "when", .ident "true"], .punct ';' false, .group .paren [], .punct '=' false,
     .ident "ignore", .group .paren [.group .paren [], .ident "when",
     .group .paren [.lit (.int 42), .punct '=' false, .lit (.int 12)]], .punct ';' false,
     .group .paren [], .punct '=' false, .ident "ignore", .group .paren [.group .paren [],
     .ident "when", .group .paren [.ident "b", .group .paren []]], .punct ';' false, .ident "tel",
     .punct ';' false]] =
    [.notAClock,
     .notAClock,
     .notAClock] := by
  decide +kernel

/-- chandeliers-lus/tests/compile_fail/ui/clk/clock-cast.rs -/
example : messages [
    [.ident "node", .ident "count", .group .paren [.ident "_clk", .punct ':' false, .ident "int"],
     .ident "returns", .group .paren [.ident "n", .punct ':' false, .ident "int"],
     .punct ';' false, .ident "let", .ident "n", .punct '=' false, .lit (.int 0), .ident "fby",
     .ident "n", .punct '+' false, .lit (.int 1), .punct ';' false, .ident "tel", .punct ';' false,
     .punct '#' false, .group .bracket [.ident "main", .group .paren [.lit (.int 10)]],
     .punct '#' false, .group .bracket [.ident "trace",
     .group .paren [.lit (.str "{m} =? {n}\n")]], .ident "node", .ident "main", .group .paren [],
     .ident "returns", .group .paren [], .punct ';' false, .ident "var", .ident "b",
     .punct ':' false, .ident "bool", .punct ';' false, .ident "n", .punct ',' false, .ident "m",
     .punct ':' false, .ident "int", .ident "when", .ident "b", .punct ';' false, .ident "let",
     .ident "b", .punct '=' false, .ident "true", .ident "fby", .ident "not", .ident "b",
     .punct ';' false, .ident "n", .punct '=' false, .lit (.int 1), .punct ';' false, .ident "m",
     .punct '=' false, .lit (.int 1), .ident "when", .ident "b", .punct ';' false, .ident "assert",
     .group .paren [.ident "merge", .ident "b", .group .paren [.ident "count",
     .group .paren [.ident "n"], .punct '=' false, .ident "count", .group .paren [.ident "m"]],
     .ident "true"], .punct ';' false, .ident "tel", .punct ';' false]] =
    [.notIdentical (.on "b") .adaptative] := by
  decide +kernel

/-- chandeliers-lus/tests/compile_fail/ui/clk/inhomogeneous-tup.rs -/
example : messages [
    [.ident "node", .ident "main", .group .paren [.ident "b", .punct ':' false, .ident "bool"],
     .ident "returns", .group .paren [], .punct ';' false, .ident "var", .ident "m",
     .punct ',' false, .ident "n", .punct ':' false, .ident "int", .ident "when", .ident "b",
     .punct ';' false, .ident "let", .group .paren [.ident "m", .punct ',' false, .ident "n"],
     .punct '=' false, .group .paren [.lit (.int 1), .punct ',' false, .lit (.int 2),
     .ident "when", .ident "b"], .punct ';' false, .ident "tel", .punct ';' false]] =
    [.notIdentical .adaptative (.on "b")] := by
  decide +kernel

/-- chandeliers-lus/tests/compile_fail/ui/clk/merge.rs -/
example : messages [
    [.ident "node", .ident "foo", .group .paren [.ident "b", .punct ':' false, .ident "bool",
     .punct ';' false, .ident "x", .punct ',' false, .ident "y", .punct ':' false, .ident "int"],
     .ident "returns", .group .paren [.ident "i", .punct ':' false, .ident "int"],
     .punct ';' false, .ident "let", .ident "i", .punct '=' false, .ident "if", .ident "b",
     .ident "then", .ident "x", .ident "when", .ident "b", .ident "else", .ident "y",
     .ident "whenot", .ident "b", .punct ';' false, .ident "tel", .punct ';' false]] =
    [.tooSlow (.on "b")] := by
  decide +kernel

/-- chandeliers-lus/tests/compile_fail/ui/clk/pre-clocked.rs -/
example : messages [
    [.ident "node", .ident "foo", .group .paren [.ident "b", .punct ':' false, .ident "bool"],
     .ident "returns", .group .paren [], .punct ';' false, .ident "var", .ident "v",
     .punct ',' false, .ident "w", .punct ',' false, .ident "x", .punct ':' false, .ident "int",
     .ident "when", .ident "b", .punct ';' false, .ident "let", .ident "v", .punct '=' false,
     .lit (.int 4), .ident "when", .ident "b", .punct ';' false, .ident "w", .punct '=' false,
     .ident "pre", .ident "v", .punct ';' false, .ident "x", .punct '=' false, .lit (.int 0),
     .punct '-' true, .punct '>' false, .ident "v", .punct ';' false, .ident "tel",
     .punct ';' false]] =
    [.tooSlow (.on "b"),
     .tooSlow (.on "b"),
     .notIdentical (.on "b") .adaptative] := by
  decide +kernel

/-- chandeliers-lus/tests/compile_fail/ui/clk/reclock.rs -/
example : messages [
    [.ident "node", .ident "foo", .group .paren [], .ident "returns", .group .paren [],
     .punct ';' false, .ident "var", .ident "b0", .punct ':' false, .ident "bool",
     .punct ';' false, .ident "b1a", .punct ',' false, .ident "b1b", .punct ',' false,
     .ident "b1c", .punct ':' false, .ident "bool", .ident "when", .ident "b0", .punct ';' false,
     .ident "b2a", .punct ',' false, .ident "b2b", .punct ',' false, .ident "b2c",
     .punct ':' false, .ident "bool", .ident "when", .ident "b1a", .punct ';' false, .ident "let",
     .ident "b0", .punct '=' false, .ident "true", .ident "fby", .ident "not", .ident "b0",
     .punct ';' false, .ident "b1a", .punct '=' false, .ident "true", .ident "when", .ident "b0",
     .punct ';' false, .ident "b1b", .punct '=' false, .ident "true", .ident "when", .ident "b1a",
     .punct ';' false, .ident "b1c", .punct '=' false, .ident "b1a", .punct ';' false,
     .ident "b2a", .punct '=' false, .ident "true", .ident "when", .ident "b1a", .punct ';' false,
     .ident "b2b", .punct '=' false, .group .paren [.ident "not", .ident "b1c"], .ident "when",
     .ident "b1a", .punct ';' false, .ident "b2c", .punct '=' false, .group .paren [.ident "not",
     .ident "b0"], .ident "when", .ident "b1a", .punct ';' false, .ident "tel", .punct ';' false]] =
    [.notIdentical (.on "b0") (.on "b1a"),
     .tooSlow (.on "b0")] := by
  decide +kernel

/-- chandeliers-lus/tests/compile_fail/ui/clk/refine.rs -/
example : messages [
    [.ident "node", .ident "ignore", .group .paren [.ident "x", .punct ':' false, .ident "int"],
     .ident "returns", .group .paren [], .punct ';' false, .ident "let", .ident "tel",
     .punct ';' false, .ident "node", .ident "foo", .group .paren [.ident "b", .punct ':' false,
     .ident "bool"], .ident "returns", .group .paren [], .punct ';' false, .ident "var",
     .ident "d", .punct ':' false, .ident "bool", .punct ';' false, .ident "x", .punct ':' false,
     .ident "int", .ident "when", .ident "b", .punct ';' false, .ident "xd", .punct ':' false,
     .ident "int", .ident "when", .ident "d", .punct ';' false, .ident "y", .punct ':' false,
     .ident "int", .ident "whenot", .ident "b", .punct ';' false, .ident "yd", .punct ':' false,
     .ident "int", .ident "whenot", .ident "d", .punct ';' false, .ident "z", .punct ':' false,
     .ident "int", .punct ';' false, .ident "let", .ident "d", .punct '=' false, .ident "b",
     .punct ';' false, .ident "x", .punct '=' false, .lit (.int 1), .ident "when", .ident "b",
     .punct ';' false, .ident "xd", .punct '=' false, .lit (.int 1), .ident "when", .ident "d",
     .punct ';' false, .ident "y", .punct '=' false, .lit (.int 2), .ident "whenot", .ident "b",
     .punct ';' false, .ident "yd", .punct '=' false, .lit (.int 2), .ident "whenot", .ident "d",
     .punct ';' false, .ident "z", .punct '=' false, .lit (.int 3), .punct ';' false,
     .group .paren [], .punct '=' false, .ident "ignore", .group .paren [.ident "x",
     .punct '+' false, .ident "y"], .punct ';' false, .group .paren [], .punct '=' false,
     .ident "ignore", .group .paren [.ident "x", .punct '+' false, .ident "z"], .punct ';' false,
     .group .paren [], .punct '=' false, .ident "ignore", .group .paren [.ident "y",
     .punct '+' false, .ident "x"], .punct ';' false, .group .paren [], .punct '=' false,
     .ident "ignore", .group .paren [.ident "y", .punct '+' false, .ident "z"], .punct ';' false,
     .group .paren [], .punct '=' false, .ident "ignore", .group .paren [.ident "z",
     .punct '+' false, .ident "x"], .punct ';' false, .group .paren [], .punct '=' false,
     .ident "ignore", .group .paren [.ident "z", .punct '+' false, .ident "y"], .punct ';' false,
     .group .paren [], .punct '=' false, .ident "ignore", .group .paren [.ident "x",
     .punct '+' false, .ident "xd"], .punct ';' false, .group .paren [], .punct '=' false,
     .ident "ignore", .group .paren [.ident "y", .punct '+' false, .ident "yd"], .punct ';' false,
     .group .paren [], .punct '=' false, .ident "ignore", .group .paren [.ident "x",
     .punct '+' false, .ident "x"], .punct ';' false, .group .paren [], .punct '=' false,
     .ident "ignore", .group .paren [.ident "x", .punct '+' false, .lit (.int 1)],
     .punct ';' false, .group .paren [], .punct '=' false, .ident "ignore",
     .group .paren [.ident "y", .punct '+' false, .ident "y"], .punct ';' false, .group .paren [],
     .punct '=' false, .ident "ignore", .group .paren [.ident "y", .punct '+' false,
     .lit (.int 1)], .punct ';' false, .group .paren [], .punct '=' false, .ident "ignore",
     .group .paren [.ident "z", .punct '+' false, .ident "z"], .punct ';' false, .group .paren [],
     .punct '=' false, .ident "ignore", .group .paren [.ident "z", .punct '+' false,
     .lit (.int 1)], .punct ';' false, .group .paren [], .punct '=' false, .ident "ignore",
     .group .paren [.lit (.int 1), .punct '+' false, .ident "x"], .punct ';' false,
     .group .paren [], .punct '=' false, .ident "ignore", .group .paren [.lit (.int 1),
     .punct '+' false, .ident "y"], .punct ';' false, .group .paren [], .punct '=' false,
     .ident "ignore", .group .paren [.lit (.int 1), .punct '+' false, .ident "z"],
     .punct ';' false, .ident "tel", .punct ';' false]] =
    [.notComparable (.on "b") (.off "b"),
     .tooSlow (.on "b"),
     .notComparable (.off "b") (.on "b"),
     .tooSlow (.off "b"),
     .tooSlow (.on "b"),
     .tooSlow (.off "b"),
     .notComparable (.on "b") (.on "d"),
     .notComparable (.off "b") (.off "d")] := by
  decide +kernel

/-- chandeliers-lus/tests/compile_fail/ui/clk/too-fast.rs -/
example : messages [
    [.ident "node", .ident "system", .group .paren [], .ident "returns", .group .paren [],
     .punct ';' false, .ident "var", .ident "b", .punct ':' false, .ident "bool", .punct ';' false,
     .ident "n", .punct ':' false, .ident "int", .ident "when", .ident "b", .punct ';' false,
     .ident "let", .ident "b", .punct '=' false, .ident "true", .ident "fby", .ident "not",
     .ident "b", .punct ';' false, .ident "n", .punct '=' false, .ident "if", .ident "b",
     .ident "then", .lit (.int 1), .ident "else", .lit (.int 2), .punct ';' false, .ident "tel"]] =
    [.notIdentical (.on "b") .implicit] := by
  decide +kernel

/-- chandeliers-lus/tests/compile_fail/ui/clk/too-slow.rs -/
example : messages [
    [.ident "node", .ident "system", .group .paren [], .ident "returns", .group .paren [],
     .punct ';' false, .ident "var", .ident "b", .punct ':' false, .ident "bool", .punct ';' false,
     .ident "_n", .punct ':' false, .ident "int", .punct ';' false, .ident "let", .ident "b",
     .punct '=' false, .ident "true", .ident "fby", .ident "not", .ident "b", .punct ';' false,
     .ident "_n", .punct '=' false, .lit (.int 1), .ident "when", .ident "b", .punct ';' false,
     .ident "tel"]] =
    [.notIdentical .implicit (.on "b")] := by
  decide +kernel

/-- chandeliers-lus/tests/compile_fail/ui/clk/undeclared.rs -/
example : messages [
    [.ident "node", .ident "foo", .group .paren [.ident "b", .punct ':' false, .ident "bool",
     .punct ';' false, .ident "i", .punct ':' false, .ident "int", .ident "when", .ident "b2"],
     .ident "returns", .group .paren [], .punct ';' false, .ident "let", .ident "tel",
     .punct ';' false]] =
    [.notYet "b2"] := by
  decide +kernel

/-- chandeliers-lus/tests/compile_fail/ui/options/malformed.rs -/
example : messages [
    [.punct '#' false, .group .bracket [.ident "mai"], .ident "node", .ident "system",
     .group .paren [], .ident "returns", .group .paren [], .punct ';' false, .ident "let",
     .ident "tel"]] =
    [.malformed "mai"] := by
  decide +kernel

/-- chandeliers-lus/tests/compile_fail/ui/options/not-applicable.rs -/
example : messages [
    [.punct '#' false, .group .bracket [.ident "main"], .ident "const", .ident "X",
     .punct ':' false, .ident "int", .punct '=' false, .lit (.int 0), .punct ';' false]] =
    [.inapplicable .main .const] := by
  decide +kernel

/-- chandeliers-lus/tests/compile_fail/ui/syn/kw.rs -/
example : messages [
    [.ident "const", .ident "crate", .punct ':' false, .ident "int", .punct '=' false,
     .lit (.int 0), .punct ';' false],
    [.ident "const", .ident "self", .punct ':' false, .ident "int", .punct '=' false,
     .lit (.int 0), .punct ';' false],
    [.ident "const", .ident "Self", .punct ':' false, .ident "int", .punct '=' false,
     .lit (.int 0), .punct ';' false],
    [.ident "node", .ident "super", .group .paren [], .ident "returns", .group .paren [],
     .punct ';' false, .ident "let", .ident "tel"],
    [.ident "node", .ident "move", .group .paren [], .ident "returns", .group .paren [],
     .punct ';' false, .ident "let", .ident "tel"],
    [.ident "node", .ident "static", .group .paren [], .ident "returns", .group .paren [],
     .punct ';' false, .ident "let", .ident "tel"]] =
    [.syntaxError,
     .syntaxError,
     .syntaxError,
     .syntaxError,
     .syntaxError,
     .syntaxError] := by
  decide +kernel

/-- chandeliers-lus/tests/compile_fail/ui/syn/noassoc.rs -/
example : messages [
    [.ident "const", .ident "B", .punct ':' false, .ident "bool", .punct '=' false, .lit (.int 0),
     .punct '<' false, .lit (.int 1), .punct '>' false, .lit (.int 2), .punct '<' false,
     .lit (.int 3), .punct ';' false],
    [.ident "const", .ident "B2", .punct ':' false, .ident "bool", .punct '=' false, .lit (.int 0),
     .punct '=' false, .lit (.int 1), .punct '<' true, .punct '>' false, .lit (.int 2),
     .punct '=' false, .lit (.int 3), .punct ';' false]] =
    [.notAssociative,
     .notAssociative] := by
  decide +kernel

/-- chandeliers-lus/tests/compile_fail/ui/syn/unclosed.rs -/
example : messages [
    [.ident "node", .ident "foo", .group .paren [], .ident "returns", .group .paren [],
     .punct ';' false, .ident "let", .ident "x", .punct '=' false, .lit (.int 9), .punct ';' false,
     .ident "y", .punct '=' false, .lit (.int 2), .punct ';' false]] =
    [.syntaxError] := by
  decide +kernel

/-- chandeliers-lus/tests/compile_fail/ui/tc/all-stmts.rs -/
example : messages [
    [.ident "node", .ident "foo", .group .paren [], .ident "returns", .group .paren [],
     .punct ';' false, .ident "let", .ident "assert", .lit (.int 1), .punct '=' false,
     .ident "true", .punct ';' false, .ident "assert", .group .paren [.lit (.int 1),
     .punct '+' false, .ident "true"], .punct '=' false, .group .paren [.lit (.int 2),
     .punct '+' false, .ident "true"], .punct ';' false, .ident "assert",
     .lit (.float (some ⟨4591870180066957722⟩)), .punct '=' false,
     .lit (.float (some ⟨4596373779694328218⟩)), .punct ';' false, .ident "tel"]] =
    [.cmp .eq .same .int .bool,
     .binop .add .same .int .bool,
     .binop .add .same .int .bool,
     .cmp .eq (.among [.int, .bool]) .float .float] := by
  decide +kernel

/-- chandeliers-lus/tests/compile_fail/ui/tc/all-tup.rs -/
example : messages [
    [.ident "node", .ident "foo", .group .paren [.ident "x", .punct ',' false, .ident "y",
     .punct ',' false, .ident "z", .punct ':' false, .ident "int"], .ident "returns",
     .group .paren [.ident "a", .punct ',' false, .ident "b", .punct ',' false, .ident "c",
     .punct ':' false, .ident "bool"], .punct ';' false, .ident "let", .group .paren [.ident "a",
     .punct ',' false, .ident "b", .punct ',' false, .ident "c"], .punct '=' false,
     .group .paren [.ident "x", .punct ',' false, .ident "y", .punct ',' false, .ident "z"],
     .punct ';' false, .ident "tel"]] =
    [.mismatch,
     .mismatch,
     .mismatch] := by
  decide +kernel

/-- chandeliers-lus/tests/compile_fail/ui/tc/both-sides.rs -/
example : messages [
    [.ident "const", .ident "X", .punct ':' false, .ident "int", .punct '=' false,
     .group .paren [.ident "true", .punct '+' false, .ident "true"], .punct '+' false,
     .group .paren [.ident "false", .punct '+' false, .ident "false"], .punct ';' false]] =
    [.binop .add (.among [.int, .float]) .bool .bool,
     .binop .add (.among [.int, .float]) .bool .bool] := by
  decide +kernel

/-- chandeliers-lus/tests/compile_fail/ui/tc/floateq.rs -/
example : messages [
    [.ident "node", .ident "rounding_error", .group .paren [], .ident "returns", .group .paren [],
     .punct ';' false, .ident "let", .ident "assert", .lit (.float (some ⟨4591870180066957722⟩)),
     .punct '+' false, .lit (.float (some ⟨4596373779694328218⟩)), .punct '=' false,
     .lit (.float (some ⟨4599075939470750515⟩)), .punct ';' false, .ident "tel"]] =
    [.cmp .eq (.among [.int, .bool]) .float .float] := by
  decide +kernel

/-- chandeliers-lus/tests/compile_fail/ui/tc/if-int.rs -/
example : messages [
    [.ident "node", .ident "foo", .group .paren [], .ident "returns", .group .paren [],
     .punct ';' false, .ident "let", .ident "assert", .ident "if", .lit (.int 1), .ident "then",
     .ident "true", .ident "else", .ident "false", .punct ';' false, .ident "tel",
     .punct ';' false],
    [.ident "node", .ident "foo", .group .paren [], .ident "returns", .group .paren [],
     .punct ';' false, .ident "let", .ident "assert", .ident "if", .group .paren [.lit (.int 1),
     .punct ',' false, .lit (.int 2), .punct ',' false, .lit (.int 3)], .ident "then",
     .ident "true", .ident "else", .ident "false", .punct ';' false, .ident "tel",
     .punct ';' false],
    [.ident "node", .ident "foo", .group .paren [], .ident "returns", .group .paren [],
     .punct ';' false, .ident "let", .ident "assert", .lit (.int 1), .punct ';' false,
     .ident "tel", .punct ';' false],
    [.ident "node", .ident "foo", .group .paren [], .ident "returns", .group .paren [],
     .punct ';' false, .ident "let", .ident "assert", .group .paren [.lit (.int 1),
     .punct ',' false, .lit (.int 2), .punct ',' false, .lit (.int 3)], .punct ';' false,
     .ident "tel", .punct ';' false]] =
    [.notBool "The condition of if" .int,
     .notScalar [.int, .int, .int],
     .notBool "The argument of assert" .int,
     .notScalar [.int, .int, .int]] := by
  decide +kernel

/-- chandeliers-lus/tests/compile_fail/ui/tc/main-sig.rs -/
example : messages [
    [.punct '#' false, .group .bracket [.ident "main"], .ident "node", .ident "main",
     .group .paren [], .ident "returns", .group .paren [.ident "i", .punct ':' false,
     .ident "int"], .punct ';' false, .ident "let", .ident "i", .punct '=' false, .lit (.int 0),
     .punct ';' false, .ident "tel", .punct ';' false],
    [.punct '#' false, .group .bracket [.ident "test"], .ident "node", .ident "test",
     .group .paren [.ident "i", .punct ':' false, .ident "int"], .ident "returns",
     .group .paren [.ident "b", .punct ':' false, .ident "bool"], .punct ';' false, .ident "let",
     .ident "b", .punct '=' false, .group .paren [.ident "i", .punct '=' false, .lit (.int 0)],
     .punct ';' false, .ident "tel", .punct ';' false]] =
    [.signature false true,
     .signature true true] := by
  decide +kernel

/-- chandeliers-lus/tests/compile_fail/ui/tc/not-found.rs -/
example : messages [
    [.ident "const", .ident "Y", .punct ':' false, .ident "int", .punct '=' false, .lit (.int 42),
     .punct ';' false, .ident "const", .ident "Z", .punct ':' false, .ident "int",
     .punct '=' false, .lit (.int 12), .punct ';' false, .ident "node", .ident "foo",
     .group .paren [], .ident "returns", .group .paren [.ident "i", .punct ':' false,
     .ident "int"], .punct ';' false, .ident "let", .ident "i", .punct '=' false, .ident "X",
     .punct ';' false, .ident "tel"]] =
    [.varNotFound "X"] := by
  decide +kernel

/-- chandeliers-lus/tests/compile_fail/ui/tc/shadow.rs -/
example : messages [
    [.ident "const", .ident "X", .punct ':' false, .ident "int", .punct '=' false, .lit (.int 0),
     .punct ';' false, .ident "node", .ident "test", .group .paren [], .ident "returns",
     .group .paren [.ident "X", .punct ':' false, .ident "bool"], .punct ';' false, .ident "let",
     .ident "X", .punct '=' false, .lit (.int 0), .punct ';' false, .ident "tel"]] =
    [.mismatch] := by
  decide +kernel

/-- chandeliers-lus/tests/compile_fail/ui/tc/strlit.rs -/
example : messages [
    [.ident "const", .ident "S", .punct ':' false, .ident "int", .punct '=' false,
     .lit (.str "foobar"), .punct ';' false]] =
    [.badLiteral] := by
  decide +kernel

/-- chandeliers-lus/tests/compile_fail/ui/tc/trailing.rs -/
example : messages [
    [.ident "node", .ident "foo", .group .paren [], .ident "returns", .group .paren [],
     .punct ';' false, .ident "let", .group .paren [], .punct '=' false,
     .group .paren [.group .paren [], .punct ',' false], .punct ';' false, .ident "tel",
     .punct ';' false],
    [.ident "node", .ident "foo", .group .paren [], .ident "returns", .group .paren [],
     .punct ';' false, .ident "let", .ident "tel", .punct ';' false, .ident "node", .ident "bar",
     .group .paren [], .ident "returns", .group .paren [], .punct ';' false, .ident "let",
     .group .paren [], .punct '=' false, .ident "foo", .group .paren [.group .paren [],
     .punct ',' false], .punct ';' false, .ident "tel", .punct ';' false]] =
    [.mismatch,
     .mismatch] := by
  decide +kernel

/-- chandeliers-lus/tests/compile_fail/ui/tc/tuples.rs -/
example : messages [
    [.ident "node", .ident "gen", .group .paren [], .ident "returns", .group .paren [.ident "a",
     .punct ':' false, .ident "int", .punct ';' false, .ident "b", .punct ':' false,
     .ident "float", .punct ';' false, .ident "c", .punct ':' false, .ident "bool"],
     .punct ';' false, .ident "let", .ident "a", .punct '=' false, .lit (.int 1), .punct ';' false,
     .ident "b", .punct '=' false, .lit (.float (some ⟨4602678819172646912⟩)), .punct ';' false,
     .ident "c", .punct '=' false, .ident "true", .punct ';' false, .ident "tel", .punct ';' false,
     .ident "node", .ident "main", .group .paren [], .ident "returns", .group .paren [],
     .punct ';' false, .ident "var", .ident "a", .punct ',' false, .ident "b", .punct ',' false,
     .ident "c", .punct ':' false, .ident "int", .punct ';' false, .ident "let",
     .group .paren [.ident "a", .punct ',' false, .ident "b", .punct ',' false, .ident "c"],
     .punct '=' false, .ident "gen", .group .paren [], .punct ';' false, .ident "tel"]] =
    [.mismatch,
     .mismatch] := by
  decide +kernel

/-- chandeliers-lus/tests/compile_fail/ui/tc/when-int.rs -/
example : messages [
    [.ident "node", .ident "bar", .group .paren [.ident "b", .punct ':' false, .ident "int",
     .punct ';' false, .ident "x", .punct ':' false, .ident "int", .ident "when", .ident "b"],
     .ident "returns", .group .paren [], .punct ';' false, .ident "let", .ident "tel",
     .punct ';' false]] =
    [.notBool "Clock" .int] := by
  decide +kernel

/-- chandeliers-lus/tests/compile_fail/ui/tc/when-missing.rs -/
example : messages [
    [.ident "node", .ident "foo", .group .paren [.ident "x", .punct ':' false, .ident "int",
     .ident "when", .ident "b"], .ident "returns", .group .paren [], .punct ';' false,
     .ident "let", .ident "tel", .punct ';' false],
    [.ident "node", .ident "foo", .group .paren [.ident "x", .punct ':' false, .ident "int",
     .ident "when", .ident "b"], .ident "returns", .group .paren [.ident "b", .punct ':' false,
     .ident "bool"], .punct ';' false, .ident "let", .ident "b", .punct '=' false, .ident "true",
     .punct ';' false, .ident "tel", .punct ';' false]] =
    [.notYet "b",
     .notYet "b"] := by
  decide +kernel

/-- chandeliers-lus/tests/compile_fail/ui/tc/when-on-const.rs -/
example : messages [
    [.ident "const", .ident "X", .punct ':' false, .ident "int", .ident "when", .ident "b",
     .punct '=' false, .lit (.int 0), .punct ';' false]] =
    [.syntaxError] := by
  decide +kernel

/-- chandeliers-lus/tests/compile_fail/ui/tc/when-self.rs -/
example : messages [
    [.ident "node", .ident "foo", .group .paren [.ident "b", .punct ':' false, .ident "bool",
     .ident "when", .ident "b"], .ident "returns", .group .paren [], .punct ';' false,
     .ident "let", .ident "tel", .punct ';' false]] =
    [.notYet "b"] := by
  decide +kernel

/-- chandeliers-lus/tests/compile_fail/ui/tc/builtin/float-in.rs -/
example : messages [
    [.ident "extern", .ident "node", .ident "float_of_int", .group .paren [.ident "i",
     .punct ':' false, .ident "int"], .ident "returns", .group .paren [.ident "f",
     .punct ':' false, .ident "float"], .punct ';' false, .ident "node", .ident "main",
     .group .paren [], .ident "returns", .group .paren [], .punct ';' false, .ident "var",
     .ident "x", .punct ':' false, .ident "float", .punct ';' false, .ident "let", .ident "x",
     .punct '=' false, .ident "float_of_int", .group .paren [.lit (.int 1), .punct ',' false,
     .lit (.int 2)], .punct ';' false, .ident "tel"]] =
    [.mismatch] := by
  decide +kernel

/-- chandeliers-lus/tests/compile_fail/ui/tc/builtin/float-out.rs -/
example : messages [
    [.ident "extern", .ident "node", .ident "float_of_int", .group .paren [.ident "i",
     .punct ':' false, .ident "int"], .ident "returns", .group .paren [.ident "f",
     .punct ':' false, .ident "float"], .punct ';' false, .ident "node", .ident "main",
     .group .paren [], .ident "returns", .group .paren [], .punct ';' false, .ident "var",
     .ident "x", .punct ',' false, .ident "y", .punct ':' false, .ident "float", .punct ';' false,
     .ident "let", .group .paren [.ident "x", .punct ',' false, .ident "y"], .punct '=' false,
     .ident "float_of_int", .group .paren [.lit (.int 1)], .punct ';' false, .ident "tel"]] =
    [.mismatch] := by
  decide +kernel

/-- chandeliers-lus/tests/compile_fail/ui/tc/const/call.rs -/
example : messages [
    [.ident "const", .ident "X", .punct ':' false, .ident "float", .punct '=' false,
     .ident "float", .group .paren [.lit (.int 5)], .punct ';' false]] =
    [.notConst] := by
  decide +kernel

/-- chandeliers-lus/tests/compile_fail/ui/tc/const/fby.rs -/
example : messages [
    [.ident "const", .ident "X", .punct ':' false, .ident "int", .punct '=' false, .lit (.int 0),
     .ident "fby", .lit (.int 1), .ident "fby", .lit (.int 2), .punct ';' false]] =
    [.notConst] := by
  decide +kernel

/-- chandeliers-lus/tests/compile_fail/ui/tc/const/node.rs -/
example : messages [
    [.ident "const", .ident "X", .punct ':' false, .ident "float", .punct '=' false, .ident "test",
     .group .paren [.lit (.int 5)], .punct ';' false]] =
    [.notConst] := by
  decide +kernel

/-- chandeliers-lus/tests/compile_fail/ui/tc/const/then.rs -/
example : messages [
    [.ident "const", .ident "X", .punct ':' false, .ident "int", .punct '=' false, .lit (.int 0),
     .punct '-' true, .punct '>' false, .lit (.int 1), .punct ';' false]] =
    [.notConst] := by
  decide +kernel

/-- chandeliers-lus/tests/compile_fail/ui/tc/ops/binop-mismatch.rs -/
example : messages [
    [.ident "const", .ident "N", .punct ':' false, .ident "int", .punct '=' false, .lit (.int 5),
     .punct '+' false, .lit (.float (some ⟨4591870180066957722⟩)), .punct ';' false],
    [.ident "node", .ident "foo", .group .paren [.ident "i", .punct ':' false, .ident "int"],
     .ident "returns", .group .paren [.ident "o", .punct ':' false, .ident "float"],
     .punct ';' false, .ident "let", .ident "o", .punct '=' false, .ident "i", .punct '+' false,
     .lit (.int 1), .punct '+' false, .lit (.int 4), .punct '+' false,
     .lit (.float (some ⟨4602678819172646912⟩)), .punct ';' false, .ident "tel"],
    [.ident "const", .ident "B", .punct ':' false, .ident "bool", .punct '=' false,
     .group .paren [.lit (.int 1), .punct '+' false, .lit (.int 1), .punct '=' false,
     .group .paren [.ident "true", .ident "or", .ident "false"]]]] =
    [.binop .add .same .int .float,
     .binop .add .same .int .float,
     .cmp .eq .same .int .bool] := by
  decide +kernel

/-- chandeliers-lus/tests/compile_fail/ui/tc/ops/binop-wrong.rs -/
example : messages [
    [.ident "const", .ident "B", .punct ':' false, .ident "bool", .punct '=' false, .ident "true",
     .punct '+' false, .ident "true", .punct ';' false],
    [.ident "const", .ident "R", .punct ':' false, .ident "float", .punct '=' false,
     .lit (.float (some ⟨4591870180066957722⟩)), .punct '%' false,
     .lit (.float (some ⟨4602678819172646912⟩)), .punct ';' false],
    [.ident "const", .ident "F", .punct ':' false, .ident "float", .punct '=' false,
     .lit (.float (some ⟨4591870180066957722⟩)), .ident "and",
     .lit (.float (some ⟨4600877379321698714⟩)), .punct ';' false]] =
    [.binop .add (.among [.int, .float]) .bool .bool,
     .binop .rem (.among [.int]) .float .float,
     .binop .bitAnd (.among [.int, .bool]) .float .float] := by
  decide +kernel

/-- chandeliers-lus/tests/compile_fail/ui/tc/ops/bool.rs -/
example : messages [
    [.ident "node", .ident "foo", .group .paren [.ident "i", .punct ':' false, .ident "int"],
     .ident "returns", .group .paren [.ident "b", .punct ':' false, .ident "bool"],
     .punct ';' false, .ident "let", .ident "b", .punct '=' false, .ident "if", .ident "i",
     .ident "then", .lit (.int 0), .ident "else", .lit (.int 1), .punct ';' false, .ident "tel"],
    [.ident "node", .ident "bar", .group .paren [.ident "i", .punct ':' false, .ident "int"],
     .ident "returns", .group .paren [], .punct ';' false, .ident "let", .ident "assert",
     .ident "i", .punct ';' false, .ident "tel"]] =
    [.notBool "The condition of if" .int,
     .notBool "The argument of assert" .int] := by
  decide +kernel

/-- chandeliers-lus/tests/compile_fail/ui/tc/ops/unop-wrong.rs -/
example : messages [
    [.ident "const", .ident "X", .punct ':' false, .ident "float", .punct '=' false, .ident "not",
     .lit (.float (some ⟨4616189618054758400⟩)), .punct ';' false],
    [.ident "const", .ident "B", .punct ':' false, .ident "bool", .punct '=' false,
     .punct '-' false, .ident "true", .punct ';' false]] =
    [.unop .not (.among [.bool, .int]) .float,
     .unop .neg (.among [.int, .float]) .bool] := by
  decide +kernel

/-- chandeliers-lus/tests/compile_fail/ui/tc/poly/dup.rs -/
example : messages [
    [.punct '#' false, .group .bracket [.ident "generic", .group .bracket [.ident "T",
     .punct ',' false, .ident "T"]], .ident "node", .ident "id", .group .paren [.ident "t0",
     .punct ':' false, .ident "T"], .ident "returns", .group .paren [.ident "t1", .punct ':' false,
     .ident "T"], .punct ';' false, .ident "let", .ident "t1", .punct '=' false, .ident "t0",
     .punct ';' false, .ident "tel", .punct ';' false]] =
    [.malformed "generic"] := by
  decide +kernel

/-- chandeliers-lus/tests/compile_fail/ui/tc/poly/equality.rs -/
example : messages [
    [.punct '#' false, .group .bracket [.ident "generic", .group .bracket [.ident "T"]],
     .ident "node", .ident "eq", .group .paren [.ident "t", .punct ',' false, .ident "u",
     .punct ':' false, .ident "T"], .ident "returns", .group .paren [.ident "b", .punct ':' false,
     .ident "bool"], .punct ';' false, .ident "let", .ident "b", .punct '=' false,
     .group .paren [.ident "t", .punct '=' false, .ident "u"], .punct ';' false, .ident "tel",
     .punct ';' false],
    [.punct '#' false, .group .bracket [.ident "generic", .group .bracket [.ident "T"]],
     .ident "node", .ident "plus", .group .paren [.ident "t", .punct ',' false, .ident "u",
     .punct ':' false, .ident "T"], .ident "returns", .group .paren [.ident "out",
     .punct ':' false, .ident "T"], .punct ';' false, .ident "let", .ident "out", .punct '=' false,
     .ident "t", .punct '+' false, .ident "u", .punct ';' false, .ident "tel", .punct ';' false]] =
    [.cmp .eq .concrete (.other "T") (.other "T"),
     .binop .add .concrete (.other "T") (.other "T")] := by
  decide +kernel

/-- chandeliers-lus/tests/compile_fail/ui/tc/poly/narrowing.rs -/
example : messages [
    [.ident "node", .ident "id_int", .group .paren [.ident "i0", .punct ':' false, .ident "int"],
     .ident "returns", .group .paren [.ident "i1", .punct ':' false, .ident "int"],
     .punct ';' false, .ident "let", .ident "i1", .punct '=' false, .ident "i0", .punct ';' false,
     .ident "tel", .punct ';' false, .punct '#' false, .group .bracket [.ident "generic",
     .group .bracket [.ident "T"]], .ident "node", .ident "id", .group .paren [.ident "t0",
     .punct ':' false, .ident "T"], .ident "returns", .group .paren [.ident "t1", .punct ':' false,
     .ident "T"], .punct ';' false, .ident "let", .ident "t1", .punct '=' false, .ident "id_int",
     .group .paren [.ident "t0"], .punct ';' false, .ident "tel", .punct ';' false]] =
    [.mismatch] := by
  decide +kernel

/-- chandeliers-lus/tests/compile_fail/ui/tc/poly/rebind.rs -/
example : messages [
    [.punct '#' false, .group .bracket [.ident "generic", .group .bracket [.ident "T"]],
     .ident "node", .ident "alternate", .group .paren [.ident "x", .punct ',' false, .ident "y",
     .punct ':' false, .ident "T"], .ident "returns", .group .paren [.ident "t", .punct ':' false,
     .ident "T"], .punct ';' false, .ident "var", .ident "b", .punct ':' false, .ident "bool",
     .punct ';' false, .ident "let", .ident "b", .punct '=' false, .ident "true", .ident "fby",
     .ident "not", .ident "b", .punct ';' false, .ident "t", .punct '=' false, .ident "if",
     .ident "b", .ident "then", .ident "x", .ident "else", .ident "y", .punct ';' false,
     .ident "tel", .punct ';' false, .ident "node", .ident "f", .group .paren [], .ident "returns",
     .group .paren [.ident "v", .punct ':' false, .ident "int"], .punct ';' false, .ident "let",
     .ident "v", .punct '=' false, .ident "alternate", .group .paren [.lit (.int 1),
     .punct ',' false, .ident "true"], .punct ';' false, .ident "tel", .punct ';' false]] =
    [.unsatisfied "T" .int .bool] := by
  decide +kernel

/-- chandeliers-lus/tests/compile_fail/ui/tc/poly/shadow.rs -/
example : messages [
    [.punct '#' false, .group .bracket [.ident "generic", .group .bracket [.ident "int"]],
     .ident "node", .ident "foo", .group .paren [.ident "i", .punct ':' false, .ident "int"],
     .ident "returns", .group .paren [.ident "o", .punct ':' false, .ident "int"],
     .punct ';' false, .ident "let", .ident "o", .punct '=' false, .ident "i", .punct ';' false,
     .ident "tel", .punct ';' false]] =
    [.malformed "generic"] := by
  decide +kernel

/-- chandeliers-lus/tests/compile_fail/ui/tc/poly/undeclared-ext.rs -/
example : messages [
    [.ident "extern", .ident "node", .ident "id", .group .paren [.ident "t0", .punct ':' false,
     .ident "T"], .ident "returns", .group .paren [.ident "t1", .punct ':' false, .ident "T"],
     .punct ';' false]] =
    [.undeclaredGeneric "T"] := by
  decide +kernel

/-- chandeliers-lus/tests/compile_fail/ui/tc/poly/undeclared.rs -/
example : messages [
    [.ident "node", .ident "id", .group .paren [.ident "t0", .punct ':' false, .ident "T"],
     .ident "returns", .group .paren [.ident "t1", .punct ':' false, .ident "T"], .punct ';' false,
     .ident "let", .ident "t1", .punct '=' false, .ident "t0", .punct ';' false, .ident "tel",
     .punct ';' false]] =
    [.undeclaredGeneric "T"] := by
  decide +kernel

/-- chandeliers-lus/tests/compile_fail/ui/tc/poly/unused-ext.rs -/
example : messages [
    [.punct '#' false, .group .bracket [.ident "generic", .group .bracket [.ident "T"]],
     .ident "extern", .ident "node", .ident "id", .group .paren [.ident "t0", .punct ':' false,
     .ident "int"], .ident "returns", .group .paren [.ident "t1", .punct ':' false, .ident "int"],
     .punct ';' false]] =
    [.unusedGeneric "T"] := by
  decide +kernel

/-- chandeliers-lus/tests/compile_fail/ui/tc/poly/unused.rs -/
example : messages [
    [.punct '#' false, .group .bracket [.ident "generic", .group .bracket [.ident "T"]],
     .ident "node", .ident "id", .group .paren [.ident "t0", .punct ':' false, .ident "int"],
     .ident "returns", .group .paren [.ident "t1", .punct ':' false, .ident "int"],
     .punct ';' false, .ident "let", .ident "t1", .punct '=' false, .ident "t0", .punct ';' false,
     .ident "tel", .punct ';' false]] =
    [.unusedGeneric "T"] := by
  decide +kernel

/-- chandeliers-lus/tests/warn/options/redundant.rs -/
example : messages [
    [.punct '#' false, .group .bracket [.ident "trace"], .punct '#' false,
     .group .bracket [.ident "trace"], .punct '#' false, .group .bracket [.ident "trace"],
     .ident "node", .ident "foo", .group .paren [], .ident "returns", .group .paren [],
     .punct ';' false, .ident "let", .ident "tel", .punct ';' false, .punct '#' false,
     .group .bracket [.ident "pub"], .punct '#' false, .group .bracket [.ident "export"],
     .ident "node", .ident "bar", .group .paren [], .ident "returns", .group .paren [],
     .punct ';' false, .ident "let", .ident "tel", .punct ';' false]] =
    [.duplicate .trace,
     .duplicate .trace,
     .duplicate .exported] := by
  decide +kernel

end Chandeliers.Tests
