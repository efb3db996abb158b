import Verif.Spec.SampleTexts

/-!
# The programs of `Verif.Spec.SampleTexts`, read

Written from what `parseProg` returns, and checked below each program.
-/

set_option autoImplicit false
set_option maxRecDepth 100000

namespace Chandeliers.Smp
open San Syn Spec.Samples

/-- The node. -/
def count_count : SrcNode :=
  ⟨"count", [], [⟨["x"], .int, .implicit⟩], [], [.def_ (.var "x") (.left (.left (.cmp (.fby
    (.arrow (.left (.left (.left (.lit (.int 0)) []) []) []) [.left (.left (.left (.pre
    (.var "x")) []) []) [(.add, .left (.left (.lit (.int 1)) []) [])]]) []) []) []) [])]⟩

/-- What `countText` reads as. -/
def countTree : SrcProg :=
  [⟨[⟨"pub", [], [], 0⟩], .node count_count⟩]

theorem count_reads : parseProg countText = some countTree := rfl

/-- The constant. -/
def fib_FIB0 : SrcConst :=
  ⟨"FIB0", .int, .left (.left (.cmp (.fby (.arrow (.left (.left (.left (.lit (.int 0)) []) [])
    []) []) []) []) []) []⟩

/-- The constant. -/
def fib_FIB1 : SrcConst :=
  ⟨"FIB1", .int, .left (.left (.cmp (.fby (.arrow (.left (.left (.left (.lit (.int 1)) []) [])
    []) []) []) []) []) []⟩

/-- The node. -/
def fib_fib : SrcNode :=
  ⟨"fib", [], [⟨["x"], .int, .implicit⟩], [], [.def_ (.var "x") (.left (.left (.cmp (.fby
    (.arrow (.left (.left (.left (.var "FIB0") []) []) []) [.left (.left (.left (.var "FIB1")
    []) []) [], .left (.left (.left (.pre (.var "x")) []) []) [(.add, .left (.left (.pre (.pre
    (.var "x"))) []) [])]]) []) []) []) [])]⟩

/-- What `fibText` reads as. -/
def fibTree : SrcProg :=
  [⟨[⟨"doc", [], [.str "Value of the Fibonacci sequence at index 0"], 0⟩, ⟨"pub", [], [], 0⟩],
    .const fib_FIB0⟩,
   ⟨[⟨"doc", [], [.str "Value of the Fibonacci sequence at index 1"], 0⟩, ⟨"pub", [], [], 0⟩],
   .const fib_FIB1⟩,
   ⟨[⟨"pub", [], [], 0⟩], .node fib_fib⟩]

theorem fib_reads : parseProg fibText = some fibTree := rfl

/-- The node. -/
def counting_counting_twice : SrcNode :=
  ⟨"counting_twice", [], [⟨["out"], .int, .implicit⟩], [⟨["b"], .bool, .implicit⟩], [.def_
    (.var "b") (.left (.left (.cmp (.fby (.arrow (.left (.left (.left (.lit (.bool true)) [])
    []) []) []) [.arrow (.left (.left (.left (.paren [.left (.left (.cmp (.fby (.arrow (.left
    (.left (.left (.not (.var "b")) []) []) []) []) []) []) []) []] false) []) []) []) []])
    []) []) []), .def_ (.var "out") (.left (.left (.cmp (.fby (.arrow (.left (.left (.left
    (.ifx (.left (.left (.cmp (.fby (.arrow (.left (.left (.left (.lit (.bool true)) []) [])
    []) []) []) []) []) []) (.left (.left (.cmp (.fby (.arrow (.left (.left (.left
    (.call "count" [] false) []) []) []) []) []) []) []) []) (.left (.left (.cmp (.fby (.arrow
    (.left (.left (.left (.call "count" [] false) []) []) []) []) []) []) []) [])) []) []) [])
    []) []) []) []) [])]⟩

/-- The node. -/
def counting_counting_late : SrcNode :=
  ⟨"counting_late", [], [⟨["out"], .int, .implicit⟩], [], [.def_ (.var "out") (.left (.left
    (.cmp (.fby (.arrow (.left (.left (.left (.lit (.int 0)) []) []) []) []) [.arrow (.left
    (.left (.left (.lit (.int 0)) []) []) []) [], .arrow (.left (.left (.left (.call "count"
    [] false) []) []) []) []]) []) []) [])]⟩

/-- What `countingText` reads as. -/
def countingTree : SrcProg :=
  [⟨[], .extNode "count" [] [⟨["out"], .int, .implicit⟩]⟩,
   ⟨[⟨"pub", [], [], 0⟩], .node counting_counting_twice⟩,
   ⟨[⟨"pub", [], [], 0⟩], .node counting_counting_late⟩]

theorem counting_reads : parseProg countingText = some countingTree := rfl

/-- The node. -/
def sums_sum : SrcNode :=
  ⟨"sum", [⟨["inc"], .int, .implicit⟩], [⟨["s"], .int, .implicit⟩], [], [.def_ (.var "s")
    (.left (.left (.cmp (.fby (.arrow (.left (.left (.left (.var "inc") []) []) [(.add, .left
    (.left (.paren [.left (.left (.cmp (.fby (.arrow (.left (.left (.left (.lit (.int 0)) [])
    []) []) []) [.arrow (.left (.left (.left (.var "s") []) []) []) []]) []) []) []] false)
    []) [])]) []) []) []) []) [])]⟩

/-- The node. -/
def sums_randsum : SrcNode :=
  ⟨"randsum", [], [⟨["r", "s"], .int, .implicit⟩], [], [.def_ (.var "r") (.left (.left (.cmp
    (.fby (.arrow (.left (.left (.left (.call "RandomInt" [] false) []) []) []) []) []) [])
    []) []), .def_ (.var "s") (.left (.left (.cmp (.fby (.arrow (.left (.left (.left
    (.call "sum" [.left (.left (.cmp (.fby (.arrow (.left (.left (.left (.var "r") []) []) [])
    []) []) []) []) []] false) []) []) []) []) []) []) []) [])]⟩

/-- What `sumsText` reads as. -/
def sumsTree : SrcProg :=
  [⟨[], .extNode "RandomInt" [] [⟨["r"], .int, .implicit⟩]⟩,
   ⟨[], .node sums_sum⟩,
   ⟨[⟨"pub", [], [], 0⟩, ⟨"rustc_allow", ["dead_code"], [], 0⟩], .node sums_randsum⟩]

theorem sums_reads : parseProg sumsText = some sumsTree := rfl

/-- The node. -/
def ten_foo : SrcNode :=
  ⟨"foo", [], [], [⟨["n"], .int, .implicit⟩], [.def_ (.var "n") (.left (.left (.cmp (.fby
    (.arrow (.left (.left (.left (.lit (.int 0)) []) []) []) []) [.arrow (.left (.left (.left
    (.var "n") []) []) [(.add, .left (.left (.lit (.int 1)) []) [])]) []]) []) []) []),
    .assert (.left (.left (.cmp (.fby (.arrow (.left (.left (.left (.var "n") []) []) []) [])
    []) [(.lt, .fby (.arrow (.left (.left (.left (.lit (.int 10)) []) []) []) []) [])]) []) [])]⟩

/-- What `tenText` reads as. -/
def tenTree : SrcProg :=
  [⟨[⟨"main", [], [], 0⟩], .node ten_foo⟩]

theorem ten_reads : parseProg tenText = some tenTree := rfl

/-- The node. -/
def assoc_count : SrcNode :=
  ⟨"count", [], [⟨["n"], .int, .implicit⟩], [], [.def_ (.var "n") (.left (.left (.cmp (.fby
    (.arrow (.left (.left (.left (.lit (.int 0)) []) []) []) []) [.arrow (.left (.left (.left
    (.var "n") []) []) [(.add, .left (.left (.lit (.int 1)) []) [])]) []]) []) []) [])]⟩

/-- The node. -/
def assoc_a : SrcNode :=
  ⟨"a", [], [⟨["i", "j"], .int, .implicit⟩], [], [.def_ (.var "i") (.left (.left (.cmp (.fby
    (.arrow (.left (.left (.left (.lit (.int 0)) []) []) []) []) []) []) []) []), .def_
    (.var "j") (.left (.left (.cmp (.fby (.arrow (.left (.left (.left (.call "count" [] false)
    []) []) []) []) []) []) []) [])]⟩

/-- The node. -/
def assoc_b : SrcNode :=
  ⟨"b", [], [⟨["i", "j"], .int, .implicit⟩], [], [.def_ (.var "i") (.left (.left (.cmp (.fby
    (.arrow (.left (.left (.left (.lit (.int 1)) []) []) []) []) []) []) []) []), .def_
    (.var "j") (.left (.left (.cmp (.fby (.arrow (.left (.left (.left (.call "count" [] false)
    []) []) []) []) []) []) []) [])]⟩

/-- The node. -/
def assoc_c : SrcNode :=
  ⟨"c", [], [⟨["i", "j"], .int, .implicit⟩], [], [.def_ (.var "i") (.left (.left (.cmp (.fby
    (.arrow (.left (.left (.left (.lit (.int 2)) []) []) []) []) []) []) []) []), .def_
    (.var "j") (.left (.left (.cmp (.fby (.arrow (.left (.left (.left (.call "count" [] false)
    []) []) []) []) []) []) []) [])]⟩

/-- The node. -/
def assoc_testing : SrcNode :=
  ⟨"testing", [], [⟨["i", "j"], .int, .implicit⟩], [], [.def_ (.tuple [.var "i",
    .var "j"] false) (.left (.left (.cmp (.fby (.arrow (.left (.left (.left (.call "a"
    [] false) []) []) []) [.left (.left (.left (.call "b" [] false) []) []) [], .left (.left
    (.left (.call "c" [] false) []) []) []]) []) []) []) [])]⟩

/-- The node. -/
def assoc_witness : SrcNode :=
  ⟨"witness", [], [⟨["i", "j"], .int, .implicit⟩], [], [.def_ (.tuple [.var "i",
    .var "j"] false) (.left (.left (.cmp (.fby (.arrow (.left (.left (.left (.paren [.left
    (.left (.cmp (.fby (.arrow (.left (.left (.left (.lit (.int 0)) []) []) []) []) []) [])
    []) [], .left (.left (.cmp (.fby (.arrow (.left (.left (.left (.lit (.int 0)) []) []) [])
    []) []) []) []) []] false) []) []) []) [.left (.left (.left (.paren [.left (.left (.cmp
    (.fby (.arrow (.left (.left (.left (.lit (.int 1)) []) []) []) []) []) []) []) [], .left
    (.left (.cmp (.fby (.arrow (.left (.left (.left (.lit (.int 1)) []) []) []) []) []) [])
    []) []] false) []) []) [], .left (.left (.left (.paren [.left (.left (.cmp (.fby (.arrow
    (.left (.left (.left (.lit (.int 2)) []) []) []) []) []) []) []) [], .left (.left (.cmp
    (.fby (.arrow (.left (.left (.left (.lit (.int 2)) []) []) []) []) []) []) []) []] false)
    []) []) [], .left (.left (.left (.paren [.left (.left (.cmp (.fby (.arrow (.left (.left
    (.left (.lit (.int 2)) []) []) []) []) []) []) []) [], .left (.left (.cmp (.fby (.arrow
    (.left (.left (.left (.lit (.int 3)) []) []) []) []) []) []) []) []] false) []) []) [],
    .left (.left (.left (.paren [.left (.left (.cmp (.fby (.arrow (.left (.left (.left (.lit
    (.int 2)) []) []) []) []) []) []) []) [], .left (.left (.cmp (.fby (.arrow (.left (.left
    (.left (.lit (.int 4)) []) []) []) []) []) []) []) []] false) []) []) [], .left (.left
    (.left (.paren [.left (.left (.cmp (.fby (.arrow (.left (.left (.left (.lit (.int 2)) [])
    []) []) []) []) []) []) [], .left (.left (.cmp (.fby (.arrow (.left (.left (.left (.lit
    (.int 5)) []) []) []) []) []) []) []) []] false) []) []) [], .left (.left (.left (.paren
    [.left (.left (.cmp (.fby (.arrow (.left (.left (.left (.lit (.int 2)) []) []) []) []) [])
    []) []) [], .left (.left (.cmp (.fby (.arrow (.left (.left (.left (.lit (.int 6)) []) [])
    []) []) []) []) []) []] false) []) []) []]) []) []) []) [])]⟩

/-- The node. -/
def assoc_system : SrcNode :=
  ⟨"system", [], [], [⟨["ti", "tj", "wi", "wj"], .int, .implicit⟩], [.def_ (.tuple [.var "ti",
    .var "tj"] false) (.left (.left (.cmp (.fby (.arrow (.left (.left (.left (.call "testing"
    [] false) []) []) []) []) []) []) []) []), .def_ (.tuple [.var "wi", .var "wj"] false)
    (.left (.left (.cmp (.fby (.arrow (.left (.left (.left (.call "witness" [] false) []) [])
    []) []) []) []) []) []), .assert (.left (.left (.cmp (.fby (.arrow (.left (.left (.left
    (.var "ti") []) []) []) []) []) [(.eq, .fby (.arrow (.left (.left (.left (.var "wi") [])
    []) []) []) [])]) []) []), .assert (.left (.left (.cmp (.fby (.arrow (.left (.left (.left
    (.var "tj") []) []) []) []) []) [(.eq, .fby (.arrow (.left (.left (.left (.var "wj") [])
    []) []) []) [])]) []) [])]⟩

/-- What `assocText` reads as. -/
def assocTree : SrcProg :=
  [⟨[], .node assoc_count⟩,
   ⟨[], .node assoc_a⟩,
   ⟨[], .node assoc_b⟩,
   ⟨[], .node assoc_c⟩,
   ⟨[⟨"trace", [], [], 0⟩], .node assoc_testing⟩,
   ⟨[], .node assoc_witness⟩,
   ⟨[⟨"main", [], [.int 2], 0⟩, ⟨"rustc_allow", ["dead_code"], [], 0⟩], .node assoc_system⟩]

theorem assoc_reads : parseProg assocText = some assocTree := rfl

/-- The node. -/
def delay_ipre : SrcNode :=
  ⟨"ipre", [⟨["t", "i"], .other "T", .implicit⟩], [⟨["o"], .other "T", .implicit⟩], [], [.def_
    (.var "o") (.left (.left (.cmp (.fby (.arrow (.left (.left (.left (.var "i") []) []) [])
    [.left (.left (.left (.pre (.var "t")) []) []) []]) []) []) []) [])]⟩

/-- The node. -/
def delay_main : SrcNode :=
  ⟨"main", [], [], [⟨["n"], .int, .implicit⟩], [.def_ (.var "n") (.left (.left (.cmp (.fby
    (.arrow (.left (.left (.left (.lit (.int 0)) []) []) []) []) [.arrow (.left (.left (.left
    (.var "n") []) []) [(.add, .left (.left (.lit (.int 1)) []) [])]) []]) []) []) []),
    .assert (.left (.left (.cmp (.fby (.arrow (.left (.left (.left (.call "ipre" [.left (.left
    (.cmp (.fby (.arrow (.left (.left (.left (.var "n") []) []) []) []) []) []) []) [], .left
    (.left (.cmp (.fby (.arrow (.left (.left (.left (.neg (.lit (.int 1))) []) []) []) []) [])
    []) []) []] false) []) []) []) []) []) [(.eq, .fby (.arrow (.left (.left (.left (.paren
    [.left (.left (.cmp (.fby (.arrow (.left (.left (.left (.neg (.lit (.int 1))) []) []) [])
    []) [.arrow (.left (.left (.left (.var "n") []) []) []) []]) []) []) []] false) []) [])
    []) []) [])]) []) [])]⟩

/-- What `delayText` reads as. -/
def delayTree : SrcProg :=
  [⟨[⟨"generic", ["T"], [], 0⟩], .node delay_ipre⟩,
   ⟨[⟨"main", [], [], 0⟩], .node delay_main⟩]

theorem delay_reads : parseProg delayText = some delayTree := rfl

/-- The node. -/
def prev_prev_testing : SrcNode :=
  ⟨"prev_testing", [⟨["x"], .int, .implicit⟩], [⟨["y"], .int, .implicit⟩], [], [.def_
    (.var "y") (.left (.left (.cmp (.fby (.arrow (.left (.left (.left (.lit (.int 0)) []) [])
    []) [.left (.left (.left (.pre (.var "x")) []) []) []]) []) []) []) [])]⟩

/-- The node. -/
def prev_prev_witness : SrcNode :=
  ⟨"prev_witness", [⟨["x"], .int, .implicit⟩], [⟨["y"], .int, .implicit⟩], [], [.def_
    (.var "y") (.left (.left (.cmp (.fby (.arrow (.left (.left (.left (.lit (.int 0)) []) [])
    []) [.left (.left (.left (.pre (.var "x")) []) []) []]) []) []) []) [])]⟩

/-- The node. -/
def prev_main_prev : SrcNode :=
  ⟨"main_prev", [], [], [⟨["n"], .int, .implicit⟩], [.def_ (.var "n") (.left (.left (.cmp
    (.fby (.arrow (.left (.left (.left (.lit (.int 0)) []) []) []) [.left (.left (.left (.lit
    (.int 5)) []) []) [], .left (.left (.left (.lit (.int 4)) []) []) [], .left (.left (.left
    (.lit (.int 3)) []) []) [], .left (.left (.left (.paren [.left (.left (.cmp (.fby (.arrow
    (.left (.left (.left (.pre (.var "n")) []) []) [(.add, .left (.left (.pre (.pre
    (.var "n"))) []) [(.mul, .left (.pre (.pre (.pre (.var "n")))) [])])]) []) []) []) [])
    []] false) []) [(.rem, .left (.lit (.int 100)) [])]) []]) []) []) []) []), .assert (.left
    (.left (.cmp (.fby (.arrow (.left (.left (.left (.call "prev_testing" [.left (.left (.cmp
    (.fby (.arrow (.left (.left (.left (.var "n") []) []) []) []) []) []) []) []] false) [])
    []) []) []) []) [(.eq, .fby (.arrow (.left (.left (.left (.call "prev_witness" [.left
    (.left (.cmp (.fby (.arrow (.left (.left (.left (.var "n") []) []) []) []) []) []) [])
    []] false) []) []) []) []) [])]) []) [])]⟩

/-- What `prevText` reads as. -/
def prevTree : SrcProg :=
  [⟨[⟨"universal_pre", [], [], 0⟩], .node prev_prev_testing⟩,
   ⟨[], .node prev_prev_witness⟩,
   ⟨[⟨"main", [], [], 0⟩], .node prev_main_prev⟩]

theorem prev_reads : parseProg prevText = some prevTree := rfl

/-- The node. -/
def adder_full_add : SrcNode :=
  ⟨"full_add", [⟨["a", "b", "c"], .bool, .implicit⟩], [⟨["s", "co"], .bool, .implicit⟩], [],
    [.def_ (.var "s") (.left (.left (.cmp (.fby (.arrow (.left (.left (.left (.paren [.left
    (.left (.cmp (.fby (.arrow (.left (.left (.left (.var "a") []) []) []) []) []) [(.ne, .fby
    (.arrow (.left (.left (.left (.var "b") []) []) []) []) [])]) []) []] false) []) []) [])
    []) []) [(.ne, .fby (.arrow (.left (.left (.left (.var "c") []) []) []) []) [])]) []) []),
    .def_ (.var "co") (.left (.left (.cmp (.fby (.arrow (.left (.left (.left (.paren [.left
    (.left (.cmp (.fby (.arrow (.left (.left (.left (.var "a") []) []) []) []) []) []) [(.and,
    .cmp (.fby (.arrow (.left (.left (.left (.var "b") []) []) []) []) []) [])]) []] false)
    []) []) []) []) []) []) []) [(.or, .left (.cmp (.fby (.arrow (.left (.left (.left (.paren
    [.left (.left (.cmp (.fby (.arrow (.left (.left (.left (.var "a") []) []) []) []) []) [])
    [(.and, .cmp (.fby (.arrow (.left (.left (.left (.var "c") []) []) []) []) []) [])])
    []] false) []) []) []) []) []) []) []), (.or, .left (.cmp (.fby (.arrow (.left (.left
    (.left (.paren [.left (.left (.cmp (.fby (.arrow (.left (.left (.left (.var "b") []) [])
    []) []) []) []) [(.and, .cmp (.fby (.arrow (.left (.left (.left (.var "c") []) []) []) [])
    []) [])]) []] false) []) []) []) []) []) []) [])])]⟩

/-- The node. -/
def adder_half_add : SrcNode :=
  ⟨"half_add", [⟨["a", "b"], .bool, .implicit⟩], [⟨["s", "co"], .bool, .implicit⟩], [], [.def_
    (.var "s") (.left (.left (.cmp (.fby (.arrow (.left (.left (.left (.paren [.left (.left
    (.cmp (.fby (.arrow (.left (.left (.left (.var "a") []) []) []) []) []) [(.ne, .fby
    (.arrow (.left (.left (.left (.var "b") []) []) []) []) [])]) []) []] false) []) []) [])
    []) []) []) []) []), .def_ (.var "co") (.left (.left (.cmp (.fby (.arrow (.left (.left
    (.left (.paren [.left (.left (.cmp (.fby (.arrow (.left (.left (.left (.var "a") []) [])
    []) []) []) []) [(.and, .cmp (.fby (.arrow (.left (.left (.left (.var "b") []) []) []) [])
    []) [])]) []] false) []) []) []) []) []) []) []) [])]⟩

/-- The node. -/
def adder_full_add_h : SrcNode :=
  ⟨"full_add_h", [⟨["a", "b", "c"], .bool, .implicit⟩], [⟨["s", "co"], .bool, .implicit⟩],
    [⟨["s1", "c1", "c2"], .bool, .implicit⟩], [.def_ (.tuple [.var "s1", .var "c1"] false)
    (.left (.left (.cmp (.fby (.arrow (.left (.left (.left (.call "half_add" [.left (.left
    (.cmp (.fby (.arrow (.left (.left (.left (.var "a") []) []) []) []) []) []) []) [], .left
    (.left (.cmp (.fby (.arrow (.left (.left (.left (.var "b") []) []) []) []) []) []) [])
    []] false) []) []) []) []) []) []) []) []), .def_ (.tuple [.var "s", .var "c2"] false)
    (.left (.left (.cmp (.fby (.arrow (.left (.left (.left (.call "half_add" [.left (.left
    (.cmp (.fby (.arrow (.left (.left (.left (.var "c") []) []) []) []) []) []) []) [], .left
    (.left (.cmp (.fby (.arrow (.left (.left (.left (.var "s1") []) []) []) []) []) []) [])
    []] false) []) []) []) []) []) []) []) []), .def_ (.var "co") (.left (.left (.cmp (.fby
    (.arrow (.left (.left (.left (.paren [.left (.left (.cmp (.fby (.arrow (.left (.left
    (.left (.var "c1") []) []) []) []) []) []) []) [(.or, .left (.cmp (.fby (.arrow (.left
    (.left (.left (.var "c2") []) []) []) []) []) []) [])]] false) []) []) []) []) []) []) [])
    [])]⟩

/-- The node. -/
def adder_equivalence : SrcNode :=
  ⟨"equivalence", [⟨["a", "b", "c"], .bool, .implicit⟩], [⟨["ok"], .bool, .implicit⟩], [⟨["s1",
    "co1", "s2", "co2"], .bool, .implicit⟩], [.def_ (.tuple [.var "s1", .var "co1"] false)
    (.left (.left (.cmp (.fby (.arrow (.left (.left (.left (.call "full_add" [.left (.left
    (.cmp (.fby (.arrow (.left (.left (.left (.var "a") []) []) []) []) []) []) []) [], .left
    (.left (.cmp (.fby (.arrow (.left (.left (.left (.var "b") []) []) []) []) []) []) []) [],
    .left (.left (.cmp (.fby (.arrow (.left (.left (.left (.var "c") []) []) []) []) []) [])
    []) []] false) []) []) []) []) []) []) []) []), .def_ (.tuple [.var "s2",
    .var "co2"] false) (.left (.left (.cmp (.fby (.arrow (.left (.left (.left
    (.call "full_add_h" [.left (.left (.cmp (.fby (.arrow (.left (.left (.left (.var "a") [])
    []) []) []) []) []) []) [], .left (.left (.cmp (.fby (.arrow (.left (.left (.left
    (.var "b") []) []) []) []) []) []) []) [], .left (.left (.cmp (.fby (.arrow (.left (.left
    (.left (.var "c") []) []) []) []) []) []) []) []] false) []) []) []) []) []) []) []) []),
    .def_ (.var "ok") (.left (.left (.cmp (.fby (.arrow (.left (.left (.left (.paren [.left
    (.left (.cmp (.fby (.arrow (.left (.left (.left (.var "s1") []) []) []) []) []) [(.eq,
    .fby (.arrow (.left (.left (.left (.var "s2") []) []) []) []) [])]) []) []] false) []) [])
    []) []) []) []) [(.and, .cmp (.fby (.arrow (.left (.left (.left (.paren [.left (.left
    (.cmp (.fby (.arrow (.left (.left (.left (.var "co1") []) []) []) []) []) [(.eq, .fby
    (.arrow (.left (.left (.left (.var "co2") []) []) []) []) [])]) []) []] false) []) []) [])
    []) []) [])]) [])]⟩

/-- The node. -/
def adder_system : SrcNode :=
  ⟨"system", [], [], [⟨["a", "b", "c", "ok"], .bool, .implicit⟩, ⟨["enumerate"], .int,
    .implicit⟩], [.def_ (.var "enumerate") (.left (.left (.cmp (.fby (.arrow (.left (.left
    (.left (.lit (.int 0)) []) []) []) []) [.arrow (.left (.left (.left (.var "enumerate") [])
    []) [(.add, .left (.left (.lit (.int 1)) []) [])]) []]) []) []) []), .def_ (.var "a")
    (.left (.left (.cmp (.fby (.arrow (.left (.left (.left (.call "random_bool" [] false) [])
    []) []) []) []) []) []) []), .def_ (.var "b") (.left (.left (.cmp (.fby (.arrow (.left
    (.left (.left (.call "random_bool" [] false) []) []) []) []) []) []) []) []), .def_
    (.var "c") (.left (.left (.cmp (.fby (.arrow (.left (.left (.left (.call "random_bool"
    [] false) []) []) []) []) []) []) []) []), .def_ (.var "ok") (.left (.left (.cmp (.fby
    (.arrow (.left (.left (.left (.call "equivalence" [.left (.left (.cmp (.fby (.arrow (.left
    (.left (.left (.var "a") []) []) []) []) []) []) []) [], .left (.left (.cmp (.fby (.arrow
    (.left (.left (.left (.var "b") []) []) []) []) []) []) []) [], .left (.left (.cmp (.fby
    (.arrow (.left (.left (.left (.var "c") []) []) []) []) []) []) []) []] false) []) []) [])
    []) []) []) []) []), .assert (.left (.left (.cmp (.fby (.arrow (.left (.left (.left
    (.var "ok") []) []) []) []) []) []) []) [])]⟩

/-- What `adderText` reads as. -/
def adderTree : SrcProg :=
  [⟨[], .node adder_full_add⟩,
   ⟨[], .node adder_half_add⟩,
   ⟨[], .node adder_full_add_h⟩,
   ⟨[], .node adder_equivalence⟩,
   ⟨[], .extNode "random_bool" [] [⟨["b"], .bool, .implicit⟩]⟩,
   ⟨[⟨"main", [], [.int 100], 0⟩], .node adder_system⟩]

theorem adder_reads : parseProg adderText = some adderTree := rfl

/-- The constant. -/
def counters_PROBA_FAIL : SrcConst :=
  ⟨"PROBA_FAIL", .float, .left (.left (.cmp (.fby (.arrow (.left (.left (.left (.lit (.float
    (some ⟨0x3feccccccccccccd#64⟩))) []) []) []) []) []) []) []) []⟩

/-- The node. -/
def counters_ignore_input_and_pick_random : SrcNode :=
  ⟨"ignore_input_and_pick_random", [⟨["i"], .int, .implicit⟩], [⟨["b"], .bool, .implicit⟩], [],
    [.def_ (.var "b") (.left (.left (.cmp (.fby (.arrow (.left (.left (.left
    (.call "random_float" [] false) []) []) []) []) []) [(.le, .fby (.arrow (.left (.left
    (.left (.var "PROBA_FAIL") []) []) []) []) [])]) []) [])]⟩

/-- The node. -/
def counters_unreliable_counter : SrcNode :=
  ⟨"unreliable_counter", [], [⟨["n"], .int, .implicit⟩], [], [.def_ (.var "n") (.left (.left
    (.cmp (.fby (.arrow (.left (.left (.left (.paren [.left (.left (.cmp (.fby (.arrow (.left
    (.left (.left (.ifx (.left (.left (.cmp (.fby (.arrow (.left (.left (.left
    (.call "ignore_input_and_pick_random" [.left (.left (.cmp (.fby (.arrow (.left (.left
    (.left (.lit (.int 42)) []) []) []) []) []) []) []) []] false) []) []) []) []) []) []) [])
    []) (.left (.left (.cmp (.fby (.arrow (.left (.left (.left (.lit (.int 1)) []) []) []) [])
    []) []) []) []) (.left (.left (.cmp (.fby (.arrow (.left (.left (.left (.lit (.int 0)) [])
    []) []) []) []) []) []) [])) []) []) []) []) []) []) []) []] false) []) []) [(.add, .left
    (.left (.paren [.left (.left (.cmp (.fby (.arrow (.left (.left (.left (.lit (.int 0)) [])
    []) []) []) [.arrow (.left (.left (.left (.var "n") []) []) []) []]) []) []) []] false)
    []) [])]) []) []) []) []) [])]⟩

/-- The node. -/
def counters_reliable_counter : SrcNode :=
  ⟨"reliable_counter", [], [⟨["n"], .int, .implicit⟩], [], [.def_ (.var "n") (.left (.left
    (.cmp (.fby (.arrow (.left (.left (.left (.lit (.int 0)) []) []) []) []) [.arrow (.left
    (.left (.left (.var "n") []) []) [(.add, .left (.left (.lit (.int 1)) []) [])]) []]) [])
    []) [])]⟩

/-- What `countersText` reads as. -/
def countersTree : SrcProg :=
  [⟨[⟨"trace", ["stderr"], [], 0⟩], .extNode "random_float" [] [⟨["f"], .float, .implicit⟩]⟩,
   ⟨[⟨"export", [], [], 0⟩, ⟨"rustc_allow", ["dead_code"], [], 0⟩, ⟨"doc", [],
   [.str "Probability that this entire test will fail on the first execution."], 0⟩],
   .const counters_PROBA_FAIL⟩,
   ⟨[⟨"rustc_allow", ["unused_variables"], [], 0⟩, ⟨"doc", [],
   [.str "Return `true` with probability `PROBA_SUCCESS`."], 0⟩, ⟨"doc", [],
   [.str "Note: the input is ignored"], 0⟩], .node counters_ignore_input_and_pick_random⟩,
   ⟨[⟨"export", [], [], 0⟩, ⟨"doc", [],
   [.str "Increasing counter starting at 0 or 1 with a certain probability."], 0⟩, ⟨"doc", [],
   [.str "Has a certain probability of returning the same value twice in a row."], 0⟩],
   .node counters_unreliable_counter⟩,
   ⟨[⟨"export", [], [], 0⟩, ⟨"trait", [], [], 0⟩, ⟨"trace", [], [], 0⟩, ⟨"doc", [],
   [.str "Strictly increasing counter starting at 0."], 0⟩], .node counters_reliable_counter⟩]

theorem counters_reads : parseProg countersText = some countersTree := rfl

/-- The node. -/
def race_system : SrcNode :=
  ⟨"system", [], [], [⟨["c1", "c2"], .int, .implicit⟩], [.def_ (.var "c1") (.left (.left (.cmp
    (.fby (.arrow (.left (.left (.left (.call "unreliable_counter" [] false) []) []) []) [])
    []) []) []) []), .def_ (.var "c2") (.left (.left (.cmp (.fby (.arrow (.left (.left (.left
    (.call "reliable_counter" [] false) []) []) []) []) []) []) []) []), .assert (.left (.left
    (.cmp (.fby (.arrow (.left (.left (.left (.var "c1") []) []) []) []) []) [(.le, .fby
    (.arrow (.left (.left (.left (.var "c2") []) []) []) []) [])]) []) [])]⟩

/-- What `raceText` reads as. -/
def raceTree : SrcProg :=
  [⟨[⟨"trace", [], [], 0⟩], .extNode "unreliable_counter" [] [⟨["n"], .int, .implicit⟩]⟩,
   ⟨[], .extNode "reliable_counter" [] [⟨["n"], .int, .implicit⟩]⟩,
   ⟨[⟨"main", [], [.int 15], 0⟩, ⟨"pub", [], [], 0⟩, ⟨"doc", [],
   [.str "Verify that the strictly increasing counter is at least as big"], 0⟩, ⟨"doc", [],
   [.str "as the increasing counter. There is currently a bug on purpose"], 0⟩, ⟨"doc", [],
   [.str "in the implementation because there is a certain probability that"], 0⟩, ⟨"doc", [],
   [.str "the unreliable counter starts at 1."], 0⟩, ⟨"doc", [],
   [.str "This results in a `PROBA_SUCCESS` probability of this node failing"], 0⟩, ⟨"doc", [],
   [.str "its execution after one step, and a `1 - PROBA_SUCCESS` probability"], 0⟩, ⟨"doc",
   [], [.str "of it running forever."], 0⟩], .node race_system⟩]

theorem race_reads : parseProg raceText = some raceTree := rfl

end Chandeliers.Smp
