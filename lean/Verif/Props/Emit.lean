import Verif.Lemmas.Emit

/-!
# C54: what a program offers to Rust, and when the emitted code says what it should

`emit uid p p'` is the code that is emitted for the accepted program `p`, declaration by
declaration.  `Resolves` in `Verif.Spec.Emit` says that Rust finds for each name what the compiler
meant by it; `Sensible` says which names a program may use.
-/

set_option autoImplicit false

namespace Chandeliers.Props
open San Spec Syn Err Static Emt

variable {uid : Nat} {p : SrcProg} {p' : Prog} {w : List Report} {b : Build}

/-- C54: an accepted program offers to Rust exactly the items that its attributes ask for, in this
form; everything else that is emitted is hidden from the documentation and called by a name that
only the compiler makes up. -/
theorem C54_offers (h : decl (compile p) = .done w (some p')) :
    let E := emit uid p p'
    ((E.flatMap Code.items).filter fun i => !i.hidden).Perm (p.flatMap offeredItems) ∧
    (∀ i ∈ E.flatMap Code.items, i.hidden → Internal i.name) ∧
    ∃ steps, (E.flatMap Code.steps).Perm (steps ++ p.flatMap offeredSteps) ∧
      ∀ s ∈ steps, Internal s.owner := by
  obtain ⟨hk, q, hq, hE⟩ := emitted (uid := uid) h
  refine ⟨visible_items hq hE, fun i hi hh => ?_, _, all_steps hq hE, fun s hs => ?_⟩
  · rcases List.mem_append.1 ((all_items hq hE).mem_iff.1 hi) with hi | hi
    · obtain ⟨d, -, rfl⟩ := List.mem_map.1 hi
      exact ⟨_, (hidden_name d).symm⟩
    · obtain ⟨d, -, hi⟩ := List.mem_flatMap.1 hi
      rw [offered_visible hi] at hh
      cases hh
  · obtain ⟨⟨attrs, i⟩, -, hs⟩ := List.mem_flatMap.1 hs
    cases i with
    | node n => rw [List.mem_singleton.1 hs]; exact ⟨entity uid ⟨attrs, .node n⟩, rfl⟩
    | extNode f ins outs =>
      rw [List.mem_singleton.1 hs]; exact ⟨entity uid ⟨attrs, .extNode f ins outs⟩, rfl⟩
    | const c => cases hs
    | extConst x ty => cases hs

/-- C54: the items that the code takes from the user are those that are declared `extern`. -/
theorem C54_needs (h : decl (compile p) = .done w (some p')) {n : RustName} :
    n ∈ userNames (emit uid p p') ↔ n ∈ p.flatMap needed := by
  obtain ⟨hk, q, hq, hE⟩ := emitted (uid := uid) h
  exact mem_userNames hq hE

/-- C54: as long as no name of the program is one that the compiler makes up, no item is emitted
twice if and only if the program does not ask for it. -/
theorem C54_once (h : decl (compile p) = .done w (some p'))
    (hi : ∀ n ∈ offeredNames b p, ¬ Internal n.2) :
    (itemNames b (emit uid p p')).Nodup ↔ (offeredNames b p).Nodup := by
  obtain ⟨hk, q, hq, hE⟩ := emitted (uid := uid) h
  rw [once_iff hk hq hE]
  exact ⟨fun h => h.1, fun h => ⟨h, fun n hn hh => hi n hn (hidden_internal hh)⟩⟩

/-- C54: if the names of an accepted program are sensible then Rust resolves the names of the
emitted code as the compiler means them. -/
theorem C54_resolves (h : decl (compile p) = .done w (some p')) (hS : Sensible b p) :
    Resolves b (emit uid p p') := by
  obtain ⟨hk, q, hq, hE⟩ := emitted (uid := uid) h
  exact resolves ((C50_accepted hS.once).1 ⟨_, _, h⟩) hS hk hq hE

/-- C54: a `#[test]` node has no method outside of tests: if a node that is called, exported or run
by `main` is a test then the code of the program cannot be compiled outside of tests, although the
program is accepted. -/
theorem C54_test_called (h : decl (compile p) = .done w (some p')) {d : SrcDecl} (hd : d ∈ p)
    {attrs : List Attribute} {src : SrcNode} (hm : ⟨attrs, .node src⟩ ∈ p)
    (ht : (meaning attrs).test.isSome) (hc : Calls .normal d src.name) :
    ¬ Resolves .normal (emit uid p p') := by
  obtain ⟨hk, q, hq, hE⟩ := emitted (uid := uid) h
  exact step_missing hk hq hE hd hc hm rfl (by simp [ht, Build.has])

/-- C54: if a variable of a traced node is called as a constant that is exported or external then
in Rust the binding of the variable is a comparison with the constant instead, although the program
is accepted. -/
theorem C54_traced_clash (h : decl (compile p) = .done w (some p')) {d : SrcDecl} (hd : d ∈ p)
    (ht : (meaning d.attrs).trace.isSome) {x : String} (hx : x ∈ variablesOf d.item)
    (hk : x ∈ knownConsts p) : ¬ Resolves b (emit uid p p') := by
  obtain ⟨-, q, hq, hE⟩ := emitted (uid := uid) h
  exact traced_clash hq hE hd ht hx hk

/-! ## Example -/

/-- ```
#[pub] const N: int = 3;
extern const X: int;
#[generic[T]] extern node hold(i: T) returns (o: T);
#[export] #[trace] node count(c: bool) returns (n: int);
let n = if c then 0 -> pre n + N else 0; tel
#[generic[T]] #[pub] node keep(i: T) returns (o: T); let o = hold(i); tel
#[main(10)] node run() returns (); var k: int; let k = keep(count(true)); assert k >= 0; tel
#[test(3)] node check() returns (); let assert count(false) = 0 and X > 0; tel
``` -/
def exOffers : SrcProg := [
  ⟨[⟨"pub", [], [], 1⟩], .const ⟨"N", .int, .lit (.int 3)⟩⟩,
  ⟨[], .extConst "X" .int⟩,
  ⟨[⟨"generic", ["T"], [], 3⟩], .extNode "hold" [⟨["i"], .other "T", .implicit⟩]
    [⟨["o"], .other "T", .implicit⟩]⟩,
  ⟨[⟨"export", [], [], 4⟩, ⟨"trace", [], [], 4⟩], .node {
    name := "count"
    inputs := [⟨["c"], .bool, .implicit⟩]
    outputs := [⟨["n"], .int, .implicit⟩]
    locals := []
    defs := [.def_ (.var "n") (.ifx (.var "c")
      (.arrow (.lit (.int 0)) [.left (.pre (.var "n")) [(.add, .var "N")]]) (.lit (.int 0)))] }⟩,
  ⟨[⟨"generic", ["T"], [], 6⟩, ⟨"pub", [], [], 6⟩], .node {
    name := "keep"
    inputs := [⟨["i"], .other "T", .implicit⟩]
    outputs := [⟨["o"], .other "T", .implicit⟩]
    locals := []
    defs := [.def_ (.var "o") (.call "hold" [.var "i"] false)] }⟩,
  ⟨[⟨"main", [], [.int 10], 7⟩], .node {
    name := "run"
    inputs := []
    outputs := []
    locals := [⟨["k"], .int, .implicit⟩]
    defs := [.def_ (.var "k") (.call "keep" [.call "count" [.lit (.bool true)] false] false),
      .assert (.cmp (.var "k") [(.ge, .lit (.int 0))])] }⟩,
  ⟨[⟨"test", [], [.int 3], 8⟩], .node {
    name := "check"
    inputs := []
    outputs := []
    locals := []
    defs := [.assert (.left (.cmp (.call "count" [.lit (.bool false)] false)
      [(.eq, .lit (.int 0))]) [(.and, .cmp (.var "X") [(.gt, .lit (.int 0))])])] }⟩]

/-- Whether a name may be one of the compiler's, as far as its end tells. -/
def endsLikeInternal (x : String) : Bool :=
  x.toList.reverse.take 3 ∈ [['e', 'd', 'o'], ['l', 'a', 'b'], ['l', 'a', 'c']]

theorem not_internal {x : String} (h : endsLikeInternal x = false) : ¬ Internal x := fun hi => by
  have := internal_end hi
  simp only [endsLikeInternal, decide_eq_false_iff_not] at h
  exact h this

/-- The node of a declaration. -/
def nodeOf (d : SrcDecl) : Option SrcNode :=
  match d.item with
  | .node n => some n
  | _ => none

/-- `Calls` in a normal build, as a list. -/
def calledBy (d : SrcDecl) : List String :=
  match nodeOf d with
  | none => []
  | some n => (if (meaning d.attrs).test.isSome then [] else
      n.defs.flatMap fun st => callees (SrcStmt.expr st)) ++
    if (meaning d.attrs).export_ || (meaning d.attrs).main.isSome then [n.name] else []

theorem calledBy_of {d : SrcDecl} {f : String} (h : Calls .normal d f) : f ∈ calledBy d := by
  cases h with
  | inside hb h => simp [Build.has] at hb; simp [calledBy, nodeOf, hb, h]
  | exported h => simp [calledBy, nodeOf, h]
  | main h => simp [calledBy, nodeOf, h]

theorem exOffers_accepted : ∃ w p', decl (compile exOffers) = .done w (some p') := by
  have h : (outcome exOffers).isSome = true := by decide +kernel
  obtain ⟨⟨w, p'⟩, h⟩ := Option.isSome_iff_exists.1 h
  exact ⟨w, p', outcome_some h⟩

theorem exOffers_sensible (b : Build) : Sensible b exOffers where
  distinct := by cases b <;> decide
  internal := by
    have : ∀ n ∈ offeredNames b exOffers ++ exOffers.flatMap needed, endsLikeInternal n.2 = false := by
      cases b <;> decide
    exact fun n hn => not_internal (this n hn)
  prelude := by
    have : ∀ n ∈ offeredNames b exOffers ++ exOffers.flatMap needed, n.2 ∉ preludeNames := by
      cases b <;> decide
    exact fun x hx => this _ hx
  generics := by
    have : ∀ d ∈ exOffers, ∀ g ∈ (meaning d.attrs).generics, endsLikeInternal g = false ∧
        g ∉ preludeNames ∧ (∀ i ∈ offeredItems d, g ≠ i.name) ∧ ∀ n ∈ needed d, g ≠ n.2 := by decide
    exact fun d hd g hg => ⟨not_internal (this d hd g hg).1, (this d hd g hg).2⟩
  once := by
    have : ∀ d ∈ exOffers, (meaning d.attrs).generics.Nodup := by decide
    exact this
  consts := by decide
  traced := by
    have : ∀ d ∈ exOffers, (meaning d.attrs).trace.isSome → ∀ v ∈ variablesOf d.item,
      v ∉ knownConsts exOffers ∧ endsLikeInternal v = false := by decide
    exact fun d hd ht v hv => ⟨(this d hd ht v hv).1, not_internal (this d hd ht v hv).2⟩
  externs := by
    intro attrs x ty h
    simp [exOffers] at h
    obtain ⟨-, rfl, rfl⟩ := h
    simp
  tests := by
    have h1 : ∀ d ∈ exOffers, "check" ∉ calledBy d := by decide
    have h2 : ∀ d ∈ exOffers, (meaning d.attrs).test.isSome → ∀ n, nodeOf d = some n →
        n.name = "check" := by
      intro d hd
      simp only [exOffers, List.mem_cons, List.not_mem_nil, or_false] at hd
      rcases hd with rfl | rfl | rfl | rfl | rfl | rfl | rfl <;>
        simp [meaning, nodeOf, lastNamed]
    intro d hd f hc attrs src hm hn
    cases b with
    | test => rfl
    | normal =>
      cases ht : (meaning attrs).test with
      | none => rfl
      | some k =>
        exfalso
        have := h2 _ hm (by simp [ht]) src rfl
        rw [← hn, this] at hc
        exact h1 d hd (calledBy_of hc)

/-- Non-vacuity of C54: the program is accepted, and its code is in order in both builds. -/
example (uid : Nat) (b : Build) : ∃ w p', decl (compile exOffers) = .done w (some p') ∧
    Sensible b exOffers ∧ Resolves b (emit uid exOffers p') := by
  obtain ⟨w, p', h⟩ := exOffers_accepted
  exact ⟨w, p', h, exOffers_sensible b, C54_resolves h (exOffers_sensible b)⟩

/-- What it offers. -/
example : exOffers.flatMap offeredItems = [
    ⟨.const, "N", true, false, false⟩, ⟨.struct_, "count", false, false, false⟩,
    ⟨.struct_, "keep", true, false, false⟩, ⟨.fn, "main", true, false, false⟩,
    ⟨.fn, "check", true, false, true⟩] ∧
    exOffers.flatMap needed = [(.values, "X"), (.types, "hold")] := by decide

/-! ## What the compiler does not refuse -/

/-- A node that does nothing. -/
def exIdle (name : String) (attrs : List Attribute) : SrcDecl :=
  ⟨attrs, .node { name := name, inputs := [], outputs := [], locals := [], defs := [] }⟩

/-- `#[main(1)] node f() returns (); let tel  #[main(1)] node g() returns (); let tel` -/
def exMains : SrcProg :=
  [exIdle "f" [⟨"main", [], [.int 1], 1⟩], exIdle "g" [⟨"main", [], [.int 1], 2⟩]]

/-- C54: that there is one `main` is not checked: a program with two is accepted without a warning,
and its code has two functions `main`. -/
theorem C54_two_mains : ∃ p', decl (compile exMains) = .done [] (some p') ∧
    ∀ uid b, ¬ Resolves b (emit uid exMains p') := by
  have h : (outcome exMains).map (·.1.length) = some 0 := by decide +kernel
  obtain ⟨⟨w, p'⟩, h, hw⟩ := Option.map_eq_some_iff.1 h
  obtain rfl := List.length_eq_zero_iff.1 hw
  have hc := outcome_some h
  refine ⟨p', hc, fun uid b hR => ?_⟩
  have : ∀ n ∈ offeredNames b exMains, endsLikeInternal n.2 = false := by cases b <;> decide
  have := (C54_once hc fun n hn => not_internal (this n hn)).1 hR.once
  revert this
  cases b <;> decide

/-- ```
#[pub] const x: int = 3;
#[trace] node f(x: int) returns (y: int); let y = x; tel
``` -/
def exShadow : SrcProg := [
  ⟨[⟨"pub", [], [], 1⟩], .const ⟨"x", .int, .lit (.int 3)⟩⟩,
  ⟨[⟨"trace", [], [], 2⟩], .node {
    name := "f"
    inputs := [⟨["x"], .int, .implicit⟩]
    outputs := [⟨["y"], .int, .implicit⟩]
    locals := []
    defs := [.def_ (.var "y") (.var "x")] }⟩]

/-- C54: that a variable of a traced node is called as an exported constant is not reported, but in
Rust the binding of the variable becomes a comparison with the constant. -/
theorem C54_traced_constant : ∃ p', decl (compile exShadow) = .done [] (some p') ∧
    ∀ uid b, ¬ Resolves b (emit uid exShadow p') := by
  have h : (outcome exShadow).map (·.1.length) = some 0 := by decide +kernel
  obtain ⟨⟨w, p'⟩, h, hw⟩ := Option.map_eq_some_iff.1 h
  obtain rfl := List.length_eq_zero_iff.1 hw
  have hc := outcome_some h
  exact ⟨p', hc, fun uid b => C54_traced_clash hc (d := exShadow[1]) (by simp [exShadow]) rfl
    (x := "x") (by decide) (by decide)⟩

/-- ```
#[test(1)] node f() returns (); let tel
node g() returns (); let () = f(); tel
``` -/
def exTestOnly : SrcProg := [exIdle "f" [⟨"test", [], [.int 1], 1⟩],
  ⟨[], .node { name := "g", inputs := [], outputs := [], locals := []
               defs := [.def_ (.tuple [] false) (.call "f" [] false)] }⟩]

/-- C54: that a test is called by a node that is not one is not reported, but the code can be
compiled only for tests. -/
theorem C54_called_test : ∃ p', decl (compile exTestOnly) = .done [] (some p') ∧
    ∀ uid, ¬ Resolves .normal (emit uid exTestOnly p') := by
  have h : (outcome exTestOnly).map (·.1.length) = some 0 := by decide +kernel
  obtain ⟨⟨w, p'⟩, h, hw⟩ := Option.map_eq_some_iff.1 h
  obtain rfl := List.length_eq_zero_iff.1 hw
  have hc := outcome_some h
  exact ⟨p', hc, fun uid => C54_test_called hc (d := exTestOnly[1]) (by simp [exTestOnly])
    (List.mem_cons_self ..) rfl (.inside rfl ⟨_, List.mem_singleton_self _, by decide⟩)⟩

/-- C54: with `#[trait]` the `struct` of a `#[pub]` node is not public. -/
theorem C54_pub_trait {f : SrcNode} {attrs : List Attribute} (h : (meaning attrs).implTrait) :
    ∀ i ∈ offeredItems ⟨attrs, .node f⟩, i.kind = .struct_ → i.isPub = false := by
  intro i hi hk
  simp only [offeredItems, h] at hi
  simp at hi
  rcases hi with ⟨-, rfl⟩ | ⟨-, rfl⟩ | ⟨-, rfl⟩ <;> simp at hk ⊢

end Chandeliers.Props
