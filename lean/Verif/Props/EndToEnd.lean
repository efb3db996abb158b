import Verif.Spec.EndToEnd
import Verif.Props.Quote
import Verif.Props.Text

/-!
# From the tokens to the emitted code

C66.  Everything that an invocation of the macro can lead to.
-/

set_option autoImplicit false

namespace Chandeliers.Props
open Chandeliers.Err Chandeliers.San Chandeliers.Spec Chandeliers.Syn Chandeliers.Spec.Static
open Chandeliers.Spec.Grammar Chandeliers.Rep

/-- C66.  The code emitted for an accepted program, with registers or not: if no constant has an
arithmetic error, every constant of the program is a `const` item with the value of its definition, and
every node of the program is a struct that, on any history of inputs of its type, returns `os` exactly
when `os` are the outputs that its equations define, returns values of its type, and panics only for a
reason that the equations show (`Respects`). -/
theorem C66_emitted (uid : Nat) (A : Arith) (X : Extern) {p : SrcProg} {p' : Prog} {w : List Report}
    (h : decl (compile p) = .done w (some p')) (hX : ExternOk X p) (hu : UnitOutputs X p)
    (hg : DistinctGenerics p) (ht : TidyProg p) :
    linkRust uid A X p'.decls = .error .arith ∨
    ∃ consts nodes I, linkRust uid A X p'.decls = .ok I ∧
      (∀ attrs src, ⟨attrs, .node src⟩ ∈ p → ∃ m, nodes src.name = some m ∧
        (∀ is os, m.run is = .ok os ↔ ∃ outs, NodeMeans A consts nodes attrs src
            (is.filter present) outs ∧
          os = spread (flatShape (argNames src.outputs).length) is outs) ∧
        (∀ θ, Respects m (substTy θ (flatTuple (argTypes src.inputs)))
          (substTy θ (flatTuple (argTypes src.outputs)))) ∧
        ∃ m', I.nodes (src.name ++ "__lus_" ++ toString uid ++ "_node") = some m' ∧ m'.outTy = m.outTy ∧
          ∀ (θ : Subst) is, (∀ i ∈ is, ValTy (substTy θ (flatTuple (argTypes src.inputs))) i) →
            m'.run is = m.run is) ∧
      (∀ attrs c, ⟨attrs, .const c⟩ ∈ p → ∃ v, consts c.name = some v ∧ ScalarTy c.ty v ∧
        I.consts (c.name ++ "__lus_" ++ toString uid ++ "_global") = some v ∧
        ∀ v', ref ⟨A, [], fun _ _ => .nil, consts, nodes⟩ c.value 0 =
          some (.leaf (.defined v')) → v' = v) ∧
      (∀ attrs x ty, ⟨attrs, .extConst x ty⟩ ∈ p → consts x = X.consts x) ∧
      ∀ attrs f ins outs, ⟨attrs, .extNode f ins outs⟩ ∈ p →
        nodes f = (X.nodes f).map wrapExtern := by
  have tidy := C59_tidy h hg ht
  rcases C64_runs uid A X h hX hu hg fun n hn => ⟨(tidy n hn).1, (tidy n hn).2.1⟩ with
    ⟨-, he⟩ | ⟨I, I', hl, hl', hc, hn⟩
  · exact .inl he
  rcases C28_program_tidy A X h hX hg ht with he | ⟨J, hJ, h1, h2⟩
  · rw [hl] at he; cases he
  rw [hl] at hJ
  cases hJ
  refine .inr ⟨I.consts, I.nodes, I', hl', fun attrs src hm => ?_, fun attrs c hm => ?_,
    fun attrs x ty hm => ?_, fun attrs f ins outs hm => ?_⟩
  · obtain ⟨m, k1, k2⟩ := h1 attrs src hm
    obtain ⟨m₀, m', j1, j2, j3, j4⟩ := hn attrs src hm
    rw [k1] at j1
    cases j1
    refine ⟨m, k1, fun is os => ?_, k2, m', j2, j3, j4⟩
    cases hb : hasAny attrs ["universal_pre"] with
    | false =>
      obtain ⟨m₁, l1, l2⟩ := C47_program A X h hl hm hb
      rw [k1] at l1
      cases l1
      simp only [l2 is os, NodeMeans, hb, Bool.false_eq_true, if_false]
      exact ⟨fun ⟨S, a, b⟩ => ⟨_, ⟨S, a, rfl⟩, b⟩, fun ⟨_, ⟨S, a, rfl⟩, b⟩ => ⟨S, a, b⟩⟩
    | true =>
      obtain ⟨m₁, l1, l2⟩ := C59_program A X h hl hX hg (fun n hn => (tidy n hn).2.2) hm hb
      rw [k1] at l1
      cases l1
      simp only [l2 is os, NodeMeans, hb, if_true]
      exact ⟨fun ⟨S, a, b⟩ => ⟨_, ⟨S, a, rfl⟩, b⟩, fun ⟨_, ⟨S, a, rfl⟩, b⟩ => ⟨S, a, b⟩⟩
  · obtain ⟨v, k1, k2⟩ := h2 attrs c hm
    refine ⟨v, k1, k2, by rw [hc, k1], fun v' hv => ?_⟩
    have := C47_constants A X h hX hl hm hv
    rw [k1] at this
    exact (Option.some.inj this).symm
  · obtain ⟨v, k1, k2⟩ := (C47_items A X h hl).2.1 attrs x ty hm
    rw [k1, k2]
  · obtain ⟨v, k1, k2⟩ := (C47_items A X h hl).2.2 attrs f ins outs hm
    rw [k1, k2]
    rfl

/-- C66.  What an invocation of the macro leads to, whatever its tokens are: a syntax error when they do
not read as a program; otherwise there is one reading, and unless it has one of the flaws on which the
macro itself panics, the macro reports an error when the program is not legal, and emits code when it
is. -/
theorem C66_text (ts : List Tok) :
    ((∀ p, ¬ Program ts p) ∧ expand ts = none) ∨
    ∃ p, Program ts p ∧ (∀ q, Program ts q → q = p) ∧ (Tame p → DistinctGenerics p →
      (¬ Legal p ∧ ∃ e es, expand ts = some (.done (e :: es) none)) ∨
      (Legal p ∧ ∃ w p', expand ts = some (.done w (some p')) ∧ decl (compile p) = .done w (some p'))) := by
  by_cases hp : ∃ p, Program ts p
  · obtain ⟨p, hp⟩ := hp
    refine .inr ⟨p, hp, fun q hq => C49_unambiguous ts q p hq hp, fun hT hg => ?_⟩
    by_cases hL : Legal p
    · obtain ⟨w, p', h⟩ := (C50_accepted hg).2 hL
      exact .inr ⟨hL, w, p', by rw [(C49_expand ts).1 p hp, h], h⟩
    · obtain ⟨e, es, h⟩ := C50_refused hT hg hL
      exact .inl ⟨hL, e, es, by rw [(C49_expand ts).1 p hp, h]⟩
  · have hp : ∀ p, ¬ Program ts p := fun p h => hp ⟨p, h⟩
    exact .inl ⟨hp, (C49_expand ts).2.2 hp⟩

/-! ## Examples -/

/-- ```
const K : int = 2;
node sum(x : int) returns (n : int); let n = 0 fby n + x; tel;
#[universal_pre] node late(x : int) returns (y : int); let y = K -> pre sum(x); tel
``` -/
def exText : List Tok :=
  [.ident "const", .ident "K", .punct ':' false, .ident "int", .punct '=' false, .lit (.int 2),
   .punct ';' false,
   .ident "node", .ident "sum", .group .paren [.ident "x", .punct ':' false, .ident "int"],
   .ident "returns", .group .paren [.ident "n", .punct ':' false, .ident "int"], .punct ';' false,
   .ident "let", .ident "n", .punct '=' false, .lit (.int 0), .ident "fby", .ident "n",
   .punct '+' false, .ident "x", .punct ';' false, .ident "tel", .punct ';' false,
   .punct '#' false, .group .bracket [.ident "universal_pre"],
   .ident "node", .ident "late", .group .paren [.ident "x", .punct ':' false, .ident "int"],
   .ident "returns", .group .paren [.ident "y", .punct ':' false, .ident "int"], .punct ';' false,
   .ident "let", .ident "y", .punct '=' false, .ident "K", .punct '-' true, .punct '>' false,
   .ident "pre", .ident "sum", .group .paren [.ident "x"], .punct ';' false, .ident "tel"]

/-- An operand of `*`, read as an operand of `+`. -/
def exTextAtom (e : Src) : Src := .left (.left (.left e []) []) []

/-- What is read as an operand of `->`, read as an expression. -/
def exTextExpr (e : Src) : Src := .left (.left (.cmp e []) []) []

/-- What `exText` reads as. -/
def exTextProg : SrcProg := [
  ⟨[], .const ⟨"K", .int, exTextExpr (.fby (.arrow (exTextAtom (.lit (.int 2))) []) [])⟩⟩,
  ⟨[], .node ⟨"sum", [⟨["x"], .int, .implicit⟩], [⟨["n"], .int, .implicit⟩], [],
    [.def_ (.var "n") (exTextExpr (.fby (.arrow (exTextAtom (.lit (.int 0))) [])
      [.arrow (.left (.left (.left (.var "n") []) [])
        [(.add, .left (.left (.var "x") []) [])]) []]))]⟩⟩,
  ⟨[⟨"universal_pre", [], [], 0⟩], .node ⟨"late", [⟨["x"], .int, .implicit⟩],
    [⟨["y"], .int, .implicit⟩], [],
    [.def_ (.var "y") (exTextExpr (.fby (.arrow (exTextAtom (.var "K"))
      [exTextAtom (.pre (.call "sum" [exTextExpr (.fby (.arrow (exTextAtom (.var "x")) []) [])] false))]) []))]⟩⟩]

theorem exText_reads : Program exText exTextProg := (C49_grammar _ _).1 rfl

/-- Non-vacuity of `C66_text`: the program is tame, and code is emitted for it. -/
example : Tame exTextProg ∧ DistinctGenerics exTextProg ∧ (outcome exTextProg).isSome = true := by
  refine ⟨⟨?_, ?_, ?_⟩, ?_, by decide +kernel⟩
  · intro d hd a ha
    simp only [exTextProg, List.mem_cons, List.not_mem_nil, or_false] at hd
    rcases hd with rfl | rfl | rfl
    · simp at ha
    · simp at ha
    · simp only [List.mem_cons, List.not_mem_nil, or_false] at ha
      subst ha
      intro n hn
      simp at hn
  · intro d hd e he l hl
    simp only [exTextProg, List.mem_cons, List.not_mem_nil, or_false] at hd
    rcases hd with rfl | rfl | rfl <;>
      simp only [expressions, SrcStmt.expr, List.map_cons, List.map_nil, List.mem_cons,
        List.not_mem_nil, or_false] at he <;> subst he <;>
      simp [exTextExpr, exTextAtom, literals, literalsList, literalsLeft, literalsCmp] at hl <;> subst hl <;> simp [Denotes]
  · intro d hd f ins outs hs hc
    simp only [exTextProg, List.mem_cons, List.not_mem_nil, or_false] at hd
    rcases hd with rfl | rfl | rfl <;> simp only [signature] at hs <;> cases hs <;>
      constructor <;> simp [meaning, argTypes]
  · intro d hd
    simp only [exTextProg, List.mem_cons, List.not_mem_nil, or_false] at hd
    rcases hd with rfl | rfl | rfl <;> simp [meaning]

/-- Non-vacuity of `C66_emitted`, and the emitted code, run. -/
example : ExternOk noExtern exTextProg ∧ UnitOutputs noExtern exTextProg ∧ TidyProg exTextProg ∧
    rustInts 0 noExtern exTextProg "late__lus_0_node" [exInt 5, exInt 6, exInt 7, exInt 8] =
      some [[some 2], [some 0], [some 5], [some 11]] := by
  refine ⟨⟨?_, ?_⟩, ?_, ?_, by decide +kernel⟩
  · intro a x ty hm; simp [exTextProg] at hm
  · intro a f ins outs hm; simp [exTextProg] at hm
  · intro a f ins outs m hm; simp [exTextProg] at hm
  · intro a src hm hu
    simp only [exTextProg, List.mem_cons, List.not_mem_nil, or_false, SrcDecl.mk.injEq,
      SrcItem.node.injEq, reduceCtorEq, and_false, false_or] at hm
    rcases hm with ⟨rfl, rfl⟩ | ⟨rfl, rfl⟩
    · cases hu
    · refine ⟨⟨?_, ?_⟩, ?_⟩
      · intro b hb c x hx
        simp only [List.mem_append, List.mem_cons, List.not_mem_nil, or_false] at hb
        rcases hb with rfl | rfl <;> cases hx
      · intro st hst
        simp only [List.mem_cons, List.not_mem_nil, or_false] at hst
        subst hst
        simp [SrcStmt.expr, exTextExpr, exTextAtom, guards, guardsList, guardsLeft, guardsCmp]
      · intro st hst
        simp only [List.mem_cons, List.not_mem_nil, or_false] at hst
        subst hst
        decide

end Chandeliers.Props
