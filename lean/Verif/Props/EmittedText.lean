import Verif.Lemmas.ReadPanic
import Verif.Props.Quote

/-!
# The text of the emitted code

C69.  The compiler emits tokens, not trees.  Rust reads the tokens emitted for constants and for the
methods of nodes as the trees that C64 and C47 are about: no operator captures the operand of
another one, no name is a keyword, and what follows a piece of text does not change how it is read.
-/

set_option autoImplicit false

namespace Chandeliers.Props
open Chandeliers.Err Chandeliers.San Chandeliers.Spec Chandeliers.Syn Chandeliers.Rep Chandeliers.Quo
open Chandeliers.Txt

/-- C69.  A text of a constant is read in one way at most. -/
theorem C69_const_unique {ts : List RTok} {e e' : CExpr} (h : ReadsConst ts e)
    (h' : ReadsConst ts e') : e = e' := by
  obtain ⟨k, hk⟩ := h
  obtain ⟨k', hk'⟩ := h'
  have := (hk (k + k') (by omega)).symm.trans (hk' (k + k') (by omega))
  injection this

/-- C69.  A text of a method is read in one way at most. -/
theorem C69_method_unique {ts : List RTok} {f f' : RFn} (h : ReadsFn ts f) (h' : ReadsFn ts f') :
    f = f' := by
  obtain ⟨k, hk⟩ := h
  obtain ⟨k', hk'⟩ := h'
  have := (hk (k + k') (by omega)).symm.trans (hk' (k + k') (by omega))
  injection this

/-- C69.  The text emitted for a constant of an accepted program is read as an expression that has
the value of the constant, when the other constants have theirs under their Rust names. -/
theorem C69_constant {p : SrcProg} {p' : Prog} {w : List Report}
    (h : decl (compile p) = .done w (some p')) (uid : Nat) {c : San.Const}
    (hc : .const c ∈ p'.decls) : ∃ e, ReadsConst (c.value.constText uid) e ∧
      ∀ (A : Arith) (g g' : Globals),
        (∀ x, g' (x ++ "__lus_" ++ toString uid ++ "_global") = g x) →
        e.eval A g' = c.eval A g := by
  obtain ⟨k, hk⟩ := good_accepted h uid _ hc
  obtain ⟨e, h1, -⟩ := hk k (Nat.le_refl k)
  refine ⟨renameConst (globName uid) e, ⟨k, fun n hn => ?_⟩, fun A g g' hg => ?_⟩
  · obtain ⟨e', h2, h3⟩ := hk n hn
    rw [h1] at h2
    cases h2
    exact h3
  · rw [San.Const.eval, h1]
    exact eval_rename hg e

/-- C69.  The text emitted for the method `step` of a node of an accepted program is read as the tree
that C64 is about. -/
theorem C69_node {p : SrcProg} {p' : Prog} {w : List Report}
    (h : decl (compile p) = .done w (some p')) (uid : Nat) {n : Node} (hn : .node n ∈ p'.decls) :
    ReadsFn (n.text uid) (n.quote uid) := good_accepted h uid _ hn

/-- C69.  So is the text emitted for the method `step` of an external node. -/
theorem C69_extern (inputs outputs : List TyVar) :
    ReadsFn (externText inputs outputs) (externQuote inputs outputs) := readsExtern inputs outputs

/-- C69.  So is the text emitted for the method `step` of an exported struct. -/
theorem C69_export : ReadsFn exportText exportQuote := readsExport

/-- C69.  The items of an accepted program, read from the emitted text, are those of C64, whatever
the external items and the arithmetic. -/
theorem C69_program {p : SrcProg} {p' : Prog} {w : List Report}
    (h : decl (compile p) = .done w (some p')) (uid : Nat) :
    ∃ k, ∀ n, n ≥ k → ∀ (A : Arith) (X : Extern),
      linkText n uid A X p'.decls = linkRust uid A X p'.decls := by
  obtain ⟨k, hk⟩ := all_good (good_accepted h uid)
  exact ⟨k, fun n hn A X => linkText_eq (hk n hn)⟩

/-- C69.  From the source to the emitted text: once it is read by Rust, the histories of the struct
emitted for a node are the solutions of the equations of the node. -/
theorem C69_source {p : SrcProg} {p' : Prog} {w : List Report}
    (h : decl (compile p) = .done w (some p')) (uid : Nat) : ∃ k, ∀ n, n ≥ k →
    ∀ (A : Arith) (X : Extern), ExternOk X p → UnitOutputs X p → DistinctGenerics p →
    (∀ d ∈ p, hasAny d.attrs ["universal_pre"] = false) →
    linkText n uid A X p'.decls = .error .arith ∨
    ∃ I I', link A X p'.decls = .ok I ∧ linkText n uid A X p'.decls = .ok I' ∧
      ∀ attrs src, ⟨attrs, .node src⟩ ∈ p → ∃ m',
        I'.nodes (src.name ++ "__lus_" ++ toString uid ++ "_node") = some m' ∧
        ∀ (θ : Subst) is, (∀ i ∈ is, ValTy (substTy θ (flatTuple (argTypes src.inputs))) i) →
          ∀ os, m'.run is = .ok os ↔
            ∃ S, SrcSolution ⟨A, SrcNode.vars src, S, I.consts, I.nodes⟩ src (is.filter present) ∧
              os = spread (flatShape (argNames src.outputs).length) is
                (srcOutputs S src (is.filter present).length) := by
  obtain ⟨k, hk⟩ := C69_program h uid
  refine ⟨k, fun n hn A X hX hu hg hd => ?_⟩
  rw [hk n hn A X]
  exact C64_source uid A X h hX hu hg hd

/-- C69.  Code generation panics exactly when the text of some declaration cannot be written, or some
type that the declarations of the structs need is not known. -/
theorem C69_panics (p : Prog) (uid : Nat) : codegen p = .abort ↔
    ¬ ∀ d ∈ p.decls, speltAll (textOf uid d) = true ∧ TypesKnown d := by
  unfold codegen
  have : p.decls.all emittable = true ↔
      ∀ d ∈ p.decls, speltAll (textOf uid d) = true ∧ TypesKnown d := by
    rw [List.all_eq_true]
    exact ⟨fun h d hd => spelt_emittable d |>.1 (h d hd),
      fun h d hd => (spelt_emittable d).2 (h d hd)⟩
  rw [← this]
  split <;> simp_all

/-- C69.  The text of every declaration of an accepted program is written. -/
theorem C69_written {p : SrcProg} {p' : Prog} {w : List Report}
    (h : decl (compile p) = .done w (some p')) (uid : Nat) :
    ∀ d ∈ p'.decls, speltAll (textOf uid d) = true := fun d hd =>
  ((spelt_emittable d).1 (accepted_emittable h d hd)).1

/-! ## Examples -/

/-- The declarations of the program that is emitted. -/
def exDecls (p : SrcProg) : List San.Decl :=
  match outcome p with
  | some (_, p') => p'.decls
  | none => []

/-- How many constants and how many nodes the emitted program has. -/
def exCounts (p : SrcProg) : Nat × Nat :=
  ((exDecls p).countP (fun d => match d with | .const _ => true | _ => false),
    (exDecls p).countP fun d => match d with | .node _ => true | _ => false)

/-- Non-vacuity of the theorems about accepted programs: constants, nodes, an external node. -/
example : (∃ w p', decl (compile exProg) = .done w (some p')) ∧ ExternOk exExtern exProg ∧
    UnitOutputs exExtern exProg ∧ DistinctGenerics exProg ∧
    (∀ d ∈ exProg, hasAny d.attrs ["universal_pre"] = false) ∧ exCounts exProg = (2, 2) := by
  refine ⟨exProg_accepted, exExtern_ok, fun attrs f ins outs m hm ho => ?_, exProg_generics, ?_,
    by decide +kernel⟩
  · simp only [exProg, List.mem_cons, SrcDecl.mk.injEq, reduceCtorEq, and_false, false_or,
      SrcItem.extNode.injEq, List.not_mem_nil, or_false] at hm
    obtain ⟨-, rfl, rfl, rfl⟩ := hm
    cases ho
  · intro d hd
    simp only [exProg, List.mem_cons, List.not_mem_nil, or_false] at hd
    rcases hd with rfl | rfl | rfl | rfl | rfl <;> rfl

/-- The integers, or nil, that the struct named `f` in the text answers. -/
def textInts (uid : Nat) (X : Extern) (p : SrcProg) (f : String) (is : List Value) :
    Option (List (List (Option Int64))) :=
  match linkText 60 uid exArith X (exDecls p) with
  | .error _ => none
  | .ok I =>
    match I.nodes f with
    | none => none
    | some m =>
      match m.run is with
      | .ok os => some (os.map fun o => o.leaves.map fun l =>
          match l with
          | .defined (.int x) => some x
          | _ => none)
      | .error _ => none

/-- The text, read and run: an external node, constants and calls. -/
theorem exProg_text_runs : textInts 3 exExtern exProg "twice__lus_3_node" [exInt 1, exInt 5] =
    some [[some 7], [some 12]] := by decide +kernel

/-- The text, read and run: `merge`, `when`, `->`, `pre`, `fby`, registers and an assertion. -/
theorem exBlend_text_runs : textInts 0 noExtern exBlend "mixed__lus_0_node" exBlendInputs =
    intsIn noExtern exBlend "mixed" exBlendInputs ∧
    (textInts 0 noExtern exBlend "mixed__lus_0_node" exBlendInputs).isSome = true := by
  decide +kernel

/-- `-(1 - (if B then 2 else 3) - (4 + 5) * 6)`. -/
def exArithExpr : San.Expr :=
  .un .neg (.bin .sub (.bin .sub (.lit (.int 1)) (.ifx (.global "B") (.lit (.int 2)) (.lit (.int 3))))
    (.bin .mul (.dummyParen (.bin .add (.lit (.int 4)) (.lit (.int 5)))) (.lit (.int 6))))

/-- The integer that a text denotes, `b` being the value of the constant `B`. -/
def exReadValue (b : Bool) (ts : List RTok) : Option Int64 :=
  match rdConst 60 ts with
  | none => none
  | some e =>
    match e.eval exArith fun x => if x = "B__lus_7_global" then some (.bool b) else none with
    | .ok (.int i) => some i
    | _ => none

/-- The text of an expression has its value.  The `if` is not in parentheses, and is an operand. -/
example : exReadValue true (exArithExpr.constText 7) = some 55 ∧
    exReadValue false (exArithExpr.constText 7) = some 56 := by decide +kernel

/-- The parentheses matter: `1 - (2 - 3)` and `1 - 2 - 3`, `2 * (3 + 4)` and `2 * 3 + 4`. -/
example :
    exReadValue true [.group .paren [.int 1 "i64", .sign "-", .group .paren [.int 2 "i64", .sign "-",
      .int 3 "i64"]]] = some 2 ∧
    exReadValue true [.group .paren [.int 1 "i64", .sign "-", .int 2 "i64", .sign "-", .int 3 "i64"]] =
      some (-4) ∧
    exReadValue true [.group .paren [.int 2 "i64", .sign "*", .group .paren [.int 3 "i64", .sign "+",
      .int 4 "i64"]]] = some 14 ∧
    exReadValue true [.group .paren [.int 2 "i64", .sign "*", .int 3 "i64", .sign "+", .int 4 "i64"]] =
      some 10 := by decide +kernel

/-- The priorities of the reader: `2 + 3 * 4`, `8 | 6 ^ 3 & 1`, `1 + 7 & 4`, and `1 < 2 < 3` is refused. -/
example :
    exReadValue true [.int 2 "i64", .sign "+", .int 3 "i64", .sign "*", .int 4 "i64"] = some 14 ∧
    exReadValue true [.int 8 "i64", .sign "|", .int 6 "i64", .sign "^", .int 3 "i64", .sign "&", .int 1 "i64"] =
      some 15 ∧
    exReadValue true [.int 1 "i64", .sign "+", .int 7 "i64", .sign "&", .int 4 "i64"] = some 0 ∧
    (rdConst 60 [.int 1 "i64", .sign "<", .int 2 "i64", .sign "<", .int 3 "i64"]).isNone = true := by
  decide +kernel

/-- `const X: float = 1e999;` is refused by code generation: no text for the literal. -/
example : speltAll (textOf 0 (.const ⟨"X", .float, .lit (.float ⟨0x7ff0000000000000⟩)⟩)) = false ∧
    codegen ⟨[.const ⟨"X", .float, .lit (.float ⟨0x7ff0000000000000⟩)⟩], fun _ => ⟨false, false, []⟩⟩ =
      .abort := ⟨by decide +kernel, rfl⟩

/-- A node without a clock for its register has no text either, and one with a clock has. -/
example : speltAll ((Stmt.initRegister 0 none none).text 0) = false ∧
    speltAll ((Stmt.initRegister 0 none (some (.lit (.bool true)))).text 0) = true := by
  decide +kernel

end Chandeliers.Props
