import Verif.Lemmas.ParseProg

/-!
# C49: programs are read according to the grammar
-/

set_option autoImplicit false

namespace Chandeliers.Props
open Chandeliers Chandeliers.San Chandeliers.Err Chandeliers.Syn Chandeliers.Spec.Grammar

/-- C49: the parser reads `ts` as `p` exactly when the grammar does; everything else is a syntax
error. -/
theorem C49_grammar (ts : List Tok) (p : SrcProg) : parseProg ts = some p ↔ Program ts p :=
  Grm.parseProg_iff ts p

/-- C49: no program has two readings. -/
theorem C49_unambiguous (ts : List Tok) (p q : SrcProg) (hp : Program ts p) (hq : Program ts q) :
    p = q := by
  have h1 := (C49_grammar ts p).2 hp
  rw [(C49_grammar ts q).2 hq] at h1
  exact (Option.some.inj h1).symm

/-- C49: what the macro does with an invocation is what the compiler does with its only reading, and
it reports a syntax error exactly when there is none. -/
theorem C49_expand (ts : List Tok) :
    (∀ p, Program ts p → expand ts = some (decl (compile p))) ∧
    (expand ts = none ↔ ∀ p, ¬ Program ts p) := by
  constructor
  · intro p hp
    simp [expand, (C49_grammar ts p).2 hp]
  · constructor
    · intro h p hp
      simp [expand, (C49_grammar ts p).2 hp] at h
    · intro h
      cases hp : parseProg ts with
      | none => simp [expand, hp]
      | some p => exact absurd ((C49_grammar ts p).1 hp) (h p)

/-- C49 for one expression: the parser finds the reading of all the tokens when there is one, and
what it finds is a reading. -/
theorem C49_expression (ts : List Tok) (e : Src) :
    parseExpr (Tok.sizes ts) ts = some (e, []) ↔ Expression ts e := by
  constructor
  · intro h
    obtain ⟨t, rfl, ht⟩ := Grm.expr_sound h
    simpa using ht
  · intro h
    have := Grm.expression_fits (n := Tok.sizes ts) [] (Nat.le_refl _) h Grm.stopOr_nil
      (by simp [Grm.NoGroup])
    simpa using this

/-- An expression has one reading. -/
theorem C49_expression_unambiguous (ts : List Tok) (e f : Src) (he : Expression ts e)
    (hf : Expression ts f) : e = f := by
  have h1 := (C49_expression ts e).2 he
  rw [(C49_expression ts f).2 hf] at h1
  simp only [Option.some.injEq, Prod.mk.injEq, and_true] at h1
  exact h1.symm

/-! ## Examples -/

/-- Forgets the levels with one element. -/
def core : Src → Src
  | .left e [] => core e
  | .cmp e [] => core e
  | .fby e [] => core e
  | .arrow e [] => core e
  | e => e

/-- `a - b * c -> pre a + 1`. -/
def exTokens : List Tok :=
  [.ident "a", .punct '-' false, .ident "b", .punct '*' false, .ident "c", .punct '-' true,
   .punct '>' false, .ident "pre", .ident "a", .punct '+' false, .lit (.int 1)]

/-- Non-vacuity of C49: it is `(a - (b * c)) -> ((pre a) + 1)`. -/
example : (match (parseExpr (Tok.sizes exTokens) exTokens).map fun r => core r.1 with
    | some (.arrow l [r]) =>
      match core l, core r with
      | .left a [(.sub, m)], .left p [(.add, o)] =>
        match core a, core m, core p, core o with
        | .var "a", .left b [(.mul, c)], .pre (.var "a"), .lit (.int 1) =>
          match core b, core c with
          | .var "b", .var "c" => true
          | _, _ => false
        | _, _, _, _ => false
      | _, _ => false
    | _ => false) = true := by decide +kernel

/-- `if a then b else c + 1`: the last branch takes the sum. -/
def exOpen : List Tok :=
  [.ident "if", .ident "a", .ident "then", .ident "b", .ident "else", .ident "c", .punct '+' false,
   .lit (.int 1)]

/-- Same. -/
example : (match (parseExpr (Tok.sizes exOpen) exOpen).map fun r => core r.1 with
    | some (.ifx _ _ n) => match core n with
      | .left _ [(.add, _)] => true
      | _ => false
    | _ => false) = true := by decide +kernel

/-- `#[export] node f(x, y : int) returns (z : int); let z = x -> y; tel`. -/
def exProgram : List Tok :=
  [.punct '#' false, .group .bracket [.ident "export"], .ident "node", .ident "f",
   .group .paren [.ident "x", .punct ',' false, .ident "y", .punct ':' false, .ident "int"],
   .ident "returns", .group .paren [.ident "z", .punct ':' false, .ident "int"], .punct ';' false,
   .ident "let", .ident "z", .punct '=' false, .ident "x", .punct '-' true, .punct '>' false,
   .ident "y", .punct ';' false, .ident "tel"]

/-- Non-vacuity of C49: the program is read, then accepted. -/
example : ∃ p, Program exProgram p ∧ expand exProgram = some (decl (compile p)) ∧
    (match decl (compile p) with | .done _ tokens => tokens.isSome | .panic => false) = true := by
  have h : (match parseProg exProgram with
      | some p => match decl (compile p) with | .done _ tokens => tokens.isSome | .panic => false
      | none => false) = true := by decide +kernel
  cases hp : parseProg exProgram with
  | none => rw [hp] at h; cases h
  | some p =>
    rw [hp] at h
    exact ⟨p, (C49_grammar _ _).1 hp, (C49_expand _).1 p ((C49_grammar _ _).1 hp), h⟩

/-- Non-vacuity of C49: without the last word there is no reading. -/
example : ∀ p, ¬ Program exProgram.dropLast p := by
  have h : (parseProg exProgram.dropLast).isNone = true := by decide +kernel
  intro p hp
  rw [(C49_grammar _ _).2 hp] at h
  cases h

end Chandeliers.Props
