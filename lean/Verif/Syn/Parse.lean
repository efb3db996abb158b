import Verif.Syn.Prog

/-!
# Parsing

Model of the parsers in `chandeliers-syn/src/ast.rs`, on streams of Rust tokens.  Error messages and
spans are left out: a parser gives a tree and what is left of the tokens, or nothing.  The model
refuses tokens that are left over in a group at once; `syn` does it when everything else is parsed.

Every repetition has a bound on its number of rounds, which is never reached (`C49`).
-/

set_option autoImplicit false

namespace Chandeliers.Syn
open San Err

/-- `proc_macro2::Literal`: what `i64`, `usize` or `f64` read the number as, without its suffix.
What `decl!` takes, lus/src/lib.rs 64-67. -/
inductive TokLit where
  | int (n : Nat)
  | float (f : Option F64)
  | str (s : String)
  | other

/-- `proc_macro2::Delimiter`; invisible groups are not modelled.
What `decl!` takes, lus/src/lib.rs 64-67. -/
inductive Delim where
  | paren | bracket | brace
  deriving DecidableEq

/-- `proc_macro2::TokenTree`.  A punctuation sign knows whether another one follows it without a
space. What `decl!` takes, lus/src/lib.rs 64-67. -/
inductive Tok where
  | ident (s : String)
  | punct (c : Char) (joint : Bool)
  | lit (l : TokLit)
  | group (d : Delim) (ts : List Tok)

/-- `syn::parse::ParseStream` to `syn::Result`. E.g. ast.rs 390-410. -/
abbrev P (α : Type) := List Tok → Option (α × List Tok)

/-- A keyword: `custom_keyword!` (ast.rs 101-127) and `Token![if]`... -/
def keyword (k : String) : P Unit
  | .ident s :: ts => if s = k then some ((), ts) else none
  | _ => none

/-- A sign of one character: `Token![;]`... E.g. ast.rs 447-458. -/
def sign (c : Char) : P Unit
  | .punct d _ :: ts => if d = c then some ((), ts) else none
  | _ => none

/-- A sign of two characters: `Token![->]`, and `punct::Neq` (ast.rs 135-139). -/
def sign2 (c d : Char) : P Unit
  | .punct c' true :: .punct d' _ :: ts => if c' = c ∧ d' = d then some ((), ts) else none
  | _ => none

/-- ast.rs 173-188: the identifiers that are refused. -/
def reserved : List String :=
  ["true", "false", "fby", "if", "then", "else", "or", "and", "not", "pre", "node", "const",
   "extern", "returns", "var", "let", "tel", "assert", "when", "whenot", "merge", "crate", "self",
   "Self", "super", "move", "static"]

/-- ast.rs 148-199 `LusIdent`. -/
def parseIdent : P String
  | .ident s :: ts => if s ∈ reserved then none else some (s, ts)
  | _ => none

/-- `syn::Lit` on a literal token. Used by ast.rs 538-546. -/
def TokLit.lit : TokLit → Lit
  | .int n => .int n
  | .float f => .float f
  | .str _ => .other
  | .other => .other

/-- The opposite of a float: its sign bit is the first one. Used by ast.rs 538-546 (`syn::Lit`). -/
def _root_.Chandeliers.San.F64.opposite (f : F64) : F64 := ⟨f.bits ^^^ 0x8000000000000000⟩

/-- `syn::Lit` on `-` and a literal token, which must be a number. Used by ast.rs 538-546. -/
def TokLit.negated : TokLit → Option Lit
  | .int n => some (.int (-n))
  | .float f => some (.float (f.map F64.opposite))
  | .str _ => none
  | .other => none

/-- `syn::Lit`. Used by ast.rs 538-546. -/
def parseLit : P Lit
  | .lit l :: ts => some (l.lit, ts)
  | .ident s :: ts =>
    if s = "true" then some (.bool true, ts)
    else if s = "false" then some (.bool false, ts)
    else none
  | .punct c _ :: .lit l :: ts => if c = '-' then l.negated.map (·, ts) else none
  | _ => none

/-! ## Operators: ast.rs 437-502 -/

/-- `kw::or`. ast.rs 101-127. -/
def orOp : P LOp := fun ts => (keyword "or" ts).map fun r => (.or, r.2)

/-- `kw::and`. ast.rs 101-127. -/
def andOp : P LOp := fun ts => (keyword "and" ts).map fun r => (.and, r.2)

/-- `op::Cmp`, ast.rs 479-492: in order. -/
def cmpOp : P CmpOp := fun ts =>
  match sign2 '<' '>' ts, sign2 '<' '=' ts, sign2 '>' '=' ts, sign '<' ts, sign '>' ts, sign '=' ts with
  | some r, _, _, _, _, _ => some (.ne, r.2)
  | _, some r, _, _, _, _ => some (.le, r.2)
  | _, _, some r, _, _, _ => some (.ge, r.2)
  | _, _, _, some r, _, _ => some (.lt, r.2)
  | _, _, _, _, some r, _ => some (.gt, r.2)
  | _, _, _, _, _, some r => some (.eq, r.2)
  | _, _, _, _, _, _ => none

/-- `kw::fby`. ast.rs 101-127. -/
def fbyOp : P Unit := keyword "fby"

/-- `Token![->]`. ast.rs 781. -/
def arrowOp : P Unit := sign2 '-' '>'

/-- `op::Add` with `exactly_token_neg`, ast.rs 461-473. -/
def addOp : P LOp := fun ts =>
  match ts with
  | .punct '+' _ :: ts => some (.add, ts)
  | .punct '-' _ :: ts =>
    match ts with
    | .punct '>' _ :: _ => none
    | _ => some (.sub, ts)
  | _ => none

/-- `op::Mul`, ast.rs 447-458. -/
def mulOp : P LOp
  | .punct '*' _ :: ts => some (.mul, ts)
  | .punct '/' _ :: ts => some (.div, ts)
  | .punct '%' _ :: ts => some (.rem, ts)
  | _ => none

/-- `op::Clock`, ast.rs 496-501. -/
def clockOp : P LOp := fun ts =>
  match keyword "when" ts, keyword "whenot" ts with
  | some r, _ => some (.when, r.2)
  | _, some r => some (.whenot, r.2)
  | _, _ => none

/-! ## Repetitions -/

/-- ast.rs 390-410 `punctuated_parse_separated_nonempty_costly` and
`Punctuated::parse_separated_nonempty`, after the first element. -/
def more {α β : Type} (item : P β) (op : P α) : Nat → P (List (α × β))
  | n, ts =>
    match op ts with
    | none => some ([], ts)
    | some (o, ts) =>
      match n with
      | 0 => none
      | n + 1 => do
        let (e, ts) ← item ts
        let (r, ts) ← more item op n ts
        some ((o, e) :: r, ts)

/-- A sequence of elements separated by operators. ast.rs 390-410. -/
def chain {α β γ : Type} (mk : β → List (α × β) → γ) (item : P β) (op : P α) (n : Nat) : P γ :=
  fun ts => do
    let (e, ts) ← item ts
    let (r, ts) ← more item op n ts
    some (mk e r, ts)

/-- `Punctuated::parse_terminated`: elements up to the end of the tokens, and whether a separator
follows the last one. Used by ast.rs 654-660 and 679-685. -/
def terminated {α : Type} (item : P α) (sep : Char) : Nat → List Tok → Option (List α × Bool)
  | _, [] => some ([], false)
  | 0, _ :: _ => none
  | n + 1, t :: ts => do
    let (x, ts) ← item (t :: ts)
    if ts.isEmpty then some ([x], false)
    else do
      let (_, ts) ← sign sep ts
      if ts.isEmpty then some ([x], true)
      else do
        let (xs, b) ← terminated item sep n ts
        some (x :: xs, b)

/-- ast.rs 414-435 `punctuated_parse_separated_trailing_until`: elements followed by `;`, up to a
keyword, which is not consumed. -/
def untilKeyword {α : Type} (item : P α) (stop : String) : Nat → P (List α)
  | n, ts =>
    match keyword stop ts with
    | some _ => some ([], ts)
    | none =>
      match n with
      | 0 => none
      | n + 1 => do
        let (x, ts) ← item ts
        let (_, ts) ← sign ';' ts
        let (xs, ts) ← untilKeyword item stop n ts
        some (x :: xs, ts)

/-! ## Expressions: ast.rs 505-888 -/

/-- `Clock`, ast.rs 757. -/
def clockOf (n : Nat) (pos : P Src) : P Src := chain .left pos clockOp n
/-- `Mul`, ast.rs 765. -/
def mulOf (n : Nat) (pos : P Src) : P Src := chain .left (clockOf n pos) mulOp n
/-- `Add`, ast.rs 773. -/
def addOf (n : Nat) (pos : P Src) : P Src := chain .left (mulOf n pos) addOp n
/-- `Then`, ast.rs 781. -/
def thenOf (n : Nat) (pos : P Src) : P Src :=
  chain (fun e r => .arrow e (r.map (·.2))) (addOf n pos) arrowOp n
/-- `Fby`, ast.rs 789. -/
def fbyOf (n : Nat) (pos : P Src) : P Src :=
  chain (fun e r => .fby e (r.map (·.2))) (thenOf n pos) fbyOp n
/-- `Cmp`, ast.rs 797. -/
def cmpOf (n : Nat) (pos : P Src) : P Src := chain .cmp (fbyOf n pos) cmpOp n
/-- `And`, ast.rs 805. -/
def andOf (n : Nat) (pos : P Src) : P Src := chain .left (cmpOf n pos) andOp n
/-- `Or`, ast.rs 813, and `Expr`, 870-881. -/
def exprOf (n : Nat) (pos : P Src) : P Src := chain .left (andOf n pos) orOp n

/-- `Atomic`, ast.rs 567-580, with `Paren` 679, `Lit` 538 and `Var` 632. -/
def atomicOf (n : Nat) (pos : P Src) : P Src := fun ts =>
  match ts with
  | .group .paren inner :: ts => do
    let (es, b) ← terminated (exprOf n pos) ',' n inner
    some (.paren es b, ts)
  | ts =>
    match parseLit ts with
    | some (l, ts) => some (.lit l, ts)
    | none => do
      let (x, ts) ← parseIdent ts
      some (.var x, ts)

/-- `Positive`, ast.rs 601-625, with `Call` 654, `If` 831, `Merge` 856, `Pre` 706, `Neg` 725, `Not` 744. -/
def parsePositive : Nat → P Src
  | 0, _ => none
  | n + 1, ts =>
    match parseIdent ts with
    | some (f, .group .paren inner :: ts) => do
      let (es, b) ← terminated (exprOf n (parsePositive n)) ',' n inner
      some (.call f es b, ts)
    | _ =>
      match keyword "if" ts, keyword "merge" ts, keyword "pre" ts, sign '-' ts, keyword "not" ts with
      | some (_, ts), _, _, _, _ => do
        let (c, ts) ← exprOf n (parsePositive n) ts
        let (_, ts) ← keyword "then" ts
        let (y, ts) ← exprOf n (parsePositive n) ts
        let (_, ts) ← keyword "else" ts
        let (o, ts) ← exprOf n (parsePositive n) ts
        some (.ifx c y o, ts)
      | _, some (_, ts), _, _, _ => do
        let (c, ts) ← atomicOf n (parsePositive n) ts
        let (y, ts) ← atomicOf n (parsePositive n) ts
        let (o, ts) ← atomicOf n (parsePositive n) ts
        some (.merge c y o, ts)
      | _, _, some (_, ts), _, _ => do
        let (e, ts) ← parsePositive n ts
        some (.pre e, ts)
      | _, _, _, some (_, ts), _ => do
        let (e, ts) ← parsePositive n ts
        some (.neg e, ts)
      | _, _, _, _, some (_, ts) => do
        let (e, ts) ← parsePositive n ts
        some (.not e, ts)
      | _, _, _, _, _ => atomicOf n (parsePositive n) ts

/-- `Expr`. ast.rs 870-881. -/
def parseExpr (n : Nat) : P Src := exprOf n (parsePositive n)

/-! ## Statements and declarations -/

/-- ast.rs 360-386 `TargetExpr` and `TargetExprTuple`. -/
def parseTarget : Nat → P Target
  | 0, _ => none
  | n + 1, ts =>
    match ts with
    | .group .paren inner :: ts => do
      let (es, b) ← terminated (parseTarget n) ',' n inner
      some (.tuple es b, ts)
    | ts => do
      let (x, ts) ← parseIdent ts
      some (.var x, ts)

/-- ast.rs 895-931 `Statement`, `Assertion`, `Def`. -/
def parseStmt (n : Nat) : P SrcStmt := fun ts =>
  match keyword "assert" ts with
  | some (_, ts) => do
    let (e, ts) ← parseExpr n ts
    some (.assert e, ts)
  | none => do
    let (t, ts) ← parseTarget n ts
    let (_, ts) ← sign '=' ts
    let (e, ts) ← parseExpr n ts
    some (.def_ t e, ts)

/-- ast.rs 222-238 `ty::Base`. -/
def parseBase : P TyBase := fun ts =>
  match keyword "int" ts, keyword "bool" ts, keyword "float" ts with
  | some (_, ts), _, _ => some (.int, ts)
  | _, some (_, ts), _ => some (.bool, ts)
  | _, _, some (_, ts) => some (.float, ts)
  | _, _, _ => (parseIdent ts).map fun r => (.other r.1, r.2)

/-- ast.rs 241-268 `ty::Clock`; translate/mod.rs 688-722 for the names of its variants. -/
def parseClock : P Clock := fun ts =>
  match keyword "when" ts, keyword "whenot" ts with
  | some (_, ts), _ => (parseIdent ts).map fun r => (.explicit true r.1, r.2)
  | _, some (_, ts) => (parseIdent ts).map fun r => (.explicit false r.1, r.2)
  | _, _ => some (.implicit, ts)

/-- ast.rs 270-304 `ArgsTy`, `Decls` and `ty::Type`. -/
def parseArgs (n : Nat) : P ArgsTy := fun ts => do
  let (ids, ts) ← chain (fun x r => x :: r.map (·.2)) parseIdent (sign ',') n ts
  let (_, ts) ← sign ':' ts
  let (base, ts) ← parseBase ts
  let (clk, ts) ← parseClock ts
  some (⟨ids, base, clk⟩, ts)

/-- A parenthesised list of arguments: ast.rs 318-328 `ArgsTys::parse_terminated`. -/
def parseParams (n : Nat) : P (List ArgsTy)
  | .group .paren inner :: ts => do
    let (as, _) ← terminated (parseArgs n) ';' n inner
    some (as, ts)
  | _ => none

/-- ast.rs 945-963 `OptionalVarsDecl` and `VarsDecl`, with 330-342. -/
def parseLocals (n : Nat) : P (List ArgsTy) := fun ts =>
  match keyword "var" ts with
  | some (_, ts) => untilKeyword (parseArgs n) "let" n ts
  | none => some ([], ts)

/-- ast.rs 987-1016 `Node`. -/
def parseNode (n : Nat) : P SrcNode := fun ts => do
  let (_, ts) ← keyword "node" ts
  let (name, ts) ← parseIdent ts
  let (inputs, ts) ← parseParams n ts
  let (_, ts) ← keyword "returns" ts
  let (outputs, ts) ← parseParams n ts
  let (_, ts) ← sign ';' ts
  let (locals, ts) ← parseLocals n ts
  let (_, ts) ← keyword "let" ts
  let (defs, ts) ← untilKeyword (parseStmt n) "tel" n ts
  let (_, ts) ← keyword "tel" ts
  some (⟨name, inputs, outputs, locals, defs⟩, ts)

/-- ast.rs 1031-1038 `Const`. -/
def parseConst (n : Nat) : P SrcConst := fun ts => do
  let (_, ts) ← keyword "const" ts
  let (name, ts) ← parseIdent ts
  let (_, ts) ← sign ':' ts
  let (ty, ts) ← parseBase ts
  let (_, ts) ← sign '=' ts
  let (value, ts) ← parseExpr n ts
  some (⟨name, ty, value⟩, ts)

/-- ast.rs 1097-1101 `Extern`, with `ExtConst` 1086 and `ExtNode` 1054; `ts` is after `extern`. -/
def parseExtern (n : Nat) : P SrcItem := fun ts =>
  match keyword "const" ts with
  | some (_, ts) => do
    let (name, ts) ← parseIdent ts
    let (_, ts) ← sign ':' ts
    let (ty, ts) ← parseBase ts
    let (_, ts) ← parseClock ts
    some (.extConst name ty, ts)
  | none => do
    let (_, ts) ← keyword "node" ts
    let (name, ts) ← parseIdent ts
    let (inputs, ts) ← parseParams n ts
    let (_, ts) ← keyword "returns" ts
    let (outputs, ts) ← parseParams n ts
    some (.extNode name inputs outputs, ts)

/-- ast.rs 1225-1231 `Decl`. -/
def parseItem (n : Nat) : P SrcItem := fun ts =>
  match keyword "extern" ts, keyword "const" ts with
  | some (_, ts), _ => parseExtern n ts
  | _, some _ => (parseConst n ts).map fun r => (.const r.1, r.2)
  | _, _ => (parseNode n ts).map fun r => (.node r.1, r.2)

/-- `syn::Lit` in the targets of attributes: `syn::Lit::Str` and `syn::Lit::Int` are told apart
(translate/options.rs 326-486). -/
def parseAttrLit : P AttrLit
  | .lit (.str s) :: ts => some (.str s, ts)
  | ts =>
    match parseLit ts with
    | some (.int i, ts) => some (.int i, ts)
    | some (_, ts) => some (.other, ts)
    | none => none

/-- ast.rs 1154-1183 `AttrParams`, `OptionAttrParams`, flattened (1185-1196). -/
def parseAttrParams (n : Nat) : P (List String)
  | .group .bracket inner :: ts => do
    let (ps, _) ← terminated parseIdent ',' n inner
    some (ps, ts)
  | ts => some ([], ts)

/-- ast.rs 1122-1151 `AttrTargets`, `OptionAttrTargets`, flattened (1197-1204). -/
def parseAttrTargets (n : Nat) : P (List AttrLit)
  | .group .paren inner :: ts => do
    let (as, _) ← terminated parseAttrLit ',' n inner
    some (as, ts)
  | ts => some ([], ts)

/-- ast.rs 1207-1222 `Attribute` and `AttrDef`.  Spans are left out. -/
def parseAttribute (n : Nat) : P Attribute := fun ts => do
  let (_, ts) ← sign '#' ts
  match ts with
  | .group .bracket inner :: ts => do
    let (action, inner) ← parseIdent inner
    let (params, inner) ← parseAttrParams n inner
    let (targets, inner) ← parseAttrTargets n inner
    if inner.isEmpty then some (⟨action, params, targets, 0⟩, ts) else none
  | _ => none

/-- ast.rs 1240-1249 `AttrDecl`. -/
def parseDecl (m : Nat) : Nat → P SrcDecl
  | n, ts =>
    match sign '#' ts with
    | none => (parseItem m ts).map fun r => (⟨[], r.1⟩, r.2)
    | some _ =>
      match n with
      | 0 => none
      | n + 1 => do
        let (a, ts) ← parseAttribute m ts
        let (d, ts) ← parseDecl m n ts
        some ({ d with attrs := a :: d.attrs }, ts)

mutual
/-- The number of tokens, those inside groups included.
Auxiliary: bounds the recursion of the parsers of ast.rs 505-882. -/
def Tok.size : Tok → Nat
  | .group _ ts => 1 + Tok.sizes ts
  | _ => 1
/-- Of a list. Auxiliary: bounds the recursion of the parsers of ast.rs 505-882. -/
def Tok.sizes : List Tok → Nat
  | [] => 0
  | t :: ts => t.size + Tok.sizes ts
end

/-- ast.rs 1253-1256 `Prog`. -/
def parseProg (ts : List Tok) : Option SrcProg :=
  (terminated (parseDecl (Tok.sizes ts) (Tok.sizes ts)) ';' (Tok.sizes ts) ts).map (·.1)

/-- lib.rs 62-88 `decl`: a syntax error is emitted by `parse_macro_input!` (65); `none` is that
error. -/
def expand (ts : List Tok) : Option (Outcome Report Prog) :=
  (parseProg ts).map fun p => decl (compile p)

end Chandeliers.Syn
