import Verif.San.Text

/-!
# How Rust reads the emitted text

A reader for the fragment of Rust that the emitted text is written in.  It knows nothing about
Lustre.  `rdBin` reads the expressions of constants, with the priorities of Rust's operators.  `rdE`
reads the expressions of the methods `step`, where all operators are arguments of macros: the macros
of `chandeliers-sem/src/candle.rs` are matched token by token, in the order of their rules, and give
the expressions of `San/Quote`.  What is outside of the fragment is not read.

Every function has a bound on its depth of calls, the first argument.  What is read does not depend on
it when it is large enough.
-/

set_option autoImplicit false

namespace Chandeliers.San

/-- Words that are not names in Rust. Of the text emitted by codegen/mod.rs 589-612. -/
def rustWords : List String :=
  ["true", "false", "if", "else", "self", "let", "use", "as", "match", "loop", "while", "for", "in",
    "return", "break", "continue", "mut", "ref", "move", "fn", "struct", "impl", "const", "static",
    "unsafe", "super", "crate", "Self", "where", "enum", "trait", "type", "mod", "pub", "extern",
    "async", "await", "dyn", "_"]

/-- The tokens go on with the expression before them: a field, a method, a call, a `?`, a cast.
For the text emitted by codegen/mod.rs 1076-1165. -/
def goesOn : List RTok → Bool
  | .sign s :: _ => s = "." || s = "?" || s = "::" || s = "!"
  | .group .paren _ :: _ => true
  | .ident x :: _ => x = "as"
  | _ => false

/-- The expression is complete. For the text emitted by constexpr.rs 52-104. -/
def complete {α : Type} (e : α) (ts : List RTok) : Option (α × List RTok) :=
  if goesOn ts then none else some (e, ts)

/-- The name is complete: it is not the name of a struct that is being built, which cannot be the case
in the condition of an `if`. For the text emitted by constexpr.rs 52-104. -/
def completeName {α : Type} (cond : Bool) (e : α) (ts : List RTok) : Option (α × List RTok) :=
  match ts with
  | .group .brace _ :: _ => if cond then some (e, ts) else none
  | ts => complete e ts

/-- A literal. For the text emitted by constexpr.rs 110-122.  An integer must fit its type. -/
def rdLit : RTok → Option Lit
  | .int i s =>
    if s = "i64" ∧ -9223372036854775808 ≤ i ∧ i ≤ 9223372036854775807 then some (.int (Int64.ofInt i))
    else none
  | .float f => some (.float f)
  | .ident x =>
    if x = "true" then some (.bool true) else if x = "false" then some (.bool false) else none
  | _ => none

/-- Binary operators: their priority, whether they are a comparison, and what they build.
For the text emitted by constexpr.rs 66-82. -/
def binSign (s : String) : Option (Nat × Bool × (CExpr → CExpr → CExpr)) :=
  if s = "*" then some (11, false, .bin .mul)
  else if s = "/" then some (11, false, .bin .div)
  else if s = "%" then some (11, false, .bin .rem)
  else if s = "+" then some (10, false, .bin .add)
  else if s = "-" then some (10, false, .bin .sub)
  else if s = "&" then some (8, false, .bin .bitAnd)
  else if s = "^" then some (7, false, .bin .bitXor)
  else if s = "|" then some (6, false, .bin .bitOr)
  else if s = "==" then some (5, true, .cmp .eq)
  else if s = "!=" then some (5, true, .cmp .ne)
  else if s = "<" then some (5, true, .cmp .lt)
  else if s = ">" then some (5, true, .cmp .gt)
  else if s = "<=" then some (5, true, .cmp .le)
  else if s = ">=" then some (5, true, .cmp .ge)
  else none

mutual
/-- An operand: prefix operators and what they apply to.  `cond`: in the condition of an `if`.
Of the text emitted by constexpr.rs 52-104. -/
def rdUn : Nat → Bool → List RTok → Option (CExpr × List RTok)
  | 0, _, _ => none
  | n + 1, cond, ts =>
    match ts with
    | .sign s :: ts =>
      if s = "-" then (rdUn n cond ts).map fun r => (.un .neg r.1, r.2)
      else if s = "!" then (rdUn n cond ts).map fun r => (.un .not r.1, r.2)
      else none
    | .group .paren inner :: ts =>
      match rdParen n inner with
      | some e => complete e ts
      | none => none
    | .ident x :: ts =>
      if x = "if" then
        match rdBin n true 0 ts with
        | some (c, .group .brace yes :: .ident w :: .group .brace no :: ts) =>
          if w = "else" then
            match rdBlk n yes, rdBlk n no with
            | some y, some z => complete (.ite c y z) ts
            | _, _ => none
          else none
        | _ => none
      else if x = "true" ∨ x = "false" then
        match rdLit (.ident x) with
        | some l => complete (.lit l) ts
        | none => none
      else if x ∈ rustWords then none
      else completeName cond (.ident x) ts
    | t :: ts =>
      match rdLit t with
      | some l => complete (.lit l) ts
      | none => none
    | [] => none
/-- An expression whose operators have at least the priority `p`. Of the text emitted by constexpr.rs
52-104. -/
def rdBin : Nat → Bool → Nat → List RTok → Option (CExpr × List RTok)
  | 0, _, _, _ => none
  | n + 1, cond, p, ts =>
    match rdUn n cond ts with
    | some (l, ts) => rdRest n cond p false l ts
    | none => none
/-- What follows the first operand `l`.  `chain`: `l` is a comparison, which cannot be compared
without parentheses. Of the text emitted by constexpr.rs 52-104. -/
def rdRest : Nat → Bool → Nat → Bool → CExpr → List RTok → Option (CExpr × List RTok)
  | 0, _, _, _, _, _ => none
  | n + 1, cond, p, chain, l, ts =>
    match ts with
    | .sign s :: ts' =>
      match binSign s with
      | some (q, cmp, f) =>
        if p ≤ q then
          if chain && cmp then none else
          match rdBin n cond (q + 1) ts' with
          | some (r, ts'') => rdRest n cond p cmp (f l r) ts''
          | none => none
        else some (l, ts)
      | none => some (l, ts)
    | ts => some (l, ts)
/-- The inside of parentheses: an expression, or a tuple. Of the text emitted by constexpr.rs 66-89. -/
def rdParen : Nat → List RTok → Option CExpr
  | 0, _ => none
  | n + 1, ts =>
    match ts with
    | [] => some (.tuple [])
    | ts =>
      match rdBin n false 0 ts with
      | some (e, []) => some e
      | some (e, ts) => (rdMore n ts).map fun es => .tuple (e :: es)
      | none => none
/-- The other components of a tuple. Of the text emitted by constexpr.rs 83-89. -/
def rdMore : Nat → List RTok → Option (List CExpr)
  | 0, _ => none
  | n + 1, ts =>
    match ts with
    | [] => some []
    | .sign s :: ts =>
      if s = "," then
        match rdBin n false 0 ts with
        | some (e, ts) => (rdMore n ts).map fun es => e :: es
        | none => none
      else none
    | _ => none
/-- A block that is only an expression.  An `if` that begins a block ends with its last brace.
Of the text emitted by constexpr.rs 93-100. -/
def rdBlk : Nat → List RTok → Option CExpr
  | 0, _ => none
  | n + 1, ts =>
    match ts with
    | .ident x :: _ =>
      if x = "if" then
        match rdUn n false ts with
        | some (e, []) => some e
        | _ => none
      else
        match rdBin n false 0 ts with
        | some (e, []) => some e
        | _ => none
    | ts =>
      match rdBin n false 0 ts with
      | some (e, []) => some e
      | _ => none
end

/-- The value of a `const` item. Of the text emitted by codegen/mod.rs 309-317. -/
def rdConst (n : Nat) (ts : List RTok) : Option CExpr :=
  match rdBin n false 0 ts with
  | some (e, []) => some e
  | _ => none

/-- `self`, `<`, `~`, a number with its suffix, `;`. The beginning of a rule of candle.rs 236-339. -/
def rdSelfAgo : List RTok → Option (Int × String × List RTok)
  | .ident x :: .sign a :: .sign b :: .int i s :: .sign c :: ts =>
    if x = "self" ∧ a = "<" ∧ b = "~" ∧ c = ";" then some (i, s, ts) else none
  | _ => none

/-- `$op:tt` of `binop!`. candle.rs 371-373. -/
def binOp (s : String) : Option BinOp :=
  if s = "*" then some .mul else if s = "/" then some .div else if s = "%" then some .rem
  else if s = "+" then some .add else if s = "-" then some .sub else if s = "&" then some .bitAnd
  else if s = "^" then some .bitXor else if s = "|" then some .bitOr else none

/-- `$op:tt` of `unop!`. candle.rs 383-385. -/
def unOp (s : String) : Option UnOp :=
  if s = "-" then some .neg else if s = "!" then some .not else none

/-- The first token of the rules of `cmp!`. candle.rs 424-443. -/
def cmpSign (s : String) : Option CmpOp :=
  if s = "==" then some .eq else if s = "!=" then some .ne else if s = "<" then some .lt
  else if s = ">" then some .gt else if s = "<=" then some .le else if s = ">=" then some .ge else none

/-- The text is `::chandeliers_sem::traits::AllNil::auto_size()`. codegen/mod.rs 1150. -/
def isAutoSize : List RTok → Bool
  | [.sign a, .ident b, .sign c, .ident d, .sign e, .ident f, .sign g, .ident h, .group .paren []] =>
    a = "::" && b = "chandeliers_sem" && c = "::" && d = "traits" && e = "::" && f = "AllNil" &&
      g = "::" && h = "auto_size"
  | _ => false

/-- The variable that an expression has the type of, for the inference of `AllNil::auto_size()` in the
other branch. codegen/mod.rs 1143-1156. -/
def likeOf : RExpr → Option Like
  | .path x => some (.var x)
  | .ite _ a _ => likeOf a
  | _ => none

/-- `self.$field.$id.$method( $args )`, after `self`. Of the text emitted by codegen/mod.rs 1026-1041
and 1133-1154. -/
def rdSelfCall : List RTok → Option (String × Int × String × List RTok × List RTok)
  | .sign a :: .ident f :: .sign b :: .int i s :: .sign c :: .ident m :: .group .paren args :: ts =>
    if a = "." ∧ b = "." ∧ c = "." ∧ s = "" then some (f, i, m, args, ts) else none
  | _ => none

/-- `::chandeliers_sem::$m!( $args )`, after the first sign. Of the text emitted by codegen/mod.rs
1076-1165. -/
def rdSem : List RTok → Option (String × List RTok × List RTok)
  | .ident c :: .sign a :: .ident m :: .sign b :: .group .paren args :: ts =>
    if c = "chandeliers_sem" ∧ a = "::" ∧ b = "!" then some (m, args, ts) else none
  | _ => none

/-- What follows `use`, up to the semicolon. Of the text emitted by codegen/mod.rs 595 and 1147. -/
def skipUse : List RTok → Option (List RTok)
  | [] => none
  | .sign s :: ts => if s = ";" then some ts else skipUse ts
  | _ :: ts => skipUse ts

mutual
/-- An expression. Of the text emitted by codegen/mod.rs 1076-1165. -/
def rdE : Nat → List RTok → Option (RExpr × List RTok)
  | 0, _ => none
  | n + 1, ts =>
    match ts with
    | .sign s :: ts =>
      if s = "::" then
        match rdSem ts with
        | some (m, args, ts) =>
          match rdMacro n m args with
          | some e => rdPost n e ts
          | none => none
        | none => none
      else none
    | .group .paren inner :: ts =>
      match rdTuple n inner with
      | some es => rdPost n (.tuple es) ts
      | none => none
    | .group .brace inner :: ts =>
      match rdBlock n inner with
      | some b => rdPost n (.block b) ts
      | none => none
    | .ident x :: ts =>
      if x = "self" then
        match ts with
        | .sign a :: .ident f :: .sign b :: .ident m :: .group .paren args :: ts =>
          if a = "." ∧ f = "inner" ∧ b = "." ∧ m = "step" then
            match rdE n args with
            | some (e, []) => rdPost n (.step 0 e) ts
            | _ => none
          else none
        | ts =>
          match rdSelfCall ts with
          | some (f, i, m, [], ts) =>
            if f = "__regs" ∧ m = "get" then rdPost n (.regGet i.toNat) ts
            else if f = "__flips" ∧ m = "tas" then rdPost n (.flipTas i.toNat) ts
            else none
          | _ => none
      else if x = "if" then
        match rdE n ts with
        | some (c, .group .brace yes :: .ident w :: .group .brace no :: ts) =>
          if w = "else" then
            match rdE n no with
            | some (z, []) =>
              if isAutoSize yes then
                match likeOf z with
                | some l => complete (.ite c (.autoSize l) z) ts
                | none => none
              else
                match rdE n yes with
                | some (y, []) => complete (.ite c y z) ts
                | _ => none
            | _ => none
          else none
        | _ => none
      else if x = "true" ∨ x = "false" then
        match rdLit (.ident x) with
        | some l => complete (.lit l) ts
        | none => none
      else if x ∈ rustWords then none
      else rdPost n (.path x) ts
    | t :: ts =>
      match rdLit t with
      | some l => complete (.lit l) ts
      | none => none
    | [] => none
/-- The methods that are called on an expression. Of the text emitted by codegen/mod.rs 1089-1092 and
1146-1148. -/
def rdPost : Nat → RExpr → List RTok → Option (RExpr × List RTok)
  | 0, _, _ => none
  | n + 1, e, ts =>
    match ts with
    | .sign s :: .ident m :: .group .paren [] :: ts' =>
      if s = "." then
        if m = "embed" then rdPost n (.embed e) ts'
        else if m = "first_is_nil" then rdPost n (.firstIsNil e) ts'
        else none
      else complete e ts
    | ts => complete e ts
/-- The components of a tuple. Of the text emitted by codegen/mod.rs 1089-1092. -/
def rdTuple : Nat → List RTok → Option RExprs
  | 0, _ => none
  | n + 1, ts =>
    match ts with
    | [] => some .nil
    | ts =>
      match rdE n ts with
      | some (e, ts) => (rdTupleMore n ts).map (.cons e)
      | none => none
/-- The components of a tuple after the first one. Of the text emitted by codegen/mod.rs 1089-1092. -/
def rdTupleMore : Nat → List RTok → Option RExprs
  | 0, _ => none
  | n + 1, ts =>
    match ts with
    | [] => some .nil
    | .sign s :: ts =>
      if s = "," then
        match rdE n ts with
        | some (e, ts) => (rdTupleMore n ts).map (.cons e)
        | none => none
      else none
    | _ => none
/-- The inside of a block: `let`s, `use`s and a value. Of the text emitted by codegen/mod.rs
1143-1161. -/
def rdBlock : Nat → List RTok → Option RBlock
  | 0, _ => none
  | n + 1, ts =>
    match ts with
    | .ident w :: ts' =>
      if w = "let" then
        match ts' with
        | .ident x :: .sign s :: ts =>
          if s = "=" ∧ x ∉ rustWords then
            match rdE n ts with
            | some (e, .sign s :: ts) =>
              if s = ";" then (rdBlock n ts).map (.bind x e) else none
            | _ => none
          else none
        | _ => none
      else if w = "use" then
        match skipUse ts' with
        | some ts => rdBlock n ts
        | none => none
      else
        match rdE n ts with
        | some (e, []) => some (.value e)
        | _ => none
    | ts =>
      match rdE n ts with
      | some (e, []) => some (.value e)
      | _ => none
/-- `$l:expr, $r:expr`, all of the tokens. E.g. candle.rs 371-373. -/
def rdTwo : Nat → List RTok → Option (RExpr × RExpr)
  | 0, _ => none
  | n + 1, ts =>
    match rdE n ts with
    | some (l, .sign s :: ts) =>
      if s = "," then
        match rdE n ts with
        | some (r, []) => some (l, r)
        | _ => none
      else none
    | _ => none
/-- `$e:expr`, all of the tokens. E.g. candle.rs 253-257. -/
def rdOne : Nat → List RTok → Option RExpr
  | 0, _ => none
  | n + 1, ts =>
    match rdE n ts with
    | some (e, []) => some e
    | _ => none
/-- The macro `m` on these tokens: the rules of candle.rs 236-511. -/
def rdMacro : Nat → String → List RTok → Option RExpr
  | 0, _, _ => none
  | n + 1, m, ts =>
    if m = "lit" then (rdOne n ts).map Macro.lit
    else if m = "var" then
      match rdSelfAgo ts with
      | some (i, s, [.ident f]) =>
        if i = 0 ∧ s = "" then some (.path f) else some (.ago f i.toNat)
      | _ => none
    else if m = "binop" then
      match ts with
      | .sign s :: .sign c :: ts =>
        if c = ";" then
          match binOp s, rdTwo n ts with
          | some op, some (l, r) => some (Macro.binop op l r)
          | _, _ => none
        else none
      | _ => none
    else if m = "unop" then
      match ts with
      | .sign s :: .sign c :: ts =>
        if c = ";" then
          match unOp s, rdOne n ts with
          | some op, some e => some (Macro.unop op e)
          | _, _ => none
        else none
      | _ => none
    else if m = "cmp" then
      match ts with
      | .sign s :: .sign c :: ts =>
        if c = ";" then
          match cmpSign s, rdTwo n ts with
          | some op, some (l, r) => some (Macro.cmp op l r)
          | _, _ => none
        else none
      | _ => none
    else if m = "later" then
      match rdSelfAgo ts with
      | some (i, _, ts) => (rdTwo n ts).map fun r => Macro.later i.toNat r.1 r.2
      | none => none
    else if m = "ifx" then
      match ts with
      | [.group .paren c, .ident a, .group .brace y, .ident b, .group .brace z] =>
        if a = "then" ∧ b = "else" then
          match rdOne n c, rdOne n y, rdOne n z with
          | some c, some y, some z => some (Macro.ifx c y z)
          | _, _, _ => none
        else none
      | _ => none
    else if m = "substep" then
      match rdSelfAgo ts with
      | some (i, s, [.int id u, .sign a, .group .brace args]) =>
        if u = "" ∧ a = "=>" then
          if i = 0 ∧ s = "" then
            (rdOne n args).map fun e => .block (.value (.step id.toNat (.embed e)))
          else (rdOne n args).map fun e => Macro.substep i.toNat id.toNat e
        else none
      | _ => none
    else if m = "merge" then
      match rdE n ts with
      | some (b, .sign s :: ts) =>
        if s = ";" then (rdTwo n ts).map fun r => Macro.merge b r.1 r.2 else none
      | _ => none
    else if m = "when" then
      match rdE n ts with
      | some (b, .sign s :: ts) =>
        if s = ";" then (rdOne n ts).map fun e => Macro.when b e else none
      | _ => none
    else if m = "whenot" then
      match rdE n ts with
      | some (b, .sign s :: ts) =>
        if s = ";" then (rdOne n ts).map fun e => Macro.whenot b e else none
      | _ => none
    else none
end

mutual
/-- A pattern. Of the text emitted by codegen/mod.rs 1047-1074 and 738-786. -/
def rdPat : Nat → List RTok → Option (RBind × List RTok)
  | 0, _ => none
  | n + 1, ts =>
    match ts with
    | .ident x :: ts =>
      if x = "_" then some (.wild, ts) else if x ∈ rustWords then none else some (.ident x, ts)
    | .group .paren inner :: ts =>
      match inner with
      | [] => some (.tuple [], ts)
      | inner =>
        match rdPat n inner with
        | some (p, more) => (rdPats n more).map fun ps => (.tuple (p :: ps), ts)
        | none => none
    | _ => none
/-- The components of a pattern after the first one. Of the text emitted by codegen/mod.rs
1067-1071. -/
def rdPats : Nat → List RTok → Option (List RBind)
  | 0, _ => none
  | n + 1, ts =>
    match ts with
    | [] => some []
    | .sign s :: ts =>
      if s = "," then
        match rdPat n ts with
        | some (p, ts) => (rdPats n ts).map (p :: ·)
        | none => none
      else none
    | _ => none
end

/-- The macro `m` as a statement: the rules of candle.rs 218-223, 277-281, 450-460, 522-529. -/
def rdMacroStmt (n : Nat) (m : String) (ts : List RTok) : Option RStmt :=
  if m = "implicit_clock" then (rdOne n ts).map Macro.implicitClock
  else if m = "tick" then
    match ts with
    | [.ident x] => if x = "self" then some Macro.tick else none
    | _ => none
  else if m = "update" then
    match ts with
    | [.ident x, .sign s, .ident f] =>
      if x = "self" ∧ s = "," ∧ f ∉ rustWords then some (Macro.update f) else none
    | _ => none
  else if m = "truth" then
    match rdE n ts with
    | some (b, [.sign s, .str]) => if s = "," then some (Macro.truth b) else none
    | _ => none
  else none

/-- The method `m` of a register as a statement. Of the text emitted by codegen/mod.rs 609 and
1026-1041. -/
def rdRegStmt (n : Nat) (id : Nat) (m : String) (args : List RTok) : Option RStmt :=
  if m = "schedule" then (rdOne n args).map (.schedule id)
  else if m = "with_clock" then (rdOne n args).map (.withClock id)
  else if m = "try_initialize" then (rdOne n args).map (.tryInitialize id)
  else if m = "commit" then
    match args with
    | [] => some (.commit id)
    | _ => none
  else none

/-- One more statement. Of the text emitted by codegen/mod.rs 595-612. -/
def RFn.before (s : RStmt) (f : RFn) : RFn := { f with stmts := s :: f.stmts }

/-- The body of a method: statements and a value.  A string does nothing.
Of the text emitted by codegen/mod.rs 595-612, 701-702 and 872-882. -/
def rdFn : Nat → List RTok → Option RFn
  | 0, _ => none
  | n + 1, ts =>
    match ts with
    | .str :: .sign s :: ts => if s = ";" then rdFn n ts else none
    | .ident w :: ts' =>
      if w = "use" then
        match skipUse ts' with
        | some ts => rdFn n ts
        | none => none
      else if w = "let" then
        match rdPat n ts' with
        | some (p, .sign s :: ts) =>
          if s = "=" then
            match rdE n ts with
            | some (e, .sign s :: ts) =>
              if s = ";" then (rdFn n ts).map (RFn.before (.bind p e)) else none
            | _ => none
          else none
        | _ => none
      else if w = "self" then
        match rdSelfCall ts' with
        | some (f, i, m, args, .sign s :: ts) =>
          if f = "__regs" ∧ s = ";" then
            match rdRegStmt n i.toNat m args with
            | some st => (rdFn n ts).map (RFn.before st)
            | none => none
          else none
        | _ =>
          match rdE n ts with
          | some (e, []) => some ⟨[], e⟩
          | _ => none
      else
        match rdE n ts with
        | some (e, []) => some ⟨[], e⟩
        | _ => none
    | .sign a :: ts' =>
      match rdSem ts' with
      | some (m, args, .sign s :: ts) =>
        if a = "::" ∧ s = ";" then
          match rdMacroStmt n m args with
          | some st => (rdFn n ts).map (RFn.before st)
          | none => none
        else none
      | _ =>
        match rdE n ts with
        | some (e, []) => some ⟨[], e⟩
        | _ => none
    | ts =>
      match rdE n ts with
      | some (e, []) => some ⟨[], e⟩
      | _ => none

/-- The values of the `const` items, read from their text, by their Rust names.  codegen/mod.rs
283-372.  A panic of the compiler leaves nothing to read. -/
def textConsts (n uid : Nat) (A : Arith) (X : Extern) :
    Globals → List Decl → Except Panic Globals
  | g, [] => .ok g
  | g, .const c :: ds =>
    match rdConst n (c.value.constText uid) with
    | some e =>
      match e.eval A g with
      | .ok v => textConsts n uid A X (fun y => if y = globName uid c.name then some v else g y) ds
      | .error p => .error p
    | none => .error .rejected
  | g, .extConst c :: ds =>
    match X.consts c.name with
    | some v => textConsts n uid A X (fun y => if y = globName uid c.name then some v else g y) ds
    | none => .error .rejected
  | g, .node _ :: ds => textConsts n uid A X g ds
  | g, .extNode _ :: ds => textConsts n uid A X g ds

/-- The structs emitted for the nodes of a program, with the methods `step` read from their text, by
their Rust names. codegen/mod.rs 378-434, and 811-889 for external ones. -/
def textNodes (n uid : Nat) (A : Arith) (X : Extern) (consts : String → Option Scalar) :
    (String → Option Machine) → List Decl → Except Panic (String → Option Machine)
  | N, [] => .ok N
  | N, .node d :: ds =>
    match rdFn n (d.text uid), rustSubnodes uid N d.blocks with
    | some f, some ms => textNodes n uid A X consts
        (fun y => if y = nodeName uid d.name then some {
            σ := NodeState ms
            init := { d.initState ms with hist := d.rustFields }
            outTy := d.outTy
            step := f.call A consts ms d.outTy } else N y) ds
    | _, _ => .error .rejected
  | N, .extNode d :: ds =>
    match rdFn n (externText d.inputs d.outputs), X.nodes d.name with
    | some f, some m => textNodes n uid A X consts
        (fun y => if y = nodeName uid d.name then
          some (innerMachine f A consts (flatShape d.outputs.length) m) else N y) ds
    | _, _ => .error .rejected
  | N, .const _ :: ds => textNodes n uid A X consts N ds
  | N, .extConst _ :: ds => textNodes n uid A X consts N ds

/-- The items emitted for a program, read from their text, by their Rust names. pipeline.rs
110-115. -/
def linkText (n uid : Nat) (A : Arith) (X : Extern) (ds : List Decl) : Except Panic Items :=
  match textConsts n uid A X (fun _ => none) ds with
  | .error p => .error p
  | .ok g =>
    match textNodes n uid A X g (fun _ => none) ds with
    | .error p => .error p
    | .ok N => .ok ⟨g, N⟩

end Chandeliers.San
