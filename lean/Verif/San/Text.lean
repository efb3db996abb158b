import Verif.San.Quote
import Verif.San.ConstExpr

/-!
# The text of the emitted code

Model of the token streams built by `quote!` in `chandeliers-san/src/codegen/constexpr.rs` and
`codegen/mod.rs`: the values of constants and the bodies of the methods `step`.  Left out, as in
`San/Quote`: the traces and the reads of `deptys`.
-/

set_option autoImplicit false

namespace Chandeliers.San

/-- `proc_macro2::Delimiter`, the two that are emitted. E.g. codegen/mod.rs 1089-1092. -/
inductive Bracket where
  | paren | brace
  deriving DecidableEq

/-- A tree of emitted tokens, with signs such as `::` and `==` in one piece.  A negative number is
one literal, as for `proc_macro`.  The contents of strings are left out.
What `quote!` builds, e.g. codegen/mod.rs 1076-1165. -/
inductive RTok where
  | ident (s : String)
  | sign (s : String)
  /-- `i` with a suffix, which can be empty -/
  | int (i : Int) (suffix : String)
  /-- `{f}f64` -/
  | float (f : F64)
  | str
  | group (b : Bracket) (ts : List RTok)
  /-- the compiler panics instead of emitting something -/
  | panics

/-- Neither infinite nor a NaN: the exponent is not all ones. For constexpr.rs 115-117. -/
def F64.finite (f : F64) : Bool := (f.bits >>> 52) &&& 0x7ff#64 != 0x7ff#64

/-- constexpr.rs 110-122.  `{f}` is `inf` or `NaN` if `f` is not finite, which `LitFloat::new` refuses
by a panic. -/
def Lit.text : Lit → RTok
  | .int i => .int i.toInt "i64"
  | .float f => if f.finite then .float f else .panics
  | .bool true => .ident "true"
  | .bool false => .ident "false"

/-- codegen/mod.rs 891-904, `ToTokens for op::Bin`. -/
def BinOp.text : BinOp → String
  | .add => "+"
  | .mul => "*"
  | .sub => "-"
  | .div => "/"
  | .rem => "%"
  | .bitAnd => "&"
  | .bitOr => "|"
  | .bitXor => "^"

/-- codegen/mod.rs 906-913, `ToTokens for op::Un`. -/
def UnOp.text : UnOp → String
  | .not => "!"
  | .neg => "-"

/-- codegen/mod.rs 915-926, `ToTokens for op::Cmp`. -/
def _root_.Chandeliers.CmpOp.text : CmpOp → String
  | .eq => "=="
  | .ne => "!="
  | .ge => ">="
  | .gt => ">"
  | .le => "<="
  | .lt => "<"

/-- `::chandeliers_sem::$m!( $args )`. E.g. codegen/mod.rs 1096-1098. -/
def semMacro (m : String) (args : List RTok) : List RTok :=
  [.sign "::", .ident "chandeliers_sem", .sign "::", .ident m, .sign "!", .group .paren args]

/-- `self <~ $dt;`. E.g. codegen/mod.rs 953-961. -/
def selfAgo (dt : Nat) (suffix : String) : List RTok :=
  [.ident "self", .sign "<", .sign "~", .int dt suffix, .sign ";"]

/-- `self.$field.$id.$method( $args )`. E.g. codegen/mod.rs 1027-1029. -/
def selfCall (field : String) (id : Nat) (method : String) (args : List RTok) : List RTok :=
  [.ident "self", .sign ".", .ident field, .sign ".", .int id "", .sign ".", .ident method,
    .group .paren args]

/-- `::chandeliers_sem::traits::AllNil::auto_size()`. codegen/mod.rs 1150. -/
def autoSizeText : List RTok :=
  [.sign "::", .ident "chandeliers_sem", .sign "::", .ident "traits", .sign "::", .ident "AllNil",
    .sign "::", .ident "auto_size", .group .paren []]

section
variable (uid : Nat)

mutual
/-- constexpr.rs 52-104 with 124-135. -/
def Expr.constText : Expr → List RTok
  | .lit l => [l.text]
  | .global x => [.ident (globName uid x)]
  | .dummyPre e => e.constText
  | .dummyParen e => e.constText
  | .bin op lhs rhs => [.group .paren (lhs.constText ++ .sign op.text :: rhs.constText)]
  | .un op inner => [.group .paren (.sign op.text :: inner.constText)]
  | .cmp op lhs rhs => [.group .paren (lhs.constText ++ .sign op.text :: rhs.constText)]
  | .tuple es => [.group .paren (Expr.constTexts es)]
  | .ifx cond yes no =>
    .ident "if" :: cond.constText ++
      [.group .brace yes.constText, .ident "else", .group .brace no.constText]
  | .var _ _ => [.panics]
  | .later _ _ _ => [.panics]
  | .flip _ _ _ => [.panics]
  | .substep _ _ _ => [.panics]
  | .merge _ _ _ => [.panics]
  | .clock _ _ _ => [.panics]
  | .fetchPre _ _ => [.panics]
  | .fetchFby _ _ _ => [.panics]
/-- constexpr.rs 83-89, `#( #ts ),*`. -/
def Expr.constTexts : List Expr → List RTok
  | [] => []
  | e :: es => e.constText ++ Expr.constMore es
/-- constexpr.rs 83-89, the components after the first one, with their commas. -/
def Expr.constMore : List Expr → List RTok
  | [] => []
  | e :: es => .sign "," :: e.constText ++ Expr.constMore es
end

mutual
/-- codegen/mod.rs 1076-1165, `ToTokens for expr::Expr`; references are 935-961. -/
def Expr.text : Expr → List RTok
  | .lit l => semMacro "lit" [l.text]
  | .global x => semMacro "lit" [.ident (globName uid x)]
  | .var x dt => semMacro "var" (selfAgo dt "" ++ [.ident (locName x)])
  | .dummyPre e => e.text
  | .dummyParen e => e.text
  | .tuple es => [.group .paren (Expr.texts es), .sign ".", .ident "embed", .group .paren []]
  | .bin op lhs rhs =>
    semMacro "binop" (.sign op.text :: .sign ";" :: lhs.text ++ .sign "," :: rhs.text)
  | .un op inner => semMacro "unop" (.sign op.text :: .sign ";" :: inner.text)
  | .cmp op lhs rhs =>
    semMacro "cmp" (.sign op.text :: .sign ";" :: lhs.text ++ .sign "," :: rhs.text)
  | .later delay before after =>
    semMacro "later" (selfAgo delay "" ++ before.text ++ .sign "," :: after.text)
  | .ifx cond yes no =>
    semMacro "ifx" [.group .paren cond.text, .ident "then", .group .brace yes.text,
      .ident "else", .group .brace no.text]
  | .substep delay id args =>
    semMacro "substep" (selfAgo delay "usize" ++ [.int id "", .sign "=>", .group .brace args.text])
  | .merge switch on off =>
    semMacro "merge" (switch.text ++ .sign ";" :: on.text ++ .sign "," :: off.text)
  | .clock .when inner activate => semMacro "when" (activate.text ++ .sign ";" :: inner.text)
  | .clock .whenot inner activate => semMacro "whenot" (activate.text ++ .sign ";" :: inner.text)
  | .fetchPre id _ => selfCall "__regs" id "get" []
  | .fetchFby id _ _ => selfCall "__regs" id "get" []
  | .flip id initial continued =>
    [.group .brace (
      .ident "let" :: .ident "initial" :: .sign "=" :: initial.text ++ .sign ";" ::
      .ident "let" :: .ident "continued" :: .sign "=" :: continued.text ++ .sign ";" ::
      .ident "use" :: .sign "::" :: .ident "chandeliers_sem" :: .sign "::" :: .ident "nillable" ::
        .sign "::" :: .ident "FirstIsNil" :: .sign ";" ::
      .ident "if" :: .ident "initial" :: .sign "." :: .ident "first_is_nil" :: .group .paren [] ::
      .group .brace autoSizeText ::
      .ident "else" :: .group .brace (
        .ident "if" :: selfCall "__flips" id "tas" [] ++
        [.group .brace [.ident "initial"], .ident "else", .group .brace [.ident "continued"]]) :: [])]
/-- codegen/mod.rs 1089-1092, `#( #elems ),*`. -/
def Expr.texts : List Expr → List RTok
  | [] => []
  | e :: es => e.text ++ Expr.textMore es
/-- codegen/mod.rs 1089-1092, the components after the first one, with their commas. -/
def Expr.textMore : List Expr → List RTok
  | [] => []
  | e :: es => .sign "," :: e.text ++ Expr.textMore es
end

mutual
/-- codegen/mod.rs 1047-1074, `ToTokens for stmt::VarTuple`. -/
def VarTuple.text : VarTuple → List RTok
  | .single x => [.ident (locName x)]
  | .multiple [] => [.ident "_"]
  | .multiple (p :: ps) => [.group .paren (p.text ++ VarTuple.textMore ps)]
/-- codegen/mod.rs 1067-1071, the components after the first one, with their commas. -/
def VarTuple.textMore : List VarTuple → List RTok
  | [] => []
  | p :: ps => .sign "," :: p.text ++ VarTuple.textMore ps
end

/-- codegen/mod.rs 1009-1045, `ToTokens for stmt::Statement`. -/
def Stmt.text : Stmt → List RTok
  | .let_ target source =>
    .str :: .sign ";" :: .ident "let" :: target.text ++ .sign "=" :: source.text uid ++ [.sign ";"]
  | .assert e =>
    .str :: .sign ";" :: semMacro "truth" (e.text uid ++ [.sign ",", .str]) ++ [.sign ";"]
  | .updateRegister id val => selfCall "__regs" id "schedule" (val.text uid) ++ [.sign ";"]
  | .initRegister _ _ none => [.panics]
  | .initRegister id none (some clk) =>
    selfCall "__regs" id "with_clock" (clk.text uid) ++ [.sign ";"]
  | .initRegister id (some val) (some clk) =>
    selfCall "__regs" id "with_clock" (clk.text uid) ++ .sign ";" ::
      selfCall "__regs" id "try_initialize" (val.text uid) ++ [.sign ";"]

/-- Names with commas between them. codegen/mod.rs 738-754, `#( #tup ),*`. -/
def namesText : List String → List RTok
  | [] => []
  | [x] => [.ident x]
  | x :: x' :: xs => .ident x :: .sign "," :: namesText (x' :: xs)

/-- codegen/mod.rs 738-754, `as_values`. -/
def valuesText : List TyVar → List RTok
  | [v] => [.ident (locName v.name)]
  | vs => [.group .paren (namesText (vs.map fun v => locName v.name))]

/-- codegen/mod.rs 780-786, `as_assignment_target`. -/
def targetText : List TyVar → List RTok
  | [] => [.ident "_"]
  | vs => valuesText vs

/-- `use ::chandeliers_sem::traits::{Embed, Step};`. codegen/mod.rs 595. -/
def useTraits : List RTok :=
  [.ident "use", .sign "::", .ident "chandeliers_sem", .sign "::", .ident "traits", .sign "::",
    .group .brace [.ident "Embed", .sign ",", .ident "Step"], .sign ";"]

/-- `::chandeliers_sem::update!(self, $var);`. codegen/mod.rs 606-608. -/
def updateText (x : String) : List RTok :=
  semMacro "update" [.ident "self", .sign ",", .ident (locName x)] ++ [.sign ";"]

/-- codegen/mod.rs 595-612, the body of the method `step` of the struct of a node. -/
def Node.text (n : Node) : List RTok :=
  useTraits ++ semMacro "implicit_clock" [.ident "inputs"] ++ .sign ";" :: .str :: .sign ";" ::
  .ident "let" :: targetText n.inputs ++ .sign "=" :: .ident "inputs" :: .sign ";" ::
  .str :: .sign ";" ::
  n.stmts.flatMap (Stmt.text uid) ++
  .str :: .sign ";" :: .str :: .sign ";" ::
  semMacro "tick" [.ident "self"] ++ .sign ";" ::
  (posNames n.inputs).flatMap updateText ++
  (posNames n.outputs).flatMap updateText ++
  (posNames n.locals).flatMap updateText ++
  (List.range n.registers.length).flatMap (fun id =>
    selfCall "__regs" id "commit" [] ++ [.sign ";"]) ++
  .str :: .sign ";" :: .str :: .sign ";" ::
  valuesText n.outputs ++ [.sign ".", .ident "embed", .group .paren []]

end

/-- codegen/mod.rs 701-702, the body of the method `step` of the exported struct of a node. -/
def exportText : List RTok :=
  semMacro "implicit_clock" [.ident "inputs"] ++ [.sign ";", .ident "self", .sign ".",
    .ident "inner", .sign ".", .ident "step", .group .paren [.ident "inputs"]]

/-- codegen/mod.rs 871-882, the body of the method `step` of the struct of an `extern node`. -/
def externText (inputs outputs : List TyVar) : List RTok :=
  useTraits ++ semMacro "implicit_clock" [.ident "inputs"] ++ .sign ";" ::
  .ident "let" :: targetText inputs ++ .sign "=" :: .ident "inputs" :: .sign ";" ::
  .ident "let" :: targetText outputs ++ .sign "=" :: .ident "self" :: .sign "." :: .ident "inner" ::
    .sign "." :: .ident "step" :: .group .paren [.ident "inputs"] :: .sign ";" ::
  semMacro "tick" [.ident "self"] ++ .sign ";" ::
  valuesText outputs ++ [.sign ".", .ident "embed", .group .paren []]

end Chandeliers.San
