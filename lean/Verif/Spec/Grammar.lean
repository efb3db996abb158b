import Verif.Syn.Parse

/-!
# The grammar of the language

What a sequence of tokens says, as a grammar: nothing here tells how to find the reading of a
program.  The precedences are those of ast.rs 505-522.  Among binary operators, `or` binds
the loosest, then `and`, comparisons, `fby`, `->`, `+` and `-`, then `*`, `/` and `%`, then `when`
and `whenot`; prefix operators bind tighter than all of these.  The branches of a conditional are
whole expressions, so that its last branch extends as far as possible.
-/

set_option autoImplicit false

namespace Chandeliers.Spec.Grammar
open Chandeliers.San Chandeliers.Syn

/-! ## Words -/

/-- A name: an identifier that is not a keyword of Lustre, nor one of the Rust keywords that cannot
be used as raw identifiers. -/
def Name (x : String) : Prop :=
  x ∉ ["true", "false", "if", "then", "else", "let", "tel", "const", "extern", "pre", "fby", "or",
    "and", "not", "assert", "node", "returns", "var", "when", "whenot", "merge"] ∧
  x ∉ ["crate", "self", "Self", "super", "move", "static"]

/-- One sign, whatever follows it. -/
def Sign (c : Char) (ts : List Tok) : Prop := ∃ j, ts = [.punct c j]

/-- Two signs without a space between them. -/
def Sign2 (c d : Char) (ts : List Tok) : Prop := ∃ j, ts = [.punct c true, .punct d j]

/-- How left associative operators are written. -/
def LeftWord : LOp → List Tok → Prop
  | .or, w => w = [.ident "or"]
  | .and, w => w = [.ident "and"]
  | .add, w => Sign '+' w
  | .sub, w => Sign '-' w
  | .mul, w => Sign '*' w
  | .div, w => Sign '/' w
  | .rem, w => Sign '%' w
  | .when, w => w = [.ident "when"]
  | .whenot, w => w = [.ident "whenot"]

/-- How comparisons are written. -/
def CmpWord : CmpOp → List Tok → Prop
  | .eq, w => Sign '=' w
  | .ne, w => Sign2 '<' '>' w
  | .lt, w => Sign '<' w
  | .le, w => Sign2 '<' '=' w
  | .gt, w => Sign '>' w
  | .ge, w => Sign2 '>' '=' w

/-- One of these operators. -/
def Among (ops : List LOp) (o : LOp) (w : List Tok) : Prop := o ∈ ops ∧ LeftWord o w

/-- The word `fby`. -/
def FbyWord (_ : Unit) (w : List Tok) : Prop := w = [.ident "fby"]

/-- The arrow. -/
def ArrowWord (_ : Unit) (w : List Tok) : Prop := Sign2 '-' '>' w

/-- How literals are written. -/
inductive Literal : List Tok → Syn.Lit → Prop
  | yes : Literal [.ident "true"] (.bool true)
  | no : Literal [.ident "false"] (.bool false)
  | int (n : Nat) : Literal [.lit (.int n)] (.int n)
  | float (f : Option F64) : Literal [.lit (.float f)] (.float f)
  | str (s : String) : Literal [.lit (.str s)] .other
  | other : Literal [.lit .other] .other
  | minus (n : Nat) (j : Bool) : Literal [.punct '-' j, .lit (.int n)] (.int (-n))
  | opposite (f : Option F64) (j : Bool) :
    Literal [.punct '-' j, .lit (.float f)] (.float (f.map F64.opposite))

/-! ## Expressions -/

/-- The last word of the expression belongs to the last branch of a conditional. -/
inductive EndsOpen : Src → Prop
  | ifx {c y n} : EndsOpen (.ifx c y n)
  | pre {e} : EndsOpen e → EndsOpen (.pre e)
  | neg {e} : EndsOpen e → EndsOpen (.neg e)
  | not {e} : EndsOpen e → EndsOpen (.not e)
  | left₁ {e} : EndsOpen e → EndsOpen (.left e [])
  | left {f r o e} : EndsOpen e → EndsOpen (.left f (r ++ [(o, e)]))
  | cmp₁ {e} : EndsOpen e → EndsOpen (.cmp e [])
  | cmp {f r o e} : EndsOpen e → EndsOpen (.cmp f (r ++ [(o, e)]))
  | fby₁ {e} : EndsOpen e → EndsOpen (.fby e [])
  | fby {f r e} : EndsOpen e → EndsOpen (.fby f (r ++ [e]))
  | arrow₁ {e} : EndsOpen e → EndsOpen (.arrow e [])
  | arrow {f r e} : EndsOpen e → EndsOpen (.arrow f (r ++ [e]))

/-- Operators each followed by an operand.  An operand with a conditional at its end can only be the
last one. -/
inductive Tail {α : Type} (word : α → List Tok → Prop) (operand : List Tok → Src → Prop) :
    List Tok → List (α × Src) → Prop
  | nil : Tail word operand [] []
  | cons {o w t e u r} : word o w → operand t e → Tail word operand u r → (r ≠ [] → ¬ EndsOpen e) →
    Tail word operand (w ++ (t ++ u)) ((o, e) :: r)

/-- Operands separated by operators. -/
inductive Chain {α : Type} (word : α → List Tok → Prop) (operand : List Tok → Src → Prop) :
    List Tok → Src → List (α × Src) → Prop
  | mk {t e u r} : operand t e → Tail word operand u r → (r ≠ [] → ¬ EndsOpen e) →
    Chain word operand (t ++ u) e r

/-- Elements separated by a sign, which may also follow the last one. -/
inductive Listed {α : Type} (sep : Char) (element : List Tok → α → Prop) :
    List Tok → List α → Bool → Prop
  | none : Listed sep element [] [] false
  | one {t x} : element t x → Listed sep element t [x] false
  | trailing {t x j} : element t x → Listed sep element (t ++ [.punct sep j]) [x] true
  | more {t x j u xs b} : element t x → Listed sep element u xs b → xs ≠ [] →
    Listed sep element (t ++ .punct sep j :: u) (x :: xs) b

/-- Levels of the grammar. -/
inductive Level where
  | or | and | cmp | fby | arrow | add | mul | clock | prefixed | atom

/-- `Reads l ts e`: at the level `l`, the tokens `ts` are the expression `e`. -/
inductive Reads : Level → List Tok → Src → Prop
  | or {t e r} : Chain (Among [.or]) (Reads .and) t e r → Reads .or t (.left e r)
  | and {t e r} : Chain (Among [.and]) (Reads .cmp) t e r → Reads .and t (.left e r)
  | cmp {t e r} : Chain CmpWord (Reads .fby) t e r → Reads .cmp t (.cmp e r)
  | fby {t e r} : Chain FbyWord (Reads .arrow) t e r → Reads .fby t (.fby e (r.map (·.2)))
  | arrow {t e r} : Chain ArrowWord (Reads .add) t e r → Reads .arrow t (.arrow e (r.map (·.2)))
  | add {t e r} : Chain (Among [.add, .sub]) (Reads .mul) t e r → Reads .add t (.left e r)
  | mul {t e r} : Chain (Among [.mul, .div, .rem]) (Reads .clock) t e r → Reads .mul t (.left e r)
  | clock {t e r} : Chain (Among [.when, .whenot]) (Reads .prefixed) t e r →
    Reads .clock t (.left e r)
  | ifx {tc c ty y tn n} : Reads .or tc c → Reads .or ty y → Reads .or tn n →
    Reads .prefixed (.ident "if" :: (tc ++ .ident "then" :: (ty ++ .ident "else" :: tn)))
      (.ifx c y n)
  | merge {tc c ty y tn n} : Reads .atom tc c → Reads .atom ty y → Reads .atom tn n →
    Reads .prefixed (.ident "merge" :: (tc ++ (ty ++ tn))) (.merge c y n)
  | pre {t e} : Reads .prefixed t e → Reads .prefixed (.ident "pre" :: t) (.pre e)
  | neg {t e j} : Reads .prefixed t e → Reads .prefixed (.punct '-' j :: t) (.neg e)
  | not {t e} : Reads .prefixed t e → Reads .prefixed (.ident "not" :: t) (.not e)
  | call {f u es b} : Name f → Listed ',' (Reads .or) u es b →
    Reads .prefixed [.ident f, .group .paren u] (.call f es b)
  /-- A sign at the beginning is an operator. -/
  | atom {t e} : Reads .atom t e → (∀ j u, t ≠ .punct '-' j :: u) → Reads .prefixed t e
  | paren {u es b} : Listed ',' (Reads .or) u es b → Reads .atom [.group .paren u] (.paren es b)
  | lit {t l} : Literal t l → Reads .atom t (.lit l)
  | var {x} : Name x → Reads .atom [.ident x] (.var x)

/-- The tokens of an expression. -/
def Expression : List Tok → Src → Prop := Reads .or

/-! ## Statements -/

/-- The left of an equation. -/
inductive Targets : List Tok → Target → Prop
  | var {x} : Name x → Targets [.ident x] (.var x)
  | tuple {u xs b} : Listed ',' Targets u xs b → Targets [.group .paren u] (.tuple xs b)

/-- Equations and assertions. -/
inductive Statement : List Tok → SrcStmt → Prop
  | equation {t x u e w} : Targets t x → Sign '=' w → Expression u e →
    Statement (t ++ (w ++ u)) (.def_ x e)
  | assertion {u e} : Expression u e → Statement (.ident "assert" :: u) (.assert e)

/-- Elements each followed by a semicolon. -/
inductive Each {α : Type} (element : List Tok → α → Prop) : List Tok → List α → Prop
  | nil : Each element [] []
  | cons {t x w u xs} : element t x → Sign ';' w → Each element u xs →
    Each element (t ++ (w ++ u)) (x :: xs)

/-! ## Declarations -/

/-- Names of types. -/
inductive TypeName : List Tok → TyBase → Prop
  | int : TypeName [.ident "int"] .int
  | bool : TypeName [.ident "bool"] .bool
  | float : TypeName [.ident "float"] .float
  | other {x} : Name x → x ∉ ["int", "bool", "float"] → TypeName [.ident x] (.other x)

/-- The clock of a declared variable. -/
inductive ClockSuffix : List Tok → Clock → Prop
  | none : ClockSuffix [] .implicit
  | when {x} : Name x → ClockSuffix [.ident "when", .ident x] (.explicit true x)
  | whenot {x} : Name x → ClockSuffix [.ident "whenot", .ident x] (.explicit false x)

/-- Names separated by commas, at least one. -/
inductive Names : List Tok → List String → Prop
  | one {x} : Name x → Names [.ident x] [x]
  | more {x j u xs} : Name x → Names u xs → Names (.ident x :: .punct ',' j :: u) (x :: xs)

/-- `x, y : int when c`. -/
inductive Binding : List Tok → ArgsTy → Prop
  | mk {t xs w u ty v c} : Names t xs → Sign ':' w → TypeName u ty → ClockSuffix v c →
    Binding (t ++ (w ++ (u ++ v))) ⟨xs, ty, c⟩

/-- Parameters between parentheses. -/
inductive Parameters : List Tok → List ArgsTy → Prop
  | mk {u as b} : Listed ';' Binding u as b → Parameters [.group .paren u] as

/-- Local variables. -/
inductive Locals : List Tok → List ArgsTy → Prop
  | none : Locals [] []
  | var {u as} : Each Binding u as → Locals (.ident "var" :: u) as

/-- A literal in an attribute. -/
inductive AttrLiteral : List Tok → AttrLit → Prop
  | str (s : String) : AttrLiteral [.lit (.str s)] (.str s)
  | int {t n} : Literal t (.int n) → AttrLiteral t (.int n)
  | bool {t b} : Literal t (.bool b) → AttrLiteral t .other
  | float {t f} : Literal t (.float f) → AttrLiteral t .other
  | other : AttrLiteral [.lit .other] .other

/-- `[T, U]`, or nothing. -/
inductive AttrParams : List Tok → List String → Prop
  | none : AttrParams [] []
  | some {u ps b} : Listed ',' (fun t x => Name x ∧ t = [.ident x]) u ps b →
    AttrParams [.group .bracket u] ps

/-- `(1, "a")`, or nothing. -/
inductive AttrTargets : List Tok → List AttrLit → Prop
  | none : AttrTargets [] []
  | some {u ls b} : Listed ',' AttrLiteral u ls b → AttrTargets [.group .paren u] ls

/-- An attribute. -/
inductive AttributeText : List Tok → Attribute → Prop
  | mk {w a t ps u ls} : Sign '#' w → Name a → AttrParams t ps → AttrTargets u ls →
    AttributeText (w ++ [.group .bracket (.ident a :: (t ++ u))]) ⟨a, ps, ls, 0⟩

/-- A node, a constant, or an external one. -/
inductive Item : List Tok → SrcItem → Prop
  | node {f i is o os w l ls b ss} : Name f → Parameters i is → Parameters o os → Sign ';' w →
    Locals l ls → Each Statement b ss →
    Item (.ident "node" :: .ident f :: (i ++ .ident "returns" :: (o ++ (w ++ (l ++
      .ident "let" :: (b ++ [.ident "tel"])))))) (.node ⟨f, is, os, ls, ss⟩)
  | const {x w t ty v u e} : Name x → Sign ':' w → TypeName t ty → Sign '=' v → Expression u e →
    Item (.ident "const" :: .ident x :: (w ++ (t ++ (v ++ u)))) (.const ⟨x, ty, e⟩)
  | extNode {f i is o os} : Name f → Parameters i is → Parameters o os →
    Item (.ident "extern" :: .ident "node" :: .ident f :: (i ++ .ident "returns" :: o))
      (.extNode f is os)
  | extConst {x w t ty u c} : Name x → Sign ':' w → TypeName t ty → ClockSuffix u c →
    Item (.ident "extern" :: .ident "const" :: .ident x :: (w ++ (t ++ u))) (.extConst x ty)

/-- A declaration with its attributes. -/
inductive Declaration : List Tok → SrcDecl → Prop
  | plain {t i} : Item t i → Declaration t ⟨[], i⟩
  | tagged {t a u as i} : AttributeText t a → Declaration u ⟨as, i⟩ →
    Declaration (t ++ u) ⟨a :: as, i⟩

/-- A program. -/
def Program (ts : List Tok) (p : SrcProg) : Prop := ∃ b, Listed ';' Declaration ts p b

end Chandeliers.Spec.Grammar
