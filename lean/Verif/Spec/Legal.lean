import Mathlib.Logic.Relation
import Verif.Spec.Panics
import Verif.Spec.Typing
import Verif.Spec.Clocks

/-!
# Legal programs

The static rules of the language, on source programs: what is well typed, what is well clocked,
what is initialised before it is read, what can be computed in some order.  Nothing here refers to
what the compiler turns a program into.
-/

set_option autoImplicit false

namespace Chandeliers.Spec.Static
open Chandeliers.San Chandeliers.Syn

/-- A variable: its name, its type, and its clock. -/
structure Var where
  name : String
  ty : TyBase
  clk : Clk

/-- The variables of a list of declarations. -/
def varsOf (as : List ArgsTy) : List Var :=
  as.flatMap fun a => a.ids.map fun x => ⟨x, a.base, a.clk.intoClk⟩

/-- What an expression may refer to, and whether the node has `#[universal_pre]`. -/
structure Scope where
  vars : List Var
  consts : String → Option TyBase
  nodes : String → Option Sig
  universalPre : Bool

/-- The variable with this name. -/
def Scope.var (S : Scope) (x : String) : Option Var := S.vars.find? fun v => v.name = x

/-! ## Types -/

/-- The type of a literal that denotes a value. -/
def literalType : Syn.Lit → Option TyBase
  | .bool _ => some .bool
  | .int n => if -2 ^ 63 ≤ n ∧ n < 2 ^ 63 then some .int else none
  | .float (some f) => if finite f then some .float else none
  | .float none => none
  | .other => none

/-- The type of something between parentheses: `(e)` is `e`, but `(e,)` is a tuple. -/
def group : List TyTuple → Bool → TyTuple
  | [t], false => t
  | ts, _ => .multiple ts

/-- What `x op y` makes of two types. -/
def OpTy : LOp → TyTuple → TyTuple → TyTuple → Prop
  | .when, t, u, r => u = .single .bool ∧ r = t
  | .whenot, t, u, r => u = .single .bool ∧ r = t
  | op, t, u, r => ∃ b, t = .single b ∧ u = .single b ∧ r = .single b ∧ b ∈ allowed op
where
  /-- The types that arithmetic and logic work on. -/
  allowed : LOp → List TyBase
    | .or => [.int, .bool]
    | .and => [.int, .bool]
    | .rem => [.int]
    | _ => [.int, .float]

mutual
/-- The expression has a type. -/
def HasTy (S : Scope) : Src → TyTuple → Prop
  | .lit l, t => ∃ b, literalType l = some b ∧ t = .single b
  | .var x, t => match S.var x with
    | some v => t = .single v.ty
    | none => ∃ b, S.consts x = some b ∧ t = .single b
  | .paren es trailing, t => ∃ ts, HasTys S es ts ∧ t = group ts trailing
  | .left e rest, t => ∃ u, HasTy S e u ∧ LeftTy S u rest t
  | .cmp e rest, t => ∃ u, HasTy S e u ∧ CmpTy S u rest t
  | .fby e rest, t => HasTy S e t ∧ AllTy S rest t
  | .arrow e rest, t => HasTy S e t ∧ AllTy S rest t
  | .ifx c y n, t => HasTy S c (.single .bool) ∧ HasTy S y t ∧ HasTy S n t
  | .merge c y n, t => HasTy S c (.single .bool) ∧ HasTy S y t ∧ HasTy S n t
  | .call f args trailing, t => ∃ ts gens ins outs θ, HasTys S args ts ∧
      S.nodes f = some (gens, ins, outs) ∧ group ts trailing = substTy θ (flatTuple ins) ∧
      t = substTy θ (flatTuple outs)
  | .pre e, t => HasTy S e t
  | .neg e, t => HasTy S e t ∧ (t = .single .int ∨ t = .single .float)
  | .not e, t => HasTy S e t ∧ (t = .single .int ∨ t = .single .bool)
/-- One by one. -/
def HasTys (S : Scope) : List Src → List TyTuple → Prop
  | [], ts => ts = []
  | e :: es, ts => ∃ t us, ts = t :: us ∧ HasTy S e t ∧ HasTys S es us
/-- All of them the same type. -/
def AllTy (S : Scope) : List Src → TyTuple → Prop
  | [], _ => True
  | e :: es, t => HasTy S e t ∧ AllTy S es t
/-- Operators associate to the left; the first operand has type `u`. -/
def LeftTy (S : Scope) : TyTuple → List (LOp × Src) → TyTuple → Prop
  | u, [], t => t = u
  | u, (op, e) :: rest, t => ∃ w r, HasTy S e w ∧ OpTy op u w r ∧ LeftTy S r rest t
/-- At most one comparison; the first operand has type `u`. -/
def CmpTy (S : Scope) : TyTuple → List (CmpOp × Src) → TyTuple → Prop
  | u, [], t => t = u
  | u, (op, e) :: rest, t => rest = [] ∧
      ∃ b ∈ cmpTypes op, u = .single b ∧ HasTy S e (.single b) ∧ t = .single .bool
end

mutual
/-- The type of the left-hand side of an equation. -/
def TargetTy (S : Scope) : Target → TyTuple → Prop
  | .var x, t => ∃ v, S.var x = some v ∧ t = .single v.ty
  | .tuple ps trailing, t => ∃ ts, TargetTys S ps ts ∧ t = group ts trailing
/-- One by one. -/
def TargetTys (S : Scope) : List Target → List TyTuple → Prop
  | [], ts => ts = []
  | p :: ps, ts => ∃ t us, ts = t :: us ∧ TargetTy S p t ∧ TargetTys S ps us
end

/-! ## Clocks -/

/-- The guard of an operator that samples. -/
def guard : LOp → Option ClockOp
  | .when => some .when
  | .whenot => some .whenot
  | _ => none

/-- The expression is nothing but the variable: no operator, no parentheses. -/
def IsVar (S : Scope) (v : Var) : Src → Prop
  | .var x => S.var x = some v
  | .left e rest => rest = [] ∧ IsVar S v e
  | .cmp e rest => rest = [] ∧ IsVar S v e
  | .fby e rest => rest = [] ∧ IsVar S v e
  | .arrow e rest => rest = [] ∧ IsVar S v e
  | _ => False

mutual
/-- The expression has a clock.  Delays are on the clock of the node, except that nothing is asked
of `->` and `fby` (see DESIGN.md, F11); with `#[universal_pre]` they work on any clock, the same for
all operands. -/
def HasClk (S : Scope) : Src → Clk → Prop
  | .lit _, k => k = .adaptative
  | .var x, k => match S.var x with
    | some v => k = v.clk
    | none => k = .adaptative
  | .paren es _, k => TupleClk S es k
  | .left e rest, k => ∃ k₀, HasClk S e k₀ ∧ LeftClk S k₀ rest k
  | .cmp e rest, k => ∃ k₀, HasClk S e k₀ ∧ CmpClk S k₀ rest k
  | .fby e rest, k => ∃ k₀, HasClk S e k₀ ∧ ChainClk S k₀ rest k
  | .arrow e rest, k => ∃ k₀, HasClk S e k₀ ∧ ChainClk S k₀ rest k
  | .ifx c y n, k => ∃ k₁ k₂ k₃, HasClk S c k₁ ∧ HasClk S y k₂ ∧ HasClk S n k₃ ∧ Compatible k₁ k₂ ∧
      Compatible (Clk.meet k₁ k₂) k₃ ∧ k = Clk.meet (Clk.meet k₁ k₂) k₃
  | .merge c y n, k => ∃ v k₁ k₂, IsVar S v c ∧ HasClk S y k₁ ∧ HasClk S n k₂ ∧
      Compatible k₁ (.on v.name) ∧ Compatible k₂ (.off v.name) ∧ k = v.clk
  | .call _ args _, k => TupleClk S args k
  | .pre e, k => HasClk S e k ∧ (S.universalPre = false → Always k)
  | .neg e, k => HasClk S e k
  | .not e, k => HasClk S e k
/-- All present at the same instants. -/
def TupleClk (S : Scope) : List Src → Clk → Prop
  | [], k => k = .adaptative
  | e :: es, k => HasClk S e k ∧ SameClks S k es
/-- All present at the instants of `k`. -/
def SameClks (S : Scope) : Clk → List Src → Prop
  | _, [] => True
  | k, e :: es => (∃ k', HasClk S e k' ∧ SameClk k k') ∧ SameClks S k es
/-- Operators associate to the left; the first operand is on `k₀`. -/
def LeftClk (S : Scope) : Clk → List (LOp × Src) → Clk → Prop
  | k₀, [], k => k = k₀
  | k₀, (op, e) :: rest, k => match guard op with
    | none => ∃ k₁, HasClk S e k₁ ∧ Compatible k₀ k₁ ∧ LeftClk S (Clk.meet k₀ k₁) rest k
    | some g => ∃ v, IsVar S v e ∧ Compatible k₀ v.clk ∧ LeftClk S (guardClk g v.name) rest k
/-- A comparison; the first operand is on `k₀`. -/
def CmpClk (S : Scope) : Clk → List (CmpOp × Src) → Clk → Prop
  | k₀, [], k => k = k₀
  | k₀, (_, e) :: _, k => ∃ k₁, HasClk S e k₁ ∧ Compatible k₀ k₁ ∧ k = Clk.meet k₀ k₁
/-- What is on the right of `->` or `fby`; the first operand is on `k₀`. -/
def ChainClk (S : Scope) : Clk → List Src → Clk → Prop
  | k₀, [], k => k = k₀
  | k₀, e :: es, k => ∃ k₁ k₂, HasClk S e k₁ ∧ ChainClk S k₁ es k₂ ∧
      (if S.universalPre then SameClk k₂ k₀ ∧ k = k₂ else k = k₀)
end

mutual
/-- The clock of the left-hand side of an equation. -/
def TargetClk (S : Scope) : Target → Clk → Prop
  | .var x, k => ∃ v, S.var x = some v ∧ k = v.clk
  | .tuple ps _, k => TargetsClk S ps k
/-- All present at the same instants. -/
def TargetsClk (S : Scope) : List Target → Clk → Prop
  | [], k => k = .adaptative
  | p :: ps, k => TargetClk S p k ∧ TargetsSame S k ps
/-- All present at the instants of `k`. -/
def TargetsSame (S : Scope) : Clk → List Target → Prop
  | _, [] => True
  | k, p :: ps => (∃ k', TargetClk S p k' ∧ SameClk k k') ∧ TargetsSame S k ps
end

mutual
/-- The left-hand side is `()`. -/
def IsUnit : Target → Prop
  | .var _ => False
  | .tuple ps trailing => ps = [] ∨ (trailing = false ∧ ps.length = 1 ∧ AllUnit ps)
/-- All of them are. -/
def AllUnit : List Target → Prop
  | [] => True
  | p :: ps => IsUnit p ∧ AllUnit ps
end

/-! ## Initialisation -/

mutual
/-- The expression, delayed by `d` instants, reads nothing from before the beginning when at least
`n` instants have passed.  With `#[universal_pre]` there is no count of the delay: each `pre` uses up
one of the instants that have passed. -/
def Ready (S : Scope) : Nat → Nat → Src → Prop
  | _, _, .lit _ => True
  | d, n, .var x => (S.var x).isSome → d ≤ n
  | d, n, .paren es _ => AllReady S d n es
  | d, n, .left e rest => Ready S d n e ∧ LeftReady S d n rest
  | d, n, .cmp e rest => Ready S d n e ∧ CmpReady S d n rest
  | d, n, .fby e rest => Ready S d n e ∧ FbyReady S d n 1 rest
  | d, n, .arrow e rest => Ready S d n e ∧ ArrowReady S d n 1 rest
  | d, n, .ifx c y z => Ready S d n c ∧ Ready S d n y ∧ Ready S d n z
  | d, n, .merge c y z => Ready S d n c ∧ Ready S d n y ∧ Ready S d n z
  | d, n, .call _ args _ => AllReady S d n args
  | d, n, .pre e => if S.universalPre then 0 < n ∧ Ready S d (n - 1) e else Ready S (d + 1) n e
  | d, n, .neg e => Ready S d n e
  | d, n, .not e => Ready S d n e
/-- All of them. -/
def AllReady (S : Scope) : Nat → Nat → List Src → Prop
  | _, _, [] => True
  | d, n, e :: es => Ready S d n e ∧ AllReady S d n es
/-- All operands. -/
def LeftReady (S : Scope) : Nat → Nat → List (LOp × Src) → Prop
  | _, _, [] => True
  | d, n, (_, e) :: es => Ready S d n e ∧ LeftReady S d n es
/-- All operands. -/
def CmpReady (S : Scope) : Nat → Nat → List (CmpOp × Src) → Prop
  | _, _, [] => True
  | d, n, (_, e) :: es => Ready S d n e ∧ CmpReady S d n es
/-- The operands of `fby`, from the `i`-th on: it is only read `i` instants later. -/
def FbyReady (S : Scope) : Nat → Nat → Nat → List Src → Prop
  | _, _, _, [] => True
  | d, n, i, e :: es =>
    (if S.universalPre then Ready S d n e else Ready S (d + i) (d + i) e) ∧ FbyReady S d n (i + 1) es
/-- The operands of `->`, from the `i`-th on: it is only read after `i` instants. -/
def ArrowReady (S : Scope) : Nat → Nat → Nat → List Src → Prop
  | _, _, _, [] => True
  | d, n, i, e :: es =>
    (if S.universalPre then Ready S d (n + i) e else Ready S d (d + i) e) ∧ ArrowReady S d n (i + 1) es
end

/-! ## Dependencies -/

mutual
/-- The variables whose value at an instant is needed for that of the expression. -/
def instant : Src → List String
  | .lit _ => []
  | .var x => [x]
  | .paren es _ => instants es
  | .left e rest => instant e ++ instantLeft rest
  | .cmp e rest => instant e ++ instantCmp rest
  | .fby e _ => instant e
  | .arrow e rest => instant e ++ instants rest
  | .ifx c y n => instant c ++ (instant y ++ instant n)
  | .merge c y n => instant c ++ (instant y ++ instant n)
  | .call _ args _ => instants args
  | .pre _ => []
  | .neg e => instant e
  | .not e => instant e
/-- Of a list. -/
def instants : List Src → List String
  | [] => []
  | e :: es => instant e ++ instants es
/-- Of operands. -/
def instantLeft : List (LOp × Src) → List String
  | [] => []
  | (_, e) :: es => instant e ++ instantLeft es
/-- Of operands. -/
def instantCmp : List (CmpOp × Src) → List String
  | [] => []
  | (_, e) :: es => instant e ++ instantCmp es
end

mutual
/-- All the variables and constants of an expression. -/
def names : Src → List String
  | .lit _ => []
  | .var x => [x]
  | .paren es _ => namesList es
  | .left e rest => names e ++ namesLeft rest
  | .cmp e rest => names e ++ namesCmp rest
  | .fby e rest => names e ++ namesList rest
  | .arrow e rest => names e ++ namesList rest
  | .ifx c y n => names c ++ (names y ++ names n)
  | .merge c y n => names c ++ (names y ++ names n)
  | .call _ args _ => namesList args
  | .pre e => names e
  | .neg e => names e
  | .not e => names e
/-- Of a list. -/
def namesList : List Src → List String
  | [] => []
  | e :: es => names e ++ namesList es
/-- Of operands. -/
def namesLeft : List (LOp × Src) → List String
  | [] => []
  | (_, e) :: es => names e ++ namesLeft es
/-- Of operands. -/
def namesCmp : List (CmpOp × Src) → List String
  | [] => []
  | (_, e) :: es => names e ++ namesCmp es
end

mutual
/-- The variables that an equation defines. -/
def targets : Target → List String
  | .var x => [x]
  | .tuple ps _ => targetsList ps
/-- Of a list. -/
def targetsList : List Target → List String
  | [] => []
  | p :: ps => targets p ++ targetsList ps
end

/-! ## Declarations -/

/-- The equation or the assertion is legal. -/
def LegalStmt (S : Scope) : SrcStmt → Prop
  | .def_ p e => (∃ t, TargetTy S p t ∧ HasTy S e t) ∧
      (∃ k k', TargetClk S p k ∧ HasClk S e k' ∧ (¬ IsUnit p → SameClk k k')) ∧ Ready S 0 0 e
  | .assert e => HasTy S e (.single .bool) ∧ (∃ k, HasClk S e k ∧ Always k) ∧ Ready S 0 0 e

/-- Distinct names, and clocks are boolean variables declared before. -/
structure LegalVars (vs : List Var) : Prop where
  distinct : (vs.map (·.name)).Nodup
  clocks : ∀ l v r, vs = l ++ v :: r → ∀ x, v.clk = .on x ∨ v.clk = .off x →
    ∃ w ∈ l, w.name = x ∧ w.ty = .bool

/-- The interface of a node: one that is run by itself has no arguments and no results, type
variables are declared and used by the arguments, and arguments and results are always present. -/
structure LegalInterface (executable : Bool) (generics : List String)
    (inputs outputs locals : List Var) : Prop where
  executable : executable = true → inputs = [] ∧ outputs = []
  declared : ∀ v ∈ inputs ++ outputs ++ locals, ∀ x, v.ty = .other x → x ∈ generics
  used : ∀ x ∈ generics, ∃ v ∈ inputs, v.ty = .other x
  present : ∀ v ∈ inputs ++ outputs, Always v.clk

/-- What the equations of a node may refer to. -/
def scope (o : NodeOptions) (consts : String → Option TyBase) (nodes : String → Option Sig)
    (n : SrcNode) : Scope :=
  ⟨varsOf (n.inputs ++ n.outputs ++ n.locals), consts, nodes, o.universalPre⟩

/-- The variables that the equations define. -/
def defined (defs : List SrcStmt) : List String :=
  defs.flatMap fun st => match st with
    | .def_ p _ => targets p
    | .assert _ => []

/-- `x` is defined from the value of `y` at the same instant. -/
def DefinedFrom (defs : List SrcStmt) (x y : String) : Prop :=
  ∃ p e, .def_ p e ∈ defs ∧ x ∈ targets p ∧ y ∈ instant e

/-- The node is legal. -/
structure LegalNode (o : NodeOptions) (consts : String → Option TyBase)
    (nodes : String → Option Sig) (n : SrcNode) : Prop where
  interface : LegalInterface (o.main.isSome || o.test.isSome) o.generics (varsOf n.inputs)
    (varsOf n.outputs) (varsOf n.locals)
  vars : LegalVars (varsOf (n.inputs ++ n.outputs ++ n.locals))
  stmts : ∀ st ∈ n.defs, LegalStmt (scope o consts nodes n) st
  inputs : ∀ v ∈ varsOf n.inputs, v.name ∉ defined n.defs
  once : (defined n.defs).Nodup
  everything : ∀ v ∈ varsOf (n.outputs ++ n.locals), v.name ∈ defined n.defs
  causal : ∀ x, ¬ Relation.TransGen (DefinedFrom n.defs) x x

mutual
/-- The expression does not depend on time: no delays, no clocks, no calls, no tuples. -/
def Constant : Src → Prop
  | .lit _ => True
  | .var _ => True
  | .paren es trailing => trailing = false ∧ es.length = 1 ∧ Constants es
  | .left e rest => Constant e ∧ LeftConstant rest
  | .cmp e rest => Constant e ∧ CmpConstant rest
  | .fby e rest => Constant e ∧ rest = []
  | .arrow e rest => Constant e ∧ rest = []
  | .ifx c y n => Constant c ∧ Constant y ∧ Constant n
  | .merge _ _ _ => False
  | .call _ _ _ => False
  | .pre _ => False
  | .neg e => Constant e
  | .not e => Constant e
/-- All of them. -/
def Constants : List Src → Prop
  | [] => True
  | e :: es => Constant e ∧ Constants es
/-- All operands. -/
def LeftConstant : List (LOp × Src) → Prop
  | [] => True
  | (op, e) :: es => guard op = none ∧ Constant e ∧ LeftConstant es
/-- All operands. -/
def CmpConstant : List (CmpOp × Src) → Prop
  | [] => True
  | (_, e) :: es => Constant e ∧ CmpConstant es
end

/-- The declaration is legal. -/
def LegalItem (consts : String → Option TyBase) (nodes : String → Option Sig)
    (o : NodeOptions) : SrcItem → Prop
  | .const c => Constant c.value ∧ HasTy ⟨[], consts, nodes, false⟩ c.value (.single c.ty)
  | .node n => LegalNode o consts nodes n
  | .extConst _ _ => True
  | .extNode _ ins outs =>
      LegalInterface o.main.isSome o.generics (varsOf ins) (varsOf outs) [] ∧
      LegalVars (varsOf (ins ++ outs))

/-! ## Programs -/

/-- The kind of a declaration. -/
def kind : SrcItem → DeclKind
  | .const _ => .const
  | .node _ => .node
  | .extConst _ _ => .extConst
  | .extNode _ _ _ => .extNode

/-- The constant that a declaration introduces, with its type. -/
def constant (d : SrcDecl) : Option (String × TyBase) :=
  match d.item with
  | .const c => some (c.name, c.ty)
  | .extConst x t => some (x, t)
  | _ => none

/-- The node that a declaration introduces, with its signature. -/
def nodeSig (d : SrcDecl) : Option (String × Sig) :=
  (signature d.item).map fun s => (s.1, (meaning d.attrs).generics, s.2)

/-- Look a name up. -/
def find {α : Type} (l : List (String × α)) (x : String) : Option α :=
  (l.find? fun p => p.1 = x).map (·.2)

/-- The program is legal.  The order of the declarations does not matter. -/
structure Legal (p : SrcProg) : Prop where
  attributes : ∀ d ∈ p, ∀ a ∈ d.attrs,
    wellFormed a ∧ smallNumbers a ∧ a.action ∉ inapplicable (kind d.item)
  constNames : ((p.filterMap constant).map (·.1)).Nodup
  nodeNames : ((p.filterMap nodeSig).map (·.1)).Nodup
  items : ∀ d ∈ p, LegalItem (find (p.filterMap constant)) (find (p.filterMap nodeSig))
    (meaning d.attrs) d.item
  constCycles : ∀ x, ¬ Relation.TransGen (fun x y => ∃ attrs c, ⟨attrs, .const c⟩ ∈ p ∧
    c.name = x ∧ y ∈ names c.value) x x
  nodeCycles : ∀ f, ¬ Relation.TransGen (fun f g => ∃ attrs n, ⟨attrs, .node n⟩ ∈ p ∧
    n.name = f ∧ ∃ st ∈ n.defs, g ∈ callees (SrcStmt.expr st)) f f

end Chandeliers.Spec.Static
