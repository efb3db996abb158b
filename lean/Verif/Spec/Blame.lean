import Verif.Spec.Typing
import Verif.Spec.Clocks
import Verif.Spec.Reads
import Verif.Spec.Attributes
import Verif.Syn.Prog
import Mathlib.Data.List.Duplicate

/-!
# When a message of the compiler is true

For each message, what it says about the program.  Types are those of the typing rules (`HasType`),
clocks those of the clock rules (`HasClock`).
-/

set_option autoImplicit false

namespace Chandeliers.Spec
open Chandeliers.San Chandeliers.Syn

/-- `c` is directly under an expression: an operand, or what is kept in a register that is read. -/
inductive Under : Expr → Expr → Prop
  | operand {c e : Expr} (h : Operand c e) : Under c e
  | pre {id : Nat} {f : Expr} : Under f (.fetchPre id f)
  | fbyInit {id : Nat} {i f : Expr} : Under i (.fetchFby id i f)
  | fbyNext {id : Nat} {i f : Expr} : Under f (.fetchFby id i f)

/-- `c` is inside `e`, or is all of it. -/
abbrev Inside (c e : Expr) : Prop := Relation.ReflTransGen Under c e

/-! ## Types -/

/-- Two types have these components at the same place. -/
inductive Facing : TyTuple → TyTuple → TyTuple → TyTuple → Prop
  | here {t u : TyTuple} : Facing t u t u
  | inside {ts us : List TyTuple} {i : Nat} {t u t' u' : TyTuple} (hl : ts.length = us.length)
    (ht : ts[i]? = some t) (hu : us[i]? = some u) (h : Facing t u t' u') :
    Facing (.multiple ts) (.multiple us) t' u'

/-- An operator that works on the types `ts` is given a `left` and a `right` operand that it
refuses: they differ, or their type is not one of `ts` (and the types that are said to be expected
are these), or it is a type variable. -/
def Refused (ts : List TyBase) (left right : TyBase) : Expect → Prop
  | .same => left ≠ right
  | .among expected => left = right ∧ left ∉ ts ∧ (∀ t, t ∈ expected ↔ t ∈ ts)
  | .concrete => left = right ∧ ∃ x, left = .other x

/-- The operand must be a scalar. -/
inductive ScalarOperand : Expr → Expr → Prop
  | binL {op : BinOp} {l r : Expr} : ScalarOperand l (.bin op l r)
  | binR {op : BinOp} {l r : Expr} : ScalarOperand r (.bin op l r)
  | cmpL {op : CmpOp} {l r : Expr} : ScalarOperand l (.cmp op l r)
  | cmpR {op : CmpOp} {l r : Expr} : ScalarOperand r (.cmp op l r)
  | un {op : UnOp} {e : Expr} : ScalarOperand e (.un op e)
  | cond {c y n : Expr} : ScalarOperand c (.ifx c y n)
  | guard {op : ClockOp} {e a : Expr} : ScalarOperand a (.clock op e a)
  | switch {c y n : Expr} : ScalarOperand c (.merge c y n)

/-- The operand must be a boolean, and how messages call it. -/
inductive BoolOperand : String → Expr → Expr → Prop
  | cond {c y n : Expr} : BoolOperand "The condition of if" c (.ifx c y n)
  | guard {op : ClockOp} {e a : Expr} : BoolOperand "A clock" a (.clock op e a)
  | switch {c y n : Expr} : BoolOperand "A clock" c (.merge c y n)

/-- The two operands must have the same type. -/
inductive Sides : Expr → Expr → Expr → Prop
  | later {d : Nat} {b a : Expr} : Sides b a (.later d b a)
  | flip {id : Nat} {i c : Expr} : Sides i c (.flip id i c)
  | ifx {c y n : Expr} : Sides y n (.ifx c y n)
  | merge {c y n : Expr} : Sides y n (.merge c y n)
  | fby {id : Nat} {i f : Expr} : Sides f i (.fetchFby id i f)

/-- A message about the types of an expression, blaming the expression itself and not what is
inside.  `sig` are the signatures of the nodes that are called. -/
inductive TypeBlame (Γ : TyEnv) (sig : Nat → Option Sig) : Expr → Diag → Prop
  | global {x : String} (h : Γ.global x = none) : TypeBlame Γ sig (.global x) (.varNotFound x)
  | var {x : String} {d : Nat} (h : Γ.vars x = none) : TypeBlame Γ sig (.var x d) (.varNotFound x)
  | scalar {c e : Expr} {ts : List TyTuple} (h : ScalarOperand c e) (ht : HasType Γ c (.multiple ts)) :
    TypeBlame Γ sig e (.scalarNotTuple (.multiple ts))
  | bool {what : String} {c e : Expr} {t : TyBase} (h : BoolOperand what c e)
    (ht : HasType Γ c (.single t)) (hb : t ≠ .bool) : TypeBlame Γ sig e (.boolRequired what t)
  | bin {op : BinOp} {l r : Expr} {x : Expect} {t u : TyBase} (hl : HasType Γ l (.single t))
    (hr : HasType Γ r (.single u)) (h : Refused (binTypes op) t u x) :
    TypeBlame Γ sig (.bin op l r) (.binopMismatch op x t u)
  | cmp {op : CmpOp} {l r : Expr} {x : Expect} {t u : TyBase} (hl : HasType Γ l (.single t))
    (hr : HasType Γ r (.single u)) (h : Refused (cmpTypes op) t u x) :
    TypeBlame Γ sig (.cmp op l r) (.cmpMismatch op x t u)
  | un {op : UnOp} {e : Expr} {x : Expect} {t : TyBase} (he : HasType Γ e (.single t))
    (h : Refused (unTypes op) t t x) : TypeBlame Γ sig (.un op e) (.unopMismatch op x t)
  | sides {l r e : Expr} {t u t' u' : TyTuple} (h : Sides l r e) (hl : HasType Γ l t)
    (hr : HasType Γ r u) (hf : Facing t u t' u') (hd : t' ≠ u') :
    TypeBlame Γ sig e (.typeMismatch t' u')
  | call {d id : Nat} {a : Expr} {gens : List String} {ins outs : List TyBase} {t t' u' : TyTuple}
    (hs : sig id = some (gens, ins, outs)) (ha : HasType Γ a t) (hf : Facing (flatTuple ins) t t' u')
    (hd : ∀ θ, substTy θ t' ≠ u') : TypeBlame Γ sig (.substep d id a) (.typeMismatch t' u')
  | generic {d id : Nat} {a : Expr} {gens : List String} {ins outs : List TyBase} {t : TyTuple}
    {x : String} {u u' : TyBase} (hs : sig id = some (gens, ins, outs)) (ha : HasType Γ a t)
    (hf : Facing (flatTuple ins) t (.single (.other x)) (.single u))
    (hf' : Facing (flatTuple ins) t (.single (.other x)) (.single u')) (hd : u ≠ u') :
    TypeBlame Γ sig (.substep d id a) (.unsatGeneric x u u')

/-- A message about the types of an equation or an assertion. -/
inductive StmtTypeBlame (Γ : TyEnv) (sig : Nat → Option Sig) : Stmt → Diag → Prop
  | source {v : VarTuple} {e c : Expr} {d : Diag} (hc : Inside c e) (h : TypeBlame Γ sig c d) :
    StmtTypeBlame Γ sig (.let_ v e) d
  | asserted {e c : Expr} {d : Diag} (hc : Inside c e) (h : TypeBlame Γ sig c d) :
    StmtTypeBlame Γ sig (.assert e) d
  | target {v : VarTuple} {e : Expr} {x : String} (hx : x ∈ v.vars) (h : Γ.vars x = none) :
    StmtTypeBlame Γ sig (.let_ v e) (.varNotFound x)
  | sides {v : VarTuple} {e : Expr} {t u t' u' : TyTuple} (hv : TargetType Γ.vars v t)
    (he : HasType Γ e u) (hf : Facing t u t' u') (hd : t' ≠ u') :
    StmtTypeBlame Γ sig (.let_ v e) (.typeMismatch t' u')
  | assertScalar {e : Expr} {ts : List TyTuple} (h : HasType Γ e (.multiple ts)) :
    StmtTypeBlame Γ sig (.assert e) (.scalarNotTuple (.multiple ts))
  | assertBool {e : Expr} {t : TyBase} (h : HasType Γ e (.single t)) (hb : t ≠ .bool) :
    StmtTypeBlame Γ sig (.assert e) (.boolRequired "The argument of assert" t)

/-- A message about the interface of a node. -/
inductive SigBlame (executable : Bool) (generics : List String)
    (inputs outputs locals : List TyVar) : Diag → Prop
  | exec {i o : Bool} (h : executable = true) (hi : i = true ↔ inputs ≠ [])
    (ho : o = true ↔ outputs ≠ []) (hio : i = true ∨ o = true) :
    SigBlame executable generics inputs outputs locals (.executableSig i o)
  | undeclared {v : TyVar} {x : String} (hv : v ∈ inputs ++ outputs ++ locals) (ht : v.ty = .other x)
    (hx : x ∉ generics) : SigBlame executable generics inputs outputs locals (.undeclaredGeneric x)
  | unused {x : String} (hx : x ∈ generics) (h : ∀ v ∈ inputs, v.ty ≠ .other x) :
    SigBlame executable generics inputs outputs locals (.unusedGeneric x)

/-- A message about the declarations of variables: a name twice, or the clock of a variable that is
not declared before it or is not a boolean. -/
inductive DeclBlame (vs : List TyVar) : Diag → Prop
  | twice {x : String} (h : List.Duplicate x (vs.map (·.name))) : DeclBlame vs (.declTwice x)
  | clock {pre post : List TyVar} {v : TyVar} {b : Bool} {x : String} (hv : vs = pre ++ v :: post)
    (hc : v.clk = .explicit b x) (h : ∀ w ∈ pre, w.name ≠ x) : DeclBlame vs (.tyVarNotFound x)
  | bool {pre post : List TyVar} {v w : TyVar} {b : Bool} (hv : vs = pre ++ v :: post)
    (hw : w ∈ pre) (hc : v.clk = .explicit b w.name) (h : w.ty ≠ .bool) :
    DeclBlame vs (.boolRequired "Clock" w.ty)

/-- An expression that may not be in a constant, and how messages call it. -/
inductive NotConst : String → Expr → Prop
  | tuple {es : List Expr} : NotConst "tuple" (.tuple es)
  | pre {e : Expr} : NotConst "pre" (.dummyPre e)
  | later {d : Nat} {b a : Expr} : NotConst "delay" (.later d b a)
  | fetchPre {id : Nat} {f : Expr} : NotConst "delay" (.fetchPre id f)
  | fetchFby {id : Nat} {i f : Expr} : NotConst "delay" (.fetchFby id i f)
  | flip {id : Nat} {i c : Expr} : NotConst "delay" (.flip id i c)
  | call {d id : Nat} {a : Expr} : NotConst "call" (.substep d id a)
  | merge {c y n : Expr} : NotConst "merge" (.merge c y n)
  | clock {op : ClockOp} {e a : Expr} : NotConst "clock" (.clock op e a)

/-- A message about a constant. -/
inductive ConstBlame (consts : String → Option TyBase) (c : Const) : Diag → Prop
  | notConst {what : String} {e : Expr} (he : Inside e c.value) (h : NotConst what e) :
    ConstBlame consts c (.notConst what)
  | value {e : Expr} {d : Diag} (he : Inside e c.value)
    (h : TypeBlame (constEnv consts) (fun _ => none) e d) : ConstBlame consts c d
  | type {t t' u' : TyTuple} (ht : HasType (constEnv consts) c.value t)
    (hf : Facing (.single c.ty) t t' u') (hd : t' ≠ u') : ConstBlame consts c (.typeMismatch t' u')

/-! ## Clocks -/

/-- Two clocks that cannot be combined pointwise, and what is said about them. -/
inductive CannotMix (k l : Clk) : Diag → Prop
  | slowRight (hk : k = .implicit) (hl : ¬ Always l) : CannotMix k l (.clkTooSlow l)
  | slowLeft (hk : ¬ Always k) (hl : l = .implicit) : CannotMix k l (.clkTooSlow k)
  | incomparable (hk : ¬ Always k) (hl : ¬ Always l) (h : k ≠ l) :
    CannotMix k l (.clkNotComparable k l)

/-- Two operands are combined pointwise. -/
inductive Mixed : Expr → Expr → Expr → Prop
  | bin {op : BinOp} {l r : Expr} : Mixed l r (.bin op l r)
  | cmp {op : CmpOp} {l r : Expr} : Mixed l r (.cmp op l r)
  | clock {op : ClockOp} {e a : Expr} : Mixed e a (.clock op e a)
  | ifx {c y n : Expr} : Mixed c y (.ifx c y n)

/-- The operand must be on the clock of the node. -/
inductive OnNodeClock : Expr → Expr → Prop
  | pre {e : Expr} : OnNodeClock e (.dummyPre e)
  | before {d : Nat} {b a : Expr} : OnNodeClock b (.later d b a)
  | after {d : Nat} {b a : Expr} : OnNodeClock a (.later d b a)

/-- The two operands must be present at the same instants. -/
inductive Together : Expr → Expr → Expr → Prop
  | flip {id : Nat} {i c : Expr} : Together c i (.flip id i c)
  | fby {id : Nat} {i f : Expr} : Together f i (.fetchFby id i f)
  | tuple {e c : Expr} {es : List Expr} (h : c ∈ es) : Together e c (.tuple (e :: es))

/-- The operand must be a variable because it is a clock. -/
inductive ClockOperand : Expr → Expr → Prop
  | guard {op : ClockOp} {e a : Expr} : ClockOperand a (.clock op e a)
  | switch {c y n : Expr} : ClockOperand c (.merge c y n)

/-- A message about the clocks of an expression, blaming the expression itself. -/
inductive ClockBlame (K : String → Option Clk) : Expr → Diag → Prop
  | slow {c e : Expr} {k : Clk} (h : OnNodeClock c e) (hc : HasClock false K c k) (hk : ¬ Always k) :
    ClockBlame K e (.clkTooSlow k)
  | mixed {l r e : Expr} {k k' : Clk} {d : Diag} (h : Mixed l r e) (hl : HasClock false K l k)
    (hr : HasClock false K r k') (hd : CannotMix k k' d) : ClockBlame K e d
  | otherwise {c y n : Expr} {k k' k'' : Clk} {d : Diag} (hc : HasClock false K c k)
    (hy : HasClock false K y k') (hn : HasClock false K n k'') (hd : CannotMix (Clk.meet k k') k'' d) :
    ClockBlame K (.ifx c y n) d
  | mergeOn {x : String} {dt : Nat} {y n : Expr} {k : Clk} {d : Diag} (hy : HasClock false K y k)
    (hd : CannotMix k (.on x) d) : ClockBlame K (.merge (.var x dt) y n) d
  | mergeOff {x : String} {dt : Nat} {y n : Expr} {k : Clk} {d : Diag} (hn : HasClock false K n k)
    (hd : CannotMix k (.off x) d) : ClockBlame K (.merge (.var x dt) y n) d
  | together {l r e : Expr} {k k' : Clk} (h : Together l r e) (hl : HasClock false K l k)
    (hr : HasClock false K r k') (hd : ¬ SameClk k k') : ClockBlame K e (.clkNotIdentical k k')
  | notAClock {c e : Expr} (h : ClockOperand c e) (hc : ∀ x dt, c ≠ .var x dt) :
    ClockBlame K e (.notAClock c)

/-- `w` is directly under a target. -/
inductive UnderTarget : VarTuple → VarTuple → Prop
  | elem {v : VarTuple} {vs : List VarTuple} (h : v ∈ vs) : UnderTarget v (.multiple vs)

/-- A message about the clocks of an equation or an assertion. -/
inductive StmtClockBlame (K : String → Option Clk) : Stmt → Diag → Prop
  | source {v : VarTuple} {e c : Expr} {d : Diag} (hc : Inside c e) (h : ClockBlame K c d) :
    StmtClockBlame K (.let_ v e) d
  | asserted {e c : Expr} {d : Diag} (hc : Inside c e) (h : ClockBlame K c d) :
    StmtClockBlame K (.assert e) d
  | slow {e : Expr} {k : Clk} (h : HasClock false K e k) (hk : ¬ Always k) :
    StmtClockBlame K (.assert e) (.clkTooSlow k)
  | target {v w w' : VarTuple} {ws : List VarTuple} {e : Expr} {k k' : Clk}
    (hv : Relation.ReflTransGen UnderTarget (.multiple (w :: ws)) v) (hm : w' ∈ ws)
    (hw : TargetClock K w k) (hw' : TargetClock K w' k') (hd : ¬ SameClk k k') :
    StmtClockBlame K (.let_ v e) (.clkNotIdentical k k')
  | sides {v : VarTuple} {e : Expr} {k k' : Clk} (hv : TargetClock K v k)
    (he : HasClock false K e k') (hd : ¬ SameClk k k') :
    StmtClockBlame K (.let_ v e) (.clkNotIdentical k k')

/-! ## Depths -/

/-- Inside an expression evaluated `n` instants or more after the start, the expression `c` is
evaluated `k` instants or more after the start.  The count starts again under `->` and `fby`
without registers, goes up by one under `->` with registers, and down by one under `pre` with
registers. -/
inductive Reached : Nat → Expr → Nat → Expr → Prop
  | here {n : Nat} {e : Expr} : Reached n e n e
  | operand {n k : Nat} {e o c : Expr} (ho : Operand o e) (hl : ∀ d b a, e ≠ .later d b a)
    (hf : ∀ id i a, e ≠ .flip id i a) (h : Reached n o k c) : Reached n e k c
  | before {n k d : Nat} {b a c : Expr} (h : Reached n b k c) : Reached n (.later d b a) k c
  | after {n k d : Nat} {b a c : Expr} (h : Reached (d + 1) a k c) : Reached n (.later d b a) k c
  | initial {n k id : Nat} {i a c : Expr} (h : Reached n i k c) : Reached n (.flip id i a) k c
  | continued {n k id : Nat} {i a c : Expr} (h : Reached (n + 1) a k c) :
    Reached n (.flip id i a) k c
  | pre {n k id : Nat} {f c : Expr} (h : Reached n f k c) : Reached (n + 1) (.fetchPre id f) k c
  | fbyInit {n k id : Nat} {i f c : Expr} (h : Reached n i k c) : Reached n (.fetchFby id i f) k c
  | fbyNext {n k id : Nat} {i f c : Expr} (h : Reached n f k c) : Reached n (.fetchFby id i f) k c

/-- A message about the past that an expression of a statement refers to. -/
inductive DepthBlame (e : Expr) : Diag → Prop
  | var {x : String} {available attempted : Nat} (h : Reached 0 e available (.var x attempted))
    (hd : available < attempted) : DepthBlame e (.notPositive x available attempted)
  | pre {id : Nat} {f : Expr} (h : Reached 0 e 0 (.fetchPre id f)) : DepthBlame e (.shallowPre f)

/-! ## Declarations -/

/-- The type of the constant of this name. -/
def constType (ds : List San.Decl) (x : String) : Option TyBase :=
  ds.findSome? fun d => match d with
    | .const c => if c.name = x then some c.ty else none
    | .extConst c => if c.name = x then some c.ty else none
    | _ => none

/-- The signature of the node of this name. -/
def nodeSig (opts : String → TyOpts) (ds : List San.Decl) (f : String) : Option Sig :=
  ds.findSome? fun d => match d with
    | .node n => if n.name = f then some (sigOf (opts f).generics n.inputs n.outputs) else none
    | .extNode n => if n.name = f then some (sigOf (opts f).generics n.inputs n.outputs) else none
    | _ => none

/-- The signature of the node that the i-th block of a node is an instance of. -/
def calledSig (sigs : String → Option Sig) (n : Node) (i : Nat) : Option Sig :=
  n.blocks[i]?.bind fun b => sigs b.name

/-- A message about a node. -/
inductive NodeBlame (o : TyOpts) (sigs : String → Option Sig) (consts : String → Option TyBase)
    (n : Node) : Diag → Prop
  | sig {d : Diag} (h : SigBlame (o.main || o.test) o.generics n.inputs n.outputs n.locals d) :
    NodeBlame o sigs consts n d
  | decls {d : Diag} (h : DeclBlame (n.inputs ++ n.outputs ++ n.locals) d) :
    NodeBlame o sigs consts n d
  | called {b : NodeInstance} (hb : b ∈ n.blocks) (h : sigs b.name = none) :
    NodeBlame o sigs consts n (.funNotFound b.name)
  | types {st : Stmt} {d : Diag} (hst : st ∈ n.stmts)
    (h : StmtTypeBlame (nodeEnv sigs consts n) (calledSig sigs n) st d) : NodeBlame o sigs consts n d
  | interface {v : TyVar} (hv : v ∈ n.inputs ++ n.outputs) (h : ¬ Always v.clk.intoClk) :
    NodeBlame o sigs consts n (.clkTooSlow v.clk.intoClk)
  | clocks {K : String → Option Clk} {st : Stmt} {d : Diag}
    (hK : Declared (n.inputs ++ n.outputs ++ n.locals) K) (hst : st ∈ n.stmts)
    (h : StmtClockBlame K st d) : NodeBlame o sigs consts n d
  | equation {v : VarTuple} {e : Expr} {d : Diag} (hst : .let_ v e ∈ n.stmts) (h : DepthBlame e d) :
    NodeBlame o sigs consts n d
  | asserted {e : Expr} {d : Diag} (hst : .assert e ∈ n.stmts) (h : DepthBlame e d) :
    NodeBlame o sigs consts n d

/-- A message about an `extern node`. -/
inductive ExtNodeBlame (o : TyOpts) (n : ExtNode) : Diag → Prop
  | sig {d : Diag} (h : SigBlame o.main o.generics n.inputs n.outputs [] d) : ExtNodeBlame o n d
  | decls {d : Diag} (h : DeclBlame (n.inputs ++ n.outputs) d) : ExtNodeBlame o n d
  | interface {v : TyVar} (hv : v ∈ n.inputs ++ n.outputs) (h : ¬ Always v.clk.intoClk) :
    ExtNodeBlame o n (.clkTooSlow v.clk.intoClk)

/-- A message of the checkers about a program. -/
inductive Blame (p : Prog) : Diag → Prop
  | const {c : Const} {d : Diag} (hc : .const c ∈ p.decls)
    (h : ConstBlame (constType p.decls) c d) : Blame p d
  | node {n : Node} {d : Diag} (hn : .node n ∈ p.decls)
    (h : NodeBlame (p.opts n.name) (nodeSig p.opts p.decls) (constType p.decls) n d) : Blame p d
  | extNode {n : ExtNode} {d : Diag} (hn : .extNode n ∈ p.decls)
    (h : ExtNodeBlame (p.opts n.name) n d) : Blame p d

/-! ## Definitions -/

/-- A message about the definitions of a node: an output or a local that is not defined, an input
that is, something defined twice, from itself, or in a cycle, of which nothing is left out. -/
inductive NodeCausalBlame (n : Node) : GErr Reference → Prop
  | undefined {v : TyVar} (hv : v ∈ n.outputs ++ n.locals) (h : v.name ∉ assigned n.stmts) :
    NodeCausalBlame n (.undeclared (.localVarName v.name))
  | input {v : TyVar} (hv : v ∈ n.inputs) (h : v.name ∈ assigned n.stmts) :
    NodeCausalBlame n (.providedByContext (.localVarName v.name))
  | twice {x : String} (h : List.Duplicate x (assigned n.stmts)) :
    NodeCausalBlame n (.declTwice (.localVarName x))
  | itself {r : Reference} (h : Uses n.stmts r r) : NodeCausalBlame n (.dependsOnItself r)
  | cycle {rs : List Reference} (hl : 2 ≤ rs.length) (hn : rs.Nodup)
    (h : ∀ r ∈ rs, ∀ r' ∈ rs, Relation.ReflTransGen (Uses n.stmts) r r')
    (hc : ∀ r ∈ rs, ∀ r', Relation.TransGen (Uses n.stmts) r r' →
      Relation.TransGen (Uses n.stmts) r' r → r' ∈ rs) : NodeCausalBlame n (.cycle rs)

/-- Something is defined, in a program, from something else. -/
def DeclUses (ds : List San.Decl) (r r' : Reference) : Prop :=
  ∃ d ∈ ds, Introduces d r ∧ Mentions d r'

/-- A message about the order of the definitions of a program. -/
inductive CausalBlame (ds : List San.Decl) : GErr Reference → Prop
  | node {n : Node} {e : GErr Reference} (hn : .node n ∈ ds) (h : NodeCausalBlame n e) :
    CausalBlame ds e
  | twice {l₁ l₂ l₃ : List San.Decl} {d d' : San.Decl} {r : Reference}
    (h : ds = l₁ ++ d :: (l₂ ++ d' :: l₃)) (hd : Introduces d r) (hd' : Introduces d' r) :
    CausalBlame ds (.declTwice r)
  | itself {r : Reference} (h : DeclUses ds r r) : CausalBlame ds (.dependsOnItself r)
  | cycle {rs : List Reference} (hl : 2 ≤ rs.length) (hn : rs.Nodup)
    (h : ∀ r ∈ rs, ∀ r' ∈ rs, Relation.ReflTransGen (DeclUses ds) r r')
    (hc : ∀ r ∈ rs, ∀ r', Relation.TransGen (DeclUses ds) r r' →
      Relation.TransGen (DeclUses ds) r' r → r' ∈ rs) : CausalBlame ds (.cycle rs)

/-! ## Sources -/

/-- `c` is directly under an expression of the source. -/
inductive SrcUnder : Src → Src → Prop
  | paren {e : Src} {es : List Src} {b : Bool} (h : e ∈ es) : SrcUnder e (.paren es b)
  | leftFirst {e : Src} {es : List (LOp × Src)} : SrcUnder e (.left e es)
  | left {e f : Src} {op : LOp} {es : List (LOp × Src)} (h : (op, e) ∈ es) : SrcUnder e (.left f es)
  | cmpFirst {e : Src} {es : List (CmpOp × Src)} : SrcUnder e (.cmp e es)
  | cmp {e f : Src} {op : CmpOp} {es : List (CmpOp × Src)} (h : (op, e) ∈ es) : SrcUnder e (.cmp f es)
  | fbyFirst {e : Src} {es : List Src} : SrcUnder e (.fby e es)
  | fby {e f : Src} {es : List Src} (h : e ∈ es) : SrcUnder e (.fby f es)
  | arrowFirst {e : Src} {es : List Src} : SrcUnder e (.arrow e es)
  | arrow {e f : Src} {es : List Src} (h : e ∈ es) : SrcUnder e (.arrow f es)
  | cond {c y n : Src} : SrcUnder c (.ifx c y n)
  | yes {c y n : Src} : SrcUnder y (.ifx c y n)
  | no {c y n : Src} : SrcUnder n (.ifx c y n)
  | switch {c y n : Src} : SrcUnder c (.merge c y n)
  | on {c y n : Src} : SrcUnder y (.merge c y n)
  | off {c y n : Src} : SrcUnder n (.merge c y n)
  | arg {f : String} {e : Src} {es : List Src} {b : Bool} (h : e ∈ es) : SrcUnder e (.call f es b)
  | pre {e : Src} : SrcUnder e (.pre e)
  | neg {e : Src} : SrcUnder e (.neg e)
  | not {e : Src} : SrcUnder e (.not e)

/-- `c` is inside `e`, or is all of it. -/
abbrev SrcInside (c e : Src) : Prop := Relation.ReflTransGen SrcUnder c e

/-- The expressions of a declaration. -/
def sources : SrcItem → List Src
  | .const c => [c.value]
  | .node n => n.defs.map fun st => match st with
    | .def_ _ e => e
    | .assert e => e
  | _ => []

/-- A message of the translation about a declaration: a chain of comparisons, a literal that is
neither a number nor a boolean, a call in a constant. -/
inductive TranslationBlame (i : SrcItem) : TrErr → Prop
  | chain {e f : Src} {es : List (CmpOp × Src)} (he : e ∈ sources i) (h : SrcInside (.cmp f es) e)
    (hl : 2 ≤ es.length) : TranslationBlame i .cmpNotAssociative
  | literal {e : Src} (he : e ∈ sources i) (h : SrcInside (.lit .other) e) :
    TranslationBlame i .unhandledLitType
  | call {c : SrcConst} {f : String} {es : List Src} {b : Bool} (hc : i = .const c)
    (h : SrcInside (.call f es b) c.value) : TranslationBlame i .notConst

/-- The attributes that set an option. -/
def settersOf : Opt → List String
  | .trace => ["trace"]
  | .exported => ["export", "pub"]
  | .isPub => ["pub"]
  | .implTrait => ["trait"]
  | .main => ["main"]
  | .test => ["test"]
  | .rustcAllow => ["rustc_allow", "clippy_allow"]
  | .doc => ["doc"]
  | .generics => ["generic"]
  | .universalPre => ["universal_pre"]

/-- The kind of a declaration. -/
def kindOf : SrcItem → DeclKind
  | .const _ => .const
  | .node _ => .node
  | .extConst _ _ => .extConst
  | .extNode _ _ _ => .extNode

/-- A message about the attributes of a declaration: one that is not written correctly, one that is
not for this kind of declaration, two that set one option, two that do not go together. -/
inductive AttributeBlame (d : SrcDecl) : AttrDiag → Prop
  | malformed {a : Attribute} (ha : a ∈ d.attrs) (h : ¬ wellFormed a) :
    AttributeBlame d (.malformed a.action)
  | inapplicable {a : Attribute} {o : Opt} (ha : a ∈ d.attrs) (ho : a.action ∈ settersOf o)
    (h : a.action ∈ Spec.inapplicable (kindOf d.item)) :
    AttributeBlame d (.inapplicable o (kindOf d.item))
  | duplicate {l₁ l₂ l₃ : List Attribute} {a b : Attribute} {o : Opt}
    (h : d.attrs = l₁ ++ a :: (l₂ ++ b :: l₃)) (ha : a.action ∈ settersOf o)
    (hb : b.action ∈ settersOf o) : AttributeBlame d (.duplicate o)
  | conflicting {l₁ l₂ l₃ : List Attribute} {a b : Attribute} {this other : Opt}
    (h : d.attrs = l₁ ++ a :: (l₂ ++ b :: l₃)) (ha : a.action ∈ settersOf other)
    (hb : b.action ∈ settersOf this) (hc : (this = .test ∧ other ∈ [.main, .isPub, .exported]) ∨
      (other = .test ∧ this ∈ [.main, .isPub, .exported])) : AttributeBlame d (.conflicting this other)

/-! ## Programs -/

/-- The program, as the checkers see it. -/
def Translates (p : SrcProg) (q : Prog) : Prop :=
  ∃ s : Err.EAccum Report × Unit, translateProg p (Err.EAccum.default, ()) = (.some q, s)

/-- A message is true of a program. -/
inductive ReportTrue (p : SrcProg) : Report → Prop
  | attribute {d : SrcDecl} {a : AttrDiag} (hd : d ∈ p) (h : AttributeBlame d a) :
    ReportTrue p (.attribute a)
  | translation {d : SrcDecl} {e : TrErr} (hd : d ∈ p) (h : TranslationBlame d.item e) :
    ReportTrue p (.translation e)
  | causality {q : Prog} {e : GErr Reference} (hq : Translates p q) (h : CausalBlame q.decls e) :
    ReportTrue p (.causality e)
  | check {q : Prog} {d : Diag} (hq : Translates p q) (h : Blame q d) : ReportTrue p (.check d)

end Chandeliers.Spec
