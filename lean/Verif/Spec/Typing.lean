import Verif.Spec.Types
import Verif.San.Value
import Verif.San.Typecheck

/-! # Typing rules, for reference -/

set_option autoImplicit false

namespace Chandeliers.Spec
open Chandeliers.San

/-- What an expression is typed in: constants, variables, what may be stored in a register, and
the types at which a subnode may be called. -/
structure TyEnv where
  global : String → Option TyBase
  vars : String → Option TyBase
  regs : Nat → TyTuple → Prop
  call : Nat → TyTuple → TyTuple → Prop

/-- Types a binary operator works on. -/
def binTypes : BinOp → List TyBase
  | .add => [.int, .float]
  | .sub => [.int, .float]
  | .mul => [.int, .float]
  | .div => [.int, .float]
  | .rem => [.int]
  | .bitAnd => [.int, .bool]
  | .bitOr => [.int, .bool]
  | .bitXor => [.int, .bool]

/-- Types a unary operator works on. -/
def unTypes : UnOp → List TyBase
  | .neg => [.int, .float]
  | .not => [.int, .bool]

/-- Types a comparison works on. -/
def cmpTypes : CmpOp → List TyBase
  | .eq => [.int, .bool]
  | .ne => [.int, .bool]
  | .lt => [.int, .bool, .float]
  | .gt => [.int, .bool, .float]
  | .le => [.int, .bool, .float]
  | .ge => [.int, .bool, .float]

/-- Type of a literal. -/
def litType : Lit → TyBase
  | .int _ => .int
  | .float _ => .float
  | .bool _ => .bool

mutual
/-- The typing rules. -/
inductive HasType (Γ : TyEnv) : Expr → TyTuple → Prop
  | lit {l : Lit} : HasType Γ (.lit l) (.single (litType l))
  | global {x : String} {t : TyBase} (h : Γ.global x = some t) : HasType Γ (.global x) (.single t)
  | var {x : String} {d : Nat} {t : TyBase} (h : Γ.vars x = some t) :
    HasType Γ (.var x d) (.single t)
  | dummyPre {e : Expr} {t : TyTuple} (h : HasType Γ e t) : HasType Γ (.dummyPre e) t
  | dummyParen {e : Expr} {t : TyTuple} (h : HasType Γ e t) : HasType Γ (.dummyParen e) t
  | tuple {es : List Expr} {ts : List TyTuple} (h : HasTypes Γ es ts) :
    HasType Γ (.tuple es) (.multiple ts)
  | bin {op : BinOp} {l r : Expr} {t : TyBase} (hl : HasType Γ l (.single t))
    (hr : HasType Γ r (.single t)) (h : t ∈ binTypes op) : HasType Γ (.bin op l r) (.single t)
  | un {op : UnOp} {e : Expr} {t : TyBase} (he : HasType Γ e (.single t)) (h : t ∈ unTypes op) :
    HasType Γ (.un op e) (.single t)
  | cmp {op : CmpOp} {l r : Expr} {t : TyBase} (hl : HasType Γ l (.single t))
    (hr : HasType Γ r (.single t)) (h : t ∈ cmpTypes op) : HasType Γ (.cmp op l r) (.single .bool)
  | clock {op : ClockOp} {e b : Expr} {t : TyTuple} (he : HasType Γ e t)
    (hb : HasType Γ b (.single .bool)) : HasType Γ (.clock op e b) t
  | later {d : Nat} {e e' : Expr} {t : TyTuple} (he : HasType Γ e t) (he' : HasType Γ e' t) :
    HasType Γ (.later d e e') t
  | flip {i : Nat} {e e' : Expr} {t : TyTuple} (he : HasType Γ e t) (he' : HasType Γ e' t) :
    HasType Γ (.flip i e e') t
  | ifx {b y n : Expr} {t : TyTuple} (hb : HasType Γ b (.single .bool)) (hy : HasType Γ y t)
    (hn : HasType Γ n t) : HasType Γ (.ifx b y n) t
  | merge {b y n : Expr} {t : TyTuple} (hb : HasType Γ b (.single .bool)) (hy : HasType Γ y t)
    (hn : HasType Γ n t) : HasType Γ (.merge b y n) t
  | substep {d i : Nat} {e : Expr} {t u : TyTuple} (he : HasType Γ e t) (h : Γ.call i t u) :
    HasType Γ (.substep d i e) u
  | fetchPre {i : Nat} {e : Expr} {t : TyTuple} (he : HasType Γ e t) (h : Γ.regs i t) :
    HasType Γ (.fetchPre i e) t
  | fetchFby {i : Nat} {e e' : Expr} {t : TyTuple} (he : HasType Γ e t) (he' : HasType Γ e' t)
    (h : Γ.regs i t) : HasType Γ (.fetchFby i e e') t
/-- Component-wise. -/
inductive HasTypes (Γ : TyEnv) : List Expr → List TyTuple → Prop
  | nil : HasTypes Γ [] []
  | cons {e : Expr} {es : List Expr} {t : TyTuple} {ts : List TyTuple} (h : HasType Γ e t)
    (hs : HasTypes Γ es ts) : HasTypes Γ (e :: es) (t :: ts)
end

mutual
/-- Types of the targets of equations. -/
inductive TargetType (vars : String → Option TyBase) : VarTuple → TyTuple → Prop
  | single {x : String} {t : TyBase} (h : vars x = some t) : TargetType vars (.single x) (.single t)
  | multiple {vs : List VarTuple} {ts : List TyTuple} (h : TargetTypes vars vs ts) :
    TargetType vars (.multiple vs) (.multiple ts)
/-- Component-wise. -/
inductive TargetTypes (vars : String → Option TyBase) : List VarTuple → List TyTuple → Prop
  | nil : TargetTypes vars [] []
  | cons {v : VarTuple} {vs : List VarTuple} {t : TyTuple} {ts : List TyTuple}
    (h : TargetType vars v t) (hs : TargetTypes vars vs ts) : TargetTypes vars (v :: vs) (t :: ts)
end

/-- Well-typed equations and assertions.  Nothing is asked of the statements that manage
registers: they repeat what the equations contain. -/
inductive StmtTyped (Γ : TyEnv) : Stmt → Prop
  | let_ {x : VarTuple} {e : Expr} {t : TyTuple} (hx : TargetType Γ.vars x t) (he : HasType Γ e t) :
    StmtTyped Γ (.let_ x e)
  | assert {e : Expr} (he : HasType Γ e (.single .bool)) : StmtTyped Γ (.assert e)
  | updateRegister {i : Nat} {e : Expr} : StmtTyped Γ (.updateRegister i e)
  | initRegister {i : Nat} {e c : Option Expr} : StmtTyped Γ (.initRegister i e c)

/-- The places of a node that hold state. -/
inductive Slot where
  | reg (i : Nat) | flip (i : Nat) | sub (i : Nat)
deriving DecidableEq, Repr

mutual
/-- The slots an expression mentions. -/
def slots : Expr → List Slot
  | .lit _ => []
  | .global _ => []
  | .var _ _ => []
  | .tuple es => slotsList es
  | .dummyPre e => slots e
  | .dummyParen e => slots e
  | .bin _ l r => slots l ++ slots r
  | .un _ e => slots e
  | .cmp _ l r => slots l ++ slots r
  | .clock _ e b => slots e ++ slots b
  | .later _ e e' => slots e ++ slots e'
  | .fetchPre i e => .reg i :: slots e
  | .fetchFby i e e' => .reg i :: (slots e ++ slots e')
  | .flip i e e' => .flip i :: (slots e ++ slots e')
  | .ifx b y n => slots b ++ (slots y ++ slots n)
  | .merge b y n => slots b ++ (slots y ++ slots n)
  | .substep _ i e => .sub i :: slots e
/-- Of a list of expressions. -/
def slotsList : List Expr → List Slot
  | [] => []
  | e :: es => slots e ++ slotsList es
end

/-- The slots of the equations and assertions. -/
def slotsOf : List Stmt → List Slot
  | [] => []
  | .let_ _ e :: sts => slots e ++ slotsOf sts
  | .assert e :: sts => slots e ++ slotsOf sts
  | _ :: sts => slotsOf sts

/-- Signature of a node: type variables, types of the inputs, types of the outputs. -/
abbrev Sig := List String × List TyBase × List TyBase

/-- The type given to a name by a list of declarations. -/
def typeIn (vs : List TyVar) (x : String) : Option TyBase :=
  (vs.find? (fun v => v.name = x)).map (·.ty)

/-- Declarations: no name twice, and the clock of a variable is a boolean variable declared
before it. -/
inductive DeclsTyped : List TyVar → Prop
  | nil : DeclsTyped []
  | snoc {vs : List TyVar} {v : TyVar} (hs : DeclsTyped vs) (hn : ∀ w ∈ vs, w.name ≠ v.name)
    (hc : ∀ a x, v.clk = .explicit a x → typeIn vs x = some .bool) : DeclsTyped (vs ++ [v])

/-- What the equations of a node are typed in: anything may be stored in a register; the i-th
instance may be called at any instance of the signature of its node. -/
def nodeEnv (sigs : String → Option Sig) (consts : String → Option TyBase) (n : Node) : TyEnv where
  global := consts
  vars := typeIn (n.inputs ++ n.outputs ++ n.locals)
  regs := fun _ _ => True
  call := fun i t u => ∃ b gens ins outs θ, n.blocks[i]? = some b ∧
    sigs b.name = some (gens, ins, outs) ∧ t = substTy θ (flatTuple ins) ∧
    u = substTy θ (flatTuple outs)

/-- Rules for the signature of a node: an executable node has no arguments and no results, type
variables are declared, and each of them appears in the inputs. -/
structure SigTyped (executable : Bool) (generics : List String)
    (inputs outputs locals : List TyVar) : Prop where
  exec : executable = true → inputs = [] ∧ outputs = []
  declared : ∀ v ∈ inputs ++ outputs ++ locals, ∀ x, v.ty = .other x → x ∈ generics
  used : ∀ x ∈ generics, ∃ v ∈ inputs, v.ty = .other x

/-- Typing of a node. -/
structure NodeTyped (executable : Bool) (generics : List String) (sigs : String → Option Sig)
    (consts : String → Option TyBase) (n : Node) : Prop where
  sig : SigTyped executable generics n.inputs n.outputs n.locals
  decls : DeclsTyped (n.inputs ++ n.outputs ++ n.locals)
  blocks : ∀ b ∈ n.blocks, ∃ s, sigs b.name = some s
  stmts : ∀ st ∈ n.stmts, StmtTyped (nodeEnv sigs consts n) st

/-- A signature whose type variables are distinct and determined by the inputs. -/
def Sig.Wf (s : Sig) : Prop :=
  s.1.Nodup ∧ (∀ x, x ∈ tyVars (flatTuple s.2.1) ↔ x ∈ s.1) ∧
    ∀ x ∈ tyVars (flatTuple s.2.2), x ∈ s.1

/-- Constant expressions. -/
inductive ConstExpr : Expr → Prop
  | lit {l : Lit} : ConstExpr (.lit l)
  | global {x : String} : ConstExpr (.global x)
  | paren {e : Expr} (h : ConstExpr e) : ConstExpr (.dummyParen e)
  | un {op : UnOp} {e : Expr} (h : ConstExpr e) : ConstExpr (.un op e)
  | bin {op : BinOp} {l r : Expr} (hl : ConstExpr l) (hr : ConstExpr r) : ConstExpr (.bin op l r)
  | cmp {op : CmpOp} {l r : Expr} (hl : ConstExpr l) (hr : ConstExpr r) : ConstExpr (.cmp op l r)
  | ifx {b y n : Expr} (hb : ConstExpr b) (hy : ConstExpr y) (hn : ConstExpr n) :
    ConstExpr (.ifx b y n)

/-- What the value of a constant is typed in: only other constants. -/
def constEnv (consts : String → Option TyBase) : TyEnv where
  global := consts
  vars := fun _ => none
  regs := fun _ _ => True
  call := fun _ _ _ => False

/-- Typing of a constant. -/
structure ConstTyped (consts : String → Option TyBase) (c : Const) : Prop where
  const : ConstExpr c.value
  type : HasType (constEnv consts) c.value (.single c.ty)

/-- Add an entry. -/
def extend {α : Type} (f : String → Option α) (x : String) (a : α) : String → Option α :=
  fun y => if y = x then some a else f y

/-- Signature given to a node by its declaration. -/
def sigOf (generics : List String) (inputs outputs : List TyVar) : Sig :=
  (generics, inputs.map (·.ty), outputs.map (·.ty))

/-- Typing of a program: declarations in order, each using the ones before it, no name twice. -/
inductive ProgTyped (opts : String → TyOpts) : (String → Option Sig) → (String → Option TyBase) →
    List Decl → Prop
  | nil {sigs consts} : ProgTyped opts sigs consts []
  | const {sigs consts c ds} (h : ConstTyped consts c) (hn : consts c.name = none)
    (hs : ProgTyped opts sigs (extend consts c.name c.ty) ds) :
    ProgTyped opts sigs consts (.const c :: ds)
  | extConst {sigs consts c ds} (hn : consts c.name = none)
    (hs : ProgTyped opts sigs (extend consts c.name c.ty) ds) :
    ProgTyped opts sigs consts (.extConst c :: ds)
  | node {sigs consts n ds} (h : NodeTyped ((opts n.name).main || (opts n.name).test)
      (opts n.name).generics sigs consts n) (hn : sigs n.name = none)
    (hs : ProgTyped opts (extend sigs n.name
      (sigOf (opts n.name).generics n.inputs n.outputs)) consts ds) :
    ProgTyped opts sigs consts (.node n :: ds)
  | extNode {sigs consts n ds} (h : SigTyped (opts n.name).main (opts n.name).generics
      n.inputs n.outputs []) (hd : DeclsTyped (n.inputs ++ n.outputs)) (hn : sigs n.name = none)
    (hs : ProgTyped opts (extend sigs n.name
      (sigOf (opts n.name).generics n.inputs n.outputs)) consts ds) :
    ProgTyped opts sigs consts (.extNode n :: ds)

end Chandeliers.Spec
