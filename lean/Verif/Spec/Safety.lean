import Verif.Spec.Values
import Verif.Spec.Typing
import Verif.Spec.Reads
import Verif.Spec.Depth
import Verif.Lemmas.TimeTravel

/-! # Nodes ready to be turned into Rust code, for reference -/

set_option autoImplicit false

namespace Chandeliers.Spec
open Chandeliers.San

/-- A state and local variables in which an expression can be evaluated: what they hold is of the
right type, the variables that the expression reads now are bound, the histories are deep enough
for what it reads in the past, its flips and subnodes exist. -/
structure StateOk (Γ : TyEnv) (glob : Globals) (ms : List Machine) (e : Expr) (env : Env)
    (s : NodeState ms) : Prop where
  globals : ∀ x t, Γ.global x = some t → ∃ v, glob x = some v ∧ ScalarTy t v
  vars : ∀ x v, env x = some v → ∃ t, Γ.vars x = some t ∧ LeafTy t v
  past : ∀ x h t, s.hist x = some h → Γ.vars x = some t → ∀ v ∈ h.2.toList, LeafTy t v
  regs : ∀ i t, Γ.regs i t → ∃ r, s.regs[i]? = some r ∧ ValTy t r.inner ∧ ValTy t r.next
  nodes : States.AllI (fun i m σ => ∀ t u, Γ.call i t u → Safe m t u σ) ms s.nodes
  subs : ∀ i t u, Γ.call i t u → ∃ m, ms[i]? = some m ∧ ValTy u (Tup.allNil Scalar m.outTy)
  bound : ∀ x, Part (.var x 0) e → ∃ v, env x = some v
  deep : ∀ x d, (x, d + 1) ∈ occurrences e → ∃ h, s.hist x = some h ∧ d ≤ h.1
  flips : ∀ i, Slot.flip i ∈ slots e → i < s.flips.length

/-- Every register has one type and every subnode is called at one type. -/
structure Exact (Γ : TyEnv) : Prop where
  regs : ∀ i t t', Γ.regs i t → Γ.regs i t' → t = t'
  call : ∀ i t u t' u', Γ.call i t u → Γ.call i t' u' → t = t' ∧ u = u'

/-- Typing of statements, with the ones that manage registers. -/
inductive RunTyped (Γ : TyEnv) : Stmt → Prop
  | let_ {x : VarTuple} {e : Expr} {t : TyTuple} (hx : TargetType Γ.vars x t) (he : HasType Γ e t) :
    RunTyped Γ (.let_ x e)
  | assert {e : Expr} (he : HasType Γ e (.single .bool)) : RunTyped Γ (.assert e)
  | update {i : Nat} {e : Expr} {t : TyTuple} (he : HasType Γ e t) (hr : Γ.regs i t) :
    RunTyped Γ (.updateRegister i e)
  | initPre {i : Nat} {t : TyTuple} {c : Expr} (hr : Γ.regs i t)
    (hc : HasType Γ c (.single .bool)) : RunTyped Γ (.initRegister i none (some c))
  | initFby {i : Nat} {t : TyTuple} {e c : Expr} (he : HasType Γ e t) (hr : Γ.regs i t)
    (hc : HasType Γ c (.single .bool)) : RunTyped Γ (.initRegister i (some e) (some c))

/-- The expressions that a statement evaluates. -/
def evaluated : Stmt → List Expr
  | .let_ _ e => [e]
  | .assert e => [e]
  | .updateRegister _ e => [e]
  | .initRegister _ v c => c.toList ++ v.toList

/-- The variables that a statement binds. -/
def binds : Stmt → List String
  | .let_ x _ => x.vars
  | _ => []

/-- Every variable that a statement reads at the current instant is in the list or bound by an
earlier statement. -/
def Ordered (bound : List String) : List Stmt → Prop
  | [] => True
  | st :: sts => (∀ e ∈ evaluated st, ∀ x, Part (.var x 0) e → x ∈ bound) ∧
      Ordered (bound ++ binds st) sts

/-- What the statements of a node with its annotations are typed in: registers at the types
recorded for them, subnodes at the instance recorded for them. -/
def runEnv (sigs : String → Option Sig) (consts : String → Option TyBase) (n : Node) : TyEnv where
  global := consts
  vars := typeIn (n.inputs ++ n.outputs ++ n.locals)
  regs := fun i t => n.registers[i]? = some (some t)
  call := fun i t u => ∃ b gens ins outs θ, n.blocks[i]? = some b ∧
    sigs b.name = some (gens, ins, outs) ∧ b.generics = some (gens.map θ) ∧
    t = substTy θ (flatTuple ins) ∧ u = substTy θ (flatTuple outs)

mutual
/-- The type has no tuple of one element (see DESIGN.md, F10). -/
def NoSingleton : TyTuple → Prop
  | .single _ => True
  | .multiple [_] => False
  | .multiple ts => NoSingletons ts
/-- Component-wise. -/
def NoSingletons : List TyTuple → Prop
  | [] => True
  | t :: ts => NoSingleton t ∧ NoSingletons ts
end

/-- What code generation relies on. -/
structure CodegenReady (sigs : String → Option Sig) (consts : String → Option TyBase) (n : Node) :
    Prop where
  names : ((declared n).map (·.name)).Nodup
  typed : ∀ st ∈ n.stmts, RunTyped (runEnv sigs consts n) st
  ordered : Ordered (n.inputs.map (·.name)) n.stmts
  defined : ∀ v ∈ n.outputs ++ n.locals, ∃ st ∈ n.stmts, v.name ∈ binds st
  deep : ∀ st ∈ n.stmts, ∀ e ∈ evaluated st, ∀ x d, (x, d + 1) ∈ occurrences e →
    ∃ v ∈ declared n, v.name = x ∧ d + 1 ≤ v.depth
  flips : ∀ st ∈ n.stmts, ∀ e ∈ evaluated st, ∀ i, Slot.flip i ∈ slots e → i < n.flips
  shapes : ∀ t, some t ∈ n.registers → NoSingleton t

/-- The constants in scope have their declared types, which are not type variables. -/
def ConstsOk (consts : String → Option TyBase) (glob : Globals) : Prop :=
  ∀ x t, consts x = some t → (∀ g, t ≠ .other g) ∧ ∃ v, glob x = some v ∧ ScalarTy t v

/-- The machines given to a node are those of the nodes it calls: each works at every instance of
its signature. -/
def SubsOk (sigs : String → Option Sig) (n : Node) (ms : List Machine) : Prop :=
  ∀ (i : Nat) (b : NodeInstance), n.blocks[i]? = some b → ∃ m gens ins outs, ms[i]? = some m ∧
    sigs b.name = some (gens, ins, outs) ∧
    ∀ θ, Respects m (substTy θ (flatTuple ins)) (substTy θ (flatTuple outs))

end Chandeliers.Spec
