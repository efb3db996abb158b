import Verif.Spec.Streams
import Verif.Spec.Safety

/-!
# Streams that solve the equations of a node

A node is read as a system of equations between streams.  Neither the order of its statements nor
any machine state appears here.
-/

set_option autoImplicit false

namespace Chandeliers.Spec
open San

mutual
/-- The variables of a pattern have the components of a value. -/
def Assigns (X : String → Nillable Scalar) : VarTuple → Value → Prop
  | .single x, .leaf v => X x = v
  | .single _, .tup _ _ => False
  | .multiple [], _ => True
  | .multiple [p], v => Assigns X p v
  | .multiple (p :: p' :: ps), .tup h t => Assigns X p h ∧ AssignsList X (p' :: ps) t
  | .multiple (_ :: _ :: _), .leaf _ => False
/-- Component-wise. -/
def AssignsList (X : String → Nillable Scalar) : List VarTuple → List Value → Prop
  | [], [] => True
  | p :: ps, v :: vs => Assigns X p v ∧ AssignsList X ps vs
  | _, _ => False
end

/-- A Boolean value used as a clock: on exactly when it is present and true. -/
inductive IsClock : Value → Bool → Prop
  | on : IsClock (.leaf (.defined (.bool true))) true
  | off : IsClock (.leaf (.defined (.bool false))) false
  | absent : IsClock (.leaf .nil) false

section
variable (A : Arith) (glob : Globals) (ms : List Machine) (F : Flow)

/-- The streams satisfy a statement at an instant. -/
def Holds (t : Nat) : Stmt → Prop
  | .let_ p e => ∃ v, den A glob ms F 0 e t = .ok v ∧ Assigns (F.X · t) p v
  | .assert e => den A glob ms F 0 e t = .ok (.leaf (.defined (.bool true)))
  | .updateRegister _ e => ∃ v, den A glob ms F 0 e t = .ok v
  | .initRegister id i c =>
    (∃ e v, c = some e ∧ den A glob ms F 0 e t = .ok v ∧ IsClock v (F.C id t)) ∧
    ∀ e, i = some e → ∃ v, den A glob ms F 0 e t = .ok v

/-- The streams are a solution of the equations of a node over a sequence of inputs, all
present. -/
structure Solution (n : Node) (is : List Value) : Prop where
  shape : ∀ id ty, n.registers[id]? = some ty →
    F.shape id = match ty with | some ty => ty.shape | none => .leaf ()
  inputs : ∀ t i, is[t]? = some i → Assigns (F.X · t) (inputPattern n.inputs) i
  stmts : ∀ t, t < is.length → ∀ st ∈ n.stmts, Holds A glob ms F t st

end

/-- What a node returns at an instant. -/
def outputAt (F : Flow) (n : Node) (t : Nat) : Value :=
  tupleValue (n.outputs.map fun x => .leaf (F.X x.name t))

/-- What a node returns over the `k` first instants. -/
def outputs (F : Flow) (n : Node) (k : Nat) : List Value :=
  (List.range k).map (outputAt F n)

/-- The slots that a statement uses. -/
def liveIn (st : Stmt) : List Slot := (evaluated st).flatMap live

/-- The register that a statement feeds. -/
def updated : List Stmt → List Nat
  | [] => []
  | .updateRegister id _ :: sts => id :: updated sts
  | _ :: sts => updated sts

/-- Everything that a statement reads at the current instant, variables and registers, is in the
lists or defined by an earlier statement. -/
def Sorted (vars : List String) (regs : List Nat) : List Stmt → Prop
  | [] => True
  | st :: sts =>
    (∀ e ∈ evaluated st, (∀ x, Part (.var x 0) e → x ∈ vars) ∧
      (∀ id f, Part (.fetchPre id f) e → id ∈ regs) ∧
      (∀ id i f, Part (.fetchFby id i f) e → id ∈ regs)) ∧
    Sorted (vars ++ binds st) (regs ++ initialised [st]) sts

/-- The node is put together as the compiler does. -/
structure Wired (n : Node) : Prop where
  /-- declarations do not clash -/
  names : ((declared n).map (·.name)).Nodup
  /-- every variable is defined once -/
  once : (n.inputs.map (·.name) ++ n.stmts.flatMap binds).Nodup
  defined : ∀ v ∈ n.outputs ++ n.locals, ∃ st ∈ n.stmts, v.name ∈ binds st
  /-- histories are deep enough -/
  deep : ∀ st ∈ n.stmts, ∀ e ∈ evaluated st, ∀ x d, Part (.var x (d + 1)) e →
    ∃ v ∈ declared n, v.name = x ∧ d + 1 ≤ v.depth
  /-- no flip and no subnode is used twice -/
  slots : (n.stmts.flatMap liveIn).Nodup
  flips : ∀ st ∈ n.stmts, ∀ i, Slot.flip i ∈ liveIn st → i < n.flips
  /-- registers are set up once and fed once -/
  inits : (initialised n.stmts).Nodup
  updates : (updated n.stmts).Nodup
  paired : ∀ id, id ∈ initialised n.stmts ↔ id ∈ updated n.stmts
  registers : ∀ id, id ∈ updated n.stmts → id < n.registers.length
  /-- registers are set up and fed with the expressions they are read with -/
  fetchPre : ∀ st ∈ n.stmts, ∀ e ∈ evaluated st, ∀ id f, Part (.fetchPre id f) e →
    .updateRegister id f ∈ n.stmts ∧ ∃ c, .initRegister id none c ∈ n.stmts
  fetchFby : ∀ st ∈ n.stmts, ∀ e ∈ evaluated st, ∀ id i f, Part (.fetchFby id i f) e →
    .updateRegister id f ∈ n.stmts ∧ ∃ c, .initRegister id (some i) c ∈ n.stmts

/-- Wired, and the statements are in a valid order. -/
structure WiredInOrder (n : Node) : Prop extends Wired n where
  sorted : Sorted (n.inputs.map (·.name)) [] n.stmts

/-- The two nodes are the same but for the order of their statements. -/
def Reordered (n n' : Node) : Prop := n'.stmts.Perm n.stmts ∧ { n' with stmts := n.stmts } = n

/-- The clocks of the registers, once they are known. -/
def Stmt.withClocks (clk : Nat → Expr) : Stmt → Stmt
  | .initRegister id i _ => .initRegister id i (some (clk id))
  | st => st

/-- The node, with the clocks of its registers. -/
def Node.withClocks (clk : Nat → Expr) (n : Node) : Node :=
  { n with stmts := n.stmts.map (Stmt.withClocks clk) }

end Chandeliers.Spec
