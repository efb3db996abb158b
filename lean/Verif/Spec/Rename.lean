import Verif.Spec.Refactor
import Verif.Spec.Legal

/-!
# Changing the names of variables, and removing what is not used
-/

set_option autoImplicit false

namespace Chandeliers.Spec
open San Syn Static

/-! ## Renaming -/

section
variable (ρ ν : String → String)

mutual
/-- Change the names of variables and constants in an expression, and those of the nodes it calls. -/
def renameSrc : Src → Src
  | .lit l => .lit l
  | .var x => .var (ρ x)
  | .paren es b => .paren (renameList es) b
  | .left e r => .left (renameSrc e) (renameOps r)
  | .cmp e r => .cmp (renameSrc e) (renameCmp r)
  | .fby e r => .fby (renameSrc e) (renameList r)
  | .arrow e r => .arrow (renameSrc e) (renameList r)
  | .ifx b y n => .ifx (renameSrc b) (renameSrc y) (renameSrc n)
  | .merge b y n => .merge (renameSrc b) (renameSrc y) (renameSrc n)
  | .call f es b => .call (ν f) (renameList es) b
  | .pre e => .pre (renameSrc e)
  | .neg e => .neg (renameSrc e)
  | .not e => .not (renameSrc e)
/-- In a list. -/
def renameList : List Src → List Src
  | [] => []
  | e :: es => renameSrc e :: renameList es
/-- In operands. -/
def renameOps : List (LOp × Src) → List (LOp × Src)
  | [] => []
  | (op, e) :: es => (op, renameSrc e) :: renameOps es
/-- In operands. -/
def renameCmp : List (CmpOp × Src) → List (CmpOp × Src)
  | [] => []
  | (op, e) :: es => (op, renameSrc e) :: renameCmp es
end

mutual
/-- On the left-hand side of an equation. -/
def renameTarget : Target → Target
  | .var x => .var (ρ x)
  | .tuple ps b => .tuple (renameTargets ps) b
/-- In a list. -/
def renameTargets : List Target → List Target
  | [] => []
  | p :: ps => renameTarget p :: renameTargets ps
end

/-- In an equation or an assertion. -/
def renameStmt : SrcStmt → SrcStmt
  | .def_ p e => .def_ (renameTarget ρ p) (renameSrc ρ ν e)
  | .assert e => .assert (renameSrc ρ ν e)

/-- In a clock. -/
def renameClock : Clock → Clock
  | .explicit b x => .explicit b (ρ x)
  | c => c

/-- In declarations. -/
def renameArgs (a : ArgsTy) : ArgsTy := ⟨a.ids.map ρ, a.base, renameClock ρ a.clk⟩

/-- In a node: its inputs, its outputs, its local variables, and the constants and the nodes it uses,
everywhere, and its own name. -/
def renameNode (n : SrcNode) : SrcNode :=
  { n with
    name := ν n.name
    inputs := n.inputs.map (renameArgs ρ)
    outputs := n.outputs.map (renameArgs ρ)
    locals := n.locals.map (renameArgs ρ)
    defs := n.defs.map (renameStmt ρ ν) }

end

/-- The name in the clock of a declaration. -/
def clockNames (a : ArgsTy) : List String :=
  match a.clk with
  | .explicit _ x => [x]
  | _ => []

/-- The variables that an equation defines. -/
def stmtTargets : SrcStmt → List String
  | .def_ p _ => targets p
  | .assert _ => []

/-- All the variables and constants that a node mentions. -/
def mentions (n : SrcNode) : List String :=
  SrcNode.vars n ++ (n.inputs ++ n.outputs ++ n.locals).flatMap clockNames ++
    n.defs.flatMap fun st => stmtTargets st ++ names (SrcStmt.expr st)

/-- The variables of a node are given other names, different from each other and from those of the
constants that the node uses. -/
def RenamedNode (n n' : SrcNode) : Prop :=
  ∃ ρ : String → String, (∀ x ∈ mentions n, ∀ y ∈ mentions n, ρ x = ρ y → x = y) ∧
    (∀ x ∈ mentions n, x ∉ SrcNode.vars n → ρ x = x) ∧ n' = renameNode ρ id n

/-! ## Removing -/

/-- The variables of a list of declarations, with their types and clocks. -/
def declarations (as : List ArgsTy) : List (String × TyBase × Clock) :=
  as.flatMap fun a => a.ids.map fun x => (x, a.base, a.clk)

/-- Local variables, equations and assertions of a node are removed.  What stays only uses variables
that stay, and the variables that stay keep their equations.  No declaration is left without
variables. -/
structure SlicedNode (n n' : SrcNode) : Prop where
  name : n'.name = n.name
  inputs : n'.inputs = n.inputs
  outputs : n'.outputs = n.outputs
  locals : (declarations n'.locals).Sublist (declarations n.locals)
  written : ∀ a ∈ n'.locals, a.ids ≠ []
  defs : n'.defs.Sublist n.defs
  kept : ∀ st ∈ n.defs, ∀ x ∈ stmtTargets st, x ∈ SrcNode.vars n' → st ∈ n'.defs
  closed : ∀ x ∈ mentions n', x ∈ SrcNode.vars n → x ∈ SrcNode.vars n'

/-- Two programs with the same constants and nodes with the same names and types; when a node of the
first returns, so does that of the second, with the same outputs. -/
structure NoLess (I I' : Items) : Prop where
  consts : I'.consts = I.consts
  none : ∀ f, I'.nodes f = none ↔ I.nodes f = none
  types : ∀ f m m', I.nodes f = some m → I'.nodes f = some m' → m'.outTy = m.outTy
  returns : ∀ f m m', I.nodes f = some m → I'.nodes f = some m' →
    ∀ is os, m.run is = .ok os → m'.run is = .ok os

end Chandeliers.Spec
