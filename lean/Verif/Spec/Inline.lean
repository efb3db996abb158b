import Verif.Spec.Rename

/-!
# Replacing a call by the body of the node
-/

set_option autoImplicit false

namespace Chandeliers.Spec
open San Syn Static

/-- `n'` is `n` where an equation `result = f(args)` is replaced by the body of `f`: its variables,
which get new names, its equations and its assertions, an equation for each of its inputs, and one
for its outputs. -/
structure Inlining (f n n' : SrcNode) where
  /-- the new names of the variables of `f` -/
  ρ : String → String
  /-- the statements before the call -/
  before : List SrcStmt
  /-- the statements after the call -/
  after : List SrcStmt
  /-- the variables that the call defines -/
  result : Target
  /-- the arguments -/
  args : List Src
  /-- whether there is a comma after the last argument -/
  comma : Bool
  inputs : n'.inputs = n.inputs
  outputs : n'.outputs = n.outputs
  /-- the variables of `f` keep their clocks; their types may be instances of generic ones -/
  locals : n'.locals.map (fun a => (a.ids, a.clk)) =
    (n.locals ++ (f.inputs ++ f.outputs ++ f.locals).map (renameArgs ρ)).map fun a => (a.ids, a.clk)
  call : n.defs = before ++ [.def_ result (.call f.name args comma)] ++ after
  body : n'.defs = before ++ ((argNames f.inputs).zip args).map (fun q => .def_ (.var (ρ q.1)) q.2) ++
    f.defs.map (renameStmt ρ id) ++
    [.def_ result (.paren ((argNames f.outputs).map fun o => .var (ρ o)) false)] ++ after
  arity : args.length = (argNames f.inputs).length
  /-- the new names are distinct -/
  inj : ∀ x ∈ mentions f, ∀ y ∈ mentions f, ρ x = ρ y → x = y
  /-- constants keep their names -/
  fix : ∀ x ∈ mentions f, x ∉ SrcNode.vars f → ρ x = x
  /-- the new names are new in `n` -/
  fresh : ∀ x ∈ SrcNode.vars f, ρ x ∉ mentions n
  /-- the constants that `f` uses are not hidden by variables of `n` -/
  visible : ∀ x ∈ mentions f, x ∉ SrcNode.vars f → x ∉ SrcNode.vars n
  /-- the call is made at every instant: one of the variables that it defines has no clock -/
  always : ∃ a ∈ n.inputs ++ n.outputs ++ n.locals, a.clk = .implicit ∧ ∃ y ∈ a.ids, y ∈ targets result

end Chandeliers.Spec
