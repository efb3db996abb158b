import Verif.San.Trace
import Verif.Spec.Solutions

/-!
# What tracing shows
-/

set_option autoImplicit false

namespace Chandeliers.Spec
open Chandeliers.San Chandeliers.Syn

/-! ## Formats -/

/-- A format as it is written: `{x}` for a variable, braces are doubled. -/
def written : List Piece → List Char
  | [] => []
  | .char c :: ps => (if c = '{' ∨ c = '}' then [c, c] else [c]) ++ written ps
  | .arg x :: ps => '{' :: (x.toList ++ '}' :: written ps)

/-- The text, given what each variable is replaced with. -/
def spell (look : String → String) : List Piece → String
  | [] => ""
  | .char c :: ps => String.singleton c ++ spell look ps
  | .arg x :: ps => look x ++ spell look ps

/-- The format consists of these pieces, and it mentions only these variables, or `_ext`, `_this` and
`_clk`. -/
structure Format (fmt : String) (vars : List String) (ps : List Piece) : Prop where
  text : fmt.toList = written ps
  plain : ∀ x, .arg x ∈ ps → '{' ∉ x.toList ∧ '}' ∉ x.toList
  vars : ∀ x, .arg x ∈ ps → x ∈ vars ∨ x = "_ext" ∨ x = "_this" ∨ x = "_clk"

/-- How a value appears: `nil` when it is absent. -/
def onScreen (D : Shows) : Nillable Scalar → String
  | .nil => "nil"
  | .defined (.int i) => toString i.toInt
  | .defined (.bool true) => "true"
  | .defined (.bool false) => "false"
  | .defined (.float f) => D.float f
  | .defined .unit => ""
  | .defined (.other t n) => D.other t n

/-- What the variables are replaced with: `_ext`, `_this` and `_clk` are the kind of the node, its name
and the number of instants where it was active before, unless it has variables with these names. -/
def shown (D : Shows) (ext this : String) (clk : Nat) (vars : List String)
    (X : String → Nillable Scalar) (x : String) : String :=
  if x ∈ vars then onScreen D (X x)
  else if x = "_ext" then ext else if x = "_this" then this else toString clk

/-- A message; nothing when the text is empty. -/
def message (file : TraceFile) (text : String) : List Out :=
  if text = "" then [] else [⟨file, text⟩]

/-- The pieces of the two formats of the argument of `#[trace]`. -/
structure TraceFits (trace : Option TraceOpt) (inputs locals outputs : List TyVar)
    (pre post : List Piece) : Prop where
  pre : ∀ file i o, trace = some (file, i, o) →
    Format (inputFmt i inputs) (inputs.map (·.name)) pre
  post : ∀ file i o, trace = some (file, i, o) →
    Format (outputFmt o outputs) ((inputs ++ locals ++ outputs).map (·.name)) post

/-- The formats of a node mention only its variables. -/
def NodeFits (trace : Option TraceOpt) (n : Node) : Prop :=
  ∃ pre post, TraceFits trace n.inputs n.locals n.outputs pre post

/-- The same for external nodes. -/
def ExtFits (trace : Option TraceOpt) (n : ExtNode) : Prop :=
  ∃ pre post, TraceFits trace n.inputs [] n.outputs pre post

/-- The formats in a program mention only the variables of the nodes. -/
def ProgFits (trace : String → Option TraceOpt) (ds : List San.Decl) : Prop :=
  (∀ n, .node n ∈ ds → NodeFits (trace n.name) n) ∧
  ∀ n, .extNode n ∈ ds → ExtFits (trace n.name) n

/-! ## Messages -/

/-- Messages printed by steps of these nodes, one after the other. -/
def PrintedBy (ms : List TMachine) (out : List Out) : Prop :=
  ∃ calls : List (List Out), out = calls.flatten ∧ ∀ c ∈ calls, ∃ m ∈ ms, ∃ s v, c = (m.step s v).out

/-- What `#[trace]` prints for given values of the variables. -/
def told (D : Shows) (trace : Option TraceOpt) (ext this : String) (clk : Nat) (vars : List TyVar)
    (X : String → Nillable Scalar) (ps : List Piece) : List Out :=
  match trace with
  | some (file, _, _) => message file (spell (shown D ext this clk (vars.map (·.name)) X) ps)
  | none => []

/-- A message of a traced node of the program, or something that external code prints. -/
def Traced (D : Shows) (X : ExternW) (trace : String → Option TraceOpt) (ds : List San.Decl)
    (out : Out) : Prop :=
  (∃ n pre post clk Y, .node n ∈ ds ∧
    TraceFits (trace n.name) n.inputs n.locals n.outputs pre post ∧
    (out ∈ told D (trace n.name) "      " n.name clk n.inputs Y pre ∨
      out ∈ told D (trace n.name) "      " n.name clk (n.inputs ++ n.locals ++ n.outputs) Y post)) ∨
  (∃ n pre post clk Y, .extNode n ∈ ds ∧
    TraceFits (trace n.name) n.inputs [] n.outputs pre post ∧
    (out ∈ told D (trace n.name) "[ext] " n.name clk n.inputs Y pre ∨
      out ∈ told D (trace n.name) "[ext] " n.name clk (n.inputs ++ n.outputs) Y post)) ∨
  ∃ g m s v, X.nodes g = some m ∧ out ∈ (m.step s v).out

/-- The line of the default format. -/
def defaultLine (D : Shows) (ext this arrow : String) (vars : List String)
    (X : String → Nillable Scalar) : String :=
  ext ++ this ++ arrow ++ "(" ++ ", ".intercalate (vars.map fun x => x ++ "=" ++ onScreen D (X x))
    ++ ")\n"

end Chandeliers.Spec
