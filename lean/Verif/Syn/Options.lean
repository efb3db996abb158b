import Verif.Err.Accum
import Verif.San.Options

/-!
# Attributes

Models `chandeliers-syn/src/translate/options.rs`.  Spans are natural numbers, they matter here
because `duplicate!` and `conflicting!` unwrap them.
-/

namespace Chandeliers.Syn
open Chandeliers.Err Chandeliers.San

/-- Diagnostics of this file; the name of the attribute instead of the message.
translate/options.rs 115-125 and 236-486. -/
inductive AttrDiag where
  /-- lines 242-254 `malformed!` -/
  | malformed (action : String)
  /-- lines 257-277 `duplicate!` -/
  | duplicate (attr : Opt)
  /-- lines 281-301 `conflicting!` -/
  | conflicting (this other : Opt)
  /-- lines 113-117 `InapplicableAttribute` -/
  | inapplicable (attr : Opt) (construct : DeclKind)
deriving DecidableEq, Repr

/-- `syn::Lit` as used in attributes. translate/options.rs 311-420. -/
inductive AttrLit where
  | str (s : String)
  | int (n : Int)
  | other
deriving DecidableEq, Repr

/-- An attribute `#[action[params](targets)]`, flattened (translate/options.rs 311-313). -/
structure Attribute where
  action : String
  params : List String
  targets : List AttrLit
  span : Nat
deriving DecidableEq, Repr

/-- options.rs (san) 286-291 `TraceFile`. -/
inductive TraceFile where
  | stdOut | stdErr
deriving DecidableEq, Repr

/-- options.rs (san) 295-304 `TraceFormat`. -/
inductive TraceFormat where
  | default | empty | str (s : String)
deriving DecidableEq, Repr

/-- options.rs (san) 308-313 `Allow`. -/
inductive Allow where
  | rustc (id : String) | clippy (id : String)
deriving DecidableEq, Repr

/-- translate/options.rs 45-54 `SetOpt`; the message is replaced by the `Opt`. -/
structure SetOpt (T : Type) where
  value : Option T
  span : Option Nat
  default : T
  message : Opt
deriving DecidableEq, Repr

namespace SetOpt
variable {T : Type}

/-- translate/options.rs 59-66 `create`. -/
def create (message : Opt) (default : T) : SetOpt T := ⟨none, none, default, message⟩

/-- translate/options.rs 71-74 `set`. -/
def set (o : SetOpt Bool) (b : Bool) (span : Nat) : SetOpt Bool :=
  { o with value := some b, span := some span }

/-- translate/options.rs 79-82 `some`. -/
def some_ (o : SetOpt (Option T)) (t : T) (span : Nat) : SetOpt (Option T) :=
  { o with value := some (some t), span := some span }

/-- translate/options.rs 87-94 `push`. -/
def push (o : SetOpt (List T)) (t : T) (span : Nat) : SetOpt (List T) :=
  match o.value with
  | some values => { o with value := some (values ++ [t]) }
  | none => { o with value := some [t], span := some span }

/-- translate/options.rs 97-104 `extend`. -/
def extend (o : SetOpt (List T)) (ts : List T) (span : Nat) : SetOpt (List T) :=
  match o.value with
  | some values => { o with value := some (values ++ ts) }
  | none => { o with value := some ts, span := some span }

/-- translate/options.rs 110-112 `take`. -/
def take (o : SetOpt T) : T := o.value.getD o.default

/-- translate/options.rs 115-125 `skip`. -/
def skip {σ : Type} (o : SetOpt T) (current : DeclKind) : Chk AttrDiag σ Unit :=
  if o.value.isSome then Chk.error (.inapplicable o.message current) else Chk.pure ()

end SetOpt

/-- translate/options.rs 130-151 `Decl`. -/
structure Decl where
  trace : SetOpt (Option (TraceFile × TraceFormat × TraceFormat))
  export_ : SetOpt Bool
  isPub : SetOpt Bool
  main : SetOpt (Option Nat)
  test : SetOpt (Option Nat)
  rustcAllow : SetOpt (List Allow)
  doc : SetOpt (List String)
  implTrait : SetOpt Bool
  generics : SetOpt (List String)
  universalPre : SetOpt Bool
deriving DecidableEq, Repr

/-- translate/options.rs 153-168 `Default`. -/
def Decl.default : Decl where
  trace := .create .trace none
  export_ := .create .exported false
  isPub := .create .isPub false
  main := .create .main none
  test := .create .test none
  rustcAllow := .create .rustcAllow []
  doc := .create .doc []
  implTrait := .create .implTrait false
  generics := .create .generics []
  universalPre := .create .universalPre false

/-- Options valid on a `const`, after projection; `UseOpt` wrappers left to `San.OptRecords`.
ast/options.rs 419-430. -/
structure ConstOptions where
  export_ : Bool
  rustcAllow : List Allow
  doc : List String
  isPub : Bool
deriving DecidableEq, Repr

/-- Options valid on a `node`. ast/options.rs 419-430. -/
structure NodeOptions where
  trace : Option (TraceFile × TraceFormat × TraceFormat)
  export_ : Bool
  main : Option Nat
  rustcAllow : List Allow
  doc : List String
  isPub : Bool
  implTrait : Bool
  test : Option Nat
  generics : List String
  universalPre : Bool
deriving DecidableEq, Repr

/-- Options valid on an `extern const`. ast/options.rs 419-430. -/
structure ExtConstOptions where
  rustcAllow : List Allow
deriving DecidableEq, Repr

/-- Options valid on an `extern node`. ast/options.rs 419-430. -/
structure ExtNodeOptions where
  trace : Option (TraceFile × TraceFormat × TraceFormat)
  main : Option Nat
  rustcAllow : List Allow
  generics : List String
deriving DecidableEq, Repr

namespace Decl
variable {σ : Type}

/-- translate/options.rs 195-202 `for_const`. -/
def forConst (d : Decl) : Chk AttrDiag σ ConstOptions := do
  d.trace.skip .const
  d.main.skip .const
  d.implTrait.skip .const
  d.test.skip .const
  d.generics.skip .const
  d.universalPre.skip .const
  pure { export_ := d.export_.take, rustcAllow := d.rustcAllow.take, doc := d.doc.take,
         isPub := d.isPub.take }

/-- translate/options.rs 205-212 `for_node`. -/
def forNode (d : Decl) : Chk AttrDiag σ NodeOptions := do
  pure { trace := d.trace.take, export_ := d.export_.take, main := d.main.take,
         rustcAllow := d.rustcAllow.take, doc := d.doc.take, isPub := d.isPub.take,
         implTrait := d.implTrait.take, test := d.test.take, generics := d.generics.take,
         universalPre := d.universalPre.take }

/-- translate/options.rs 215-222 `for_ext_const`. -/
def forExtConst (d : Decl) : Chk AttrDiag σ ExtConstOptions := do
  d.trace.skip .extConst
  d.export_.skip .extConst
  d.main.skip .extConst
  d.doc.skip .extConst
  d.isPub.skip .extConst
  d.implTrait.skip .extConst
  d.test.skip .extConst
  d.generics.skip .extConst
  d.universalPre.skip .extConst
  pure { rustcAllow := d.rustcAllow.take }

/-- translate/options.rs 225-232 `for_ext_node`. -/
def forExtNode (d : Decl) : Chk AttrDiag σ ExtNodeOptions := do
  d.export_.skip .extNode
  d.doc.skip .extNode
  d.isPub.skip .extNode
  d.implTrait.skip .extNode
  d.test.skip .extNode
  d.universalPre.skip .extNode
  pure { trace := d.trace.take, main := d.main.take, rustcAllow := d.rustcAllow.take,
         generics := d.generics.take }

/-- translate/options.rs 257-277 `duplicate!`. -/
def duplicate {T : Type} (o : SetOpt T) : Chk AttrDiag σ Unit :=
  if o.value.isSome then
    match o.span with
    | some _ => Chk.warning (.duplicate o.message)
    | none => Chk.abort
  else Chk.pure ()

/-- translate/options.rs 281-301 `conflicting!`. -/
def conflicting {T U : Type} (this : SetOpt T) (other : SetOpt U) : Chk AttrDiag σ Unit :=
  if other.value.isSome then
    match other.span with
    | some _ => Chk.warning (.conflicting this.message other.message)
    | none => Chk.abort
  else Chk.pure ()

/-- `i.base10_parse::<usize>()` with `abort!` (translate/options.rs 393-395, 416-418); 64-bit `usize`. -/
def parseUsize (n : Int) : Chk AttrDiag σ Nat :=
  if 0 ≤ n ∧ n < 2 ^ 64 then Chk.pure n.toNat else Chk.abort

/-- The names known to `with` (translate/options.rs 314-485), as an enumeration. -/
inductive Action where
  | trace | exported | isPub | implTrait | universalPre | main | test | rustcAllow | clippyAllow | doc | generics
deriving DecidableEq, Repr

/-- The string patterns of `with` (translate/options.rs 314-485). -/
def parseAction (s : String) : Option Action :=
  if s = "trace" then some .trace
  else if s = "export" then some .exported
  else if s = "pub" then some .isPub
  else if s = "trait" then some .implTrait
  else if s = "universal_pre" then some .universalPre
  else if s = "main" then some .main
  else if s = "test" then some .test
  else if s = "rustc_allow" then some .rustcAllow
  else if s = "clippy_allow" then some .clippyAllow
  else if s = "doc" then some .doc
  else if s = "generic" then some .generics
  else none

/-- translate/options.rs 317-325: destination of the trace. -/
def traceFile (a : Attribute) : Chk AttrDiag σ TraceFile :=
  match a.params with
  | [] => Chk.pure .stdOut
  | [ident] => if ident = "stdout" then Chk.pure .stdOut
      else if ident = "stderr" then Chk.pure .stdErr else Chk.error (.malformed a.action)
  | _ => Chk.error (.malformed a.action)

/-- translate/options.rs 326-336: format of the trace. -/
def traceFormat (a : Attribute) : Chk AttrDiag σ (TraceFormat × TraceFormat) :=
  match a.targets with
  | [] => Chk.pure (.default, .default)
  | [.str o] => Chk.pure (.empty, .str o)
  | [.str i, .str o] => Chk.pure (.str i, .str o)
  | _ => Chk.error (.malformed a.action)

/-- translate/options.rs 456-474: the loop over the parameters of `generic`; `already` is the hash set. -/
def checkGenerics (action : String) : List String → List String → Chk AttrDiag σ Unit
  | _, [] => Chk.pure ()
  | already, t :: ts =>
      if t = "int" ∨ t = "float" ∨ t = "bool" then Chk.error (.malformed action)
      else if t ∈ already then Chk.error (.malformed action)
      else checkGenerics action (t :: already) ts

/-- translate/options.rs 236-486 `with`. -/
def with_ (d : Decl) (a : Attribute) : Chk AttrDiag σ Decl :=
  match parseAction a.action with
  | some .trace => do
    let destination ← traceFile a
    let format ← traceFormat a
    duplicate d.trace
    pure { d with trace := d.trace.some_ (destination, format) a.span }
  | some .exported =>
    match a.params, a.targets with
    | [], [] => do
      conflicting d.export_ d.test
      duplicate d.export_
      pure { d with export_ := d.export_.set true a.span }
    | _, _ => Chk.error (.malformed a.action)
  | some .isPub =>
    match a.params, a.targets with
    | [], [] => do
      conflicting d.isPub d.test
      duplicate d.isPub
      duplicate d.export_
      pure { d with isPub := d.isPub.set true a.span, export_ := d.export_.set true a.span }
    | _, _ => Chk.error (.malformed a.action)
  | some .implTrait =>
    match a.params, a.targets with
    | [], [] => do
      duplicate d.implTrait
      pure { d with implTrait := d.implTrait.set true a.span }
    | _, _ => Chk.error (.malformed a.action)
  | some .universalPre =>
    match a.params, a.targets with
    | [], [] => do
      duplicate d.universalPre
      pure { d with universalPre := d.universalPre.set true a.span }
    | _, _ => Chk.error (.malformed a.action)
  | some .main =>
    match a.params, a.targets with
    | [], [] => do
      conflicting d.main d.test
      duplicate d.main
      pure { d with main := d.main.some_ 100 a.span }
    | [], [.int i] => do
      conflicting d.main d.test
      duplicate d.main
      let i ← parseUsize i
      pure { d with main := d.main.some_ i a.span }
    | _, _ => Chk.error (.malformed a.action)
  | some .test =>
    match a.params, a.targets with
    | [], [] => do
      conflicting d.test d.main
      conflicting d.test d.isPub
      conflicting d.test d.export_
      duplicate d.test
      pure { d with test := d.test.some_ 100 a.span }
    | [], [.int i] => do
      conflicting d.test d.main
      duplicate d.test
      let i ← parseUsize i
      pure { d with test := d.test.some_ i a.span }
    | _, _ => Chk.error (.malformed a.action)
  | some .rustcAllow =>
    match a.params, a.targets with
    | [inner], [] => pure { d with rustcAllow := d.rustcAllow.push (.rustc inner) a.span }
    | _, _ => Chk.error (.malformed a.action)
  | some .clippyAllow =>
    match a.params, a.targets with
    | [inner], [] => pure { d with rustcAllow := d.rustcAllow.push (.clippy inner) a.span }
    | _, _ => Chk.error (.malformed a.action)
  | some .doc =>
    match a.params, a.targets with
    | [], [.str doc] => pure { d with doc := d.doc.push doc a.span }
    | _, _ => Chk.error (.malformed a.action)
  | some .generics =>
    match a.targets with
    | [] => do
      checkGenerics a.action [] a.params
      pure { d with generics := d.generics.extend a.params a.span }
    | _ => Chk.error (.malformed a.action)
  | none => Chk.error (.malformed a.action)

/-- translate/mod.rs 308-322 (`AttrDecl`): attributes are applied from the outside in, that is
in source order, starting from the defaults (line 299). -/
def withAll (d : Decl) : List Attribute → Chk AttrDiag σ Decl
  | [] => Chk.pure d
  | a :: as => do
    let d ← d.with_ a
    withAll d as

end Decl
end Chandeliers.Syn
