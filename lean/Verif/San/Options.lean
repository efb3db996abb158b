import Verif.Err.Accum

/-!
# Options of declarations and where they are used

Models `chandeliers-san/src/ast/options.rs`.
-/

namespace Chandeliers.San
open Chandeliers.Err

/-- options.rs 139-141: usage sites. -/
inductive Site where
  | codegen | typecheck | parsing
deriving DecidableEq, Repr

/-- options.rs 184-193 `Sites` and 172 `Over`: the list of declared sites, each with its flag.
The type-level list of Rust is a value here. -/
abbrev Sites := List (Site × Bool)

/-- `Sites::default()` (options.rs 212): all flags false. -/
def Sites.ofDecl (sites : List Site) : Sites := sites.map (·, false)

/-- options.rs 239-262 `Usage::record`: mark the first entry for this site.  `none` stands for
a use that does not type check in Rust because `Over` is not `Usage` (options.rs 168-171). -/
def Sites.record (use : Site) : Sites → Option Sites
  | [] => none
  | (h, u) :: tail => if h = use then some ((h, true) :: tail) else
      (Sites.record use tail).map ((h, u) :: ·)

/-- options.rs 175-177 and 224-229 `assert_used`: false when it panics. -/
def Sites.assertUsed : Sites → Bool
  | [] => true
  | (_, used) :: tail => used && Sites.assertUsed tail

/-- options.rs 147-154 `UseOpt`. -/
structure UseOpt (T : Type) where
  data : T
  usage : Sites

/-- options.rs 207-212 `UseOpt::new`. -/
def UseOpt.new {T : Type} (sites : List Site) (data : T) : UseOpt T := ⟨data, Sites.ofDecl sites⟩

/-- options.rs 198-204 `fetch`: the value, and the option with the use recorded. -/
def UseOpt.fetch {T : Type} (o : UseOpt T) (use : Site) : Option (T × UseOpt T) :=
  (o.usage.record use).map fun u => (o.data, { o with usage := u })

/-- options.rs 216-221 `assert_used`. -/
def UseOpt.assertUsed {T : Type} (o : UseOpt T) : Bool := o.usage.assertUsed

/-- Names of the options (options.rs 317-328). -/
inductive Opt where
  | trace | exported | isPub | implTrait | main | test | rustcAllow | doc | generics | universalPre
deriving DecidableEq, Repr

/-- options.rs 346-357 `usage_of_option`. -/
def usageOfOption : Opt → List Site
  | .trace => [.codegen]
  | .exported => [.codegen]
  | .isPub => [.codegen]
  | .implTrait => [.codegen]
  | .main => [.typecheck, .codegen]
  | .test => [.typecheck, .codegen]
  | .rustcAllow => [.codegen]
  | .doc => [.codegen]
  | .generics => [.typecheck, .codegen]
  | .universalPre => [.parsing]

/-- Kinds of declarations. The declarations that have options, ast/options.rs 419-430. -/
inductive DeclKind where
  | node | extNode | const | extConst
deriving DecidableEq, Repr

/-- options.rs 419-425 `selection!`. -/
def selection : DeclKind → List Opt
  | .node => [.trace, .exported, .isPub, .main, .rustcAllow, .doc, .implTrait, .test, .generics,
      .universalPre]
  | .extNode => [.trace, .main, .rustcAllow, .generics]
  | .const => [.exported, .isPub, .rustcAllow, .doc]
  | .extConst => [.rustcAllow]

/-- The unconditional `fetch` calls on the way of a declaration through the compiler, in order:
parsing, type checking, code generation.
* node: translate/mod.rs 548; typecheck.rs 1128, 1129, 1153, 1256; codegen/mod.rs 485-488
  (`internal_decl`), 554-558 (`internal_impl`), 637-653 (`external_decl`; what follows the early
  return at 653-655 is left out), 426, 430 (`fn_main`, `fn_test`);
* extern node: typecheck.rs 1295, 1315, 1394; codegen/mod.rs 829-839, 886;
* const: codegen/mod.rs 299-305; extern const: codegen/mod.rs 362. -/
def fetches : DeclKind → List (Opt × Site)
  | .node => [(.universalPre, .parsing),
      (.main, .typecheck), (.test, .typecheck), (.generics, .typecheck), (.generics, .typecheck),
      (.isPub, .codegen), (.rustcAllow, .codegen), (.generics, .codegen),
      (.trace, .codegen), (.rustcAllow, .codegen), (.generics, .codegen), (.test, .codegen),
      (.doc, .codegen), (.implTrait, .codegen), (.isPub, .codegen), (.exported, .codegen),
      (.rustcAllow, .codegen), (.main, .codegen), (.rustcAllow, .codegen), (.test, .codegen)]
  | .extNode => [(.main, .typecheck), (.generics, .typecheck), (.generics, .typecheck),
      (.rustcAllow, .codegen), (.rustcAllow, .codegen), (.trace, .codegen), (.generics, .codegen),
      (.rustcAllow, .codegen), (.main, .codegen)]
  | .const => [(.isPub, .codegen), (.rustcAllow, .codegen), (.rustcAllow, .codegen),
      (.exported, .codegen), (.doc, .codegen)]
  | .extConst => [(.rustcAllow, .codegen)]

/-- The usage records of all options of a declaration; the payloads do not matter here.
ast/options.rs 147-154, one `UseOpt` for each field. -/
abbrev OptRecords := List (Opt × Sites)

/-- The records of a new declaration (`UseOpt::new`, translate/options.rs 186). -/
def OptRecords.new (k : DeclKind) : OptRecords :=
  (selection k).map fun o => (o, Sites.ofDecl (usageOfOption o))

/-- One `fetch` on the field `o`. ast/options.rs 198-204. -/
def OptRecords.fetch : OptRecords → Opt × Site → Option OptRecords
  | [], _ => none
  | (o', s) :: rest, (o, use) =>
      if o' = o then (s.record use).map fun s => (o', s) :: rest
      else (OptRecords.fetch rest (o, use)).map ((o', s) :: ·)

/-- options.rs 398-417: `assert_used` of the group, field by field. -/
def OptRecords.assertUsed (r : OptRecords) : Bool := r.all fun (_, s) => s.assertUsed

end Chandeliers.San
