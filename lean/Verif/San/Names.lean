/-!
# Names of generated items

Models `chandeliers-san/src/codegen/mod.rs` 155-275 (`AsIdent`).
-/

namespace Chandeliers.San

/-- What gets a name in the generated code.  `uid` is the number of the macro invocation
(chandeliers-lus/src/pipeline.rs 72-76). -/
inductive Entity where
  | node (name : String) (uid : Nat)
  | glob (name : String) (uid : Nat)
  | loc (name : String)
deriving DecidableEq, Repr

/-- `AsIdent<SanitizedIdent>`: codegen/mod.rs 242-247 (nodes), 255-260 (globals), 268-272
(locals). -/
def Entity.sanitized : Entity → String
  | .node name uid => name ++ "__lus_" ++ toString uid ++ "_node"
  | .glob name uid => name ++ "__lus_" ++ toString uid ++ "_global"
  | .loc name => name ++ "__lus_local"

/-- `AsIdent<RawIdent>`: codegen/mod.rs 249-253, 262-266, 274-278.  The `r#` of a raw
identifier is not part of the name in Rust. -/
def Entity.raw : Entity → String
  | .node name _ => name
  | .glob name _ => name
  | .loc name => name

/-- pipeline.rs 72-76 `new_run_uid`: the counter and the number handed out. -/
def newRunUid (counter : Nat) : Nat × Nat := (counter, counter + 1)

/-- The numbers of `n` successive macro invocations in one run of the compiler.
Successive calls to `new_run_uid`, pipeline.rs 72-76. -/
def runUids (counter : Nat) : Nat → List Nat
  | 0 => []
  | n + 1 => (newRunUid counter).1 :: runUids (newRunUid counter).2 n

end Chandeliers.San
