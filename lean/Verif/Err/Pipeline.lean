import Verif.Err.Accum

/-!
# The compilation pipeline and the `decl!` macro

Models `chandeliers-lus/src/lib.rs` 62-105 and `chandeliers-lus/src/pipeline.rs` 78-211.
-/

namespace Chandeliers.Err

/-- What the user of `decl!` sees: the macro panics, or emits diagnostics and returns tokens
(`none` stands for the empty token stream of lib.rs 79). -/
inductive Outcome (E T : Type) where
  | panic
  | done (emitted : List E) (tokens : Option T)
deriving DecidableEq, Repr

/-- lib.rs 64-86 `decl`, after parsing.  All diagnostics are emitted with `Level::Error`
(lines 76 and 83), so there is one list. -/
def decl {E T : Type} (pipeline : Chk E Unit T) : Outcome E T :=
  match pipeline (EAccum.default, ()) with
  | (.abort, _) => .panic
  | (.none, (acc, _)) =>
    -- `consistency!(fatal, …)`
    if acc.isFatal then .done acc.fetch.1 none else .panic
  | (.some prog, (acc, _)) => .done acc.fetch.2 (some prog)

/-- lib.rs 89-102 `prog_pipeline` with the order given by the `Finish` instances
(pipeline.rs 196-210): each pass is applied to the program the previous one produced. -/
def progPipeline {E S P T : Type} (translate : S → Chk E Unit P)
    (causality typecheck clockcheck positivity : P → Chk E Unit P) (codegen : P → Res T)
    (src : S) : Chk E Unit T := do
  let p ← translate src
  let p ← causality p
  let p ← typecheck p
  let p ← clockcheck p
  let p ← positivity p
  fun s => (codegen p, s)

end Chandeliers.Err
