/-!
# Error accumulator

Models `chandeliers-err/src/lib.rs` 83-190.  Error messages are values of an arbitrary type `E`.
-/

namespace Chandeliers.Err

/-- lib.rs 90-95 `EAccum`. -/
structure EAccum (E : Type) where
  err : List E
  warn : List E
deriving DecidableEq, Repr

/-- What a compiler function returns: `Some`, `None`, or it panics through `abort!`,
`malformed!`, `consistency!` or `unimplemented!` (lib.rs 49-81). -/
inductive Res (α : Type) where
  | some (a : α)
  | none
  | abort
deriving DecidableEq, Repr

/-- `#[derive(Default)]` (lib.rs 86). -/
def EAccum.default {E : Type} : EAccum E := ⟨[], []⟩

/-- lib.rs 136-138 `is_fatal`. -/
def EAccum.isFatal {E : Type} (a : EAccum E) : Bool := !a.err.isEmpty

/-- lib.rs 142-144 `fetch`. -/
def EAccum.fetch {E : Type} (a : EAccum E) : List E × List E := (a.err, a.warn)

/-- A compiler function that takes `&mut EAccum` and a mutable context of type `σ`.
Convention of all passes, e.g. pipeline.rs 123-126. -/
def Chk (E σ α : Type) : Type := EAccum E × σ → Res α × (EAccum E × σ)

namespace Chk

variable {E σ α β : Type}

/-- Rust's `Some(a)` in tail position. E.g. pipeline.rs 114. -/
protected def pure (a : α) : Chk E σ α := fun s => (.some a, s)

/-- Rust's `?`. E.g. lus/src/lib.rs 91-100. -/
protected def bind (m : Chk E σ α) (f : α → Chk E σ β) : Chk E σ β := fun s =>
  match m s with
  | (.some a, s) => f a s
  | (.none, s) => (.none, s)
  | (.abort, s) => (.abort, s)

/-- The two together: `?` and `Some` (lus/src/lib.rs 89-102). -/
instance : Monad (Chk E σ) where
  pure := Chk.pure
  bind := Chk.bind

/-- `eaccum.error(e)` (lib.rs 121-124): push and return `None`. -/
def error (e : E) : Chk E σ α := fun (a, s) => (.none, ({ a with err := a.err ++ [e] }, s))

/-- `eaccum.warning(e)` (lib.rs 127-129). -/
def warning (e : E) : Chk E σ Unit := fun (a, s) => (.some (), ({ a with warn := a.warn ++ [e] }, s))

/-- A panic of the compiler. `abort!` and its kin, err/src/lib.rs 49-81. -/
def abort : Chk E σ α := fun s => (.abort, s)

/-- Run without `?`: the `Option` itself is the result.
E.g. err/src/lib.rs 157-165, where the scope keeps the `Option`. -/
def opt (m : Chk E σ α) : Chk E σ (Option α) := fun s =>
  match m s with
  | (.some a, s) => (.some (.some a), s)
  | (.none, s) => (.some .none, s)
  | (.abort, s) => (.abort, s)

/-- `?` on an `Option` that was computed before. E.g. typecheck.rs 334-546. -/
def ofOption : Option α → Chk E σ α
  | .some a => Chk.pure a
  | .none => fun s => (.none, s)

/-- `let a = m(…); let b = n(…); let a = a?; let b = b?;`: both run, so both may report errors.
E.g. typecheck.rs 334-546. -/
def both (m : Chk E σ α) (n : Chk E σ β) : Chk E σ (α × β) := do
  let a ← opt m
  let b ← opt n
  let a ← ofOption a
  let b ← ofOption b
  Chk.pure (a, b)

/-- Read the context. The context `ctx` of e.g. typecheck.rs 54-71. -/
def get : Chk E σ σ := fun (a, s) => (.some s, (a, s))

/-- Update the context. The context `ctx: &mut` of e.g. typecheck.rs 54-71. -/
def modify (f : σ → σ) : Chk E σ Unit := fun (a, s) => (.some (), (a, f s))

/-- lib.rs 157-165 `EAccumScope::compute`; the argument and result are the flag `fatal`. -/
def scopeCompute (fatal : Bool) (m : Chk E σ Unit) : Chk E σ Bool := fun s =>
  match m s with
  | (.some _, s) => (.some fatal, s)
  | (.none, s) => (.some true, s)
  | (.abort, s) => (.abort, s)

/-- lib.rs 170-176 `EAccumScope::close`. -/
def scopeClose (fatal : Bool) : Chk E σ Unit := if fatal then fun s => (.none, s) else Chk.pure ()

/-- lib.rs 179-181 `EAccumScope::error`. -/
def scopeError (fatal : Bool) (e : E) : Chk E σ Bool := scopeCompute fatal (error e)

/-- lib.rs 184-189 `EAccumScope::warning`. -/
def scopeWarning (fatal : Bool) (e : E) : Chk E σ Bool := scopeCompute fatal (warning e)

/-- A loop that gives each computation to the scope.
E.g. typecheck.rs 1229-1233, with `scope.compute` of err/src/lib.rs 157-165. -/
def scopeLoop (fatal : Bool) : List (Chk E σ Unit) → Chk E σ Bool
  | [] => Chk.pure fatal
  | m :: ms => do
    let fatal ← scopeCompute fatal m
    scopeLoop fatal ms

/-- The usual pattern: `let mut scope = eaccum.scope(); for … { scope.compute(…) }; scope.close()`
(`scope` starts with `fatal: false`, lib.rs 144-149). -/
def inScope (ms : List (Chk E σ Unit)) : Chk E σ Unit := do
  let fatal ← scopeLoop false ms
  scopeClose fatal

end Chk
end Chandeliers.Err
