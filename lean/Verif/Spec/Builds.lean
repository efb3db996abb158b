import Verif.San.Eval
import Verif.Syn.Prog

/-!
# Builds with and without overflow checks
-/

set_option autoImplicit false

namespace Chandeliers.Spec
open Chandeliers.San

/-- The arithmetic of a debug build: an integer overflow panics. -/
def debugBuild (A : Arith) : Arith := { A with overflowChecks := true }

/-- The arithmetic of a release build: an integer overflow wraps. -/
def releaseBuild (A : Arith) : Arith := { A with overflowChecks := false }

/-- A node in a debug build and the same node in a release build: on every history, the first stops
on an arithmetic error, or both return the same outputs, or both stop in the same way. -/
structure SameBuilds (debug release : Machine) : Prop where
  type : debug.outTy = release.outTy
  runs : ∀ is : List Value, debug.run is = .error .arith ∨ debug.run is = release.run is

/-- The same for all the items of a program, or that it takes from outside. -/
structure SameBuildsOf (consts consts' : String → Option Scalar)
    (debug release : String → Option Machine) : Prop where
  consts : consts = consts'
  none : ∀ f, debug f = none ↔ release f = none
  nodes : ∀ f m m', debug f = some m → release f = some m' → SameBuilds m m'

end Chandeliers.Spec
