import Verif.Sem.Stepping

/-!
# Flips and registers

Model of `chandeliers-sem/src/registers.rs`.
-/

namespace Chandeliers

/-- registers.rs 6: `struct Flip(bool)`. -/
structure Flip where
  fst : Bool
  deriving DecidableEq, Repr

namespace Flip

/-- registers.rs 8-13. -/
def default : Flip := ⟨true⟩

/-- registers.rs 18-22: test and set. -/
def tas (f : Flip) : Bool × Flip := (f.fst, ⟨false⟩)

end Flip

/-- registers.rs 26-33. -/
structure Register (α : Type) where
  inner : Tup (Nillable α)
  next : Tup (Nillable α)
  onClock : Bool
  deriving Repr

namespace Register

variable {α : Type}

/-- registers.rs 35-47; `ty` is the type at which the register is declared. -/
def default (α : Type) (ty : Tup Unit) : Register α :=
  ⟨Tup.allNil α ty, Tup.allNil α ty, false⟩

/-- registers.rs 52-59. -/
def schedule (r : Register α) (t : Tup (Nillable α)) : Register α :=
  if !t.firstIsNil then { r with next := t } else r

/-- registers.rs 63-65. -/
def withClock (r : Register α) (clk : Nillable Bool) : Register α :=
  { r with onClock := clk.is (· == ·) (.defined true) }

/-- registers.rs 69-76. -/
def tryInitialize (r : Register α) (t : Tup (Nillable α)) : Register α :=
  if r.inner.firstIsNil then { r with inner := t } else r

/-- registers.rs 80-85. -/
def commit (r : Register α) : Register α := { r with inner := r.next }

/-- registers.rs 89-98. -/
def get (r : Register α) : Tup (Nillable α) :=
  if r.onClock then r.inner else r.inner.nilLike

end Register
end Chandeliers
