/-!
# Possibly uninitialised values

Model of `chandeliers-sem/src/nillable.rs` (the `Nillable` part) and of the panics
of the runtime library.
-/

namespace Chandeliers

/-- Every way in which the modelled Rust code can stop abnormally at run time.

* `unwrapNil`: nillable.rs 71, `panic!("Tried to unwrap a nil value")`
* `agoZero`, `agoTooFar`: time_travel.rs 118-122 and 137-139
* `assertFalse`, `assertNil`: candle.rs 456-457
* `notIdentical`: nillable.rs 185
* `arith`: an arithmetic panic of the scalar operation itself (`i64` overflow in a
  debug build, division by zero, `i64::MIN / -1`)
* `user`: a panic inside an external (non-Lustre) node
* `rejected`: not a run-time panic: the emitted Rust text would not be accepted by rustc
  (unbound local, missing field, operand of the wrong type).  Keeping it as an explicit
  outcome lets theorems say that it never happens. -/
inductive Panic where
  | unwrapNil
  | agoZero
  | agoTooFar
  | assertFalse
  | assertNil
  | notIdentical
  | arith
  | user
  | rejected
  deriving DecidableEq, Repr

/-- Outcome of Rust code that may panic. E.g. nillable.rs 68-73. -/
abbrev R (α : Type u) := Except Panic α

/-- nillable.rs 22-27. -/
inductive Nillable (α : Type u) where
  | defined (v : α)
  | nil
  deriving DecidableEq, Repr

namespace Nillable

variable {α β : Type}

/-- nillable.rs 32-37: `Default`. -/
def default : Nillable α := .nil

/-- nillable.rs 54-56. -/
def withTypeOf (self _other : Nillable α) : Nillable α := self

/-- nillable.rs 68-73. -/
def unwrap : Nillable α → R α
  | defined t => .ok t
  | nil => .error .unwrapNil

/-- nillable.rs 79-87. -/
def map (f : α → β) : Nillable α → Nillable β
  | defined t => .defined (f t)
  | nil => .nil

/-- nillable.rs 91-117, the macro `nillable_impl_ops_binary`: one instance per operator.
The scalar operation `op` may itself panic (e.g. `i64` division by zero). -/
def binop (op : α → α → R α) : Nillable α → Nillable α → R (Nillable α)
  | defined lhs, defined rhs => (op lhs rhs).map .defined
  | _, _ => .ok .nil

/-- nillable.rs 121-141, the macro `nillable_impl_ops_unary`. -/
def unop (op : α → R α) : Nillable α → R (Nillable α)
  | defined lhs => (op lhs).map .defined
  | _ => .ok .nil

/-- nillable.rs 154-159: nil-strict equality; `eq` is the scalar `PartialEq`. -/
def eq (beq : α → α → Bool) : Nillable α → Nillable α → Option Bool
  | defined this, defined other => some (beq this other)
  | _, _ => none

/-- nillable.rs 167-173: identity test. -/
def is (beq : α → α → Bool) : Nillable α → Nillable α → Bool
  | defined this, defined other => beq this other
  | nil, nil => true
  | _, _ => false

/-- nillable.rs 182-188, `assert_is!`. -/
def assertIs (beq : α → α → Bool) (lhs rhs : Nillable α) : R Unit :=
  if !(lhs.is beq rhs) then .error .notIdentical else .ok ()

/-- nillable.rs 199-204: `pcmp` is the scalar `PartialOrd::partial_cmp`. -/
def cmp (pcmp : α → α → Option Ordering) : Nillable α → Nillable α → Option Ordering
  | defined this, defined other => pcmp this other
  | _, _ => none

/-- nillable.rs 276-281: `FirstIsNil` for a scalar. -/
def firstIsNil : Nillable α → Bool
  | nil => true
  | _ => false

end Nillable
end Chandeliers
