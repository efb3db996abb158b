import Verif.Sem.Registers

/-!
# Small specifications for the runtime library

These do not mention the model's state machines: they read histories (lists) only.
-/

namespace Chandeliers.Spec

/-- The `d`-th most recently pushed element of `pushed` (oldest first), `nil` if there are
fewer than `d` elements.  Meant for `1 ≤ d`. -/
def dthMostRecent {T : Type} (pushed : List (Nillable T)) (d : Nat) : Nillable T :=
  match pushed.reverse[d - 1]? with
  | some v => v
  | none => .nil

/-- What a register is given at one instant: its clock, the initial value and the next value. -/
structure Cycle (α : Type) where
  clk : Nillable Bool
  init : Tup (Nillable α)
  next : Tup (Nillable α)

/-- The register is active at this instant. -/
def Cycle.active {α : Type} (c : Cycle α) : Bool :=
  match c.clk with
  | .defined true => true
  | _ => false

/-- The values given at this instant are on the clock of the register: present when it is
active, absent (all nil) when it is not, and of the declared tuple type. -/
structure Cycle.OnClock {α : Type} (ty : Tup Unit) (c : Cycle α) : Prop where
  init_shape : c.init.shape = ty
  next_shape : c.next.shape = ty
  init_on : c.active = true → c.init.firstIsNil = false
  next_on : c.active = true → c.next.firstIsNil = false
  init_off : c.active = false → c.init = Tup.allNil α ty
  next_off : c.active = false → c.next = Tup.allNil α ty

/-- Clocked `init fby next`: nil when inactive, the initial value at the first active instant,
then the `next` of the previous active instant. -/
def fby {α : Type} (ty : Tup Unit) (past : List (Cycle α)) (now : Cycle α) : Tup (Nillable α) :=
  if now.active then
    match (past.filter Cycle.active).getLast? with
    | none => now.init
    | some c => c.next
  else Tup.allNil α ty

/-- Clocked `pre next`: like `fby` but uninitialised at the first active instant. -/
def pre {α : Type} (ty : Tup Unit) (past : List (Cycle α)) (now : Cycle α) : Tup (Nillable α) :=
  if now.active then
    match (past.filter Cycle.active).getLast? with
    | none => Tup.allNil α ty
    | some c => c.next
  else Tup.allNil α ty

end Chandeliers.Spec
