import Verif.Sem.Nillable

/-!
# Fixed-size histories

Model of `chandeliers-sem/src/time_travel.rs`.  The Rust types `O<T>`, `S<O<T>,T>`,
`S<S<O<T>,T>,T>`, … (time_travel.rs 24-39) are one family indexed by the number of `S`.
-/

namespace Chandeliers

/-- time_travel.rs 24-39.  `Hist T 0` is `O<T>`, `Hist T (n+1)` is `S<…, T>`; the trait
`Counting` (72-79) restricts `previous` to be such a type, which the index expresses. -/
inductive Hist (T : Type) : Nat → Type where
  | o (current : Nillable T) : Hist T 0
  | s {n : Nat} (current : Nillable T) (previous : Hist T n) : Hist T (n + 1)

namespace Hist

variable {T : Type}

/-- `#[derive(Default)]` on `O` and `S` (time_travel.rs 23, 33): every slot is `nil`. -/
def default : (n : Nat) → Hist T n
  | 0 => .o .nil
  | n + 1 => .s .nil (default n)

/-- The most recent slot (`current`). Field of time_travel.rs 24-39. -/
def current : {n : Nat} → Hist T n → Nillable T
  | _, .o c => c
  | _, .s c _ => c

/-- time_travel.rs 109-144, `Ago::ago` for `O` and `S`. -/
def ago : {n : Nat} → Hist T n → (dt : Nat) → R (Nillable T)
  | _, .o _, 0 => .error .agoZero
  | _, .o c, 1 => .ok c
  | _, .o _, _ + 2 => .error .agoTooFar
  | _, .s _ _, 0 => .error .agoZero
  | _, .s c _, 1 => .ok c
  | _, .s _ p, dt + 2 => p.ago (dt + 1)

/-- time_travel.rs 147-172, `Downcast::downcast`: forget the most ancient value. -/
def downcast : {n : Nat} → Hist T (n + 1) → Hist T n
  | _, .s c (.o _) => .o c
  | _, .s c (.s c' p) => .s c (downcast (.s c' p))

/-- time_travel.rs 175-201, `Extend::extend`. -/
def extend : {n : Nat} → Hist T n → Nillable T → Hist T (n + 1)
  | _, .o c, new => .s new (.o c)
  | _, .s c p, new => .s new (p.extend c)

/-- time_travel.rs 181-183, `extend_undefined`. -/
def extendUndefined {n : Nat} (h : Hist T n) : Hist T (n + 1) := h.extend .nil

/-- time_travel.rs 220-240, `Update::update` (and `update_mut`, 215-217). -/
def update : {n : Nat} → Hist T n → Nillable T → Hist T n
  | _, .o _, new => .o new
  | _, .s c p, new => .s new (downcast (.s c p))

/-- time_travel.rs 248-250, `IntoHistory::into_history`. -/
def intoHistory (v : T) : Hist T 0 := .o (.defined v)

/-- time_travel.rs 255-257, `IntoHistory::empty_history`. -/
def emptyHistory : Hist T 0 := .o .nil

/-- A sequence of `update_mut` calls, oldest first (what `update!` does over the life of a
node, candle.rs 218-223). -/
def updates {n : Nat} (h : Hist T n) : List (Nillable T) → Hist T n
  | [] => h
  | v :: vs => (h.update v).updates vs

end Hist
end Chandeliers
