import Verif.Sem.Nillable

/-!
# Nested tuples: `Embed`, `Trusted`, `AllNil`, `FirstIsNil` and the tuple-valued macros

Model of `chandeliers-sem/src/stepping.rs`, of the tuple part of
`chandeliers-sem/src/nillable.rs`, and of `ifx!`, `when!`, `whenot!`, `merge!` of
`chandeliers-sem/src/candle.rs`.

Rust tuples of arity 1 to 11 are modelled by non-empty tuples of any arity.  The empty tuple
`()` is a scalar in the Rust code (time_travel.rs 60 makes it `Sealed`), so it is a leaf here.
-/

namespace Chandeliers

/-- A nested non-empty tuple with leaves in `α`.  `tup a as` is the Rust tuple `(a, as…)`,
`leaf x` is a scalar. stepping.rs 56-85. -/
inductive Tup (α : Type) where
  | leaf (a : α)
  | tup (hd : Tup α) (tl : List (Tup α))
  deriving Repr

namespace Tup

variable {α β : Type}

mutual
/-- Apply a function at each leaf (the common shape of the tuple instances in
stepping.rs 56-85 and nillable.rs 227-238). -/
def map (f : α → β) : Tup α → Tup β
  | leaf a => leaf (f a)
  | tup h t => tup (map f h) (mapList f t)
/-- Component-wise `map`. stepping.rs 56-70. -/
def mapList (f : α → β) : List (Tup α) → List (Tup β)
  | [] => []
  | t :: ts => map f t :: mapList f ts
end

mutual
/-- Apply a panicking function at each leaf, left to right (stepping.rs 99-111: the tuple
expression `( $( self.$i.trusted(), )* )` evaluates its fields in order). -/
def mapM (f : α → R β) : Tup α → R (Tup β)
  | leaf a => (f a).map leaf
  | tup h t => do
    let h' ← mapM f h
    let t' ← mapMList f t
    return tup h' t'
/-- Component-wise `mapM`. stepping.rs 99-112. -/
def mapMList (f : α → R β) : List (Tup α) → R (List (Tup β))
  | [] => .ok []
  | t :: ts => do
    let t' ← mapM f t
    let ts' ← mapMList f ts
    return t' :: ts'
end

mutual
/-- All leaves, left to right. Auxiliary, for stepping.rs 56-112. -/
def leaves : Tup α → List α
  | leaf a => [a]
  | tup h t => leaves h ++ leavesList t
/-- Leaves of a list of components. Auxiliary, for stepping.rs 56-112. -/
def leavesList : List (Tup α) → List α
  | [] => []
  | t :: ts => leaves t ++ leavesList ts
end

/-- The leftmost leaf: `self.0.….0` (nillable.rs 291). -/
def first : Tup α → α
  | leaf a => a
  | tup h _ => first h

/-- The tuple type of a value: its nesting structure (Rust types with the leaf types erased).
Auxiliary, for nillable.rs 214-245. -/
def shape (t : Tup α) : Tup Unit := t.map (fun _ => ())

/-- stepping.rs 34-85: `Embed` for scalars is `Defined`, for tuples component-wise. -/
def embed (t : Tup α) : Tup (Nillable α) := t.map .defined

/-- stepping.rs 88-128: `Trusted` is `unwrap`, for tuples component-wise. -/
def trusted (t : Tup (Nillable α)) : R (Tup α) := t.mapM Nillable.unwrap

/-- nillable.rs 214-249: `AllNil::auto_size()` at a tuple type. -/
def allNil (α : Type) (ty : Tup Unit) : Tup (Nillable α) := ty.map (fun _ => .nil)

/-- `AllNil::auto_size()` at the type of a given value (the type chosen by inference).
nillable.rs 214-245. -/
def nilLike (t : Tup (Nillable α)) : Tup (Nillable α) := t.map (fun _ => .nil)

/-- nillable.rs 271-306: `FirstIsNil`. -/
def firstIsNil (t : Tup (Nillable α)) : Bool := t.first.firstIsNil

end Tup

namespace Candle

variable {α : Type}

/-- candle.rs 350-361, `ifx!` on already evaluated operands.  The `auto_size` of the last arm
is at the common type of the branches. -/
def ifx (b : Nillable Bool) (yes no : Tup (Nillable α)) : Tup (Nillable α) :=
  match b with
  | .defined true => yes
  | .defined false => no
  | .nil => yes.nilLike

/-- candle.rs 466-476, `when!`. -/
def when (b : Nillable Bool) (e : Tup (Nillable α)) : Tup (Nillable α) :=
  match b with
  | .defined true => e
  | _ => e.nilLike

/-- candle.rs 482-492, `whenot!`. -/
def whenot (b : Nillable Bool) (e : Tup (Nillable α)) : Tup (Nillable α) :=
  match b with
  | .defined false => e
  | _ => e.nilLike

/-- candle.rs 499-511, `merge!`.  The macro evaluates `$b` twice; the guard is a plain
variable in accepted programs (clockcheck.rs 404-435), so the model evaluates it once. -/
def merge (b : Nillable Bool) (on off : Tup (Nillable α)) : Tup (Nillable α) :=
  match b with
  | .defined true => on
  | .defined false => off
  | .nil => on.nilLike

/-- candle.rs 522-529, `implicit_clock!`: `body` is the rest of the step function, `ty` its
output type; the early return leaves the state `s` untouched. -/
def implicitClock {σ : Type} (inputs : Tup (Nillable α)) (ty : Tup Unit) (s : σ)
    (body : R (Tup (Nillable α) × σ)) : R (Tup (Nillable α) × σ) :=
  if inputs.firstIsNil then .ok (Tup.allNil α ty, s) else body

end Candle
end Chandeliers
