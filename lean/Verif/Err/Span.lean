import Verif.Err.Accum

/-!
# Transparent data and spans

Models `chandeliers-err/src/transparent.rs` and `chandeliers-san/src/sp.rs` 43-160.
-/

namespace Chandeliers.Err

/-- transparent.rs 25-28 `Transparent`: a payload, or the place where it was forged. -/
structure Transparent (T : Type) where
  inner : Except String T

namespace Transparent
variable {T : Type}

/-- transparent.rs 102-104 `from`. -/
def of (t : T) : Transparent T := ⟨.ok t⟩

/-- transparent.rs 57-59 `forge`. -/
def forge (loc : String) : Transparent T := ⟨.error loc⟩

/-- transparent.rs 40-48 `unwrap`. -/
def unwrap (x : Transparent T) : Res T :=
  match x.inner with
  | .ok t => .some t
  | .error _ => .abort

/-- transparent.rs 65-74 `try_override_inner`. -/
def tryOverrideInner (x : Transparent (Option T)) (t : T) : Transparent (Option T) :=
  match x.inner with
  | .ok (some _) => x
  | .ok none => ⟨.ok (some t)⟩
  | .error _ => ⟨.ok (some t)⟩

/-- transparent.rs 79-87 `flatten`. -/
def flatten (x : Transparent (Transparent T)) : Transparent T :=
  match x.inner with
  | .ok y => (match y.inner with
    | .ok t => ⟨.ok t⟩
    | .error loc => ⟨.error loc⟩)
  | .error loc => ⟨.error loc⟩

/-- transparent.rs 92-97 `flatten` on options. -/
def flattenOption (x : Transparent (Option T)) : Option (Transparent T) :=
  match x.inner with
  | .ok none => none
  | .ok (some t) => some ⟨.ok t⟩
  | .error loc => some ⟨.error loc⟩

/-- transparent.rs 108-114 `PartialEq`. -/
instance : BEq (Transparent T) := ⟨fun _ _ => true⟩

end Transparent

/-- `std::hash::Hash`: feed a value into a hasher, whose state is the list of words it was
fed. Used by transparent.rs 115-121. -/
class Feed (T : Type) where
  feed : T → List UInt64 → List UInt64

/-- transparent.rs 118-121 `Hash`. -/
instance {T : Type} : Feed (Transparent T) := ⟨fun _ h => h⟩

/-- `Span` of chandeliers-err: a transparent span of the source; any type of spans.
It is transparent.rs 24-28 with `proc_macro2::Span`. -/
abbrev Span (P : Type) := Transparent P

/-- sp.rs 44-49 `Sp`. -/
structure Sp (P T : Type) where
  t : T
  span : Span P

namespace Sp
variable {P T U : Type}

/-- sp.rs 42 `#[derive(PartialEq)]`: field by field. -/
instance [BEq T] : BEq (Sp P T) := ⟨fun a b => a.t == b.t && a.span == b.span⟩

/-- sp.rs 42 `#[derive(Hash)]`: field by field. -/
instance [Feed T] : Feed (Sp P T) := ⟨fun a h => Feed.feed a.span (Feed.feed a.t h)⟩

/-- sp.rs 89-97 `map`. -/
def map (x : Sp P T) (f : Span P → T → U) : Sp P U := ⟨f x.span x.t, x.span⟩

/-- sp.rs 107-110 `with_span`. -/
def withSpan (x : Sp P T) (s : Span P) : Sp P T := ⟨x.t, s⟩

/-- sp.rs 125-130 `transpose`. -/
def transpose (x : Sp P (Option T)) : Option (Sp P T) :=
  match x.t with
  | some t => some ⟨t, x.span⟩
  | none => none

end Sp

/-- Simplification of `std::collections::HashMap`: buckets chosen by the hash of the key,
searched by equality.
Used with keys that carry spans: typecheck.rs 56-70, clockcheck.rs 89-91, causality/graph.rs 91-99. -/
structure HashMap (K V : Type) where
  buckets : Nat → List (K × V)

namespace HashMap
variable {K V : Type} [BEq K] [Feed K]

/-- The bucket of a key, for any way `finish` to condense what the hasher was fed.
Auxiliary, for typecheck.rs 56-70. -/
def index (finish : List UInt64 → Nat) (k : K) : Nat := finish (Feed.feed k [])

/-- `HashMap::new`. E.g. typecheck.rs 79-83. -/
def empty : HashMap K V := ⟨fun _ => []⟩

/-- `HashMap::insert`. E.g. causality/graph.rs 227. -/
def insert (finish : List UInt64 → Nat) (m : HashMap K V) (k : K) (v : V) : HashMap K V :=
  ⟨fun i => if i = index finish k then
      (k, v) :: (m.buckets i).filter (fun e => !(e.1 == k)) else m.buckets i⟩

/-- `HashMap::get`. E.g. causality/graph.rs 222. -/
def get (finish : List UInt64 → Nat) (m : HashMap K V) (k : K) : Option V :=
  ((m.buckets (index finish k)).find? (fun e => e.1 == k)).map (·.2)

/-- A map built by successive insertions. E.g. typecheck.rs 797-812. -/
def build (finish : List UInt64 → Nat) : List (K × V) → HashMap K V
  | [] => empty
  | (k, v) :: kvs => insert finish (build finish kvs) k v

end HashMap
end Chandeliers.Err
