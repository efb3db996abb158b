import Verif.Spec.Std
import Verif.Props.Presence

/-!
# The standard library

C52.
-/

set_option autoImplicit false

namespace Chandeliers.Props
open Chandeliers.San Chandeliers.Spec Chandeliers.Syn Chandeliers.Err

/-! ## The nodes on their own -/

theorem runFrom_cons {m : Machine} {s s₁ s₂ : m.σ} {i o : Value} {is os : List Value}
    (h : m.step s i = .ok (o, s₁)) (hs : m.runFrom s₁ is = .ok (os, s₂)) :
    m.runFrom s (i :: is) = .ok (o :: os, s₂) := by
  simp only [Machine.runFrom, h, hs, bind, Except.bind]

theorem run_of_runFrom {m : Machine} {s : m.σ} {is os : List Value}
    (h : m.runFrom m.init is = .ok (os, s)) : m.run is = .ok os := by
  simp only [Machine.run, h, bind, Except.bind]

theorem wrapped_pointwise {f : Scalar → R Scalar} : ∀ (is : List (Nillable Scalar)) (k : Nat)
    (g : Scalar → Scalar), (∀ x, .defined x ∈ is → f x = .ok (g x)) →
    ∃ k', (wrapExtern (pointwise f)).runFrom ((), k) (is.map .leaf) =
      .ok (is.map fun v => .leaf (v.map g), ((), k'))
  | [], k, g, _ => ⟨k, rfl⟩
  | v :: is, k, g, h => by
    cases v with
    | nil =>
      obtain ⟨k', hk⟩ := wrapped_pointwise is k g fun x hx => h x (by simp [hx])
      refine ⟨k', ?_⟩
      exact runFrom_cons (m := wrapExtern (pointwise f)) (s := ((), k)) rfl hk
    | defined x =>
      obtain ⟨k', hk⟩ := wrapped_pointwise is (k + 1) g fun x hx => h x (by simp [hx])
      refine ⟨k', ?_⟩
      have hs : (wrapExtern (pointwise f)).step ((), k) (.leaf (.defined x)) =
          .ok (.leaf (.defined (g x)), ((), k + 1)) := by
        simp [wrapExtern, pointwise, Candle.implicitClock, Tup.firstIsNil, Tup.first,
          Nillable.firstIsNil, Nillable.unop, h x (by simp), bind, Except.bind, pure, Except.pure,
          Except.map]
      exact runFrom_cons hs hk

theorem wrapped_random {d : Nat → Scalar} : ∀ (is : List (Nillable Scalar)) (k j : Nat),
    ∃ os s', (wrapExtern (random d)).runFrom (k, j) (is.map .leaf) = .ok (os, s') ∧
      os.length = is.length ∧ ∀ (t : Nat) v o, is[t]? = some v → os[t]? = some o →
        o = .leaf (if v = .nil then .nil else .defined (d (k + activeCount (is.take t))))
  | [], k, j => ⟨[], (k, j), rfl, rfl, fun t v o h => by cases h⟩
  | v :: is, k, j => by
    cases v with
    | nil =>
      obtain ⟨os, s', h1, h2, h3⟩ := wrapped_random (d := d) is k j
      refine ⟨.leaf .nil :: os, s', ?_, by simp [h2], ?_⟩
      · exact runFrom_cons (m := wrapExtern (random d)) (s := (k, j)) rfl h1
      · intro t v o hv ho
        cases t with
        | zero => cases hv; cases ho; simp
        | succ t =>
          rw [h3 t v o hv ho]
          simp [activeCount]
    | defined x =>
      obtain ⟨os, s', h1, h2, h3⟩ := wrapped_random (d := d) is (k + 1) (j + 1)
      refine ⟨.leaf (.defined (d k)) :: os, s', ?_, by simp [h2], ?_⟩
      · exact runFrom_cons (m := wrapExtern (random d)) (s := (k, j)) rfl h1
      · intro t v o hv ho
        cases t with
        | zero => cases hv; cases ho; simp [activeCount]
        | succ t =>
          rw [h3 t v o hv ho]
          simp [activeCount, Nat.add_comm, Nat.add_assoc]

/-- C52.  In a linked program, a conversion of the library is what it says, on any history of present
and absent inputs of its type: it never panics, its output is absent where its input is, and elsewhere
it is the conversion of the input of the same instant. -/
theorem C52_conversion (A : Arith) (L : Rust) (G : Draws) {p : SrcProg} {p' : Prog} {w : List Report}
    {I : Items} (h : decl (compile p) = .done w (some p')) (hl : link A (library L G) p'.decls = .ok I)
    {attrs : List Attribute} {f : String} {ins outs : List ArgsTy}
    (hm : ⟨attrs, .extNode f ins outs⟩ ∈ p) {t u : TyBase} (hf : Conversion f t u)
    (is : List (Nillable Scalar)) (hi : ∀ v ∈ is, LeafTy t v) :
    ∃ (m : Machine) (os : List (Nillable Scalar)), I.nodes f = some m ∧
      m.run (is.map .leaf) = .ok (os.map .leaf) ∧
      os.length = is.length ∧ ∀ (k : Nat) v o, is[k]? = some v → os[k]? = some o →
        (v = .nil → o = .nil) ∧ ∀ x, v = .defined x → ∃ y, o = .defined y ∧ Converts L f x y := by
  obtain ⟨-, -, h3⟩ := C47_items A (library L G) h hl
  obtain ⟨m, hm1, hm2⟩ := h3 attrs f ins outs hm
  have key : ∀ (c : Scalar → R Scalar) (g : Scalar → Scalar), m = pointwise c →
      (∀ x, ScalarTy t x → c x = .ok (g x) ∧ Converts L f x (g x)) →
      ∃ (m : Machine) (os : List (Nillable Scalar)), I.nodes f = some m ∧
      m.run (is.map .leaf) = .ok (os.map .leaf) ∧
      os.length = is.length ∧ ∀ (k : Nat) v o, is[k]? = some v → os[k]? = some o →
        (v = .nil → o = .nil) ∧ ∀ x, v = .defined x → ∃ y, o = .defined y ∧ Converts L f x y := by
    intro c g hc hg
    subst hc
    obtain ⟨k', hk⟩ := wrapped_pointwise (f := c) is 0 g fun x hx => (hg x (hi _ hx x rfl)).1
    refine ⟨_, is.map (·.map g), hm2, ?_, by simp, ?_⟩
    · rw [List.map_map]
      exact run_of_runFrom hk
    · intro k v o hv ho
      rw [List.getElem?_map, hv] at ho
      cases ho
      refine ⟨fun e => by subst e; rfl, fun x e => ?_⟩
      subst e
      exact ⟨g x, rfl, (hg x (hi _ (List.mem_of_getElem? hv) x rfl)).2⟩
  cases hf with
  | floatOfInt =>
    refine key _ (fun x => match x with | .int i => .float (L.asFloat i) | x => x)
      (by simpa [library, floatOfInt] using hm1.symm) fun x hx => ?_
    cases x <;> first | exact absurd hx id | exact ⟨rfl, .floatOfInt _⟩
  | intOfFloat =>
    refine key _ (fun x => match x with | .float i => .int (L.asInt i) | x => x)
      (by simpa [library, intOfFloat] using hm1.symm) fun x hx => ?_
    cases x <;> first | exact absurd hx id | exact ⟨rfl, .intOfFloat _⟩
  | ceil =>
    refine key _ (fun x => match x with | .float i => .float (L.ceil i) | x => x)
      (by simpa [library, ceil] using hm1.symm) fun x hx => ?_
    cases x <;> first | exact absurd hx id | exact ⟨rfl, .ceil _⟩
  | floor =>
    refine key _ (fun x => match x with | .float i => .float (L.floor i) | x => x)
      (by simpa [library, floor] using hm1.symm) fun x hx => ?_
    cases x <;> first | exact absurd hx id | exact ⟨rfl, .floor _⟩

/-- C52.  In a linked program, a random node of the library, on any history of present and absent
inputs: it never panics, its output is absent where its input is, and elsewhere it is the next number
drawn for it.  It draws exactly one at each instant where it has an input. -/
theorem C52_random (A : Arith) (L : Rust) (G : Draws) {p : SrcProg} {p' : Prog} {w : List Report}
    {I : Items} (h : decl (compile p) = .done w (some p')) (hl : link A (library L G) p'.decls = .ok I)
    {attrs : List Attribute} {f : String} {ins outs : List ArgsTy}
    (hm : ⟨attrs, .extNode f ins outs⟩ ∈ p) {t : TyBase} {d : Nat → Scalar} (hf : Random G f t d)
    (is : List (Nillable Scalar)) :
    ∃ m os, I.nodes f = some m ∧ m.run (is.map .leaf) = .ok os ∧
      os.length = is.length ∧ ∀ (k : Nat) v o, is[k]? = some v → os[k]? = some o →
        o = .leaf (if v = .nil then .nil else .defined (d (activeCount (is.take k)))) ∧
        ∀ j, ScalarTy t (d j) := by
  obtain ⟨-, -, h3⟩ := C47_items A (library L G) h hl
  obtain ⟨m, hm1, hm2⟩ := h3 attrs f ins outs hm
  have hmd : m = random d ∧ ∀ j, ScalarTy t (d j) := by
    cases hf with
    | int => exact ⟨by simpa [library] using hm1.symm, fun j => trivial⟩
    | float => exact ⟨by simpa [library] using hm1.symm, fun j => trivial⟩
    | bool => exact ⟨by simpa [library] using hm1.symm, fun j => trivial⟩
  obtain ⟨rfl, ht⟩ := hmd
  obtain ⟨os, s', h1, h2, h3⟩ := wrapped_random (d := d) is 0 0
  refine ⟨_, os, hm2, run_of_runFrom h1, h2, fun k v o hv ho => ⟨?_, ht⟩⟩
  have := h3 k v o hv ho
  rwa [Nat.zero_add] at this

/-! ## Programs that use the library -/

theorem steps_respect {m : Machine} {t u : TyTuple}
    (hs : ∀ s i, ValTy t i → ∃ o s', m.step s i = .ok (o, s') ∧ ValTy u o ∧ (Full i → Full o)) :
    ∀ (is : List Value) (s : m.σ), (∀ i ∈ is, ValTy t i) →
      ∃ os s', m.runFrom s is = .ok (os, s') ∧ (∀ o ∈ os, ValTy u o) ∧
        ((∀ i ∈ is, Full i) → ∀ o ∈ os, Full o)
  | [], s, _ => ⟨[], s, rfl, by simp, by simp⟩
  | i :: is, s, h => by
    obtain ⟨o, s₁, h1, h2, h3⟩ := hs s i (h i (by simp))
    obtain ⟨os, s₂, k1, k2, k3⟩ := steps_respect hs is s₁ fun j hj => h j (by simp [hj])
    refine ⟨o :: os, s₂, by simp only [Machine.runFrom, h1, k1, bind, Except.bind], ?_, ?_⟩
    · intro o' ho'
      rcases List.mem_cons.1 ho' with rfl | ho'
      · exact h2
      · exact k2 o' ho'
    · intro hf o' ho'
      rcases List.mem_cons.1 ho' with rfl | ho'
      · exact h3 (hf i (by simp))
      · exact k3 (fun j hj => hf j (by simp [hj])) o' ho'

theorem steps_ok {m : Machine} {t u : TyTuple} (ha : ValTy u (Tup.allNil Scalar m.outTy))
    (hs : ∀ s i, ValTy t i → ∃ o s', m.step s i = .ok (o, s') ∧ ValTy u o ∧ (Full i → Full o)) :
    Respects m t u ∧ Complete m t := by
  refine ⟨⟨fun is hi => ?_, ha⟩, fun is os hi hr => ?_⟩
  · obtain ⟨os, s', k1, k2, -⟩ := steps_respect hs is m.init hi
    refine ⟨fun p hp => ?_, fun os' s'' h => ?_⟩
    · rw [k1] at hp; cases hp
    · rw [k1] at h; cases h; exact k2
  · obtain ⟨os', s', k1, -, k3⟩ := steps_respect hs is m.init fun i h => (hi i h).1
    simp only [Machine.run, k1, bind, Except.bind] at hr
    cases hr
    exact k3 fun i h => (hi i h).2

theorem pointwise_ok {f : Scalar → R Scalar} {t u : TyBase}
    (h : ∀ x, ScalarTy t x → ∃ y, f x = .ok y ∧ ScalarTy u y) :
    Respects (pointwise f) (.single t) (.single u) ∧ Complete (pointwise f) (.single t) := by
  refine steps_ok (fun _ h => by cases h) fun s i hi => ?_
  cases i with
  | tup hd tl => cases hi
  | leaf v =>
    cases v with
    | nil => exact ⟨_, _, rfl, fun _ h => (by cases h), fun h => h⟩
    | defined x =>
      obtain ⟨y, h1, h2⟩ := h x (hi x rfl)
      refine ⟨.leaf (.defined y), s, ?_, fun z hz => by cases hz; exact h2, fun _ => by
        simp [Full, Tup.leaves]⟩
      simp [pointwise, Nillable.unop, h1, bind, Except.bind, pure, Except.pure, Except.map]

theorem random_ok {d : Nat → Scalar} {u : TyBase} (h : ∀ k, ScalarTy u (d k)) :
    Respects (random d) (.multiple []) (.single u) ∧ Complete (random d) (.multiple []) := by
  refine steps_ok (fun _ h => by cases h) fun s i hi => ?_
  cases i with
  | tup hd tl => cases hi
  | leaf v =>
    cases v with
    | nil => exact ⟨_, _, rfl, fun _ h => (by cases h), fun h => h⟩
    | defined x =>
      exact ⟨_, _, rfl, fun z hz => by cases hz; exact h s, fun _ => by simp [Full, Tup.leaves]⟩

/-- C52.  The library is fit for every program that uses nothing else, declared with its types: it has
what the program declares, at the types that it says (so that C28 and C47 apply), and it answers
complete inputs with complete outputs (so that C20 and C30 apply). -/
theorem C52_library (L : Rust) (G : Draws) {p : SrcProg} (h : UsesLibrary p) :
    ExternOk (library L G) p ∧
    ∀ attrs f ins outs m, ⟨attrs, .extNode f ins outs⟩ ∈ p → (library L G).nodes f = some m → ∀ θ,
      Complete m (substTy θ (flatTuple (argTypes ins))) := by
  have key : ∀ f i o, InLibrary f i o → ∃ m, (library L G).nodes f = some m ∧ ∀ θ,
      Respects m (substTy θ (flatTuple i)) (substTy θ (flatTuple o)) ∧
      Complete m (substTy θ (flatTuple i)) := by
    intro f i o hf
    cases hf with
    | conversion hc =>
      cases hc with
      | floatOfInt =>
        refine ⟨floatOfInt L, rfl, fun θ => pointwise_ok (t := .int) (u := .float) fun x hx => ?_⟩
        cases x <;> first | exact absurd hx id | exact ⟨_, rfl, trivial⟩
      | intOfFloat =>
        refine ⟨intOfFloat L, rfl, fun θ => pointwise_ok (t := .float) (u := .int) fun x hx => ?_⟩
        cases x <;> first | exact absurd hx id | exact ⟨_, rfl, trivial⟩
      | ceil =>
        refine ⟨ceil L, rfl, fun θ => pointwise_ok (t := .float) (u := .float) fun x hx => ?_⟩
        cases x <;> first | exact absurd hx id | exact ⟨_, rfl, trivial⟩
      | floor =>
        refine ⟨floor L, rfl, fun θ => pointwise_ok (t := .float) (u := .float) fun x hx => ?_⟩
        cases x <;> first | exact absurd hx id | exact ⟨_, rfl, trivial⟩
    | random hr =>
      cases hr with
      | int => exact ⟨_, rfl, fun θ => random_ok (u := .int) fun k => trivial⟩
      | float => exact ⟨_, rfl, fun θ => random_ok (u := .float) fun k => trivial⟩
      | bool => exact ⟨_, rfl, fun θ => random_ok (u := .bool) fun k => trivial⟩
  refine ⟨⟨fun attrs x ty hm => absurd hm (h.consts attrs x ty), fun attrs f ins outs hm => ?_⟩, ?_⟩
  · obtain ⟨m, h1, h2⟩ := key f _ _ (h.nodes attrs f ins outs hm)
    exact ⟨m, h1, fun θ => (h2 θ).1⟩
  · intro attrs f ins outs m hm hn θ
    obtain ⟨m', h1, h2⟩ := key f _ _ (h.nodes attrs f ins outs hm)
    rw [hn] at h1
    cases h1
    exact (h2 θ).2

/-! ## Example

```
extern node float_of_int(i: int) returns (f: float);
extern node int_of_float(f: float) returns (i: int);
extern node random_int() returns (i: int);
node half(x: int) returns (y: int); let y = int_of_float(float_of_int(x) / 2.0) + random_int(); tel
``` -/

/-- The program. -/
def exHalf : SrcProg := [
  ⟨[], .extNode "float_of_int" [⟨["i"], .int, .implicit⟩] [⟨["f"], .float, .implicit⟩]⟩,
  ⟨[], .extNode "int_of_float" [⟨["f"], .float, .implicit⟩] [⟨["i"], .int, .implicit⟩]⟩,
  ⟨[], .extNode "random_int" [] [⟨["i"], .int, .implicit⟩]⟩,
  ⟨[], .node {
    name := "half"
    inputs := [⟨["x"], .int, .implicit⟩]
    outputs := [⟨["y"], .int, .implicit⟩]
    locals := []
    defs := [.def_ (.var "y") (.left (.call "int_of_float"
      [.left (.call "float_of_int" [.var "x"] false)
        [(.div, .lit (.float (some ⟨0x4000000000000000#64⟩)))]] false)
      [(.add, .call "random_int" [] false)])] }⟩]

theorem exHalf_uses : UsesLibrary exHalf where
  consts := by
    intro attrs x ty h
    simp [exHalf] at h
  nodes := by
    intro attrs f ins outs h
    simp only [exHalf, List.mem_cons, SrcDecl.mk.injEq, reduceCtorEq, and_false, or_false,
      SrcItem.extNode.injEq, List.not_mem_nil] at h
    rcases h with ⟨-, rfl, rfl, rfl⟩ | ⟨-, rfl, rfl, rfl⟩ | ⟨-, rfl, rfl, rfl⟩
    · exact .conversion .floatOfInt
    · exact .conversion .intOfFloat
    · exact .random (G := ⟨fun _ => 0, fun _ => ⟨0⟩, fun _ => true⟩) .int

/-- Operations of Rust to run the example with: the bits of floats are integers. -/
def exRust : Rust where
  asFloat := fun i => ⟨i.toBitVec⟩
  asInt := fun f => .ofBitVec f.bits
  ceil := id
  floor := id

/-- Numbers to run the example with. -/
def exDraws : Draws where
  int := fun k => 10 * Int64.ofNat k
  float := fun _ => ⟨0⟩
  bool := fun _ => true

/-- Non-vacuity of C52: the program is accepted, links with the library and runs. -/
theorem exHalf_runs : runIn (library exRust exDraws) exHalf "half"
    [exInt 1, exInt 5, .leaf .nil, exInt 7] = some [some 1, some 15, none, some 27] := by
  decide +kernel

example : ∃ w p', decl (compile exHalf) = .done w (some p') ∧
    ∃ I, link exArith (library exRust exDraws) p'.decls = .ok I := by
  have h : (itemsOf (library exRust exDraws) exHalf).isSome = true := by
    have := exHalf_runs
    unfold runIn at this
    split at this <;> simp_all
  obtain ⟨I, h⟩ := Option.isSome_iff_exists.1 h
  obtain ⟨w, p', h1, hl⟩ := itemsOf_some h
  exact ⟨w, p', h1, I, hl⟩

end Chandeliers.Props
