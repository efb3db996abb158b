import Verif.Lemmas.Parametric
import Verif.Props.Program

/-!
# Generic nodes

C57.
-/

set_option autoImplicit false

namespace Chandeliers.Spec
open Chandeliers.San Chandeliers.Syn

/-- The external nodes that are declared with type variables do not look at their values. -/
def ExternParametric (X : Extern) (p : SrcProg) : Prop :=
  ∀ attrs f ins outs m, ⟨attrs, .extNode f ins outs⟩ ∈ p → X.nodes f = some m →
    (∃ g, .other g ∈ argTypes ins ++ argTypes outs) →
    Parametric m (flatTuple (argTypes ins)) (flatTuple (argTypes outs))

end Chandeliers.Spec

namespace Chandeliers.Par
open Chandeliers.San Chandeliers.Spec Chandeliers.Rep

/-! ## Types without variables -/

mutual
theorem subst_closed (θ : Subst) : (t : TyTuple) → tyVars t = [] → substTy θ t = t
  | .single t, h => by cases t <;> first | rfl | simp [tyVars, baseVars] at h
  | .multiple ts, h => by simp only [substTy, substs_closed θ ts h]
theorem substs_closed (θ : Subst) : (ts : List TyTuple) → tyVarsList ts = [] → substTys θ ts = ts
  | [], _ => rfl
  | t :: ts, h => by
    simp only [tyVarsList, List.append_eq_nil_iff] at h
    simp only [substTys, subst_closed θ t h.1, substs_closed θ ts h.2]
end

mutual
theorem valRel_closed {η : Interp} : (t : TyTuple) → tyVars t = [] → {v w : Value} →
    (ValRel η t v w ↔ v = w ∧ ValTy t v)
  | .single t, ht, v, w => by
    have hb : ∀ g, t ≠ .other g := by rintro g rfl; simp [tyVars, baseVars] at ht
    cases v <;> cases w <;> simp [ValRel, ValTy, leafRel_base hb]
  | .multiple [], _, v, w => by
    cases v <;> cases w <;> simp [ValRel, ValTy]
  | .multiple [t], ht, v, w => by
    simp only [ValRel, ValTy]
    exact valRel_closed t (by simpa [tyVars, tyVarsList] using ht)
  | .multiple (t :: u :: ts), ht, v, w => by
    simp only [tyVars, tyVarsList, List.append_eq_nil_iff] at ht
    have h1 := fun {v w : Value} => valRel_closed (η := η) t ht.1 (v := v) (w := w)
    have h2 := fun {v w : List Value} => valRels_closed (η := η) (u :: ts)
      (by simp [tyVarsList, ht.2]) (vs := v) (ws := w)
    cases v <;> cases w <;> simp [ValRel, ValTy, h1, h2]
    constructor
    · rintro ⟨⟨a, b⟩, c, d⟩; exact ⟨⟨a, c⟩, b, d⟩
    · rintro ⟨⟨a, c⟩, b, d⟩; exact ⟨⟨a, b⟩, c, d⟩
theorem valRels_closed {η : Interp} : (ts : List TyTuple) → tyVarsList ts = [] →
    {vs ws : List Value} → (ValRels η ts vs ws ↔ vs = ws ∧ ValTys ts vs)
  | [], _, vs, ws => by cases vs <;> cases ws <;> simp [ValRels, ValTys]
  | t :: ts, ht, vs, ws => by
    simp only [tyVarsList, List.append_eq_nil_iff] at ht
    cases vs <;> cases ws <;>
      simp [ValRels, ValTys, valRel_closed t ht.1, valRels_closed ts ht.2]
    constructor
    · rintro ⟨⟨a, b⟩, c, d⟩; exact ⟨⟨a, c⟩, b, d⟩
    · rintro ⟨⟨a, c⟩, b, d⟩; exact ⟨⟨a, b⟩, c, d⟩
end

theorem forall₂_eq {α : Type} {Q : α → Prop} {l k : List α} :
    List.Forall₂ (fun a b => a = b ∧ Q a) l k ↔ l = k ∧ ∀ a ∈ l, Q a := by
  constructor
  · intro h
    induction h with
    | nil => simp
    | cons h _ ih =>
      obtain ⟨rfl, h⟩ := h
      refine ⟨by rw [ih.1], fun a ha => ?_⟩
      rcases List.mem_cons.1 ha with rfl | ha
      · exact h
      · exact ih.2 a ha
  · rintro ⟨rfl, h⟩
    exact List.forall₂_same.2 fun a ha => ⟨rfl, h a ha⟩

/-- A node whose type has no variables has nothing to hide. -/
theorem parametric_closed {m : Machine} {t u : TyTuple} (ht : tyVars t = []) (hu : tyVars u = [])
    (h : Respects m t u) : Parametric m t u := by
  refine ⟨fun η is is' hi => ?_, fun η => (valRel_closed u hu).2 ⟨rfl, h.absent⟩⟩
  have hi' := hi.imp fun _ _ => (valRel_closed t ht).1
  obtain ⟨rfl, hty⟩ := forall₂_eq.1 hi'
  have hs := h.safe is hty
  unfold Machine.run
  cases hr : m.runFrom m.init is with
  | error p => rfl
  | ok q =>
    refine List.Forall₂.imp (fun _ _ => (valRel_closed u hu).2) (forall₂_eq.2 ⟨rfl, ?_⟩)
    exact hs.2 q.1 q.2 hr

theorem vars_flat (ts : List TyBase) : tyVars (flatTuple ts) = ts.flatMap baseVars := by
  have key : ∀ ts : List TyBase, tyVarsList (ts.map .single) = ts.flatMap baseVars := by
    intro ts
    induction ts with
    | nil => rfl
    | cons t ts ih => simp [tyVarsList, tyVars, ih]
  rcases ts with _ | ⟨t, _ | ⟨u, ts⟩⟩
  · rfl
  · simp [flatTuple, tyVars]
  · simp only [flatTuple, tyVars]; exact key _

theorem closed_flat {ts : List TyBase} (h : ∀ g, .other g ∉ ts) : tyVars (flatTuple ts) = [] := by
  rw [vars_flat, List.flatMap_eq_nil_iff]
  intro t ht
  cases t with
  | other g => exact absurd ht (h g)
  | _ => rfl

/-! ## Changing values -/

mutual
theorem valRel_intro {η : Interp} {φ : String → Scalar → Scalar} {θ : Subst} : (t : TyTuple) →
    {v : Value} → ValTy (substTy θ t) v → (∀ g, ∀ x ∈ valuesAt g t v, η g x (φ g x)) →
    ValRel η t v (mapVal φ t v)
  | .single t, .leaf v, h, hη => by
    simp only [mapVal, ValRel]
    cases v with
    | nil => cases t <;> simp [mapLeaf, LeafRel]
    | defined x =>
      cases t with
      | other g => exact hη g x (by simp [valuesAt])
      | _ => exact ⟨rfl, leafTy_defined.1 h⟩
  | .single _, .tup _ _, h, _ => by simp [substTy, ValTy] at h
  | .multiple [], .leaf v, h, _ => by
    simp only [substTy, substTys, ValTy] at h
    simpa [mapVal, ValRel] using h
  | .multiple [], .tup _ _, h, _ => by simp [substTy, substTys, ValTy] at h
  | .multiple [t], v, h, hη => by
    simp only [substTy, substTys, ValTy] at h
    simp only [mapVal, ValRel]
    exact valRel_intro t h (by simpa only [valuesAt] using hη)
  | .multiple (t :: u :: ts), .tup a l, h, hη => by
    simp only [substTy, substTys, ValTy] at h
    simp only [valuesAt, List.mem_append] at hη
    simp only [mapVal, ValRel]
    exact ⟨valRel_intro t h.1 fun g x hx => hη g x (.inl hx),
      valRels_intro (u :: ts) h.2 fun g x hx => hη g x (.inr hx)⟩
  | .multiple (_ :: _ :: _), .leaf _, h, _ => by simp [substTy, substTys, ValTy] at h
theorem valRels_intro {η : Interp} {φ : String → Scalar → Scalar} {θ : Subst} :
    (ts : List TyTuple) → {vs : List Value} → ValTys (substTys θ ts) vs →
    (∀ g, ∀ x ∈ valuesAtAll g ts vs, η g x (φ g x)) → ValRels η ts vs (mapVals φ ts vs)
  | [], [], _, _ => by simp [mapVals, ValRels]
  | t :: ts, v :: vs, h, hη => by
    simp only [substTys, ValTys] at h
    simp only [valuesAtAll, List.mem_append] at hη
    simp only [mapVals, ValRels]
    exact ⟨valRel_intro t h.1 fun g x hx => hη g x (.inl hx),
      valRels_intro ts h.2 fun g x hx => hη g x (.inr hx)⟩
  | [], _ :: _, h, _ => by simp [substTys, ValTys] at h
  | _ :: _, [], h, _ => by simp [substTys, ValTys] at h
end

mutual
theorem valRel_map {η : Interp} {φ : String → Scalar → Scalar}
    (hη : ∀ g x y, η g x y → y = φ g x) : (t : TyTuple) → {v w : Value} → ValRel η t v w →
    w = mapVal φ t v
  | .single t, .leaf v, .leaf w, h => by
    simp only [ValRel] at h
    simp only [mapVal]
    congr 1
    cases v with
    | nil =>
      cases w with
      | nil => cases t <;> rfl
      | defined y => exact h.elim
    | defined x =>
      cases w with
      | nil => exact h.elim
      | defined y =>
        cases t with
        | other g => exact congrArg _ (hη g _ _ h)
        | _ => exact congrArg _ h.1.symm
  | .single _, .tup _ _, _, h => by simp [ValRel] at h
  | .single _, .leaf _, .tup _ _, h => by simp [ValRel] at h
  | .multiple [], .leaf v, .leaf w, h => by
    simp only [ValRel] at h
    simp [mapVal, h.1]
  | .multiple [], .tup _ _, _, h => by simp [ValRel] at h
  | .multiple [], .leaf _, .tup _ _, h => by simp [ValRel] at h
  | .multiple [t], v, w, h => by
    simp only [ValRel] at h
    simp only [mapVal]
    exact valRel_map hη t h
  | .multiple (t :: u :: ts), .tup a l, .tup b k, h => by
    simp only [ValRel] at h
    simp only [mapVal]
    rw [valRel_map hη t h.1, valRels_map hη (u :: ts) h.2]
  | .multiple (_ :: _ :: _), .leaf _, _, h => by simp [ValRel] at h
  | .multiple (_ :: _ :: _), .tup _ _, .leaf _, h => by simp [ValRel] at h
theorem valRels_map {η : Interp} {φ : String → Scalar → Scalar}
    (hη : ∀ g x y, η g x y → y = φ g x) : (ts : List TyTuple) → {vs ws : List Value} →
    ValRels η ts vs ws → ws = mapVals φ ts vs
  | [], [], [], _ => by simp [mapVals]
  | t :: ts, v :: vs, w :: ws, h => by
    simp only [ValRels] at h
    simp only [mapVals]
    rw [valRel_map hη t h.1, valRels_map hη ts h.2]
  | [], _ :: _, _, h => by simp [ValRels] at h
  | [], [], _ :: _, h => by simp [ValRels] at h
  | _ :: _, [], _, h => by simp [ValRels] at h
  | _ :: _, _ :: _, [], h => by simp [ValRels] at h
end

mutual
theorem valRel_at {η : Interp} {g : String} {x : Scalar} : (t : TyTuple) → {v w : Value} →
    ValRel η t v w → x ∈ valuesAt g t v → ∃ y, η g x y
  | .single t, .leaf v, .leaf w, h, hx => by
    simp only [ValRel] at h
    cases t with
    | other g' =>
      cases v with
      | nil => simp [valuesAt] at hx
      | defined z =>
        simp only [valuesAt] at hx
        split at hx
        · rename_i e
          subst e
          rw [List.mem_singleton] at hx
          subst hx
          cases w with
          | nil => exact h.elim
          | defined y => exact ⟨y, h⟩
        · simp at hx
    | _ => simp [valuesAt] at hx
  | .single _, .tup _ _, _, h, _ => by simp [ValRel] at h
  | .single _, .leaf _, .tup _ _, h, _ => by simp [ValRel] at h
  | .multiple [], v, w, h, hx => by simp [valuesAt] at hx
  | .multiple [t], v, w, h, hx => by
    simp only [ValRel] at h
    simp only [valuesAt] at hx
    exact valRel_at t h hx
  | .multiple (t :: u :: ts), .tup a l, .tup b k, h, hx => by
    simp only [ValRel] at h
    simp only [valuesAt, List.mem_append] at hx
    rcases hx with hx | hx
    · exact valRel_at t h.1 hx
    · exact valRels_at (u :: ts) h.2 hx
  | .multiple (_ :: _ :: _), .leaf _, _, h, _ => by simp [ValRel] at h
  | .multiple (_ :: _ :: _), .tup _ _, .leaf _, h, _ => by simp [ValRel] at h
theorem valRels_at {η : Interp} {g : String} {x : Scalar} : (ts : List TyTuple) →
    {vs ws : List Value} → ValRels η ts vs ws → x ∈ valuesAtAll g ts vs → ∃ y, η g x y
  | [], vs, ws, h, hx => by simp [valuesAtAll] at hx
  | t :: ts, v :: vs, w :: ws, h, hx => by
    simp only [ValRels] at h
    simp only [valuesAtAll, List.mem_append] at hx
    rcases hx with hx | hx
    · exact valRel_at t h.1 hx
    · exact valRels_at ts h.2 hx
  | _ :: _, [], _, h, _ => by simp [ValRels] at h
  | _ :: _, _ :: _, [], h, _ => by simp [ValRels] at h
end

theorem runFrom_length {m : Machine} : ∀ {is os : List Value} {s s' : m.σ},
    m.runFrom s is = .ok (os, s') → os.length = is.length
  | [], os, s, s', h => by cases h; rfl
  | i :: is, os, s, s', h => by
    simp only [Machine.runFrom] at h
    cases h1 : m.step s i with
    | error p => rw [h1] at h; cases h
    | ok q =>
      rw [h1] at h
      change (m.runFrom q.2 is >>= _) = _ at h
      cases h2 : m.runFrom q.2 is with
      | error p => rw [h2] at h; cases h
      | ok r =>
        rw [h2] at h
        cases h
        simp [runFrom_length (s' := r.2) (os := r.1) h2]

/-- The outputs so far do not depend on what comes next. -/
theorem run_take {m : Machine} {is os : List Value} (h : m.run is = .ok os) (k : Nat) :
    m.run (is.take k) = .ok (os.take k) := by
  unfold Machine.run at h ⊢
  have e := runFrom_append m (is.take k) (is.drop k) m.init
  rw [List.take_append_drop] at e
  rw [e] at h
  cases h1 : m.runFrom m.init (is.take k) with
  | error p => rw [h1] at h; cases h
  | ok q =>
    rw [h1] at h
    have hl := runFrom_length (s' := q.2) (os := q.1) h1
    change ((m.runFrom q.2 (is.drop k) >>= _) >>= _) = _ at h
    cases h2 : m.runFrom q.2 (is.drop k) with
    | error p => rw [h2] at h; cases h
    | ok r =>
      rw [h2] at h
      have : q.1 ++ r.1 = os := by cases h; rfl
      subst this
      have hl2 := runFrom_length (s' := r.2) (os := r.1) h2
      show Except.ok q.1 = _
      congr 1
      simp only [List.length_take, List.length_drop] at hl hl2
      rw [List.take_append]
      by_cases hk : k ≤ is.length
      · rw [List.take_of_length_le (by omega), show k - q.1.length = 0 by omega]; simp
      · have : r.1 = [] := List.length_eq_zero_iff.1 (by omega)
        rw [List.take_of_length_le (by omega), this]; simp

end Chandeliers.Par

namespace Chandeliers.Props
open Chandeliers.San Chandeliers.Spec Chandeliers.Syn Chandeliers.Err Chandeliers.Par Chandeliers.Prg

/-- C57.  A node whose subnodes do not look at the values of their type variables does not look at
the values of its own. -/
theorem C57_node {A : Arith} {glob : Globals} {ms : List Machine} {sigs : String → Option Sig}
    {consts : String → Option TyBase} {n : Node} (hw : ∀ f s, sigs f = some s → s.Wf)
    (h : CodegenReady sigs consts n) (hc : ConstsOk consts glob)
    (hs : ∀ (i : Nat) (b : NodeInstance), n.blocks[i]? = some b → ∃ m gens ins outs,
      ms[i]? = some m ∧ sigs b.name = some (gens, ins, outs) ∧
      Parametric m (flatTuple ins) (flatTuple outs)) :
    Parametric (n.machine A glob ms) (flatTuple (n.inputs.map (·.ty)))
      (flatTuple (n.outputs.map (·.ty))) :=
  node_parametric hw h hc hs

/-- C57.  In a program that the compiler accepts, linked with external items that are what it says
and do not look at the values of their type variables, no node looks at the values of its type
variables. -/
theorem C57_program (A : Arith) (X : Extern) {p : SrcProg} {p' : Prog} {w : List Report}
    {I : Items} (h : decl (compile p) = .done w (some p')) (hX : ExternOk X p)
    (hP : ExternParametric X p) (hg : DistinctGenerics p)
    (hr : ∀ n, .node n ∈ p'.decls → InputClocks n ∧ FlatRegisters n)
    (hl : link A X p'.decls = .ok I) {attrs : List Attribute} {src : SrcNode}
    (hm : ⟨attrs, .node src⟩ ∈ p) : ∃ m, I.nodes src.name = some m ∧
      Parametric m (flatTuple (argTypes src.inputs)) (flatTuple (argTypes src.outputs)) := by
  obtain ⟨q, hq, hp⟩ := accepted_passes h
  obtain ⟨hlc, hln⟩ := link_ok hl
  rcases linkConsts_typed (A := A) (X := X) hp
      (fun a x t hm => hX.consts a x t (hq.mem_iff.1 hm)) (g := fun _ => none)
      (fun x t h => by cases h) with he | ⟨g, h1, h2, h3, h4⟩
  · rw [hlc] at he; cases he
  · rw [hlc] at h1
    cases h1
    obtain ⟨N, k1, -, k3⟩ := linkNodes_have (A := A) (X := X) (g := I.consts) (P := Parametric)
      (fun hw hr hc hs => node_parametric hw hr hc hs) (fun h => wrapExtern_parametric h) hp
      (fun d hm => hg d (hq.mem_iff.1 hm))
      (fun a f i o hm => by
        obtain ⟨m, e1, e2⟩ := hX.nodes a f i o (hq.mem_iff.1 hm)
        refine ⟨m, e1, ?_⟩
        by_cases hv : ∃ g, .other g ∈ argTypes i ++ argTypes o
        · exact hP a f i o m (hq.mem_iff.1 hm) e1 hv
        · rw [not_exists] at hv
          simp only [List.mem_append, not_or] at hv
          have c1 := closed_flat fun g => (hv g).1
          have c2 := closed_flat fun g => (hv g).2
          have := e2 fun _ => .int
          rw [subst_closed _ _ c1, subst_closed _ _ c2] at this
          exact parametric_closed c1 c2 this)
      (fun x t h => by cases h) h3 h4 hr (N := fun _ => none) (fun f s h => by cases h)
    rw [hln] at k1
    cases k1
    exact k3 attrs src (hq.mem_iff.2 hm)

/-- C57.  Such a node commutes with any change of the values of its type variables: run on the
changed inputs it returns the changed outputs, or panics in the same way.  The inputs are of some
instance of the type of the node. -/
theorem C57_map {m : Machine} {t u : TyTuple} (h : Parametric m t u)
    (φ : String → Scalar → Scalar) {θ : Subst} {is : List Value}
    (hi : ∀ i ∈ is, ValTy (substTy θ t) i) :
    m.run (is.map (mapVal φ t)) = (m.run is).map (List.map (mapVal φ u)) := by
  have := h.runs (fun g x y => y = φ g x) is (is.map (mapVal φ t))
    (List.forall₂_map_right_iff.2 (List.forall₂_same.2 fun v hv =>
      valRel_intro t (hi v hv) fun _ _ _ => rfl))
  cases h1 : m.run is <;> cases h2 : m.run (is.map (mapVal φ t)) <;> rw [h1, h2] at this
  · cases (this : _ = _); rfl
  · exact this.elim
  · exact this.elim
  · rename_i os os'
    have key : os' = os.map (mapVal φ u) := by
      change List.Forall₂ _ _ _ at this
      clear h1 h2
      induction this with
      | nil => rfl
      | cons h _ ih => rw [List.map_cons, ← ih, valRel_map (fun _ _ _ h => h) u h]
    rw [key]; rfl

/-- C57.  Such a node makes up no value of its type variables: at every instant, a value that it
returns at the type of a variable is one that it was given at that type, then or before. -/
theorem C57_nothing_new {m : Machine} {t u : TyTuple} (h : Parametric m t u) {θ : Subst}
    {is os : List Value} (hi : ∀ i ∈ is, ValTy (substTy θ t) i) (hr : m.run is = .ok os)
    {k : Nat} {o : Value} (ho : os[k]? = some o) {g : String} {x : Scalar}
    (hx : x ∈ valuesAt g u o) :
    ∃ j i, j ≤ k ∧ is[j]? = some i ∧ x ∈ valuesAt g t i := by
  have := h.runs (fun g x y => ∃ i ∈ is.take (k + 1), x ∈ valuesAt g t i) (is.take (k + 1))
    ((is.take (k + 1)).map (mapVal (fun _ x => x) t))
    (List.forall₂_map_right_iff.2 (List.forall₂_same.2 fun v hv =>
      valRel_intro t (hi v (List.mem_of_mem_take hv)) fun g x hx => ⟨v, hv, hx⟩))
  rw [run_take hr] at this
  cases h2 : m.run ((is.take (k + 1)).map (mapVal (fun _ x => x) t)) with
  | error p => rw [h2] at this; exact this.elim
  | ok os' =>
    rw [h2] at this
    change List.Forall₂ _ _ _ at this
    have ho' : o ∈ os.take (k + 1) := by
      obtain ⟨hk, rfl⟩ := List.getElem?_eq_some_iff.1 ho
      exact List.mem_take_iff_getElem.2 ⟨k, by omega, rfl⟩
    obtain ⟨n, hn, rfl⟩ := List.mem_iff_getElem.1 ho'
    have hn' : n < os'.length := this.length_eq ▸ hn
    obtain ⟨y, i, h3, h4⟩ := valRel_at u (this.get hn hn') hx
    obtain ⟨j, hj, rfl⟩ := List.mem_take_iff_getElem.1 h3
    exact ⟨j, is[j], by omega, by simp, h4⟩

/-! ## Example -/

/-- ```
#[generic[T]] node delay(i: T) returns (o: T); let o = i fby i; tel
#[generic[U]] node pick(c: bool; a, b: U) returns (o: U; n: int);
let o = if c then delay(a) else b; n = 0 fby (n + 1); tel
``` -/
def exPick : SrcProg := [
  ⟨[⟨"generic", ["T"], [], 1⟩], .node {
    name := "delay"
    inputs := [⟨["i"], .other "T", .implicit⟩]
    outputs := [⟨["o"], .other "T", .implicit⟩]
    locals := []
    defs := [.def_ (.var "o") (.fby (.var "i") [.var "i"])] }⟩,
  ⟨[⟨"generic", ["U"], [], 2⟩], .node {
    name := "pick"
    inputs := [⟨["c"], .bool, .implicit⟩, ⟨["a", "b"], .other "U", .implicit⟩]
    outputs := [⟨["o"], .other "U", .implicit⟩, ⟨["n"], .int, .implicit⟩]
    locals := []
    defs := [.def_ (.var "o") (.ifx (.var "c") (.call "delay" [.var "a"] false) (.var "b")),
      .def_ (.var "n") (.fby (.lit (.int 0)) [.paren [.left (.var "n") [(.add, .lit (.int 1))]] false])] }⟩]

/-- No external items. -/
def exNone : Extern := ⟨fun _ => none, fun _ => none⟩

/-- Inputs of `pick`. -/
def exPickIn (c : Bool) (a b : Scalar) : Value :=
  .tup (.leaf (.defined (.bool c))) [.leaf (.defined a), .leaf (.defined b)]

/-- The inputs of `pick` of an example. -/
def exPickIns (f : Int64 → Scalar) : List Value :=
  [exPickIn true (f 1) (f 2), exPickIn false (f 3) (f 4), exPickIn true (f 5) (f 6)]

/-- The outputs of `pick`, if both are integers. -/
def exPickOut : Value → Option (Int × Int)
  | .tup a [b] => do return (← asInt a, ← asInt b)
  | _ => none

/-- What `pick` returns on integers. -/
def exPickRun : Option (List (Option (Int × Int))) :=
  match itemsOf exNone exPick with
  | none => none
  | some I =>
    match I.nodes "pick" with
    | none => none
    | some m => (m.run (exPickIns .int)).toOption.map fun os => os.map exPickOut

theorem exPick_runs : exPickRun = some [some (1, 0), some (4, 1), some (3, 2)] := by
  decide +kernel

/-- Non-vacuity of C57: the program is accepted and linked, `pick` runs on integers, and it is
parametric, so that it returns the corresponding outputs on floats. -/
example : ∃ w p' I m os, decl (compile exPick) = .done w (some p') ∧
    link exArith exNone p'.decls = .ok I ∧ I.nodes "pick" = some m ∧
    m.run (exPickIns .int) = .ok os ∧
    os.map exPickOut = [some (1, 0), some (4, 1), some (3, 2)] ∧
    ∀ φ : Int64 → F64, m.run (exPickIns fun i => .float (φ i)) =
      .ok (os.map (mapVal (fun _ s => match s with | .int i => .float (φ i) | s => s)
        (.multiple [.single (.other "U"), .single .int]))) := by
  have h := exPick_runs
  unfold exPickRun at h
  split at h
  · cases h
  · rename_i I hI
    obtain ⟨w, p', h1, hl⟩ := itemsOf_some hI
    split at h
    · cases h
    · rename_i m hm
      cases hr : m.run (exPickIns .int) with
      | error p => rw [hr] at h; cases h
      | ok os =>
        rw [hr] at h
        refine ⟨w, p', I, m, os, h1, hl, hm, hr, Option.some.inj h, fun φ => ?_⟩
        obtain ⟨m', hm', hP⟩ := C57_program exArith exNone h1
          ⟨by intro a x t h; simp [exPick] at h, by intro a f i o h; simp [exPick] at h⟩
          (by intro a f i o m h; simp [exPick] at h)
          (by
            intro d hd
            simp only [exPick, List.mem_cons, List.not_mem_nil, or_false] at hd
            rcases hd with rfl | rfl <;> decide)
          (fun n hn => by
            obtain ⟨q, hq, hp⟩ := accepted_passes h1
            obtain ⟨a, src, sigs, consts, k1, k2⟩ := passes_to_node hp hn
            rw [show (meaning a).universalPre = false by
              have := hq.mem_iff.1 k1
              simp only [exPick, List.mem_cons, List.not_mem_nil, or_false] at this
              rcases this with h | h <;> cases h <;> decide] at k2
            exact passes_default k2)
          hl (List.mem_cons_of_mem _ (List.mem_singleton.2 rfl))
        rw [show I.nodes _ = some m from hm] at hm'
        cases hm'
        have := C57_map hP (fun _ s => match s with | .int i => .float (φ i) | s => s)
          (θ := fun _ => .int) (is := exPickIns .int) (by
            intro i hi
            simp only [exPickIns, List.mem_cons, List.not_mem_nil, or_false] at hi
            rcases hi with rfl | rfl | rfl <;>
              simp [exPickIn, argTypes, flatTuple, substTy, substTys, substBase, ValTy, ValTys,
                leafTy_defined, ScalarTy])
        rw [hr] at this
        exact this

end Chandeliers.Props
