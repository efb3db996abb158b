import Verif.San.Typecheck
import Verif.Spec.Types

/-! # Unification of types -/

set_option autoImplicit false
set_option linter.unusedSectionVars false

namespace Chandeliers.San
open Chandeliers.Err Chandeliers.Err.Chk Chandeliers.Spec

/-- The mapping is over these type variables. -/
def TyUnifier.Wf (gens : List String) : TyUnifier → Prop
  | .mapping idx subst =>
    (∀ x i, idx x = some i ↔ gens[i]? = some x) ∧ subst.length = gens.length
  | _ => False

/-- The type chosen so far for a variable. -/
def TyUnifier.val : TyUnifier → String → Option TyBase
  | .mapping idx subst, x => (idx x).bind fun i => (subst[i]?).join
  | _, _ => none

theorem insertGenerics_spec : ∀ (gs pre : List String) (idx idx' : String → Option Nat),
    (∀ x i, idx x = some i ↔ pre[i]? = some x) →
    insertGenerics pre.length gs idx = some idx' →
    ∀ x i, idx' x = some i ↔ (pre ++ gs)[i]? = some x
  | [], pre, idx, idx', h, he => by
    cases he; simpa using h
  | g :: gs, pre, idx, idx', h, he => by
    unfold insertGenerics at he
    cases hg : idx g with
    | some j => rw [hg] at he; cases he
    | none =>
      rw [hg] at he
      have hpre : ∀ x i, (fun x => if x = g then some pre.length else idx x) x = some i ↔
          (pre ++ [g])[i]? = some x := by
        intro x i
        have hnone : ∀ i, pre[i]? ≠ some g := fun i hi => by
          rw [(h g i).2 hi] at hg; cases hg
        rw [List.getElem?_append]
        by_cases hx : x = g
        · subst hx
          simp only [if_true, Option.some.injEq]
          by_cases hi : i < pre.length
          · simp only [hi, if_true]
            exact ⟨fun e => by omega, fun e => absurd e (hnone i)⟩
          · simp only [hi, if_false]
            constructor
            · rintro rfl; simp
            · intro e
              have := (List.getElem?_eq_some_iff.1 e).1
              simp at this; omega
        · simp only [hx, if_false, h x i]
          by_cases hi : i < pre.length
          · simp [hi]
          · simp only [hi, if_false]
            constructor
            · intro e
              have := (List.getElem?_eq_some_iff.1 e).1
              omega
            · intro e
              obtain ⟨h1, h2⟩ := List.getElem?_eq_some_iff.1 e
              simp at h2
              exact absurd h2.symm hx
      have := insertGenerics_spec gs (pre ++ [g]) _ idx' hpre (by
        simpa using he)
      simpa using this

theorem insertGenerics_ok : ∀ (gs : List String) (n : Nat) (idx : String → Option Nat),
    gs.Nodup → (∀ x ∈ gs, idx x = none) → ∃ idx', insertGenerics n gs idx = some idx'
  | [], n, idx, _, _ => ⟨idx, rfl⟩
  | g :: gs, n, idx, hn, h => by
    unfold insertGenerics
    rw [h g (by simp)]
    rw [List.nodup_cons] at hn
    refine insertGenerics_ok gs _ _ hn.2 fun x hx => ?_
    have : x ≠ g := fun e => hn.1 (e ▸ hx)
    simp [this, h x (by simp [hx])]

theorem fromGenerics_wf {gens : List String} {u : TyUnifier}
    (h : TyUnifier.fromGenerics gens = some u) : u.Wf gens ∧ ∀ x, u.val x = none := by
  unfold TyUnifier.fromGenerics at h
  cases hi : insertGenerics 0 gens (fun _ => none) with
  | none => rw [hi] at h; cases h
  | some idx =>
    rw [hi] at h
    cases h
    refine ⟨⟨insertGenerics_spec gens [] _ idx (by simp) hi, by simp⟩, fun x => ?_⟩
    simp only [TyUnifier.val]
    cases idx x with
    | none => rfl
    | some i =>
      simp only [Option.bind_some, List.getElem?_map]
      cases gens[i]? <;> rfl

theorem fromGenerics_ok {gens : List String} (h : gens.Nodup) :
    ∃ u, TyUnifier.fromGenerics gens = some u := by
  obtain ⟨idx, hi⟩ := insertGenerics_ok gens 0 (fun _ => none) h (fun _ _ => rfl)
  exact ⟨_, by unfold TyUnifier.fromGenerics; rw [hi]; rfl⟩

theorem insertGenerics_nodup : ∀ (gs : List String) (n : Nat) (idx idx' : String → Option Nat),
    insertGenerics n gs idx = some idx' → gs.Nodup ∧ ∀ x ∈ gs, idx x = none
  | [], n, idx, idx', _ => by simp
  | g :: gs, n, idx, idx', h => by
    unfold insertGenerics at h
    cases hg : idx g with
    | some j => rw [hg] at h; cases h
    | none =>
      rw [hg] at h
      obtain ⟨h1, h2⟩ := insertGenerics_nodup gs _ _ _ h
      have hne : ∀ x ∈ gs, x ≠ g ∧ idx x = none := fun x hx => by
        have := h2 x hx
        by_cases e : x = g
        · simp [e] at this
        · simp [e] at this; exact ⟨e, this⟩
      refine ⟨List.nodup_cons.2 ⟨fun hm => (hne g hm).1 rfl, h1⟩, fun x hx => ?_⟩
      rcases List.mem_cons.1 hx with rfl | hx
      · exact hg
      · exact (hne x hx).2

theorem fromGenerics_nodup {gens : List String} {u : TyUnifier}
    (h : TyUnifier.fromGenerics gens = some u) : gens.Nodup := by
  unfold TyUnifier.fromGenerics at h
  cases hi : insertGenerics 0 gens (fun _ => none) with
  | none => rw [hi] at h; cases h
  | some idx => exact (insertGenerics_nodup _ _ _ _ hi).1

/-- `u'` has more choices than `u`. -/
def TyUnifier.Le (u u' : TyUnifier) : Prop := ∀ x v, u.val x = some v → u'.val x = some v

/-- `θ` agrees with the choices of `u`. -/
def TyUnifier.Below (u : TyUnifier) (θ : Subst) : Prop := ∀ x v, u.val x = some v → θ x = v


theorem wf_val_none {gens : List String} {u : TyUnifier} (h : u.Wf gens) {x : String}
    (hx : x ∉ gens) : u.val x = none := by
  cases u with
  | identity => rfl
  | null => rfl
  | mapping idx subst =>
    simp only [TyUnifier.val]
    cases hi : idx x with
    | none => rfl
    | some i => exact absurd (List.mem_of_getElem? ((h.1 x i).1 hi)) hx

/-- What one comparison does, for a variable of the mapping. -/
theorem requireIdentical_other {gens : List String} {u : TyUnifier} (h : u.Wf gens) {x : String}
    (hx : x ∈ gens) (r : TyBase) (a : EAccum Diag) :
    (u.val x = none ∧ ∃ u', requireIdentical (.other x) r (a, u) = (.some (), (a, u')) ∧
        u'.Wf gens ∧ ∀ y, u'.val y = if y = x then some r else u.val y) ∨
    (u.val x = some r ∧ requireIdentical (.other x) r (a, u) = (.some (), (a, u))) ∨
    (∃ v, u.val x = some v ∧ v ≠ r ∧ requireIdentical (.other x) r (a, u) =
      (.none, (⟨a.err ++ [.unsatGeneric x v r], a.warn⟩, u))) := by
  cases u with
  | identity => exact h.elim
  | null => exact h.elim
  | mapping idx subst =>
    obtain ⟨i, hi⟩ := List.mem_iff_getElem?.1 hx
    have hidx := (h.1 x i).2 hi
    have hlt : i < subst.length := by
      rw [h.2]; exact (List.getElem?_eq_some_iff.1 hi).1
    have hinj : ∀ y, y ≠ x → idx y ≠ some i := fun y hy e => by
      rw [(h.1 y i).1 e] at hi; exact hy (by simpa using hi)
    have hs : subst[i]? = some subst[i] := List.getElem?_eq_getElem hlt
    have hrun : requireIdentical (.other x) r (a, .mapping idx subst) =
        (match subst[i] with
          | none => (.some (), (a, .mapping idx (subst.set i (some r))))
          | some v => if v = r then (.some (), (a, .mapping idx subst))
            else (.none, (⟨a.err ++ [.unsatGeneric x v r], a.warn⟩, .mapping idx subst))) := by
      simp only [requireIdentical, run_bind, Chk.get, hidx, hs]
      cases subst[i] with
      | none => rfl
      | some v => by_cases e : v = r <;> simp [e, error]
    have hval : (TyUnifier.mapping idx subst).val x = subst[i] := by
      simp [TyUnifier.val, hidx, hs]
    rw [hrun, hval]
    cases hv : subst[i] with
    | none =>
      left
      refine ⟨rfl, _, rfl, ⟨h.1, by simpa using h.2⟩, fun y => ?_⟩
      by_cases hy : y = x
      · subst hy
        simp [TyUnifier.val, hidx, hlt]
      · simp only [TyUnifier.val, hy, if_false]
        cases hj : idx y with
        | none => rfl
        | some j =>
          have : i ≠ j := fun e => hinj y hy (e ▸ hj)
          simp [List.getElem?_set, this]
    | some v =>
      by_cases e : v = r
      · subst e; right; left; simp
      · right; right; exact ⟨v, rfl, e, by simp [e]⟩

theorem requireIdentical_concrete {l : TyBase} (hl : baseVars l = []) (r : TyBase)
    (s : EAccum Diag × TyUnifier) :
    requireIdentical l r s = if l = r then (.some (), s)
      else (.none, (⟨s.1.err ++ [.typeMismatch (.single l) (.single r)], s.1.warn⟩, s.2)) := by
  cases l <;> simp [baseVars] at hl
  all_goals
    simp only [requireIdentical]
    split <;> rfl

/-- What a successful comparison establishes. -/
structure Matches (gens : List String) (u u' : TyUnifier) (vars : List String)
    (eqn : Subst → Prop) : Prop where
  wf : u'.Wf gens
  le : u.Le u'
  sound : ∀ θ, u'.Below θ → eqn θ
  dom : ∀ x ∈ vars, ∃ v, u'.val x = some v
  only : ∀ x v, u'.val x = some v → u.val x = some v ∨ x ∈ vars

theorem requireIdentical_matches {gens : List String} {u : TyUnifier} (h : u.Wf gens) {l r : TyBase}
    (hl : ∀ x ∈ baseVars l, x ∈ gens) {a : EAccum Diag} {s' : EAccum Diag × TyUnifier}
    (he : requireIdentical l r (a, u) = (.some (), s')) :
    ∃ u', s' = (a, u') ∧ Matches gens u u' (baseVars l) (fun θ => substBase θ l = r) := by
  cases l with
  | other x =>
    rcases requireIdentical_other h (hl x (by simp [baseVars])) r a with
      ⟨h1, u', h2, h3, h4⟩ | ⟨h1, h2⟩ | ⟨v, -, -, h2⟩
    · rw [h2] at he
      cases he
      refine ⟨u', rfl, h3, fun y v hy => ?_, fun θ hθ => hθ x r (by simp [h4]),
        fun y hy => ?_, fun y v hy => ?_⟩
      · rw [h4]; split
        · rename_i e; subst e; rw [h1] at hy; cases hy
        · exact hy
      · simp [baseVars] at hy; subst hy; exact ⟨r, by simp [h4]⟩
      · rw [h4] at hy
        split at hy
        · rename_i e; right; simp [baseVars, e]
        · exact .inl hy
    · rw [h2] at he
      cases he
      exact ⟨u, rfl, h, fun _ _ e => e, fun θ hθ => hθ x r h1,
        fun y hy => by simp [baseVars] at hy; subst hy; exact ⟨r, h1⟩, fun _ _ e => .inl e⟩
    · rw [h2] at he; cases he
  | _ =>
    rw [requireIdentical_concrete rfl] at he
    split at he
    · rename_i e
      cases he
      exact ⟨u, rfl, h, fun _ _ e => e, fun θ _ => by rw [← e]; rfl, by simp [baseVars],
        fun _ _ e => .inl e⟩
    · cases he

theorem requireIdentical_complete {gens : List String} {u : TyUnifier} (h : u.Wf gens)
    {l r : TyBase} (hl : ∀ x ∈ baseVars l, x ∈ gens) {θ : Subst} (hθ : u.Below θ)
    (he : substBase θ l = r) (a : EAccum Diag) :
    ∃ u', requireIdentical l r (a, u) = (.some (), (a, u')) ∧ u'.Below θ := by
  cases l with
  | other x =>
    rcases requireIdentical_other h (hl x (by simp [baseVars])) r a with
      ⟨h1, u', h2, h3, h4⟩ | ⟨h1, h2⟩ | ⟨v, h1, hne, h2⟩
    · refine ⟨u', h2, fun y v hy => ?_⟩
      rw [h4] at hy
      split at hy
      · rename_i e; subst e; cases hy; exact he
      · exact hθ y v hy
    · exact ⟨u, h2, hθ⟩
    · exact absurd ((hθ x v h1).symm.trans he) hne
  | _ =>
    refine ⟨u, ?_, hθ⟩
    simp only [substBase] at he
    rw [requireIdentical_concrete rfl, if_pos he]

theorem Matches.nil {gens : List String} {u : TyUnifier} (h : u.Wf gens) {P : Subst → Prop}
    (hP : ∀ θ, P θ) : Matches gens u u [] P :=
  ⟨h, fun _ _ e => e, fun θ _ => hP θ, by simp, fun _ _ e => .inl e⟩

theorem Matches.append {gens : List String} {u u' u'' : TyUnifier} {v1 v2 : List String}
    {P Q R : Subst → Prop} (h1 : Matches gens u u' v1 P) (h2 : Matches gens u' u'' v2 Q)
    (hR : ∀ θ, P θ → Q θ → R θ) : Matches gens u u'' (v1 ++ v2) R := by
  refine ⟨h2.wf, fun x v e => h2.le x v (h1.le x v e), fun θ hθ => hR θ ?_ (h2.sound θ hθ),
    fun x hx => ?_, fun x v e => ?_⟩
  · exact h1.sound θ fun x v e => hθ x v (h2.le x v e)
  · rcases List.mem_append.1 hx with hx | hx
    · obtain ⟨v, hv⟩ := h1.dom x hx
      exact ⟨v, h2.le x v hv⟩
    · exact h2.dom x hx
  · rcases h2.only x v e with e | e
    · rcases h1.only x v e with e | e
      · exact .inl e
      · exact .inr (by simp [e])
    · exact .inr (by simp [e])

mutual
theorem identical_matches : (t : TyTuple) → {gens : List String} → {u : TyUnifier} → u.Wf gens →
    {r : TyTuple} → (∀ x ∈ tyVars t, x ∈ gens) → {a : EAccum Diag} →
    {s' : EAccum Diag × TyUnifier} → t.identical r (a, u) = (.some (), s') →
    ∃ u', s' = (a, u') ∧ Matches gens u u' (tyVars t) (fun θ => substTy θ t = r)
  | .single l, gens, u, h, .single r, hl, a, s', he => by
    simp only [TyTuple.identical] at he
    obtain ⟨u', rfl, hm⟩ := requireIdentical_matches h hl he
    exact ⟨u', rfl, hm.wf, hm.le, fun θ hθ => by simp [substTy, hm.sound θ hθ], hm.dom, hm.only⟩
  | .single l, gens, u, h, .multiple r, hl, a, s', he => by simp only [TyTuple.identical] at he; cases he
  | .multiple l, gens, u, h, .single r, hl, a, s', he => by simp only [TyTuple.identical] at he; cases he
  | .multiple ts, gens, u, h, .multiple us, hl, a, s', he => by
    simp only [TyTuple.identical] at he
    split at he
    · cases he
    · rename_i hlen
      obtain ⟨u', rfl, hm⟩ := identicals_matches ts h (by simpa using hlen) hl he
      exact ⟨u', rfl, hm.wf, hm.le, fun θ hθ => by simp [substTy, hm.sound θ hθ], hm.dom, hm.only⟩
theorem identicals_matches : (ts : List TyTuple) → {gens : List String} → {u : TyUnifier} →
    u.Wf gens → {us : List TyTuple} → ts.length = us.length →
    (∀ x ∈ tyVarsList ts, x ∈ gens) → {a : EAccum Diag} →
    {s' : EAccum Diag × TyUnifier} → inScope (TyTuple.identicals ts us) (a, u) = (.some (), s') →
    ∃ u', s' = (a, u') ∧ Matches gens u u' (tyVarsList ts) (fun θ => substTys θ ts = us)
  | [], gens, u, h, [], hlen, hl, a, s', he => by
    simp only [TyTuple.identicals, inScope_some_nil] at he
    exact ⟨u, he.symm, Matches.nil h (fun _ => rfl)⟩
  | t :: ts, gens, u, h, r :: us, hlen, hl, a, s', he => by
    simp only [TyTuple.identicals, inScope_some_cons] at he
    obtain ⟨s1, h1, h2⟩ := he
    simp only [tyVarsList, List.mem_append] at hl
    obtain ⟨u1, rfl, hm1⟩ := identical_matches t h (fun x hx => hl x (.inl hx)) h1
    obtain ⟨u2, rfl, hm2⟩ := identicals_matches ts hm1.wf (by simpa using hlen)
      (fun x hx => hl x (.inr hx)) h2
    exact ⟨u2, rfl, hm1.append hm2 fun θ e1 e2 => by simp [substTys, e1, e2]⟩
end

mutual
theorem identical_complete : (t : TyTuple) → {gens : List String} → {u : TyUnifier} → u.Wf gens →
    {r : TyTuple} → (∀ x ∈ tyVars t, x ∈ gens) → {θ : Subst} → u.Below θ → substTy θ t = r →
    (a : EAccum Diag) →
    ∃ u', t.identical r (a, u) = (.some (), (a, u')) ∧ u'.Below θ
  | .single l, gens, u, h, r, hl, θ, hθ, he, a => by
    subst he
    obtain ⟨u', h1, h2⟩ := requireIdentical_complete h hl hθ rfl a
    exact ⟨u', by simpa [substTy, TyTuple.identical] using h1, h2⟩
  | .multiple ts, gens, u, h, r, hl, θ, hθ, he, a => by
    subst he
    obtain ⟨u', h1, h2⟩ := identicals_complete ts h hl hθ a
    refine ⟨u', ?_, h2⟩
    simp only [substTy, TyTuple.identical]
    rw [if_neg]
    · exact h1
    · have : ∀ ts : List TyTuple, (substTys θ ts).length = ts.length := by
        intro ts
        induction ts with
        | nil => rfl
        | cons t ts ih => simp [substTys, ih]
      simp [this]
theorem identicals_complete : (ts : List TyTuple) → {gens : List String} → {u : TyUnifier} →
    u.Wf gens → (∀ x ∈ tyVarsList ts, x ∈ gens) → {θ : Subst} → u.Below θ → (a : EAccum Diag) →
    ∃ u', inScope (TyTuple.identicals ts (substTys θ ts)) (a, u) = (.some (), (a, u')) ∧
      u'.Below θ
  | [], gens, u, h, hl, θ, hθ, a => by
    exact ⟨u, by simp only [TyTuple.identicals, inScope_some_nil], hθ⟩
  | t :: ts, gens, u, h, hl, θ, hθ, a => by
    simp only [tyVarsList, List.mem_append] at hl
    obtain ⟨u1, h1, b1⟩ := identical_complete t h (fun x hx => hl x (.inl hx)) hθ rfl a
    obtain ⟨u1', e, hm1⟩ := identical_matches t h (fun x hx => hl x (.inl hx)) h1
    cases e
    obtain ⟨u2, h2, b2⟩ := identicals_complete ts hm1.wf (fun x hx => hl x (.inr hx)) b1 a
    refine ⟨u2, ?_, b2⟩
    simp only [substTys, TyTuple.identicals, inScope_some_cons]
    exact ⟨_, h1, h2⟩
end

/-- Not a mapping. -/
def TyUnifier.Plain : TyUnifier → Prop
  | .mapping _ _ => False
  | _ => True

theorem requireIdentical_plain {u : TyUnifier} (h : u.Plain) (l r : TyBase) (a : EAccum Diag) :
    requireIdentical l r (a, u) = if l = r then (.some (), (a, u))
      else (.none, (⟨a.err ++ [.typeMismatch (.single l) (.single r)], a.warn⟩, u)) := by
  cases l with
  | other x =>
    cases u with
    | mapping _ _ => exact h.elim
    | _ =>
      simp only [requireIdentical, run_bind, Chk.get]
      split <;> rfl
  | _ => rw [requireIdentical_concrete rfl]

mutual
theorem identical_plain : (t : TyTuple) → {u : TyUnifier} → u.Plain → {r : TyTuple} →
    {a : EAccum Diag} → {s' : EAccum Diag × TyUnifier} →
    (t.identical r (a, u) = (.some (), s') ↔ t = r ∧ s' = (a, u))
  | .single l, u, h, .single r, a, s' => by
    simp only [TyTuple.identical]
    rw [requireIdentical_plain h]
    split
    · rename_i e; subst e; simp [eq_comm]
    · rename_i e; simp [e]
  | .single l, u, h, .multiple r, a, s' => by
    simp only [TyTuple.identical, error]; simp
  | .multiple l, u, h, .single r, a, s' => by
    simp only [TyTuple.identical, error]; simp
  | .multiple ts, u, h, .multiple us, a, s' => by
    simp only [TyTuple.identical]
    split
    · rename_i e
      simp only [error, TyTuple.multiple.injEq]
      constructor
      · intro h; cases h
      · rintro ⟨rfl, _⟩; exact absurd rfl e
    · rename_i e
      rw [identicals_plain ts h (by simpa using e)]
      simp
theorem identicals_plain : (ts : List TyTuple) → {u : TyUnifier} → u.Plain →
    {us : List TyTuple} → ts.length = us.length → {a : EAccum Diag} →
    {s' : EAccum Diag × TyUnifier} →
    (inScope (TyTuple.identicals ts us) (a, u) = (.some (), s') ↔ ts = us ∧ s' = (a, u))
  | [], u, h, [], hlen, a, s' => by
    simp only [TyTuple.identicals, inScope_some_nil, true_and, eq_comm]
  | t :: ts, u, h, r :: us, hlen, a, s' => by
    simp only [TyTuple.identicals, inScope_some_cons, List.cons.injEq]
    constructor
    · rintro ⟨s1, h1, h2⟩
      obtain ⟨rfl, rfl⟩ := (identical_plain t h).1 h1
      obtain ⟨rfl, rfl⟩ := (identicals_plain ts h (by simpa using hlen)).1 h2
      simp
    · rintro ⟨⟨rfl, rfl⟩, rfl⟩
      exact ⟨(a, u), (identical_plain t h).2 ⟨rfl, rfl⟩,
        (identicals_plain ts h rfl).2 ⟨rfl, rfl⟩⟩
end

/-- Comparing never panics, and keeps the shape of the unifier. -/
def Calm (P : TyUnifier → Prop) (m : Chk Diag TyUnifier Unit) : Prop :=
  ∀ a u, P u → (m (a, u)).1 ≠ .abort ∧ P (m (a, u)).2.2

theorem calm_inScope {P : TyUnifier → Prop} : ∀ (ms : List (Chk Diag TyUnifier Unit)),
    (∀ m ∈ ms, Calm P m) → Calm P (inScope ms)
  | [], _ => by
    intro a u hu
    rw [inScope_run]; exact ⟨by simp [scopeLoop], by simpa [scopeLoop] using hu⟩
  | m :: ms, h => by
    intro a u hu
    rw [inScope_cons]
    have hm := h m (by simp) a u hu
    have hms := calm_inScope ms fun m hm => h m (by simp [hm])
    rcases h1 : m (a, u) with ⟨r, a1, u1⟩
    rw [h1] at hm
    have hms1 := hms a1 u1 hm.2
    cases r with
    | some _ => exact hms1
    | abort => exact absurd rfl hm.1
    | none =>
      simp only
      rcases h2 : inScope ms (a1, u1) with ⟨r2, a2, u2⟩
      rw [h2] at hms1
      cases r2 with
      | abort => exact absurd rfl hms1.1
      | _ => exact ⟨by simp, hms1.2⟩

theorem requireIdentical_calm {gens : List String} {l : TyBase} (hl : ∀ x ∈ baseVars l, x ∈ gens)
    (r : TyBase) : Calm (TyUnifier.Wf gens) (requireIdentical l r) := by
  intro a u h
  cases l with
  | other x =>
    rcases requireIdentical_other h (hl x (by simp [baseVars])) r a with
      ⟨_, u', h2, h3, _⟩ | ⟨_, h2⟩ | ⟨_, _, _, h2⟩
    · rw [h2]; exact ⟨by simp, h3⟩
    · rw [h2]; exact ⟨by simp, h⟩
    · rw [h2]; exact ⟨by simp, h⟩
  | _ =>
    rw [requireIdentical_concrete rfl]
    split
    · exact ⟨by simp, h⟩
    · exact ⟨by simp, h⟩

theorem requireIdentical_calm_plain (l r : TyBase) : Calm TyUnifier.Plain (requireIdentical l r) := by
  intro a u h
  rw [requireIdentical_plain h]
  split
  · exact ⟨by simp, h⟩
  · exact ⟨by simp, h⟩

mutual
theorem identical_calm {P : TyUnifier → Prop} {gens : List String}
    (hP : ∀ l r, (∀ x ∈ baseVars l, x ∈ gens) → Calm P (requireIdentical l r)) :
    (t r : TyTuple) → (∀ x ∈ tyVars t, x ∈ gens) → Calm P (t.identical r)
  | .single l, .single r, hl => by simp only [TyTuple.identical]; exact hP l r hl
  | .single l, .multiple r, _ => by
    simp only [TyTuple.identical]; exact fun a u h => ⟨by simp [error], h⟩
  | .multiple l, .single r, _ => by
    simp only [TyTuple.identical]; exact fun a u h => ⟨by simp [error], h⟩
  | .multiple ts, .multiple us, hl => by
    simp only [TyTuple.identical]
    split
    · exact fun a u h => ⟨by simp [error], h⟩
    · exact calm_inScope _ (identicals_calm hP ts us hl)
theorem identicals_calm {P : TyUnifier → Prop} {gens : List String}
    (hP : ∀ l r, (∀ x ∈ baseVars l, x ∈ gens) → Calm P (requireIdentical l r)) :
    (ts us : List TyTuple) → (∀ x ∈ tyVarsList ts, x ∈ gens) →
    ∀ m ∈ TyTuple.identicals ts us, Calm P m
  | [], _, _ => by simp [TyTuple.identicals]
  | _ :: _, [], _ => by simp [TyTuple.identicals]
  | t :: ts, u :: us, hl => by
    simp only [tyVarsList, List.mem_append] at hl
    simp only [TyTuple.identicals, List.mem_cons]
    rintro m (rfl | hm)
    · exact identical_calm hP t u fun x hx => hl x (.inl hx)
    · exact identicals_calm hP ts us (fun x hx => hl x (.inr hx)) m hm
end

theorem requireIdentical_honest (l r : TyBase) : Honest (requireIdentical l r) := by
  cases l with
  | other x =>
    simp only [requireIdentical]
    refine honest_bind honest_get fun u => ?_
    cases u with
    | mapping idx subst =>
      simp only
      split
      · exact honest_abort
      · split
        · exact honest_abort
        · exact honest_modify _
        · split
          · exact honest_pure _
          · exact honest_error _
    | _ =>
      simp only
      split
      · exact honest_pure _
      · exact honest_error _
  | _ =>
    simp only [requireIdentical]
    split
    · exact honest_pure _
    · exact honest_error _

mutual
theorem identical_honest : (t r : TyTuple) → Honest (t.identical r)
  | .single l, .single r => by simp only [TyTuple.identical]; exact requireIdentical_honest l r
  | .single l, .multiple r => by simp only [TyTuple.identical]; exact honest_error _
  | .multiple l, .single r => by simp only [TyTuple.identical]; exact honest_error _
  | .multiple ts, .multiple us => by
    simp only [TyTuple.identical]
    split
    · exact honest_error _
    · exact honest_inScope _ (identicals_honest ts us)
theorem identicals_honest : (ts us : List TyTuple) → ∀ m ∈ TyTuple.identicals ts us, Honest m
  | [], _ => by simp [TyTuple.identicals]
  | _ :: _, [] => by simp [TyTuple.identicals]
  | t :: ts, u :: us => by
    simp only [TyTuple.identicals, List.mem_cons]
    rintro m (rfl | hm)
    · exact identical_honest t u
    · exact identicals_honest ts us m hm
end

mutual
theorem substitute_eq {u : TyUnifier} {gens : List String} (hu : u.Wf gens) {θ : Subst}
    (hθ : ∀ x ∈ gens, u.val x = some (θ x)) :
    (t : TyTuple) → (∀ x ∈ tyVars t, x ∈ gens) → t.substitute u = some (substTy θ t)
  | .single l, hl => by
    cases l with
    | other x =>
      have hx := hl x (by simp [tyVars, baseVars])
      have := hθ x hx
      simp only [TyTuple.substitute, TyBase.substitute, substTy, substBase]
      cases u with
      | identity => exact hu.elim
      | null => exact hu.elim
      | mapping idx subst =>
        simp only [TyUnifier.val] at this
        simp only [TyUnifier.image]
        cases hi : idx x with
        | none => rw [hi] at this; cases this
        | some i =>
          rw [hi] at this
          simp only [Option.bind_some] at this
          simp [this]
    | _ => rfl
  | .multiple ts, hl => by
    simp [TyTuple.substitute, substTy, substitutes_eq hu hθ ts hl]
theorem substitutes_eq {u : TyUnifier} {gens : List String} (hu : u.Wf gens) {θ : Subst}
    (hθ : ∀ x ∈ gens, u.val x = some (θ x)) :
    (ts : List TyTuple) → (∀ x ∈ tyVarsList ts, x ∈ gens) →
      TyTuple.substitutes u ts = some (substTys θ ts)
  | [], _ => rfl
  | t :: ts, hl => by
    simp only [tyVarsList, List.mem_append] at hl
    simp [TyTuple.substitutes, substTys, substitute_eq hu hθ t fun x hx => hl x (.inl hx),
      substitutes_eq hu hθ ts fun x hx => hl x (.inr hx)]
end

theorem allSome_map {α : Type} (θ : α → TyBase) : ∀ (l : List α),
    allSome (l.map fun x => some (θ x)) = some (l.map θ)
  | [] => rfl
  | x :: l => by simp [allSome, allSome_map θ l]

/-- A complete mapping lists the chosen types in order. -/
theorem wf_total {gens : List String} {u : TyUnifier} (h : u.Wf gens) {θ : Subst}
    (hθ : ∀ x ∈ gens, u.val x = some (θ x)) :
    ∃ idx, u = .mapping idx (gens.map fun x => some (θ x)) := by
  cases u with
  | identity => exact h.elim
  | null => exact h.elim
  | mapping idx subst =>
    refine ⟨idx, ?_⟩
    congr 1
    apply List.ext_getElem?
    intro i
    rw [List.getElem?_map]
    cases hi : gens[i]? with
    | none =>
      rw [List.getElem?_eq_none_iff] at hi
      simp only [Option.map_none, List.getElem?_eq_none_iff]
      rw [h.2]; exact hi
    | some x =>
      have h1 := (h.1 x i).2 hi
      have h2 := hθ x (List.mem_of_getElem? hi)
      simp only [TyUnifier.val, h1, Option.bind_some] at h2
      cases hs : subst[i]? with
      | none => rw [hs] at h2; cases h2
      | some o => rw [hs] at h2; simp only [Option.join_some] at h2; simp [h2]

end Chandeliers.San
