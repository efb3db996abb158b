import Mathlib.Order.WellFounded
import Mathlib.Data.Fintype.Defs
import Mathlib.Order.RelClasses
import Verif.Lemmas.SteadyExpr
import Verif.Lemmas.SteadyReady

/-! # When the variables of a node with `#[universal_pre]` are present -/

set_option autoImplicit false
set_option linter.unusedSectionVars false

namespace Chandeliers.Std
open Chandeliers.San Chandeliers.Spec Chandeliers.Syn Chandeliers.Den Chandeliers.Pres Chandeliers.Uni
open Chandeliers.Spec.Static

section
variable {S : Scope} {W : World} {D : String → Clock} {θ : Subst}

/-! ## Equations -/

mutual
theorem target_good {t : Nat} : (p : Target) → {τ : TyTuple} → {k : Clk} → {v : Value} →
    TargetTy S p τ → TargetClk S p k → ValTy (substTy θ τ) v → PresentOn W.X k t v →
    Target.Gets (W.X · t) p v → ∀ x ∈ targets p, VarGood S W θ x t
  | .var y, τ, k, v, hτ, hk, hv, hp, hg, x, hx => by
    rw [targets, List.mem_singleton] at hx
    subst hx
    rw [TargetTy] at hτ
    rw [TargetClk] at hk
    obtain ⟨w, h1, rfl⟩ := hτ
    obtain ⟨w', h2, rfl⟩ := hk
    rw [h1] at h2
    cases h2
    intro w' h2
    rw [h1] at h2
    cases h2
    cases v with
    | tup => exact hg.elim
    | leaf v =>
      simp only [Target.Gets] at hg
      rw [hg]
      exact ⟨hv, hp⟩
  | .tuple [] b, τ, k, v, hτ, hk, hv, hp, hg, x, hx => by simp [targets, targetsList] at hx
  | .tuple [p] b, τ, k, v, hτ, hk, hv, hp, hg, x, hx => by
    rw [TargetTy] at hτ
    rw [TargetClk, TargetsClk] at hk
    obtain ⟨ts, h1, rfl⟩ := hτ
    rw [TargetTys] at h1
    obtain ⟨τ, us, rfl, h1, h2⟩ := h1
    rw [TargetTys] at h2
    subst h2
    have hv' : ValTy (substTy θ τ) v := by
      cases b
      · exact hv
      · simpa [group, substTy, substTys, ValTy] using hv
    refine target_good p h1 hk.1 hv' hp (by simpa [Target.Gets] using hg) x ?_
    simpa [targets, targetsList] using hx
  | .tuple (p :: q :: ps) b, τ, k, v, hτ, hk, hv, hp, hg, x, hx => by
    rw [TargetTy] at hτ
    rw [TargetClk, TargetsClk] at hk
    obtain ⟨ts, h1, rfl⟩ := hτ
    rw [TargetTys] at h1
    obtain ⟨τ, us, rfl, h1, h2⟩ := h1
    have h2' := h2
    rw [TargetTys] at h2'
    obtain ⟨τ', us', rfl, -, -⟩ := h2'
    cases v with
    | leaf => simp [Target.Gets] at hg
    | tup w ws =>
      simp only [Target.Gets] at hg
      simp only [group, substTy, substTys, ValTy] at hv
      rw [targets, targetsList, List.mem_append] at hx
      rcases hx with hx | hx
      · exact target_good p h1 hk.1 hv.1 ⟨fun h => (full_tup.1 (hp.1 h)).1,
          fun h => (blank_tup.1 (hp.2 h)).1⟩ hg.1 x hx
      · exact targets_good (q :: ps) h2 hk.2 (by simpa only [substTys] using hv.2)
          (fun w hw => ⟨fun h => (full_tup.1 (hp.1 h)).2 w hw,
            fun h => (blank_tup.1 (hp.2 h)).2 w hw⟩) hg.2 x hx
theorem targets_good {t : Nat} : (ps : List Target) → {τs : List TyTuple} → {k : Clk} →
    {vs : List Value} → TargetTys S ps τs → TargetsSame S k ps → ValTys (substTys θ τs) vs →
    (∀ v ∈ vs, PresentOn W.X k t v) → Target.GetList (W.X · t) ps vs →
    ∀ x ∈ targetsList ps, VarGood S W θ x t
  | [], τs, k, vs, hτ, hk, hv, hp, hg, x, hx => by simp [targetsList] at hx
  | p :: ps, τs, k, [], hτ, hk, hv, hp, hg, x, hx => by simp [Target.GetList] at hg
  | p :: ps, τs, k, v :: vs, hτ, hk, hv, hp, hg, x, hx => by
    rw [TargetTys] at hτ
    obtain ⟨τ, us, rfl, h1, h2⟩ := hτ
    rw [TargetsSame] at hk
    obtain ⟨⟨k', hk1, hk2⟩, hk3⟩ := hk
    simp only [substTys, ValTys] at hv
    simp only [Target.GetList] at hg
    rw [targetsList, List.mem_append] at hx
    rcases hx with hx | hx
    · exact target_good p h1 hk1 hv.1 (presentOn_same hk2 (hp v (List.mem_cons_self ..))) hg.1 x hx
    · exact targets_good ps h2 hk3 hv.2 (fun w hw => hp w (List.mem_cons_of_mem _ hw)) hg.2 x hx
end

mutual
theorem unit_targets : (p : Target) → IsUnit p → targets p = []
  | .var _, h => h.elim
  | .tuple ps b, h => by
    rw [IsUnit] at h
    rw [targets]
    rcases h with rfl | ⟨-, -, h⟩
    · rfl
    · exact units_targets ps h
theorem units_targets : (ps : List Target) → AllUnit ps → targetsList ps = []
  | [], _ => rfl
  | p :: ps, h => by
    rw [AllUnit] at h
    rw [targetsList, unit_targets p h.1, units_targets ps h.2]
    rfl
end

/-! ## Nodes -/

variable {o : NodeOptions} {consts : String → Option TyBase} {sigs : String → Option Sig}
  {src : SrcNode} {is : List Value}

theorem names_varsOf (as : List ArgsTy) : (varsOf as).map (·.name) = argNames as := by
  simp [varsOf, argNames, List.map_flatMap, Function.comp_def]

theorem types_varsOf (as : List ArgsTy) : (varsOf as).map (·.ty) = argTypes as := by
  simp [varsOf, argTypes, List.map_flatMap, Function.comp_def]

theorem leaves_typed : {xs : List String} → {τs : List TyBase} → {f : String → Nillable Scalar} →
    ValTys (substTys θ (τs.map .single)) (xs.map fun x => .leaf (f x)) →
    ∀ (i : Nat) x τ, xs[i]? = some x → τs[i]? = some τ → LeafTy (substBase θ τ) (f x)
  | [], _, _, _, i, x, τ, hx, _ => by simp at hx
  | _ :: _, [], _, h, i, x, τ, hx, hτ => by simp at hτ
  | y :: xs, υ :: τs, f, h, i, x, τ, hx, hτ => by
    simp only [List.map_cons, substTys, substTy, ValTys, ValTy] at h
    cases i with
    | zero => cases hx; cases hτ; exact h.1
    | succ i => exact leaves_typed h.2 i x τ hx hτ

theorem together_typed {xs : List String} {τs : List TyBase} {f : String → Nillable Scalar}
    (hl : xs.length = τs.length)
    (h : ValTy (substTy θ (flatTuple τs)) (together f xs)) (i : Nat) (x : String) (τ : TyBase)
    (hx : xs[i]? = some x) (hτ : τs[i]? = some τ) : LeafTy (substBase θ τ) (f x) := by
  refine leaves_typed (xs := xs) (τs := τs) ?_ i x τ hx hτ
  match xs, τs, hl, hx, hτ, h with
  | [x], [τ], _, _, _, h => exact ⟨h, trivial⟩
  | x :: y :: xs, τ :: υ :: τs, _, _, _, h =>
    simpa [flatTuple, together, tupleValue, substTy, substTys, ValTy, ValTys] using h

theorem input_good (hL : LegalNode o consts sigs src)
    (hi : ∀ i ∈ is, ValTy (substTy θ (flatTuple (argTypes src.inputs))) i ∧ Full i)
    (hs : UniSolution W D src is) {t : Nat} (ht : t < is.length) {v : Var}
    (hv : v ∈ varsOf src.inputs) : VarGood (scope o consts sigs src) W θ v.name t := by
  have hne : v.name ∈ argNames src.inputs := by
    rw [← names_varsOf]; exact List.mem_map_of_mem hv
  have h1 := hs.inputs t is[t] (by simp [ht]) (List.ne_nil_of_mem hne)
  obtain ⟨h2, h3⟩ := hi is[t] (List.getElem_mem ht)
  rw [h1] at h2 h3
  intro w hw
  have hsame : w = v := by
    have hd := hL.vars.distinct
    have m1 : w ∈ varsOf (src.inputs ++ src.outputs ++ src.locals) := List.mem_of_find?_eq_some hw
    have m2 : v ∈ varsOf (src.inputs ++ src.outputs ++ src.locals) := by
      rw [varsOf_append, varsOf_append]; simp [hv]
    exact List.inj_on_of_nodup_map hd m1 m2 (var_name hw)
  subst hsame
  obtain ⟨i, hi', e⟩ := List.getElem_of_mem hv
  refine ⟨?_, ?_⟩
  · refine together_typed ?_ h2 i w.name w.ty ?_ ?_
    · rw [← names_varsOf, ← types_varsOf]; simp
    · rw [← names_varsOf]; simp [hi', e]
    · rw [← types_varsOf]; simp [hi', e]
  · have hf : Full (.leaf (W.X w.name t)) :=
      full_of_tupleValue h3 _ (List.mem_map.2 ⟨w.name, hne, rfl⟩)
    have ha := hL.interface.present w (List.mem_append_left _ hv)
    exact ⟨fun _ => hf, fun hn => absurd (active_always ha) hn⟩

/-- The order in which the variables of a node can be computed. -/
theorem defined_wf {defs : List SrcStmt}
    (hc : ∀ x, ¬ Relation.TransGen (DefinedFrom defs) x x) :
    WellFounded fun a b : {x // x ∈ defined defs} =>
      Relation.TransGen (DefinedFrom defs) b.1 a.1 := by
  have : Finite {x // x ∈ defined defs} := by
    have : Fintype {x // x ∈ defined defs} := List.Subtype.fintype _
    infer_instance
  have : IsTrans {x // x ∈ defined defs} fun a b => Relation.TransGen (DefinedFrom defs) b.1 a.1 :=
    ⟨fun _ _ _ h h' => h'.trans h⟩
  have : Std.Irrefl fun a b : {x // x ∈ defined defs} =>
      Relation.TransGen (DefinedFrom defs) b.1 a.1 := ⟨fun a => hc a.1⟩
  exact Finite.wellFounded_of_trans_of_irrefl _

/-- All the variables of a node have values of their types, and have them at the instants of their
clocks. -/
theorem node_good (hL : LegalNode o consts sigs src)
    (ha : Around (scope o consts sigs src) W D)
    (hf : ∀ st ∈ src.defs, noOneTuple (SrcStmt.expr st) = true)
    (hr : ∀ st ∈ src.defs, ∃ r, Steady (scope o consts sigs src) (SrcStmt.expr st) r)
    (hi : ∀ i ∈ is, ValTy (substTy θ (flatTuple (argTypes src.inputs))) i ∧ Full i)
    (hs : UniSolution W D src is) :
    ∀ t, t < is.length → ∀ x, VarGood (scope o consts sigs src) W θ x t := by
  intro t
  induction t using Nat.strongRecOn with
  | ind t ih =>
    intro ht
    have hrest : ∀ x, x ∉ defined src.defs → VarGood (scope o consts sigs src) W θ x t := by
      intro x hx v hv
      have m1 : v ∈ varsOf (src.inputs ++ src.outputs ++ src.locals) := List.mem_of_find?_eq_some hv
      rw [← var_name hv] at hx
      rw [List.append_assoc, varsOf_append, List.mem_append] at m1
      rcases m1 with m1 | m1
      · have := input_good hL hi hs ht m1
        rw [var_name hv] at this
        exact this v hv
      · exact absurd (hL.everything v m1) hx
    have hdef : ∀ a : {x // x ∈ defined src.defs}, VarGood (scope o consts sigs src) W θ a.1 t := by
      intro a
      induction a using (defined_wf hL.causal).induction with
      | _ a iha =>
      obtain ⟨st, hst, hx⟩ := List.mem_flatMap.1 a.2
      cases st with
      | assert => cases hx
      | def_ p e =>
      replace hx : a.1 ∈ targets p := hx
      obtain ⟨v, h1, h2⟩ := hs.defs t ht _ hst
      obtain ⟨⟨τ, t1, t2⟩, ⟨k, k', c1, c2, c3⟩, hready⟩ := hL.stmts _ hst
      obtain ⟨r, hsteady⟩ := hr _ hst
      have hr0 : r = 0 := Nat.le_zero.1 (steady_ready ha.universal e hready hsteady)
      subst hr0
      have hat := uni_at (θ := θ) ha e t2 c2 hsteady (hf _ hst)
        ⟨fun u hu x _ => ih u hu (by omega) x, fun y hy => by
          by_cases hd : y ∈ defined src.defs
          · exact iha ⟨y, hd⟩ (.single ⟨p, e, hst, hx, hy⟩)
          · exact hrest y hd⟩ h1
      have hu : ¬ IsUnit p := fun hu => by
        rw [unit_targets p hu] at hx
        cases hx
      have hsame : SameClk k' k := (c3 hu).elim (fun e => .inl e.symm) fun e => .inr ⟨e.2, e.1⟩
      exact target_good p t1 c1 hat.1 (presentOn_same hsame (timely_zero.1 hat.2)) h2 a.1 hx
    intro x
    by_cases hd : x ∈ defined src.defs
    · exact hdef ⟨x, hd⟩
    · exact hrest x hd

end
end Chandeliers.Std
