import Verif.Lemmas.Samples
import Verif.Props.Main

/-!
# Drivers of nodes whose answers are known
-/

set_option autoImplicit false

namespace Chandeliers.Smp
open San Syn Err Spec Spec.Samples Props

theorem unit_inputs (k : Nat) : (List.range k).map (fun _ => vUnit) = List.replicate k (.leaf (.defined .unit)) := by
  simp [vUnit]

/-- All that the machine returns when it has no input is `()`. -/
def Quiet (m : Machine) : Prop :=
  ∀ k os, m.run (List.replicate k (.leaf (.defined .unit))) = .ok os → ∀ o ∈ os, ∃ v, o.trusted = .ok v

theorem quiet {A : Arith} {consts : String → Option Scalar} {nodes : String → Option Machine}
    {attrs : List Attribute} {src : SrcNode} {m m' : Machine} (hm : Means A consts nodes attrs src m)
    (hi : src.inputs = []) (ho : src.outputs = [])
    (hr : ∀ is, (∀ i ∈ is, ValTy (flatTuple (argTypes src.inputs)) i) → m'.run is = m.run is) : Quiet m' := by
  intro k os h o hmem
  rw [hr _ (fun i hi' => by
    rw [hi, List.eq_of_mem_replicate hi']; exact Or.inr rfl)] at h
  obtain ⟨outs, ⟨S, -, rfl⟩, rfl⟩ := (hm _ _).1 h
  have hp : ∀ i ∈ List.replicate k (Tup.leaf (Nillable.defined Scalar.unit) : Value), present i = true := by
    intro i hi; rw [List.eq_of_mem_replicate hi]; rfl
  rw [List.filter_eq_self.2 hp, spread_present _ _ hp (by simp [srcOutputs])] at hmem
  simp only [srcOutputs, ho] at hmem
  obtain ⟨t, -, rfl⟩ := List.mem_map.1 hmem
  exact ⟨_, rfl⟩

theorem main_returns {m : Machine} (hq : Quiet m) {n : Nat} (hn : 0 < n) {out : Nat → Value}
    (h : Answers m n (fun _ => vUnit) out) : Returns m n := by
  have hr := h n (Nat.le_refl n)
  rw [unit_inputs n] at hr
  exact ⟨n + 1, (driver_returns hq hn).1.2 ⟨_, hr⟩⟩

theorem main_panics {m : Machine} (hq : Quiet m) {n t : Nat} (hn : t < n) (h : Panics m (fun _ => vUnit) t) :
    MainPanics m n := by
  rcases (driver_returns hq (show n > 0 by omega)).2 with h1 | ⟨p, h1, -⟩
  · obtain ⟨os, ho⟩ := (driver_returns hq (show n > 0 by omega)).1.1 h1
    rw [← unit_inputs] at ho
    exact absurd ho (h n hn os)
  · exact ⟨n + 1, p, h1⟩

/-- What a later invocation can use. -/
theorem offered_export {uid : Nat} {A : Arith} {I : Items} {X : Extern} {f : String} {m : Machine} {ty : TyBase}
    {n : Nat} {out : Nat → Value} (hX : X.nodes f = exported uid A I f) (hm : structOf uid I f = some m)
    (hr : Respects m (.multiple []) (.single ty)) (ha : Answers m n (fun _ => vUnit) out) :
    ∃ c, Offered X f ty c ∧ Answers c n (fun _ => vUnit) out := by
  refine ⟨_, ⟨?_, export_respects A I.consts hr⟩, Answers.export A I.consts ha fun _ => rfl⟩
  rw [hX, exported, hm]
  rfl

end Chandeliers.Smp
