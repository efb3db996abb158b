import Verif.Lemmas.PromptUnique
import Verif.Lemmas.ClockedUnique
import Verif.Lemmas.SteadyProg

/-! # Nodes on which `#[universal_pre]` and Lustre agree -/

set_option autoImplicit false
set_option linter.unusedSectionVars false

namespace Chandeliers.Std
open Chandeliers.San Chandeliers.Spec Chandeliers.Syn Chandeliers.Den Chandeliers.Pres Chandeliers.Uni
open Chandeliers.Spec.Static

theorem _root_.Chandeliers.Spec.Static.ClockedRun.solution {W : World} {n : SrcNode}
    {is : List Value} (h : ClockedRun W n is) : ClockedSolution W n is where
  inputs := h.inputs
  absent := h.absent
  defs := by
    intro t ht st hst
    have := h.obeys t ht st hst
    cases st with
    | def_ p e =>
      obtain ⟨v, h1, h2, -⟩ := this
      exact fun hon => ⟨v, h2 hon, h1⟩
    | assert => trivial

section
variable {S : Scope} {W : World} {D : String → Clock} {θ : Subst}

mutual
theorem target_clk : (p : Target) → ∀ {k : Clk}, TargetClk S p k → ∀ x ∈ targets p,
    ∃ v, S.var x = some v ∧ SameClk k v.clk
  | .var y, k, h, x, hx => by
    rw [targets, List.mem_singleton] at hx
    subst hx
    rw [TargetClk] at h
    obtain ⟨v, h, rfl⟩ := h
    exact ⟨v, h, .inl rfl⟩
  | .tuple [] _, k, h, x, hx => by simp [targets, targetsList] at hx
  | .tuple (p :: ps) _, k, h, x, hx => by
    rw [TargetClk, TargetsClk] at h
    rw [targets, targetsList, List.mem_append] at hx
    rcases hx with hx | hx
    · exact target_clk p h.1 x hx
    · exact targets_clk ps h.2 x hx
theorem targets_clk : (ps : List Target) → ∀ {k : Clk}, TargetsSame S k ps → ∀ x ∈ targetsList ps,
    ∃ v, S.var x = some v ∧ SameClk k v.clk
  | [], k, h, x, hx => by simp [targetsList] at hx
  | p :: ps, k, h, x, hx => by
    rw [TargetsSame] at h
    obtain ⟨⟨k', h1, h2⟩, h3⟩ := h
    rw [targetsList, List.mem_append] at hx
    rcases hx with hx | hx
    · obtain ⟨v, h4, h5⟩ := target_clk p h1 x hx
      refine ⟨v, h4, ?_⟩
      rcases h2 with rfl | ⟨a, b⟩
      · exact h5
      · rcases h5 with rfl | ⟨c, d⟩
        · exact .inr ⟨a, b⟩
        · exact .inr ⟨a, d⟩
    · exact targets_clk ps h3 x hx
end

/-- The variables of an equation are absent together with its right-hand side. -/
theorem off_absent (ha : Around S W D) {t : Nat} {p : Target} {e : Src}
    (hL : LegalStmt S (.def_ p e)) (hab : ∀ x, due W.X (D x) t = false → W.X x t = .nil)
    (hoff : clockedOn W D e t = false) : ∀ x ∈ targets p, W.X x t = .nil := by
  obtain ⟨⟨τ, -, hτ⟩, ⟨k, k', h1, h2, h3⟩, -⟩ := hL
  intro x hx
  have hu : ¬ IsUnit p := fun hu => by rw [unit_targets p hu] at hx; cases hx
  obtain ⟨v, hv, hs⟩ := target_clk p h1 x hx
  refine hab x ?_
  by_contra hd
  rw [Bool.not_eq_false, due_active, ha.clocks x v hv, ← active_same hs, active_same (h3 hu)] at hd
  rw [(clockedOn_clk ha t e hτ h2).2 hd] at hoff
  cases hoff

end

section
variable {o : NodeOptions} {consts : String → Option TyBase} {sigs : String → Option Sig}
  {src : SrcNode} {W : World} {θ : Subst} {is : List Value}

theorem clocks_explicit {x y : String} {b : Bool} (h : SrcNode.clocks src x = .explicit b y) :
    ∃ a ∈ src.inputs ++ src.outputs ++ src.locals, x ∈ a.ids ∧ a.clk = .explicit b y := by
  unfold SrcNode.clocks at h
  split at h
  · rename_i a h'
    exact ⟨a, List.mem_of_find?_eq_some h', by simpa using List.find?_some h', h⟩
  · cases h

/-- What `#[universal_pre]` computes is what Lustre says. -/
theorem prompt_run (hL : LegalNode o consts sigs src)
    (ha : Around (scope o consts sigs src) W (SrcNode.clocks src))
    (hf : ∀ st ∈ src.defs, noOneTuple (SrcStmt.expr st) = true)
    (hr : ∀ st ∈ src.defs, ∃ r, Steady (scope o consts sigs src) (SrcStmt.expr st) r)
    (hq : ∀ st ∈ src.defs, Prompt (scope o consts sigs src) (SrcStmt.expr st))
    (hi : ∀ i ∈ is, ValTy (substTy θ (flatTuple (argTypes src.inputs))) i ∧ Full i)
    (hs : UniSolution W (SrcNode.clocks src) src is) : ClockedRun W src is := by
  have hall := node_good (θ := θ) hL ha hf hr hi hs
  refine ⟨hs.inputs, fun t ht x hx => ?_, fun t ht st hst => ?_⟩
  · cases hc : SrcNode.clocks src x with
    | explicit b y =>
      obtain ⟨a, h1, h2, h3⟩ := clocks_explicit hc
      have hv := scope_finds hL (mem_varsOf.2 ⟨a, h1, x, h2, rfl⟩)
      have hg := (hall t ht x _ hv).2.2 fun hact => by
        rw [← ha.clocks x _ hv, ← due_active, hx] at hact
        cases hact
      exact blank_leaf.1 hg
    | implicit => rw [hc] at hx; cases hx
    | adaptative => rw [hc] at hx; cases hx
  · have hg : AllGood (scope o consts sigs src) W θ t := fun u hu x => hall u (by omega) x
    have hst' := hL.stmts st hst
    have h1 := hs.defs t ht st hst
    obtain ⟨r, hsteady⟩ := hr st hst
    cases st with
    | def_ p e =>
      obtain ⟨⟨τ, t1, t2⟩, ⟨k, k', c1, c2, c3⟩, hready⟩ := hst'
      have hr0 : r = 0 := Nat.le_zero.1 (steady_ready ha.universal e hready hsteady)
      subst hr0
      obtain ⟨v, h1, h2⟩ := h1
      refine ⟨v, h2, fun hon => ?_, fun hoff => ?_⟩
      · exact uni_clocked ha e t2 c2 hsteady (hq _ hst) (hf _ hst) hg h1
          (ripe_zero.2 ((clockedOn_clk ha t e t2 c2).1 hon))
      · refine (uni_at ha e t2 c2 hsteady (hf _ hst) (hg.known _ _) h1).2.2 fun hp => ?_
        rw [(clockedOn_clk ha t e t2 c2).2 hp.1] at hoff
        cases hoff
    | assert e =>
      obtain ⟨t2, ⟨k, c2, c3⟩, hready⟩ := hst'
      have hr0 : r = 0 := Nat.le_zero.1 (steady_ready ha.universal e hready hsteady)
      subst hr0
      exact fun hon => uni_clocked ha e t2 c2 hsteady (hq _ hst) (hf _ hst) hg h1
        (ripe_zero.2 ((clockedOn_clk ha t e t2 c2).1 hon))

/-- The equations of a node have at most one solution in the clocked reference. -/
theorem clocked_unique (hL : LegalNode o consts sigs src) {Y : String → Nat → Nillable Scalar}
    (ha : Around (scope o consts sigs src) W (SrcNode.clocks src))
    (ha' : Around (scope o consts sigs src) { W with X := Y } (SrcNode.clocks src))
    (hG : InputGuards src) (hs : ClockedSolution W src is)
    (hs' : ClockedSolution { W with X := Y } src is) :
    ∀ t, t < is.length → ∀ x ∈ W.locals, W.X x t = Y x t := by
  have hin : ∀ t, t < is.length → ∀ x ∈ argNames src.inputs, W.X x t = Y x t := by
    intro t ht x hx
    have h1 := hs.inputs t is[t] (by simp [ht]) (List.ne_nil_of_mem hx)
    have h2 := hs'.inputs t is[t] (by simp [ht]) (List.ne_nil_of_mem hx)
    exact together_same (h1.symm.trans h2) x hx
  have hD : ∀ x b y, SrcNode.clocks src x = .explicit b y → y ∈ argNames src.inputs := by
    intro x b y h
    obtain ⟨a, h1, -, h3⟩ := clocks_explicit h
    exact hG.declared a h1 b y h3
  intro t
  induction t using Nat.strongRecOn with
  | ind t ih =>
    intro ht
    have hrest : ∀ x ∈ W.locals, x ∉ defined src.defs → W.X x t = Y x t := by
      intro x hx hd
      obtain ⟨v, hv⟩ := Option.isSome_iff_exists.1 ((ha.locals x).1 hx)
      have m1 : v ∈ varsOf (src.inputs ++ src.outputs ++ src.locals) := List.mem_of_find?_eq_some hv
      rw [← var_name hv] at hd ⊢
      rw [List.append_assoc, varsOf_append, List.mem_append] at m1
      rcases m1 with m1 | m1
      · refine hin t ht _ ?_
        rw [← names_varsOf]
        exact List.mem_map_of_mem m1
      · exact absurd (hL.everything v m1) hd
    have hdef : ∀ a : {x // x ∈ defined src.defs}, W.X a.1 t = Y a.1 t := by
      intro a
      induction a using (defined_wf hL.causal).induction with
      | _ a iha =>
      obtain ⟨st, hst, hx⟩ := List.mem_flatMap.1 a.2
      cases st with
      | assert => cases hx
      | def_ p e =>
      replace hx : a.1 ∈ targets p := hx
      have hP : ∀ u, u ≤ t → ∀ y, y ∈ argNames src.inputs → W.X y u = Y y u :=
        fun u hu y hy => hin u (by omega) y hy
      have hal : Alike W Y (· ∈ argNames src.inputs) (instant e) t := by
        refine ⟨hP, fun u hu x hx => ih u hu (by omega) x hx, fun y hy hl => ?_⟩
        by_cases hd : y ∈ defined src.defs
        · exact iha ⟨y, hd⟩ (.single ⟨p, e, hst, hx, hy⟩)
        · exact hrest y hl hd
      have hg := hG.used _ hst
      have hon := clockedOn_congr (W := W) hD (hP t (Nat.le_refl _)) e hg
      have hcl := clocked_congr (W := W) hD e hg hal
      cases hb : clockedOn W (SrcNode.clocks src) e t with
      | true =>
        obtain ⟨v, h1, h2⟩ := hs.defs t ht _ hst hb
        rw [hon] at hb
        obtain ⟨v', h1', h2'⟩ := hs'.defs t ht _ hst hb
        rw [← hcl, h1] at h1'
        cases h1'
        exact gets_unique p h2 h2' a.1 hx
      | false =>
        have e1 := off_absent ha (hL.stmts _ hst) (hs.absent t ht) hb a.1 hx
        rw [hon] at hb
        have e2 := off_absent ha' (hL.stmts _ hst) (hs'.absent t ht) hb a.1 hx
        exact e1.trans e2.symm
    intro x hx
    by_cases hd : x ∈ defined src.defs
    · exact hdef ⟨x, hd⟩
    · exact hrest x hx hd

end
end Chandeliers.Std
