import Verif.Lemmas.TimelyExpr
import Verif.Lemmas.LegalNode
import Verif.Lemmas.TypeMono
import Verif.Lemmas.PresenceNode

/-! The nodes without `#[universal_pre]` that are timely are sober once translated. -/

set_option autoImplicit false

namespace Chandeliers.Std
open Chandeliers.San Chandeliers.Spec Chandeliers.Syn Chandeliers.Den
open Chandeliers.Spec.Static

section
variable {o : NodeOptions} {consts : String → Option TyBase} {sigs : String → Option Sig}
  {src : SrcNode} {n : Node}

theorem timely_sober (h : Passes o.universalPre (tyOpts o) sigs consts src n)
    (hu : o.universalPre = false) (hl : ∀ st ∈ src.defs, LitsOk (literals (SrcStmt.expr st)))
    (ht : TimelyNode o src) : ∃ K, Sober n K := by
  obtain ⟨n₁, n₂, c, ctx, clk, m, K, hf⟩ := passes_final h
  have e₂ : n₂.inputs = translateArgs src.inputs ∧ n₂.outputs = translateArgs src.outputs ∧
      n₂.locals = translateArgs src.locals ∧ n₂.blocks = c.blocks := by
    rw [hf.same, hf.start]; exact ⟨rfl, rfl, rfl, rfl⟩
  obtain ⟨ei, eo, el, eb⟩ := e₂
  have hall : n₂.inputs ++ n₂.outputs ++ n₂.locals = allVars src := by rw [ei, eo, el]; rfl
  have hnd : ((allVars src).map (·.name)).Nodup := by
    have := (legalVars_iff.2 (hall ▸ hf.decls)).distinct
    simpa [toVar, Function.comp_def] using this
  have hK : ∀ x, K x = ((scope o consts sigs src).var x).map (·.clk) := by
    intro x
    have hd : Declared (allVars src) K := hall ▸ hf.clocked.declared
    rw [← scope_clocks, declared_unique hd (clocksIn_declared hnd)]
  have hvars : ∀ v ∈ declared n, ∃ w ∈ allVars src, v.name = w.name ∧ v.ty = w.ty ∧ v.clk = w.clk := by
    intro v hv
    rw [← hall]
    rw [hf.final] at hv
    simp only [declared, Node.withDepths, setDepths, Node.withClocks, Node.fill, ← List.map_append,
      List.mem_map] at hv
    obtain ⟨w, hw, rfl⟩ := hv
    exact ⟨w, hw, rfl, rfl, rfl⟩
  let Q : Expr → Expr → Prop := fun a b => ∀ sigs consts,
    ¬(HasType (nodeEnv sigs consts n) a (.single .float) ∧
      HasType (nodeEnv sigs consts n) b (.single .float))
  have henv : ∀ {sigs' consts' e t}, HasType (nodeEnv sigs' consts' n) e t →
      HasType (nodeEnv sigs' consts' n₂) e t := by
    intro sigs' consts' e t he
    refine Tell.hasType_mono (Γ := nodeEnv sigs' consts' n) (Γ' := nodeEnv sigs' consts' n₂)
      (fun _ _ h => h) ?_ (fun _ _ _ => trivial) ?_ he
    · show typeIn _ = typeIn _
      funext x
      rw [hf.final]
      simp [typeIn, Node.withDepths, setDepths, Node.withClocks, Node.fill, ← List.map_append,
        List.find?_map, Function.comp_def, Option.map_map]
    · rintro i t u ⟨b, gens, ins, outs, θ, h1, h2, h3, h4⟩
      rw [hf.final] at h1
      simp only [Node.withDepths, Node.withClocks, Node.fill, List.getElem?_mapIdx,
        Option.map_eq_some_iff] at h1
      obtain ⟨b', h1, rfl⟩ := h1
      exact ⟨b', gens, ins, outs, θ, h1, h2, h3, h4⟩
  have hQ : Discrete (scope o consts sigs src) c Q := by
    intro a e v x y hv la le ha he hd sigs' consts' ⟨h1, h2⟩
    have hv' : Sees (scope o consts' sigs' src) v := ⟨hv.1, hv.2⟩
    have hF : Fits (scope o consts' sigs' src) c (nodeEnv sigs' consts' n₂) := scope_fits hall eb
    exact hd (scope o consts' sigs' src) rfl
      ⟨(comes_type hF a hv' la ha).1 (henv h1), (comes_type hF e hv' le he).1 (henv h2)⟩
  have hview : (src.view o.universalPre).depth = 0 := rfl
  have hfine : ∀ st ∈ c.stmts, (∀ e ∈ evaluated st, Fine K Q 0 e) ∧ Stmt.withClocks clk st = st := by
    intro st hst
    have hc := node_comes hf.stmts
    have key : ∀ e x, e ∈ src.defs → Comes c (src.view o.universalPre) (SrcStmt.expr e) x →
        Fine K Q 0 x := fun e x he hx =>
      comes_fine (by rw [show (scope o consts sigs src).universalPre = o.universalPre from rfl, hu]; simp)
        hK hQ _ scope_sees (hl e he) hx (ht.timely consts sigs e he)
    cases st with
    | let_ t x =>
      obtain ⟨p, e, h1, -, h2⟩ := hc.lets t x hst
      refine ⟨fun y hy => ?_, rfl⟩
      rw [evaluated, List.mem_singleton] at hy
      subst hy
      exact key _ _ h1 h2
    | assert x =>
      obtain ⟨e, h1, h2⟩ := hc.checks x hst
      refine ⟨fun y hy => ?_, rfl⟩
      rw [evaluated, List.mem_singleton] at hy
      subst hy
      exact key _ _ h1 h2
    | initRegister id i k =>
      exfalso
      have hb := hf.built
      rw [hu] at hb
      have hr : c.registers = 0 := (hb.plain rfl).1
      have h1 : id ∈ initialised c.stmts := mem_initialised'.2 ⟨_, _, hst⟩
      rw [hf.built.inits.mem_iff, regsBetween, hr] at h1
      simp at h1
    | updateRegister id e =>
      exfalso
      have hb := hf.built
      rw [hu] at hb
      have hr : c.registers = 0 := (hb.plain rfl).1
      have h1 : id ∈ updated c.stmts := mem_updated.2 ⟨_, hst⟩
      rw [hf.built.updates.mem_iff, regsBetween, hr] at h1
      simp at h1
  have hst : ∀ st ∈ n.stmts, st ∈ n₂.stmts ∧ ∀ e ∈ evaluated st, Fine K Q 0 e := by
    intro st hs
    rw [hf.final_stmts] at hs
    obtain ⟨st', h1, rfl⟩ := List.mem_map.1 hs
    obtain ⟨h2, h3⟩ := hfine st' (hf.perm.mem_iff.1 h1)
    rw [h3]
    exact ⟨h1, h2⟩
  refine ⟨K, ⟨⟨?_, ?_, ?_⟩, ?_, ?_, ?_, ?_⟩⟩
  · intro v hv
    rw [hf.final] at hv
    simp only [Node.withDepths, setDepths, Node.withClocks, Node.fill, ← List.map_append,
      List.mem_map] at hv
    obtain ⟨w, hw, rfl⟩ := hv
    exact hf.clocked.interface w hw
  · intro x k
    rw [hf.clocked.declared x k, hf.final]
    simp [Node.withDepths, setDepths, Node.withClocks, Node.fill, ← List.map_append]
  · intro st hs
    obtain ⟨h1, h2⟩ := hst st hs
    have := hf.clocked.stmts st h1
    cases this with
    | let_ j1 j2 j3 => exact .let_ j1 ((h2 _ (by simp [evaluated])).clocks _ j2) j3
    | assert j1 j2 => exact .assert ((h2 _ (by simp [evaluated])).clocks _ j1) j2
    | updateRegister => exact .updateRegister
    | initRegister => exact .initRegister
  · intro v hv
    obtain ⟨w, hw, -, -, e⟩ := hvars v hv
    rw [e]
    simp only [allVars, translateArgs, List.mem_append, List.mem_flatMap, List.mem_map] at hw
    rcases hw with (⟨a, ha, x, hx, rfl⟩ | ⟨a, ha, x, hx, rfl⟩) | ⟨a, ha, x, hx, rfl⟩
    · exact ht.written a (by simp [ha])
    · exact ht.written a (by simp [ha])
    · exact ht.written a (by simp [ha])
  · exact fun st hs e he => ((hst st hs).2 e he).calls
  · exact fun st hs e he op a b hp =>
      ((hst st hs).2 e he).comparisons op a b (mem_parts_of_part hp)
  · exact fun st hs e he b y z k k' hp h1 h2 h3 =>
      ((hst st hs).2 e he).conditions b y z (mem_parts_of_part hp) k k' (clock_lax h1) (clock_lax h2)
        (clock_lax h3)

end

end Chandeliers.Std
