import Verif.Lemmas.Ready
import Verif.Lemmas.QuietProg

/-! The types that are recorded for the generated code have no other type variables than those of
the node. -/

set_option autoImplicit false

namespace Chandeliers.Emt
open Chandeliers.San Chandeliers.Spec Chandeliers.Syn Chandeliers.Err Chandeliers.Err.Chk
open Chandeliers.Den

variable {G : List String}

/-- Only these type variables. -/
def Closed (G : List String) (t : TyTuple) : Prop := ∀ x ∈ tyVars t, x ∈ G

theorem base_subst {θ : Subst} {b : TyBase} :
    (∀ y ∈ baseVars (substBase θ b), y ∈ G) ↔ ∀ x ∈ baseVars b, ∀ y ∈ baseVars (θ x), y ∈ G := by
  cases b <;> simp [substBase, baseVars]

mutual
theorem closed_subst {θ : Subst} : (t : TyTuple) →
    (Closed G (substTy θ t) ↔ ∀ x ∈ tyVars t, ∀ y ∈ baseVars (θ x), y ∈ G)
  | .single b => by simp only [Closed, substTy, tyVars]; exact base_subst
  | .multiple ts => by
    have := closed_substs (θ := θ) ts
    simpa only [Closed, substTy, tyVars] using this
theorem closed_substs {θ : Subst} : (ts : List TyTuple) →
    ((∀ y ∈ tyVarsList (substTys θ ts), y ∈ G) ↔
      ∀ x ∈ tyVarsList ts, ∀ y ∈ baseVars (θ x), y ∈ G)
  | [] => by simp [substTys, tyVarsList]
  | t :: ts => by
    have h1 := closed_subst (θ := θ) t
    have h2 := closed_substs (θ := θ) ts
    simp only [substTys, tyVarsList, List.mem_append, or_imp, forall_and]
    rw [← h1, ← h2]
    exact Iff.rfl
end

/-- The environment of a node with these type variables. -/
structure EnvClosed (G : List String) (Γ : TyEnv) : Prop where
  global : ∀ x t, Γ.global x = some t → ∀ y ∈ baseVars t, y ∈ G
  vars : ∀ x t, Γ.vars x = some t → ∀ y ∈ baseVars t, y ∈ G
  call : ∀ i t u, Γ.call i t u → Closed G t → Closed G u

/-- The environment, and the types are closed. -/
def TyEnv.closed (G : List String) (Γ : TyEnv) : TyEnv :=
  { Γ with
    regs := fun i t => Γ.regs i t ∧ Closed G t
    call := fun i t u => Γ.call i t u ∧ Closed G t }

theorem closed_bool : Closed G (.single .bool) := by simp [Closed, tyVars, baseVars]

mutual
theorem typed_closed {Γ : TyEnv} (hΓ : EnvClosed G Γ) : {e : Expr} → {t : TyTuple} →
    HasType Γ e t → HasType (TyEnv.closed G Γ) e t ∧ Closed G t
  | .lit l, _, .lit => by
    refine ⟨.lit, ?_⟩
    cases l <;> simp [Closed, litType, tyVars, baseVars]
  | _, _, .global h => ⟨.global h, fun x hx => hΓ.global _ _ h x hx⟩
  | _, _, .var h => ⟨.var h, fun x hx => hΓ.vars _ _ h x hx⟩
  | _, _, .dummyPre h => ⟨.dummyPre (typed_closed hΓ h).1, (typed_closed hΓ h).2⟩
  | _, _, .dummyParen h => ⟨.dummyParen (typed_closed hΓ h).1, (typed_closed hΓ h).2⟩
  | _, _, .tuple h => ⟨.tuple (typeds_closed hΓ h).1, by
    simp only [Closed, tyVars]
    exact (typeds_closed hΓ h).2⟩
  | _, _, .bin hl hr h => ⟨.bin (typed_closed hΓ hl).1 (typed_closed hΓ hr).1 h,
    (typed_closed hΓ hl).2⟩
  | _, _, .un he h => ⟨.un (typed_closed hΓ he).1 h, (typed_closed hΓ he).2⟩
  | _, _, .cmp hl hr h => ⟨.cmp (typed_closed hΓ hl).1 (typed_closed hΓ hr).1 h, closed_bool⟩
  | _, _, .clock he hb => ⟨.clock (typed_closed hΓ he).1 (typed_closed hΓ hb).1,
    (typed_closed hΓ he).2⟩
  | _, _, .later he he' => ⟨.later (typed_closed hΓ he).1 (typed_closed hΓ he').1,
    (typed_closed hΓ he).2⟩
  | _, _, .flip he he' => ⟨.flip (typed_closed hΓ he).1 (typed_closed hΓ he').1,
    (typed_closed hΓ he).2⟩
  | _, _, .ifx hb hy hn => ⟨.ifx (typed_closed hΓ hb).1 (typed_closed hΓ hy).1
    (typed_closed hΓ hn).1, (typed_closed hΓ hy).2⟩
  | _, _, .merge hb hy hn => ⟨.merge (typed_closed hΓ hb).1 (typed_closed hΓ hy).1
    (typed_closed hΓ hn).1, (typed_closed hΓ hy).2⟩
  | _, _, .substep he h => ⟨.substep (typed_closed hΓ he).1 ⟨h, (typed_closed hΓ he).2⟩,
    hΓ.call _ _ _ h (typed_closed hΓ he).2⟩
  | _, _, .fetchPre he h => ⟨.fetchPre (typed_closed hΓ he).1 ⟨h, (typed_closed hΓ he).2⟩,
    (typed_closed hΓ he).2⟩
  | _, _, .fetchFby he he' h => ⟨.fetchFby (typed_closed hΓ he).1 (typed_closed hΓ he').1
    ⟨h, (typed_closed hΓ he).2⟩, (typed_closed hΓ he).2⟩
theorem typeds_closed {Γ : TyEnv} (hΓ : EnvClosed G Γ) : {es : List Expr} → {ts : List TyTuple} →
    HasTypes Γ es ts → HasTypes (TyEnv.closed G Γ) es ts ∧ ∀ x ∈ tyVarsList ts, x ∈ G
  | _, _, .nil => ⟨.nil, by simp [tyVarsList]⟩
  | _, _, .cons h hs => ⟨.cons (typed_closed hΓ h).1 (typeds_closed hΓ hs).1, by
    intro x hx
    rw [tyVarsList, List.mem_append] at hx
    exact hx.elim ((typed_closed hΓ h).2 x) ((typeds_closed hΓ hs).2 x)⟩
end

theorem stmt_closed {Γ : TyEnv} (hΓ : EnvClosed G Γ) {st : Stmt} (h : StmtTyped Γ st) :
    StmtTyped (TyEnv.closed G Γ) st := by
  cases h with
  | let_ hx he => exact .let_ hx (typed_closed hΓ he).1
  | assert he => exact .assert (typed_closed hΓ he).1
  | updateRegister => exact .updateRegister
  | initRegister => exact .initRegister

section
variable {b : Bool} {o : TyOpts} {sigs : String → Option Sig} {consts : String → Option TyBase}
  {src : SrcNode} {n n₁ n₂ : Node} {c : ExprCtx} {ctx : TyCtx} {clk : Nat → Expr} {m : Depths}
  {K : String → Option Clk}

/-- The types recorded for subnodes and registers. -/
theorem final_closed (h : Final b o sigs consts src n n₁ n₂ c ctx clk m K)
    (hw : ∀ f s, sigs f = some s → s.Wf)
    (hc : ∀ x t, consts x = some t → ∀ g, t ≠ .other g) :
    (∀ bl ∈ n.blocks, ∃ ts, bl.generics = some ts ∧ ∀ t ∈ ts, ∀ x ∈ baseVars t, x ∈ o.generics) ∧
    ∀ r ∈ n.registers, ∃ t, r = some t ∧ Closed o.generics t := by
  obtain ⟨a, a', ht⟩ := h.types
  have hwf : (bodyCtx sigs consts n₂).Wf := Quiet.bodyCtx_wf' fun b _ s hs => hw _ _ hs
  obtain ⟨c', hc', f, j⟩ := stmts_sound n₂.stmts _ _ _ _ hwf ht
  cases hc'
  have hwf' := f.wf hwf
  let Γ : TyEnv := {
    global := consts
    vars := typeIn (n₂.inputs ++ n₂.outputs ++ n₂.locals)
    regs := fun id t => ctx.registers id = some t
    call := fun id t u => ∃ gens θ ins outs, ctx.nodesGenerics id = some (gens, some (gens.map θ)) ∧
      SigWf gens ins outs ∧ t = substTy θ (flatTuple ins) ∧ u = substTy θ (flatTuple outs) }
  have hslots : (slotsOf n₂.stmts).Perm (slotsBetween {} c) :=
    (slotsOf_perm h.perm).trans h.built.whole
  have eb : n₂.blocks = c.blocks := by rw [h.same, h.start]
  have er : n₂.registers = List.replicate c.registers none := by rw [h.same, h.start]
  have typed : ∀ st ∈ n₂.stmts, StmtTyped Γ st := by
    refine j Γ ⟨rfl, rfl⟩ (.inr ⟨hslots.nodup_iff.2 (slotsBetween_nodup _ _), fun l _ => ?_⟩)
    cases l with
    | reg id => exact fun t ht => ht
    | sub id => exact fun gens θ ins outs h1 h2 h3 =>
        ⟨gens, θ, ins, outs, h1, hwf' id gens _ ins outs h1 h2 h3, rfl, rfl⟩
    | flip id => trivial
  have closed : EnvClosed o.generics Γ := by
    refine ⟨fun x t hx y hy => ?_, fun x t hx y hy => ?_, ?_⟩
    · cases t <;> simp [baseVars] at hy
      exact absurd rfl (hc x _ hx _)
    · obtain ⟨v, hv, rfl⟩ := Option.map_eq_some_iff.1 hx
      cases e : v.ty <;> simp [baseVars, e] at hy
      subst hy
      exact h.sig.declared v (List.mem_of_find?_eq_some hv) _ e
    · rintro i t u ⟨gens, θ, ins, outs, -, hs, rfl, rfl⟩ ht
      rw [closed_subst] at ht ⊢
      exact fun x hx => ht x ((hs.2.1 x).2 (hs.2.2 x hx))
  have used := Quiet.stmts_used n₂.stmts fun st hst => stmt_closed closed (typed st hst)
  constructor
  · intro bl hb
    rw [h.final] at hb
    change bl ∈ (n₂.fill ctx).blocks at hb
    simp only [Node.fill, List.mem_mapIdx] at hb
    obtain ⟨i, hi, rfl⟩ := hb
    obtain ⟨t, u, ⟨gens, θ, ins, outs, hg, hs, rfl, rfl⟩, ht⟩ := used (.sub i) (by
      rw [hslots.mem_iff]
      rw [eb] at hi
      simpa [slotsBetween, List.mem_range'_1] using hi)
    refine ⟨gens.map θ, by simp [hg], fun t hm x hx => ?_⟩
    obtain ⟨y, hy, rfl⟩ := List.mem_map.1 hm
    exact (closed_subst _).1 ht y ((hs.2.1 y).2 hy) x hx
  · intro r hr
    rw [h.final] at hr
    change r ∈ (n₂.fill ctx).registers at hr
    simp only [Node.fill, List.mem_mapIdx] at hr
    obtain ⟨i, hi, rfl⟩ := hr
    obtain ⟨t, ht, hcl⟩ := used (.reg i) (by
      rw [hslots.mem_iff]
      rw [er] at hi
      simpa [slotsBetween, List.mem_range'_1] using hi)
    exact ⟨t, ht, hcl⟩
end

end Chandeliers.Emt
