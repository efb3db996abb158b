import Verif.Lemmas.LegalConst

/-! Legality only depends on the declarations of what is mentioned. -/

set_option autoImplicit false

namespace Chandeliers.Den
open Chandeliers.San Chandeliers.Spec Chandeliers.Syn Chandeliers.Spec.Static

section
variable {S S' : Scope}

theorem isVar_env (hv : ∀ x, S'.var x = S.var x) {v : Var} : (e : Src) → (IsVar S' v e ↔ IsVar S v e)
  | .var x => by rw [IsVar, IsVar, hv]
  | .left e rest => by rw [IsVar, IsVar, isVar_env hv e]
  | .cmp e rest => by rw [IsVar, IsVar, isVar_env hv e]
  | .fby e rest => by rw [IsVar, IsVar, isVar_env hv e]
  | .arrow e rest => by rw [IsVar, IsVar, isVar_env hv e]
  | .lit _ => by simp [IsVar]
  | .paren _ _ => by simp [IsVar]
  | .ifx _ _ _ => by simp [IsVar]
  | .merge _ _ _ => by simp [IsVar]
  | .call _ _ _ => by simp [IsVar]
  | .pre _ => by simp [IsVar]
  | .neg _ => by simp [IsVar]
  | .not _ => by simp [IsVar]

mutual
theorem hasClk_env (hv : ∀ x, S'.var x = S.var x) (hu : S'.universalPre = S.universalPre) :
    (e : Src) → (k : Clk) → (HasClk S' e k ↔ HasClk S e k)
  | .lit _, k => by rw [HasClk, HasClk]
  | .var x, k => by rw [HasClk, HasClk, hv]
  | .paren es _, k => by rw [HasClk, HasClk, tupleClk_env hv hu es]
  | .left e rest, k => by
    rw [HasClk, HasClk]; simp only [hasClk_env hv hu e, leftClk_env hv hu rest]
  | .cmp e rest, k => by
    rw [HasClk, HasClk]; simp only [hasClk_env hv hu e, cmpClk_env hv hu rest]
  | .fby e rest, k => by
    rw [HasClk, HasClk]; simp only [hasClk_env hv hu e, chainClk_env hv hu rest]
  | .arrow e rest, k => by
    rw [HasClk, HasClk]; simp only [hasClk_env hv hu e, chainClk_env hv hu rest]
  | .ifx c y n, k => by
    rw [HasClk, HasClk]; simp only [hasClk_env hv hu c, hasClk_env hv hu y, hasClk_env hv hu n]
  | .merge c y n, k => by
    rw [HasClk, HasClk]; simp only [isVar_env hv c, hasClk_env hv hu y, hasClk_env hv hu n]
  | .call _ args _, k => by rw [HasClk, HasClk, tupleClk_env hv hu args]
  | .pre e, k => by rw [HasClk, HasClk, hasClk_env hv hu e, hu]
  | .neg e, k => by rw [HasClk, HasClk, hasClk_env hv hu e]
  | .not e, k => by rw [HasClk, HasClk, hasClk_env hv hu e]
theorem tupleClk_env (hv : ∀ x, S'.var x = S.var x) (hu : S'.universalPre = S.universalPre) :
    (es : List Src) → (k : Clk) → (TupleClk S' es k ↔ TupleClk S es k)
  | [], k => by rw [TupleClk, TupleClk]
  | e :: es, k => by rw [TupleClk, TupleClk, hasClk_env hv hu e, sameClks_env hv hu es]
theorem sameClks_env (hv : ∀ x, S'.var x = S.var x) (hu : S'.universalPre = S.universalPre) :
    (es : List Src) → (k : Clk) → (SameClks S' k es ↔ SameClks S k es)
  | [], k => by rw [SameClks, SameClks]
  | e :: es, k => by
    rw [SameClks, SameClks, sameClks_env hv hu es]; simp only [hasClk_env hv hu e]
theorem leftClk_env (hv : ∀ x, S'.var x = S.var x) (hu : S'.universalPre = S.universalPre) :
    (es : List (LOp × Src)) → (k₀ k : Clk) → (LeftClk S' k₀ es k ↔ LeftClk S k₀ es k)
  | [], k₀, k => by rw [LeftClk, LeftClk]
  | (op, e) :: es, k₀, k => by
    rw [LeftClk, LeftClk]
    cases Static.guard op <;>
      simp only [hasClk_env hv hu e, leftClk_env hv hu es, isVar_env hv e]
theorem cmpClk_env (hv : ∀ x, S'.var x = S.var x) (hu : S'.universalPre = S.universalPre) :
    (es : List (CmpOp × Src)) → (k₀ k : Clk) → (CmpClk S' k₀ es k ↔ CmpClk S k₀ es k)
  | [], k₀, k => by rw [CmpClk, CmpClk]
  | (op, e) :: es, k₀, k => by
    rw [CmpClk, CmpClk]; simp only [hasClk_env hv hu e]
theorem chainClk_env (hv : ∀ x, S'.var x = S.var x) (hu : S'.universalPre = S.universalPre) :
    (es : List Src) → (k₀ k : Clk) → (ChainClk S' k₀ es k ↔ ChainClk S k₀ es k)
  | [], k₀, k => by rw [ChainClk, ChainClk]
  | e :: es, k₀, k => by
    rw [ChainClk, ChainClk]; simp only [hasClk_env hv hu e, chainClk_env hv hu es, hu]
end

mutual
theorem ready_env (hv : ∀ x, S'.var x = S.var x) (hu : S'.universalPre = S.universalPre) :
    (e : Src) → (d n : Nat) → (Static.Ready S' d n e ↔ Static.Ready S d n e)
  | .lit _, d, n => by rw [Static.Ready, Static.Ready]
  | .var x, d, n => by rw [Static.Ready, Static.Ready, hv]
  | .paren es _, d, n => by rw [Static.Ready, Static.Ready, allReady_env hv hu es]
  | .left e rest, d, n => by rw [Static.Ready, Static.Ready, ready_env hv hu e, leftReady_env hv hu rest]
  | .cmp e rest, d, n => by rw [Static.Ready, Static.Ready, ready_env hv hu e, cmpReady_env hv hu rest]
  | .fby e rest, d, n => by rw [Static.Ready, Static.Ready, ready_env hv hu e, fbyReady_env hv hu rest]
  | .arrow e rest, d, n => by rw [Static.Ready, Static.Ready, ready_env hv hu e, arrowReady_env hv hu rest]
  | .ifx c y z, d, n => by
    rw [Static.Ready, Static.Ready, ready_env hv hu c, ready_env hv hu y, ready_env hv hu z]
  | .merge c y z, d, n => by
    rw [Static.Ready, Static.Ready, ready_env hv hu c, ready_env hv hu y, ready_env hv hu z]
  | .call _ args _, d, n => by rw [Static.Ready, Static.Ready, allReady_env hv hu args]
  | .pre e, d, n => by
    rw [Static.Ready, Static.Ready, hu]; simp only [ready_env hv hu e]
  | .neg e, d, n => by rw [Static.Ready, Static.Ready, ready_env hv hu e]
  | .not e, d, n => by rw [Static.Ready, Static.Ready, ready_env hv hu e]
theorem allReady_env (hv : ∀ x, S'.var x = S.var x) (hu : S'.universalPre = S.universalPre) :
    (es : List Src) → (d n : Nat) → (AllReady S' d n es ↔ AllReady S d n es)
  | [], d, n => by rw [AllReady, AllReady]
  | e :: es, d, n => by rw [AllReady, AllReady, ready_env hv hu e, allReady_env hv hu es]
theorem leftReady_env (hv : ∀ x, S'.var x = S.var x) (hu : S'.universalPre = S.universalPre) :
    (es : List (LOp × Src)) → (d n : Nat) → (LeftReady S' d n es ↔ LeftReady S d n es)
  | [], d, n => by rw [LeftReady, LeftReady]
  | (op, e) :: es, d, n => by
    rw [LeftReady, LeftReady, ready_env hv hu e, leftReady_env hv hu es]
theorem cmpReady_env (hv : ∀ x, S'.var x = S.var x) (hu : S'.universalPre = S.universalPre) :
    (es : List (CmpOp × Src)) → (d n : Nat) → (CmpReady S' d n es ↔ CmpReady S d n es)
  | [], d, n => by rw [CmpReady, CmpReady]
  | (op, e) :: es, d, n => by
    rw [CmpReady, CmpReady, ready_env hv hu e, cmpReady_env hv hu es]
theorem fbyReady_env (hv : ∀ x, S'.var x = S.var x) (hu : S'.universalPre = S.universalPre) :
    (es : List Src) → (d n i : Nat) → (FbyReady S' d n i es ↔ FbyReady S d n i es)
  | [], d, n, i => by rw [FbyReady, FbyReady]
  | e :: es, d, n, i => by
    rw [FbyReady, FbyReady, hu, fbyReady_env hv hu es]; simp only [ready_env hv hu e]
theorem arrowReady_env (hv : ∀ x, S'.var x = S.var x) (hu : S'.universalPre = S.universalPre) :
    (es : List Src) → (d n i : Nat) → (ArrowReady S' d n i es ↔ ArrowReady S d n i es)
  | [], d, n, i => by rw [ArrowReady, ArrowReady]
  | e :: es, d, n, i => by
    rw [ArrowReady, ArrowReady, hu, arrowReady_env hv hu es]; simp only [ready_env hv hu e]
end

mutual
theorem targetTy_env (hv : ∀ x, S'.var x = S.var x) : (p : Target) → (t : TyTuple) →
    (TargetTy S' p t ↔ TargetTy S p t)
  | .var x, t => by rw [TargetTy, TargetTy, hv]
  | .tuple ps _, t => by rw [TargetTy, TargetTy]; simp only [targetTys_env hv ps]
theorem targetTys_env (hv : ∀ x, S'.var x = S.var x) : (ps : List Target) → (ts : List TyTuple) →
    (TargetTys S' ps ts ↔ TargetTys S ps ts)
  | [], ts => by rw [TargetTys, TargetTys]
  | p :: ps, ts => by
    rw [TargetTys, TargetTys]; simp only [targetTy_env hv p, targetTys_env hv ps]
end

mutual
theorem targetClk_env (hv : ∀ x, S'.var x = S.var x) : (p : Target) → (k : Clk) →
    (TargetClk S' p k ↔ TargetClk S p k)
  | .var x, k => by rw [TargetClk, TargetClk, hv]
  | .tuple ps _, k => by rw [TargetClk, TargetClk, targetsClk_env hv ps]
theorem targetsClk_env (hv : ∀ x, S'.var x = S.var x) : (ps : List Target) → (k : Clk) →
    (TargetsClk S' ps k ↔ TargetsClk S ps k)
  | [], k => by rw [TargetsClk, TargetsClk]
  | p :: ps, k => by rw [TargetsClk, TargetsClk, targetClk_env hv p, targetsSame_env hv ps]
theorem targetsSame_env (hv : ∀ x, S'.var x = S.var x) : (ps : List Target) → (k : Clk) →
    (TargetsSame S' k ps ↔ TargetsSame S k ps)
  | [], k => by rw [TargetsSame, TargetsSame]
  | p :: ps, k => by
    rw [TargetsSame, TargetsSame, targetsSame_env hv ps]; simp only [targetClk_env hv p]
end

theorem legalStmt_agree {st : SrcStmt} (hu : S'.universalPre = S.universalPre)
    (h : Agree S S' (callees (SrcStmt.expr st)) (names (SrcStmt.expr st))) :
    LegalStmt S' st ↔ LegalStmt S st := by
  have hv := h.var
  cases st with
  | def_ p e =>
    simp only [LegalStmt, targetTy_env hv p, hasTy_agree e h, targetClk_env hv p,
      hasClk_env hv hu e, ready_env hv hu e]
  | assert e =>
    simp only [LegalStmt, hasTy_agree e h, hasClk_env hv hu e, ready_env hv hu e]

end

/-- The constants and the nodes that a declaration refers to. -/
def Refers (item : SrcItem) (fs xs : List String) : Prop :=
  match item with
  | .const c => fs = callees c.value ∧ xs = names c.value
  | .node n => fs = n.defs.flatMap (fun st => callees (SrcStmt.expr st)) ∧
      xs = (n.defs.flatMap fun st => names (SrcStmt.expr st)).filter fun x =>
        ((varsOf (n.inputs ++ n.outputs ++ n.locals)).find? fun v => v.name = x).isNone
  | _ => fs = [] ∧ xs = []

/-- What a declaration refers to exists. -/
def FindsAll (consts : String → Option TyBase) (nodes : String → Option Sig) (item : SrcItem) : Prop :=
  ∀ fs xs, Refers item fs xs →
    (∀ f ∈ fs, (nodes f).isSome = true) ∧ ∀ x ∈ xs, (consts x).isSome = true

theorem legalItem_finds {consts : String → Option TyBase} {nodes : String → Option Sig}
    {o : NodeOptions} {item : SrcItem} (h : LegalItem consts nodes o item) :
    FindsAll consts nodes item := by
  intro fs xs hr
  cases item with
  | const c =>
    obtain ⟨rfl, rfl⟩ := hr
    obtain ⟨-, h2, h3⟩ := hasTy_known _ h.2
    exact ⟨h2, fun x hx => (h3 x hx).resolve_left (by simp [Scope.var])⟩
  | node n =>
    obtain ⟨rfl, rfl⟩ := hr
    constructor
    · intro f hf
      obtain ⟨st, hst, hf⟩ := List.mem_flatMap.1 hf
      obtain ⟨t, ht⟩ := legalStmt_ty (h.stmts st hst)
      exact (hasTy_known _ ht).2.1 f hf
    · intro x hx
      obtain ⟨hx, hn⟩ := List.mem_filter.1 hx
      obtain ⟨st, hst, hx⟩ := List.mem_flatMap.1 hx
      obtain ⟨t, ht⟩ := legalStmt_ty (h.stmts st hst)
      refine ((hasTy_known _ ht).2.2 x hx).resolve_left fun hs => ?_
      rw [Option.isNone_iff_eq_none] at hn
      simp only [scope, Scope.var, hn] at hs
      cases hs
  | _ => obtain ⟨rfl, rfl⟩ := hr; simp

theorem legalItem_agree {consts consts' : String → Option TyBase}
    {nodes nodes' : String → Option Sig} {o : NodeOptions} {item : SrcItem}
    (h : ∀ fs xs, Refers item fs xs →
      (∀ f ∈ fs, nodes' f = nodes f) ∧ ∀ x ∈ xs, consts' x = consts x) :
    LegalItem consts' nodes' o item ↔ LegalItem consts nodes o item := by
  cases item with
  | const c =>
    obtain ⟨h1, h2⟩ := h _ _ ⟨rfl, rfl⟩
    simp only [LegalItem]
    rw [hasTy_agree (S := ⟨[], consts, nodes, false⟩) (S' := ⟨[], consts', nodes', false⟩) c.value
      ⟨rfl, h1, fun x hx _ => h2 x hx⟩]
  | node n =>
    obtain ⟨h1, h2⟩ := h _ _ ⟨rfl, rfl⟩
    have key : ∀ st ∈ n.defs,
        (LegalStmt (scope o consts' nodes' n) st ↔ LegalStmt (scope o consts nodes n) st) := by
      intro st hst
      refine legalStmt_agree rfl ⟨rfl, fun f hf => h1 f (List.mem_flatMap.2 ⟨st, hst, hf⟩),
        fun x hx hn => h2 x (List.mem_filter.2 ⟨List.mem_flatMap.2 ⟨st, hst, hx⟩, ?_⟩)⟩
      rw [Option.isNone_iff_eq_none]
      exact hn
    constructor
    · intro h
      exact ⟨h.interface, h.vars, fun st hst => (key st hst).1 (h.stmts st hst), h.inputs, h.once,
        h.everything, h.causal⟩
    · intro h
      exact ⟨h.interface, h.vars, fun st hst => (key st hst).2 (h.stmts st hst), h.inputs, h.once,
        h.everything, h.causal⟩
  | extConst x t => rfl
  | extNode f ins outs => rfl

end Chandeliers.Den
