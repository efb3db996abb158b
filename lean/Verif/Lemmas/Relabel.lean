import Verif.Spec.Relabel
import Verif.Lemmas.RenameNode
import Verif.Lemmas.Fresh
import Mathlib.Logic.Equiv.Defs

/-!
# Names of nodes and constants: sources
-/

set_option autoImplicit false

namespace Chandeliers.Rep
open Chandeliers.San Chandeliers.Spec Chandeliers.Syn Chandeliers.Spec.Static Chandeliers.Den

/-! ## Names -/

section
variable {ρ σ ν μ : String → String}

mutual
theorem names_rename : (e : Src) → names (renameSrc ρ ν e) = (names e).map ρ
  | .lit l => rfl
  | .var x => rfl
  | .paren es b => by simp [renameSrc, names, namesList_rename es]
  | .left e r => by simp [renameSrc, names, names_rename e, namesLeft_rename r]
  | .cmp e r => by simp [renameSrc, names, names_rename e, namesCmp_rename r]
  | .fby e r => by simp [renameSrc, names, names_rename e, namesList_rename r]
  | .arrow e r => by simp [renameSrc, names, names_rename e, namesList_rename r]
  | .ifx b y n => by simp [renameSrc, names, names_rename b, names_rename y, names_rename n]
  | .merge b y n => by simp [renameSrc, names, names_rename b, names_rename y, names_rename n]
  | .call f es b => by simp [renameSrc, names, namesList_rename es]
  | .pre e => by simp [renameSrc, names, names_rename e]
  | .neg e => by simp [renameSrc, names, names_rename e]
  | .not e => by simp [renameSrc, names, names_rename e]
theorem namesList_rename : (es : List Src) → namesList (renameList ρ ν es) = (namesList es).map ρ
  | [] => rfl
  | e :: es => by simp [renameList, namesList, names_rename e, namesList_rename es]
theorem namesLeft_rename : (es : List (LOp × Src)) →
    namesLeft (renameOps ρ ν es) = (namesLeft es).map ρ
  | [] => rfl
  | (_, e) :: es => by simp [renameOps, namesLeft, names_rename e, namesLeft_rename es]
theorem namesCmp_rename : (es : List (CmpOp × Src)) →
    namesCmp (renameCmp ρ ν es) = (namesCmp es).map ρ
  | [] => rfl
  | (_, e) :: es => by simp [renameCmp, namesCmp, names_rename e, namesCmp_rename es]
end

theorem clockNames_rename (a : ArgsTy) : clockNames (renameArgs ρ a) = (clockNames a).map ρ := by
  unfold clockNames renameArgs
  cases a.clk <;> rfl

theorem stmtTargets_rename (st : SrcStmt) :
    stmtTargets (renameStmt ρ ν st) = (stmtTargets st).map ρ := by
  cases st with
  | def_ p e => exact targets_rename p
  | assert e => rfl

theorem mentions_rename (n : SrcNode) : mentions (renameNode ρ ν n) = (mentions n).map ρ := by
  rw [mentions, vars_rename, mentions]
  simp only [renameNode, ← List.map_append, List.flatMap_map, clockNames_rename,
    stmtTargets_rename, expr_rename, names_rename]
  simp only [List.map_append, List.map_flatMap]

/-! ## Back -/

mutual
theorem rename_back (hν : ∀ f, μ (ν f) = f) : (e : Src) → (∀ x ∈ names e, σ (ρ x) = x) →
    renameSrc σ μ (renameSrc ρ ν e) = e
  | .lit l, _ => rfl
  | .var x, h => by rw [renameSrc, renameSrc, h x (by simp [names])]
  | .paren es b, h => by
    rw [names] at h
    rw [renameSrc, renameSrc, renameList_back hν es h]
  | .left e r, h => by
    rw [names, forall_append] at h
    rw [renameSrc, renameSrc, rename_back hν e h.1, renameOps_back hν r h.2]
  | .cmp e r, h => by
    rw [names, forall_append] at h
    rw [renameSrc, renameSrc, rename_back hν e h.1, renameCmp_back hν r h.2]
  | .fby e r, h => by
    rw [names, forall_append] at h
    rw [renameSrc, renameSrc, rename_back hν e h.1, renameList_back hν r h.2]
  | .arrow e r, h => by
    rw [names, forall_append] at h
    rw [renameSrc, renameSrc, rename_back hν e h.1, renameList_back hν r h.2]
  | .ifx b y n, h => by
    rw [names, forall_append, forall_append] at h
    rw [renameSrc, renameSrc, rename_back hν b h.1, rename_back hν y h.2.1, rename_back hν n h.2.2]
  | .merge b y n, h => by
    rw [names, forall_append, forall_append] at h
    rw [renameSrc, renameSrc, rename_back hν b h.1, rename_back hν y h.2.1, rename_back hν n h.2.2]
  | .call f es b, h => by
    rw [names] at h
    rw [renameSrc, renameSrc, renameList_back hν es h, hν]
  | .pre e, h => by
    rw [names] at h
    rw [renameSrc, renameSrc, rename_back hν e h]
  | .neg e, h => by
    rw [names] at h
    rw [renameSrc, renameSrc, rename_back hν e h]
  | .not e, h => by
    rw [names] at h
    rw [renameSrc, renameSrc, rename_back hν e h]
theorem renameList_back (hν : ∀ f, μ (ν f) = f) : (es : List Src) →
    (∀ x ∈ namesList es, σ (ρ x) = x) → renameList σ μ (renameList ρ ν es) = es
  | [], _ => rfl
  | e :: es, h => by
    rw [namesList, forall_append] at h
    rw [renameList, renameList, rename_back hν e h.1, renameList_back hν es h.2]
theorem renameOps_back (hν : ∀ f, μ (ν f) = f) : (es : List (LOp × Src)) →
    (∀ x ∈ namesLeft es, σ (ρ x) = x) → renameOps σ μ (renameOps ρ ν es) = es
  | [], _ => rfl
  | (_, e) :: es, h => by
    rw [namesLeft, forall_append] at h
    rw [renameOps, renameOps, rename_back hν e h.1, renameOps_back hν es h.2]
theorem renameCmp_back (hν : ∀ f, μ (ν f) = f) : (es : List (CmpOp × Src)) →
    (∀ x ∈ namesCmp es, σ (ρ x) = x) → renameCmp σ μ (renameCmp ρ ν es) = es
  | [], _ => rfl
  | (_, e) :: es, h => by
    rw [namesCmp, forall_append] at h
    rw [renameCmp, renameCmp, rename_back hν e h.1, renameCmp_back hν es h.2]
end

mutual
theorem renameTarget_back : (p : Target) → (∀ x ∈ targets p, σ (ρ x) = x) →
    renameTarget σ (renameTarget ρ p) = p
  | .var x, h => by rw [renameTarget, renameTarget, h x (by simp [targets])]
  | .tuple ps b, h => by
    rw [targets] at h
    rw [renameTarget, renameTarget, renameTargets_back ps h]
theorem renameTargets_back : (ps : List Target) → (∀ x ∈ targetsList ps, σ (ρ x) = x) →
    renameTargets σ (renameTargets ρ ps) = ps
  | [], _ => rfl
  | p :: ps, h => by
    rw [targetsList, forall_append] at h
    rw [renameTargets, renameTargets, renameTarget_back p h.1, renameTargets_back ps h.2]
end

theorem map_back {α : Type} {f g : α → α} {l : List α} (h : ∀ a ∈ l, g (f a) = a) :
    (l.map f).map g = l := by
  rw [List.map_map]
  conv => rhs; rw [← List.map_id l]
  exact List.map_congr_left fun a ha => h a ha

theorem renameArgs_back {a : ArgsTy} (h1 : ∀ x ∈ a.ids, σ (ρ x) = x)
    (h2 : ∀ x ∈ clockNames a, σ (ρ x) = x) : renameArgs σ (renameArgs ρ a) = a := by
  obtain ⟨ids, base, clk⟩ := a
  simp only [renameArgs, ArgsTy.mk.injEq, true_and]
  refine ⟨map_back h1, ?_⟩
  cases clk with
  | explicit b x => simp only [renameClock, h2 x (by simp [clockNames])]
  | _ => rfl

theorem renameNode_back {n : SrcNode} (hν : ∀ f, μ (ν f) = f) (h : ∀ x ∈ mentions n, σ (ρ x) = x) :
    renameNode σ μ (renameNode ρ ν n) = n := by
  have ha : ∀ a ∈ n.inputs ++ n.outputs ++ n.locals, renameArgs σ (renameArgs ρ a) = a :=
    fun a ha => renameArgs_back (fun x hx => h x (vars_mentions (ids_vars ha hx))) fun x hx => by
      refine h x ?_
      simp only [mentions, List.mem_append]
      exact .inl (.inr (List.mem_flatMap.2 ⟨a, ha, hx⟩))
  have hs : ∀ st ∈ n.defs, renameStmt σ μ (renameStmt ρ ν st) = st := by
    intro st hst
    cases st with
    | def_ p e =>
      simp only [renameStmt]
      rw [renameTarget_back p fun x hx => h x (target_mentions hst hx),
        rename_back hν e fun x hx => h x (names_mentions hst hx)]
    | assert e =>
      simp only [renameStmt]
      rw [rename_back hν e fun x hx => h x (names_mentions hst hx)]
  simp only [renameNode, hν]
  rw [map_back fun a hm => ha a (by simp [hm]), map_back fun a hm => ha a (by simp [hm]),
    map_back fun a hm => ha a (by simp [hm]), map_back hs]

end

open Classical in
theorem relabelled_symm {ν κ : String ≃ String} {d e : SrcDecl} (h : Relabelled ν κ d e) :
    Relabelled ν.symm κ.symm e d := by
  cases h with
  | @const attrs c =>
    have := Relabelled.const (ν := ν.symm) (κ := κ.symm) (attrs := attrs)
      (c := ⟨κ c.name, c.ty, renameSrc κ ν c.value⟩)
    rw [rename_back (by simp) _ (by simp)] at this
    simpa using this
  | @extConst attrs x t =>
    have := Relabelled.extConst (ν := ν.symm) (κ := κ.symm) (attrs := attrs) (x := κ x) (t := t)
    simpa using this
  | @extNode attrs f ins outs =>
    have := Relabelled.extNode (ν := ν.symm) (κ := κ.symm) (attrs := attrs) (f := ν f) (ins := ins)
      (outs := outs)
    simpa using this
  | @node attrs n ρ h1 h2 =>
    let σ : String → String := fun y => if h : ∃ x ∈ mentions n, ρ x = y then h.choose else y
    have hσ : ∀ x ∈ mentions n, σ (ρ x) = x := by
      intro x hx
      have he : ∃ x' ∈ mentions n, ρ x' = ρ x := ⟨x, hx, rfl⟩
      show (if h : ∃ x' ∈ mentions n, ρ x' = ρ x then h.choose else ρ x) = x
      rw [dif_pos he]
      exact h1 _ he.choose_spec.1 x hx he.choose_spec.2
    have := Relabelled.node (ν := ν.symm) (κ := κ.symm) (attrs := attrs) (n := renameNode ρ ν n) σ
      (by
        rw [mentions_rename]
        intro x hx y hy e
        obtain ⟨x, hx', rfl⟩ := List.mem_map.1 hx
        obtain ⟨y, hy', rfl⟩ := List.mem_map.1 hy
        rw [hσ x hx', hσ y hy'] at e
        rw [e])
      (by
        rw [mentions_rename]
        intro x hx hv
        obtain ⟨x, hx', rfl⟩ := List.mem_map.1 hx
        rw [mem_rename ⟨h1⟩ hx'] at hv
        rw [hσ x hx', h2 x hx' hv]
        simp)
    rwa [renameNode_back (by simp) hσ] at this

theorem relabelled_back {ν κ : String ≃ String} {p r : SrcProg}
    (h : List.Forall₂ (Relabelled ν κ) p r) : List.Forall₂ (Relabelled ν.symm κ.symm) r p := by
  induction h with
  | nil => exact .nil
  | cons h _ ih => exact .cons (relabelled_symm h) ih

/-! ## Constants -/

section
variable {κ ν : String → String}

mutual
theorem constant_rename : (e : Src) → Constant e → Constant (renameSrc κ ν e)
  | .lit _, h => h
  | .var _, h => by rw [renameSrc, Constant]; trivial
  | .paren es b, h => by
    rw [Constant] at h
    rw [renameSrc, Constant, renameList_length]
    exact ⟨h.1, h.2.1, constants_rename es h.2.2⟩
  | .left e r, h => by
    rw [Constant] at h
    rw [renameSrc, Constant]
    exact ⟨constant_rename e h.1, leftConstant_rename r h.2⟩
  | .cmp e r, h => by
    rw [Constant] at h
    rw [renameSrc, Constant]
    exact ⟨constant_rename e h.1, cmpConstant_rename r h.2⟩
  | .fby e r, h => by
    rw [Constant] at h
    rw [renameSrc, Constant, renameList_nil]
    exact ⟨constant_rename e h.1, h.2⟩
  | .arrow e r, h => by
    rw [Constant] at h
    rw [renameSrc, Constant, renameList_nil]
    exact ⟨constant_rename e h.1, h.2⟩
  | .ifx b y n, h => by
    rw [Constant] at h
    rw [renameSrc, Constant]
    exact ⟨constant_rename b h.1, constant_rename y h.2.1, constant_rename n h.2.2⟩
  | .merge _ _ _, h => by rw [Constant] at h; exact h.elim
  | .call _ _ _, h => by rw [Constant] at h; exact h.elim
  | .pre _, h => by rw [Constant] at h; exact h.elim
  | .neg e, h => by
    rw [Constant] at h
    rw [renameSrc, Constant]
    exact constant_rename e h
  | .not e, h => by
    rw [Constant] at h
    rw [renameSrc, Constant]
    exact constant_rename e h
theorem constants_rename : (es : List Src) → Constants es → Constants (renameList κ ν es)
  | [], h => h
  | e :: es, h => by
    rw [Constants] at h
    rw [renameList, Constants]
    exact ⟨constant_rename e h.1, constants_rename es h.2⟩
theorem leftConstant_rename : (es : List (LOp × Src)) → LeftConstant es →
    LeftConstant (renameOps κ ν es)
  | [], h => h
  | (op, e) :: es, h => by
    rw [LeftConstant] at h
    rw [renameOps, LeftConstant]
    exact ⟨h.1, constant_rename e h.2.1, leftConstant_rename es h.2.2⟩
theorem cmpConstant_rename : (es : List (CmpOp × Src)) → CmpConstant es →
    CmpConstant (renameCmp κ ν es)
  | [], h => h
  | (op, e) :: es, h => by
    rw [CmpConstant] at h
    rw [renameCmp, CmpConstant]
    exact ⟨constant_rename e h.1, cmpConstant_rename es h.2⟩
end

/-- The values of two constant expressions are the same, if the second finds the values of constants
under their other names. -/
def SameConst (κ : String → String) (x x' : Expr) : Prop := ∀ c, x.constTokens = some c →
  ∃ c', x'.constTokens = some c' ∧ ∀ (A : Arith) (g g' : Globals), (∀ y, g' (κ y) = g y) →
    c'.eval A g' = c.eval A g

theorem sameConst_bin {op : BinOp} {x y x' y' : Expr} (h1 : SameConst κ x x') (h2 : SameConst κ y y') :
    SameConst κ (.bin op x y) (.bin op x' y') := by
  intro c hc
  simp only [Expr.constTokens, Option.bind_eq_bind, Option.bind_eq_some_iff, Option.pure_def,
    Option.some.injEq] at hc
  obtain ⟨a, e1, b, e2, rfl⟩ := hc
  obtain ⟨a', k1, k2⟩ := h1 a e1
  obtain ⟨b', k3, k4⟩ := h2 b e2
  refine ⟨.bin op a' b', by simp [Expr.constTokens, k1, k3], fun A g g' hg => ?_⟩
  simp only [CExpr.eval, k2 A g g' hg, k4 A g g' hg]

theorem sameConst_cmp {op : CmpOp} {x y x' y' : Expr} (h1 : SameConst κ x x') (h2 : SameConst κ y y') :
    SameConst κ (.cmp op x y) (.cmp op x' y') := by
  intro c hc
  simp only [Expr.constTokens, Option.bind_eq_bind, Option.bind_eq_some_iff, Option.pure_def,
    Option.some.injEq] at hc
  obtain ⟨a, e1, b, e2, rfl⟩ := hc
  obtain ⟨a', k1, k2⟩ := h1 a e1
  obtain ⟨b', k3, k4⟩ := h2 b e2
  refine ⟨.cmp op a' b', by simp [Expr.constTokens, k1, k3], fun A g g' hg => ?_⟩
  simp only [CExpr.eval, k2 A g g' hg, k4 A g g' hg]

theorem sameConst_un {op : UnOp} {x x' : Expr} (h1 : SameConst κ x x') :
    SameConst κ (.un op x) (.un op x') := by
  intro c hc
  simp only [Expr.constTokens, Option.bind_eq_bind, Option.bind_eq_some_iff, Option.pure_def,
    Option.some.injEq] at hc
  obtain ⟨a, e1, rfl⟩ := hc
  obtain ⟨a', k1, k2⟩ := h1 a e1
  refine ⟨.un op a', by simp [Expr.constTokens, k1], fun A g g' hg => ?_⟩
  simp only [CExpr.eval, k2 A g g' hg]

theorem sameConst_ite {x y z x' y' z' : Expr} (h1 : SameConst κ x x') (h2 : SameConst κ y y')
    (h3 : SameConst κ z z') : SameConst κ (.ifx x y z) (.ifx x' y' z') := by
  intro c hc
  simp only [Expr.constTokens, Option.bind_eq_bind, Option.bind_eq_some_iff, Option.pure_def,
    Option.some.injEq] at hc
  obtain ⟨a, e1, b, e2, d, e3, rfl⟩ := hc
  obtain ⟨a', k1, k2⟩ := h1 a e1
  obtain ⟨b', k3, k4⟩ := h2 b e2
  obtain ⟨d', k5, k6⟩ := h3 d e3
  refine ⟨.ite a' b' d', by simp [Expr.constTokens, k1, k3, k5], fun A g g' hg => ?_⟩
  simp only [CExpr.eval, k2 A g g' hg, k4 A g g' hg, k6 A g g' hg]

theorem sameConst_op {op : LOp} (ho : guard op = none) {x y x' y' : Expr} (h1 : SameConst κ x x')
    (h2 : SameConst κ y y') : SameConst κ (op.compose x y) (op.compose x' y') := by
  cases op <;> first | exact sameConst_bin h1 h2 | cases ho

theorem lit_translate_sound {l : Syn.Lit} {c c' : ExprCtx} {x : Expr}
    (h : l.translate c = .ok (x, c')) : SameConst κ x x := by
  have : ∃ l', x = .lit l' := by
    cases l with
    | bool b => cases h; exact ⟨_, rfl⟩
    | int n =>
      simp only [Syn.Lit.translate] at h
      split at h
      · cases h; exact ⟨_, rfl⟩
      · cases h
    | float f =>
      cases f with
      | none => cases h
      | some f => cases h; exact ⟨_, rfl⟩
    | other => cases h
  obtain ⟨l', rfl⟩ := this
  intro c hc
  exact ⟨c, hc, fun A g g' _ => by
    simp only [Expr.constTokens, Option.some.injEq] at hc
    subst hc
    rfl⟩

mutual
theorem const_rename : (e : Src) → Constant e → ∀ {v : View}, v.shadow = [] →
    ∀ {c c' : ExprCtx} {x : Expr}, e.translate v c = .ok (x, c') →
    ∃ x', (renameSrc κ ν e).translate v c = .ok (x', c') ∧ SameConst κ x x'
  | .lit l, _, v, hv, c, c', x, h => ⟨x, h, lit_translate_sound h⟩
  | .var y, _, v, hv, c, c', x, h => by
    simp only [Src.translate, hv, List.not_mem_nil, if_false, tr_pure_ok, Prod.mk.injEq] at h
    obtain ⟨rfl, rfl⟩ := h
    refine ⟨.global (κ y), by simp [renameSrc, Src.translate, hv, tr_pure_ok], fun c hc => ?_⟩
    simp only [Expr.constTokens, Option.some.injEq] at hc
    subst hc
    exact ⟨.ident (κ y), rfl, fun A g g' hg => by simp only [CExpr.eval, hg]⟩
  | .paren es b, hk, v, hv, c, c', x, h => by
    rw [Constant] at hk
    obtain ⟨rfl, hl, hk⟩ := hk
    match es, hl, hk with
    | [e], _, hk =>
      rw [Constants] at hk
      simp only [Src.translate, Src.translateList, tr_bind_ok, tr_pure_ok, Prod.mk.injEq] at h
      obtain ⟨_, _, ⟨y, c1, h1, _, _, ⟨rfl, rfl⟩, rfl, rfl⟩, rfl, rfl⟩ := h
      obtain ⟨y', k1, k2⟩ := const_rename e hk.1 hv h1
      refine ⟨.dummyParen y', ?_, k2⟩
      simp only [renameSrc, renameList, Src.translate, Src.translateList, tr_bind_ok, tr_pure_ok,
        Prod.mk.injEq]
      exact ⟨_, _, ⟨y', _, k1, _, _, ⟨rfl, rfl⟩, rfl, rfl⟩, rfl, rfl⟩
  | .left e r, hk, v, hv, c, c', x, h => by
    rw [Constant] at hk
    simp only [Src.translate, tr_bind_ok] at h
    obtain ⟨y, c1, h1, h2⟩ := h
    obtain ⟨y', k1, k2⟩ := const_rename e hk.1 hv h1
    obtain ⟨x', k3, k4⟩ := constLeft_rename r hk.2 hv k2 h2
    refine ⟨x', ?_, k4⟩
    simp only [renameSrc, Src.translate, tr_bind_ok]
    exact ⟨_, _, k1, k3⟩
  | .cmp e r, hk, v, hv, c, c', x, h => by
    rw [Constant] at hk
    simp only [Src.translate, tr_bind_ok] at h
    obtain ⟨y, c1, h1, h2⟩ := h
    obtain ⟨y', k1, k2⟩ := const_rename e hk.1 hv h1
    obtain ⟨x', k3, k4⟩ := constCmp_rename r hk.2 hv k2 h2
    refine ⟨x', ?_, k4⟩
    simp only [renameSrc, Src.translate, tr_bind_ok]
    exact ⟨_, _, k1, k3⟩
  | .fby e r, hk, v, hv, c, c', x, h => by
    rw [Constant] at hk
    obtain ⟨hk, rfl⟩ := hk
    simp only [Src.translate, Src.translateFby, tr_bind_ok, tr_pure_ok, Prod.mk.injEq] at h
    obtain ⟨_, _, ⟨rfl, rfl⟩, y, c1, h1, h2⟩ := h
    simp only [tr_pure_ok, Prod.mk.injEq] at h2
    obtain ⟨rfl, rfl⟩ := h2
    obtain ⟨y', k1, k2⟩ := const_rename e hk (v := if v.useRegisters then v else v.bump 0)
      (by split <;> exact hv) h1
    refine ⟨y', ?_, k2⟩
    simp only [renameSrc, renameList, Src.translate, Src.translateFby, tr_bind_ok, tr_pure_ok,
      Prod.mk.injEq]
    exact ⟨_, _, ⟨rfl, rfl⟩, _, _, k1, rfl⟩
  | .arrow e r, hk, v, hv, c, c', x, h => by
    rw [Constant] at hk
    obtain ⟨hk, rfl⟩ := hk
    simp only [Src.translate, Src.translateThen, tr_bind_ok, tr_pure_ok, Prod.mk.injEq] at h
    obtain ⟨_, _, ⟨rfl, rfl⟩, y, c1, h1, h2⟩ := h
    simp only [tr_pure_ok, Prod.mk.injEq] at h2
    obtain ⟨rfl, rfl⟩ := h2
    obtain ⟨y', k1, k2⟩ := const_rename e hk hv h1
    refine ⟨y', ?_, k2⟩
    simp only [renameSrc, renameList, Src.translate, Src.translateThen, tr_bind_ok, tr_pure_ok,
      Prod.mk.injEq]
    exact ⟨_, _, ⟨rfl, rfl⟩, _, _, k1, rfl⟩
  | .ifx b y n, hk, v, hv, c, c', x, h => by
    rw [Constant] at hk
    simp only [Src.translate, tr_bind_ok, tr_pure_ok, Prod.mk.injEq] at h
    obtain ⟨x1, c1, h1, x2, c2, h2, x3, c3, h3, rfl, rfl⟩ := h
    obtain ⟨x1', k1, j1⟩ := const_rename b hk.1 hv h1
    obtain ⟨x2', k2, j2⟩ := const_rename y hk.2.1 hv h2
    obtain ⟨x3', k3, j3⟩ := const_rename n hk.2.2 hv h3
    refine ⟨.ifx x1' x2' x3', ?_, sameConst_ite j1 j2 j3⟩
    simp only [renameSrc, Src.translate, tr_bind_ok, tr_pure_ok, Prod.mk.injEq]
    exact ⟨_, _, k1, _, _, k2, _, _, k3, rfl, rfl⟩
  | .merge _ _ _, hk, v, hv, c, c', x, h => by rw [Constant] at hk; exact hk.elim
  | .call _ _ _, hk, v, hv, c, c', x, h => by rw [Constant] at hk; exact hk.elim
  | .pre _, hk, v, hv, c, c', x, h => by rw [Constant] at hk; exact hk.elim
  | .neg e, hk, v, hv, c, c', x, h => by
    rw [Constant] at hk
    simp only [Src.translate, tr_bind_ok, tr_pure_ok, Prod.mk.injEq] at h
    obtain ⟨x1, c1, h1, rfl, rfl⟩ := h
    obtain ⟨x1', k1, j1⟩ := const_rename e hk hv h1
    refine ⟨.un .neg x1', ?_, sameConst_un j1⟩
    simp only [renameSrc, Src.translate, tr_bind_ok, tr_pure_ok, Prod.mk.injEq]
    exact ⟨_, _, k1, rfl, rfl⟩
  | .not e, hk, v, hv, c, c', x, h => by
    rw [Constant] at hk
    simp only [Src.translate, tr_bind_ok, tr_pure_ok, Prod.mk.injEq] at h
    obtain ⟨x1, c1, h1, rfl, rfl⟩ := h
    obtain ⟨x1', k1, j1⟩ := const_rename e hk hv h1
    refine ⟨.un .not x1', ?_, sameConst_un j1⟩
    simp only [renameSrc, Src.translate, tr_bind_ok, tr_pure_ok, Prod.mk.injEq]
    exact ⟨_, _, k1, rfl, rfl⟩
theorem constLeft_rename : (r : List (LOp × Src)) → LeftConstant r → ∀ {v : View}, v.shadow = [] →
    ∀ {a a' : Expr}, SameConst κ a a' → ∀ {c c' : ExprCtx} {x : Expr},
    Src.translateLeft v a r c = .ok (x, c') →
    ∃ x', Src.translateLeft v a' (renameOps κ ν r) c = .ok (x', c') ∧ SameConst κ x x'
  | [], _, v, hv, a, a', ha, c, c', x, h => by
    simp only [Src.translateLeft, tr_pure_ok, Prod.mk.injEq] at h
    obtain ⟨rfl, rfl⟩ := h
    exact ⟨a', rfl, ha⟩
  | (op, e) :: r, hk, v, hv, a, a', ha, c, c', x, h => by
    rw [LeftConstant] at hk
    simp only [Src.translateLeft, tr_bind_ok] at h
    obtain ⟨y, c1, h1, h2⟩ := h
    obtain ⟨y', k1, k2⟩ := const_rename e hk.2.1 hv h1
    obtain ⟨x', k3, k4⟩ := constLeft_rename r hk.2.2 hv (sameConst_op hk.1 ha k2) h2
    refine ⟨x', ?_, k4⟩
    simp only [renameOps, Src.translateLeft, tr_bind_ok]
    exact ⟨_, _, k1, k3⟩
theorem constCmp_rename : (r : List (CmpOp × Src)) → CmpConstant r → ∀ {v : View}, v.shadow = [] →
    ∀ {a a' : Expr}, SameConst κ a a' → ∀ {c c' : ExprCtx} {x : Expr},
    Src.translateCmp v a r c = .ok (x, c') →
    ∃ x', Src.translateCmp v a' (renameCmp κ ν r) c = .ok (x', c') ∧ SameConst κ x x'
  | [], _, v, hv, a, a', ha, c, c', x, h => by
    simp only [Src.translateCmp, tr_pure_ok, Prod.mk.injEq] at h
    obtain ⟨rfl, rfl⟩ := h
    exact ⟨a', rfl, ha⟩
  | [(op, e)], hk, v, hv, a, a', ha, c, c', x, h => by
    rw [CmpConstant] at hk
    simp only [Src.translateCmp, tr_bind_ok, tr_pure_ok, Prod.mk.injEq] at h
    obtain ⟨y, c1, h1, rfl, rfl⟩ := h
    obtain ⟨y', k1, k2⟩ := const_rename e hk.1 hv h1
    refine ⟨.cmp op a' y', ?_, sameConst_cmp ha k2⟩
    simp only [renameCmp, Src.translateCmp, tr_bind_ok, tr_pure_ok, Prod.mk.injEq]
    exact ⟨_, _, k1, rfl, rfl⟩
  | (op, e) :: (op', e') :: r, hk, v, hv, a, a', ha, c, c', x, h => by
    simp only [Src.translateCmp, tr_bind_ok] at h
    obtain ⟨_, _, _, _, _, _, h⟩ := h
    cases h
end

/-- Under its other name, a constant has the same value. -/
theorem value_rename {c : SrcConst} (hk : Constant c.value) {c₁ : Const} (h : c.translate = .ok c₁)
    {A : Arith} {g g' : Globals} (hg : ∀ y, g' (κ y) = g y) {v : Scalar} (hv : c₁.eval A g = .ok v) :
    ∃ c₂, (⟨κ c.name, c.ty, renameSrc κ ν c.value⟩ : SrcConst).translate = .ok c₂ ∧
      c₂.eval A g' = .ok v := by
  unfold SrcConst.translate at h
  simp only [bind, Except.bind] at h
  split at h
  · cases h
  · rename_i p hp
    obtain ⟨x, s⟩ := p
    split at h
    · cases h
    · rename_i hs
      simp only [pure, Except.pure, Except.ok.injEq] at h
      subst h
      obtain ⟨x', k1, k2⟩ := const_rename (κ := κ) (ν := ν) c.value hk (v := ⟨[], 0, false⟩) rfl hp
      simp only [Const.eval] at hv
      split at hv
      · rename_i ce hce
        obtain ⟨ce', k3, k4⟩ := k2 ce hce
        refine ⟨⟨κ c.name, c.ty, x'⟩, ?_, ?_⟩
        · have k1' : StateT.run ((renameSrc κ ν c.value).translate ⟨[], 0, false⟩) {} = .ok (x', s) := k1
          simp only [SrcConst.translate, bind, Except.bind, k1', if_neg hs, pure, Except.pure]
        · simp only [Const.eval, k3, k4 A g g' hg]
          exact hv
      · cases hv

end

end Chandeliers.Rep
