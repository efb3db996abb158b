import Verif.Lemmas.TypeSafety
import Verif.Lemmas.NodeSafety
import Verif.Lemmas.Denote
import Verif.Spec.Solutions

/-! The streams of well-typed nodes are well typed. -/

set_option autoImplicit false
set_option linter.unusedSectionVars false

namespace Chandeliers.Den
open Chandeliers.San Chandeliers.Spec

/-- What the variables of an expression must be up to an instant. -/
def PastTy (Γ : TyEnv) (X : String → Nat → Nillable Scalar) (t : Nat) (e : Expr) : Prop :=
  ∀ u, u ≤ t → ∀ x d, Part (.var x d) e → d ≤ u → ∀ τ, Γ.vars x = some τ → LeafTy τ (X x (u - d))

theorem PastTy.mono {Γ : TyEnv} {X : String → Nat → Nillable Scalar} {t u : Nat} {e : Expr}
    (h : PastTy Γ X t e) (hu : u ≤ t) : PastTy Γ X u e := fun w hw => h w (Nat.le_trans hw hu)

theorem PastTy.sub {Γ : TyEnv} {X : String → Nat → Nillable Scalar} {t : Nat} {e e' : Expr}
    (h : PastTy Γ X t e) (he : Operand e' e) : PastTy Γ X t e' :=
  fun w hw x d hp => h w hw x d (hp.tail he)

theorem iter_fine {σ : Type} {P : σ → Prop} {f : Nat → σ → R σ} {s : σ} {lo : Nat} : ∀ {t : Nat},
    P s → (∀ u r, u < t → P r → Fine P (f u r)) → Fine P (iter f s lo t)
  | 0, hs, _ => hs
  | t + 1, hs, hf => by
    simp only [iter]
    split
    · exact hs
    · exact (iter_fine hs fun u r hu => hf u r (by omega)).bind fun r hr => hf t r (by omega) hr

section
variable {A : Arith} {glob : Globals} {ms : List Machine} {F : Flow} {Γ : TyEnv}

/-- The nodes that are called go from values of the types at which they are called. -/
def CallsTy (ms : List Machine) (Γ : TyEnv) : Prop :=
  ∀ i t u, Γ.call i t u → ∃ m, ms[i]? = some m ∧ Respects m t u

/-- There is no register. -/
def NoRegs (Γ : TyEnv) : Prop := ∀ i t, ¬Γ.regs i t

mutual
theorem den_fine (hg : GlobTy Γ glob) (hm : CallsTy ms Γ) (hr : NoRegs Γ) :
    {e : Expr} → {τ : TyTuple} → HasType Γ e τ → ∀ {lo t : Nat}, PastTy Γ F.X t e →
      Fine (ValTy τ) (den A glob ms F lo e t)
  | _, _, .lit (l := l), lo, t, hp => by
    simp only [den]
    cases l <;> exact leafTy_defined.2 trivial
  | _, _, .global h, lo, t, hp => by
    obtain ⟨v, h1, h2⟩ := hg _ _ h
    simp only [den, h1]
    exact leafTy_defined.2 h2
  | _, _, .var (x := x) (d := d) h, lo, t, hp => by
    simp only [den]
    split
    · exact leafTy_nil _
    · exact hp t (Nat.le_refl _) x d .refl (by omega) _ h
  | _, _, .dummyPre h, lo, t, hp => by
    simp only [den]
    exact den_fine hg hm hr h (hp.sub .dummyPre)
  | _, _, .dummyParen h, lo, t, hp => by
    simp only [den]
    exact den_fine hg hm hr h (hp.sub .dummyParen)
  | _, _, .tuple h, lo, t, hp => by
    simp only [den]
    refine (denList_fine hg hm hr h fun e he => hp.sub (.tuple he)).bind fun vs hvs => ?_
    exact valTy_tuple hvs
  | _, _, .bin hl hr' h, lo, t, hp => by
    simp only [den]
    refine (den_fine hg hm hr hl (hp.sub .binL)).bind fun v1 hv1 => ?_
    refine (den_fine hg hm hr hr' (hp.sub .binR)).bind fun v2 hv2 => ?_
    refine (asLeaf_fine hv1).bind fun l1 hl1 => (asLeaf_fine hv2).bind fun l2 hl2 => ?_
    exact (binop_fine h hl1 hl2).bind fun v hv => hv
  | _, _, .un he h, lo, t, hp => by
    simp only [den]
    refine (den_fine hg hm hr he (hp.sub .un)).bind fun v1 hv1 => ?_
    refine (asLeaf_fine hv1).bind fun l1 hl1 => ?_
    exact (unop_fine h hl1).bind fun v hv => hv
  | _, _, .cmp hl hr' h, lo, t, hp => by
    simp only [den]
    refine (den_fine hg hm hr hl (hp.sub .cmpL)).bind fun v1 hv1 => ?_
    refine (den_fine hg hm hr hr' (hp.sub .cmpR)).bind fun v2 hv2 => ?_
    refine (asLeaf_fine hv1).bind fun l1 hl1 => (asLeaf_fine hv2).bind fun l2 hl2 => ?_
    exact (cmp_fine h hl1 hl2).bind fun v hv => hv
  | _, _, .clock (op := op) he hb, lo, t, hp => by
    simp only [den]
    refine (den_fine hg hm hr hb (hp.sub .clockGuard)).bind fun v1 hv1 => ?_
    refine (asBool_fine hv1).bind fun b _ => ?_
    refine (den_fine hg hm hr he (hp.sub .clockInner)).bind fun v2 hv2 => ?_
    cases op
    · exact valTy_when hv2
    · exact valTy_whenot hv2
  | _, _, .later he he', lo, t, hp => by
    simp only [den]
    refine (den_fine hg hm hr he' (hp.sub .laterAfter)).bind fun v1 hv1 => ?_
    split
    · exact hv1
    · exact den_fine hg hm hr he (hp.sub .laterBefore)
  | _, _, .flip he he', lo, t, hp => by
    simp only [den]
    refine (den_fine hg hm hr he (hp.sub .flipInitial)).bind fun v1 hv1 => ?_
    refine (den_fine hg hm hr he' (hp.sub .flipContinued)).bind fun v2 hv2 => ?_
    split
    · exact valTy_nilLike _ hv1
    · refine Fine.bind (P := fun _ => True) ?_ fun b _ => ?_
      · refine iter_fine trivial fun u r hu _ => ?_
        exact (den_fine hg hm hr he ((hp.sub .flipInitial).mono (by omega))).bind fun _ _ => trivial
      · cases b
        · exact hv2
        · exact hv1
  | _, _, .ifx hb hy hn, lo, t, hp => by
    simp only [den]
    refine (den_fine hg hm hr hy (hp.sub .ifYes)).bind fun v1 hv1 => ?_
    refine (den_fine hg hm hr hn (hp.sub .ifNo)).bind fun v2 hv2 => ?_
    refine (den_fine hg hm hr hb (hp.sub .ifCond)).bind fun v3 hv3 => ?_
    exact (asBool_fine hv3).bind fun b _ => valTy_ifx hv1 hv2
  | _, _, .merge hb hy hn, lo, t, hp => by
    simp only [den]
    refine (den_fine hg hm hr hb (hp.sub .mergeSwitch)).bind fun v3 hv3 => ?_
    refine (asBool_fine hv3).bind fun b _ => ?_
    refine (den_fine hg hm hr hy (hp.sub .mergeOn)).bind fun v1 hv1 => ?_
    refine (den_fine hg hm hr hn (hp.sub .mergeOff)).bind fun v2 hv2 => ?_
    exact valTy_merge hv1 hv2
  | _, _, .substep (i := i) (t := τ) (u := τ') he h, lo, t, hp => by
    obtain ⟨m, h1, h2⟩ := hm i τ τ' h
    simp only [den]
    split
    · refine (den_fine hg hm hr he (hp.sub .arg)).bind fun v hv => ?_
      rw [h1]
      refine Fine.bind (P := Safe m τ τ') ?_ fun s hs => ?_
      · refine iter_fine h2.safe fun u r hu hr' => ?_
        refine (den_fine hg hm hr he ((hp.sub .arg).mono (by omega))).bind fun w hw => ?_
        exact (safe_step hr' hw).bind fun p hp => hp.2
      · exact (safe_step hs hv).bind fun p hp => hp.1
    · rw [h1]
      exact h2.absent
  | _, _, .fetchPre he h, lo, t, hp => (hr _ _ h).elim
  | _, _, .fetchFby he he' h, lo, t, hp => (hr _ _ h).elim
theorem denList_fine (hg : GlobTy Γ glob) (hm : CallsTy ms Γ) (hr : NoRegs Γ) :
    {es : List Expr} → {τs : List TyTuple} → HasTypes Γ es τs → ∀ {lo t : Nat},
      (∀ e ∈ es, PastTy Γ F.X t e) → Fine (ValTys τs) (denList A glob ms F lo es t)
  | _, _, .nil, lo, t, hp => by
    simp only [denList]
    simp [Fine, ValTys]
  | _, _, .cons h hs, lo, t, hp => by
    simp only [denList]
    refine (den_fine hg hm hr h (hp _ (by simp))).bind fun v hv => ?_
    refine (denList_fine hg hm hr hs fun e he => hp e (by simp [he])).bind fun vs hvs => ?_
    exact ⟨hv, hvs⟩
end

mutual
theorem assigns_ty : {p : VarTuple} → {τ : TyTuple} → {v : Value} → {X : String → Nillable Scalar} →
    TargetType Γ.vars p τ → ValTy τ v → Assigns X p v → ∀ x ∈ p.vars, ∀ τ, Γ.vars x = some τ →
    LeafTy τ (X x)
  | _, _, .leaf v, X, .single (x := y) h, hv, ha, x, hx, τ, hτ => by
    simp only [VarTuple.vars, List.mem_singleton] at hx
    subst hx
    simp only [Assigns] at ha
    rw [h] at hτ
    cases hτ
    rw [ha]
    exact hv
  | _, _, .tup _ _, X, .single h, hv, ha, x, hx, τ, hτ => ha.elim
  | _, _, v, X, .multiple .nil, hv, ha, x, hx, τ, hτ => by
    simp [VarTuple.vars, VarTuple.varsList] at hx
  | _, _, v, X, .multiple (.cons h .nil), hv, ha, x, hx, τ, hτ => by
    simp only [Assigns] at ha
    simp only [ValTy] at hv
    exact assigns_ty h hv ha x (by simpa [VarTuple.vars, VarTuple.varsList] using hx) τ hτ
  | _, _, .leaf v, X, .multiple (.cons h (.cons h' hs)), hv, ha, x, hx, τ, hτ => ha.elim
  | _, _, .tup v vs, X, .multiple (.cons h (.cons h' hs)), hv, ha, x, hx, τ, hτ => by
    simp only [Assigns] at ha
    simp only [ValTy] at hv
    simp only [VarTuple.vars] at hx
    rw [VarTuple.varsList, List.mem_append] at hx
    rcases hx with hx | hx
    · exact assigns_ty h hv.1 ha.1 x hx τ hτ
    · exact assignsList_ty (.cons h' hs) hv.2 ha.2 x hx τ hτ
theorem assignsList_ty : {ps : List VarTuple} → {τs : List TyTuple} → {vs : List Value} →
    {X : String → Nillable Scalar} → TargetTypes Γ.vars ps τs → ValTys τs vs → AssignsList X ps vs →
    ∀ x ∈ VarTuple.varsList ps, ∀ τ, Γ.vars x = some τ → LeafTy τ (X x)
  | _, _, vs, X, .nil, hv, ha, x, hx, τ, hτ => by simp [VarTuple.varsList] at hx
  | _, _, [], X, .cons h hs, hv, ha, x, hx, τ, hτ => by simp [AssignsList] at ha
  | _, _, v :: vs, X, .cons h hs, hv, ha, x, hx, τ, hτ => by
    simp only [AssignsList] at ha
    simp only [ValTys] at hv
    rw [VarTuple.varsList, List.mem_append] at hx
    rcases hx with hx | hx
    · exact assigns_ty h hv.1 ha.1 x hx τ hτ
    · exact assignsList_ty hs hv.2 ha.2 x hx τ hτ
end

theorem den_ty (hg : GlobTy Γ glob) (hm : CallsTy ms Γ) (hr : NoRegs Γ) {e : Expr} {τ : TyTuple}
    (h : HasType Γ e τ) {lo t : Nat} (hp : PastTy Γ F.X t e) {v : Value}
    (hv : den A glob ms F lo e t = .ok v) : ValTy τ v :=
  (fine_iff.1 (den_fine hg hm hr h hp)).1 v hv

theorem stmts_ty (hg : GlobTy Γ glob) (hm : CallsTy ms Γ) (hr : NoRegs Γ) {t : Nat}
    (hpast : ∀ u, u < t → ∀ x τ, Γ.vars x = some τ → LeafTy τ (F.X x u)) :
    ∀ {sts : List Stmt} {vars : List String} {regs : List Nat}, Sorted vars regs sts →
    (∀ st ∈ sts, RunTyped Γ st) → (∀ st ∈ sts, Holds A glob ms F t st) →
    (∀ x ∈ vars, ∀ τ, Γ.vars x = some τ → LeafTy τ (F.X x t)) →
    ∀ x ∈ sts.flatMap binds, ∀ τ, Γ.vars x = some τ → LeafTy τ (F.X x t)
  | [], vars, regs, ho, hty, hh, hv => by simp
  | st :: sts, vars, regs, ho, hty, hh, hv => by
    simp only [Sorted] at ho
    have hnew : ∀ x ∈ binds st, ∀ τ, Γ.vars x = some τ → LeafTy τ (F.X x t) := by
      have p1 := hty st (List.mem_cons_self ..)
      have p2 := hh st (List.mem_cons_self ..)
      cases p1 with
      | @let_ p e τ h1 h2 =>
        obtain ⟨v, hd, ha⟩ := p2
        have hty := den_ty hg hm hr h2 (by
          intro u hu x d hx hdu τ hτ
          by_cases hlt : u - d < t
          · exact hpast _ hlt x τ hτ
          · have hd0 : d = 0 := by omega
            subst hd0
            have hut : u - 0 = t := by omega
            rw [hut]
            exact hv x ((ho.1 e (by simp [evaluated])).1 x hx) τ hτ) hd
        intro x hx
        exact assigns_ty h1 hty ha x hx
      | assert => simp [binds]
      | update => simp [binds]
      | initPre => simp [binds]
      | initFby => simp [binds]
    intro x hx
    rw [List.flatMap_cons, List.mem_append] at hx
    rcases hx with hx | hx
    · exact hnew x hx
    · refine stmts_ty hg hm hr hpast ho.2 (fun s h => hty s (List.mem_cons_of_mem _ h))
        (fun s h => hh s (List.mem_cons_of_mem _ h)) ?_ x hx
      intro y hy
      rcases List.mem_append.1 hy with hy | hy
      · exact hv y hy
      · exact hnew y hy

/-- The variables of a node have values of their types when its inputs do. -/
theorem node_ty {n : Node} (hg : GlobTy Γ glob) (hm : CallsTy ms Γ) (hr : NoRegs Γ)
    (hw : WiredInOrder n) (hty : ∀ st ∈ n.stmts, RunTyped Γ st) {is : List Value}
    (hdecl : ∀ x τ, Γ.vars x = some τ → ∃ v ∈ declared n, v.name = x)
    {τ : TyTuple} (hin : TargetType Γ.vars (inputPattern n.inputs) τ)
    (hsol : Solution A glob ms F n is) (hi : ∀ i ∈ is, ValTy τ i) :
    ∀ t, t < is.length → ∀ x τ, Γ.vars x = some τ → LeafTy τ (F.X x t) := by
  intro t
  induction t using Nat.strongRecOn with
  | ind t ih =>
    intro ht
    have hvars : ∀ x ∈ n.inputs.map (·.name), ∀ τ, Γ.vars x = some τ → LeafTy τ (F.X x t) := by
      intro x hx
      refine assigns_ty hin (hi is[t] (List.getElem_mem ht)) (hsol.inputs t is[t] (by simp [ht])) x ?_
      simpa [inputPattern, VarTuple.vars, varsList_inputs] using hx
    have hst := stmts_ty hg hm hr (fun u hu x => ih u hu (by omega) x) hw.sorted hty
      (hsol.stmts t ht) hvars
    intro x τ hτ
    obtain ⟨v, hv, rfl⟩ := hdecl x τ hτ
    rcases List.mem_append.1 hv with hv | hv
    · rcases List.mem_append.1 hv with hv | hv
      · exact hvars _ (List.mem_map.2 ⟨v, hv, rfl⟩) τ hτ
      · obtain ⟨st, h1, h2⟩ := hw.defined v (List.mem_append_left _ hv)
        exact hst _ (List.mem_flatMap.2 ⟨st, h1, h2⟩) τ hτ
    · obtain ⟨st, h1, h2⟩ := hw.defined v (List.mem_append_right _ hv)
      exact hst _ (List.mem_flatMap.2 ⟨st, h1, h2⟩) τ hτ

end

end Chandeliers.Den
