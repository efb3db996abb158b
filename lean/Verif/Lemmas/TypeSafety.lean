import Verif.Lemmas.Fine
import Verif.Lemmas.Reads
import Verif.Spec.Safety

/-! Evaluation of well-typed expressions. -/

set_option autoImplicit false

namespace Chandeliers.San
open Chandeliers.Spec

/-- Local variables hold values of their types. -/
def EnvTy (Γ : TyEnv) (env : Env) : Prop :=
  ∀ x v, env x = some v → ∃ t, Γ.vars x = some t ∧ LeafTy t v

/-- Constants have their types. -/
def GlobTy (Γ : TyEnv) (glob : Globals) : Prop :=
  ∀ x t, Γ.global x = some t → ∃ v, glob x = some v ∧ ScalarTy t v

/-- Histories hold values of the types of the variables. -/
def HistTy (Γ : TyEnv) (hist : String → Option AnyHist) : Prop :=
  ∀ x h t, hist x = some h → Γ.vars x = some t → ∀ v ∈ h.2.toList, LeafTy t v

/-- What an expression needs besides its typing: the variables it reads now are bound, the
histories are deep enough, the flips exist. -/
structure Side (hist : String → Option AnyHist) (env : Env) (k : Nat) (e : Expr) : Prop where
  bound : ∀ x, Reference.localVarName x ∈ e.requires → ∃ v, env x = some v
  within : Within hist (occurrences e)
  flips : ∀ i, Slot.flip i ∈ slots e → i < k

theorem requires_local {x : String} {e : Expr} :
    Reference.localVarName x ∈ e.requires ↔ Part (.var x 0) e := by
  rw [mem_requires]
  constructor
  · rintro ⟨c, h1, h2⟩; cases h1; exact h2
  · intro h; exact ⟨_, .var, h⟩

theorem mem_occurrencesList {e : Expr} {es : List Expr} (h : e ∈ es) {p : String × Nat}
    (hp : p ∈ occurrences e) : p ∈ occurrencesList es := by
  induction es with
  | nil => simp at h
  | cons a es ih =>
    simp only [occurrencesList, List.mem_append]
    rcases List.mem_cons.1 h with rfl | h
    · exact .inl hp
    · exact .inr (ih h)

theorem mem_slotsList {e : Expr} {es : List Expr} (h : e ∈ es) {p : Slot}
    (hp : p ∈ slots e) : p ∈ slotsList es := by
  induction es with
  | nil => simp at h
  | cons a es ih =>
    simp only [slotsList, List.mem_append]
    rcases List.mem_cons.1 h with rfl | h
    · exact .inl hp
    · exact .inr (ih h)

theorem mem_requiresList' {e : Expr} {es : List Expr} (h : e ∈ es) {p : Reference}
    (hp : p ∈ e.requires) : p ∈ Expr.requiresList es := by
  induction es with
  | nil => simp at h
  | cons a es ih =>
    simp only [Expr.requiresList, List.mem_append]
    rcases List.mem_cons.1 h with rfl | h
    · exact .inl hp
    · exact .inr (ih h)

theorem Side.operand {hist : String → Option AnyHist} {env : Env} {k : Nat} {e c : Expr}
    (h : Side hist env k e) (ho : Operand c e) : Side hist env k c := by
  have h1 : ∀ r, r ∈ c.requires → r ∈ e.requires := by
    cases ho <;> simp +contextual [Expr.requires]
    exact fun r => mem_requiresList' (by assumption)
  have h2 : ∀ p, p ∈ occurrences c → p ∈ occurrences e := by
    cases ho <;> simp +contextual [occurrences]
    exact fun a b => mem_occurrencesList (by assumption)
  have h3 : ∀ p, p ∈ slots c → p ∈ slots e := by
    cases ho <;> simp +contextual [slots]
    exact fun r => mem_slotsList (by assumption)
  exact ⟨fun x hx => h.bound x (h1 _ hx), fun x d hx => h.within x d (h2 _ hx),
    fun i hi => h.flips i (h3 _ hi)⟩

section
variable {A : Arith} {glob : Globals} {ms : List Machine} {Γ : TyEnv}
  {hist : String → Option AnyHist} {env : Env} {k : Nat}

/-- The state during a step: histories do not change, registers and subnodes are well typed. -/
structure StateTy (ms : List Machine) (Γ : TyEnv) (hist : String → Option AnyHist) (k : Nat)
    (s : NodeState ms) : Prop where
  hist : s.hist = hist
  flips : s.flips.length = k
  regs : ∀ i t, Γ.regs i t → ∃ r, s.regs[i]? = some r ∧ ValTy t r.inner ∧ ValTy t r.next
  nodes : States.AllI (fun i m σ => ∀ t u, Γ.call i t u → Safe m t u σ) ms s.nodes

/-- The subnodes exist and the absent values of their outputs have the right shape. -/
def SubsTy (ms : List Machine) (Γ : TyEnv) : Prop :=
  ∀ i t u, Γ.call i t u → ∃ m, ms[i]? = some m ∧ ValTy u (Tup.allNil Scalar m.outTy)

theorem readVar_fine {s : NodeState ms} {x : String} {d : Nat} {t : TyBase}
    (hv : Γ.vars x = some t) (he : EnvTy Γ env) (hh : HistTy Γ hist)
    (hs : StateTy ms Γ hist k s) (hside : Side hist env k (.var x d)) :
    Fine (fun v => ValTy (.single t) v) (readVar ms env s x d) := by
  cases d with
  | zero =>
    obtain ⟨v, hb⟩ := hside.bound x (by simp [Expr.requires])
    simp only [readVar, hb]
    obtain ⟨t', h1, h2⟩ := he x v hb
    rw [hv] at h1; cases h1
    exact h2
  | succ d =>
    obtain ⟨h, h1, h2⟩ := hside.within x d (by simp [occurrences])
    simp only [readVar, hs.hist, h1, Hist.ago_eq]
    have hlt : d < h.2.toList.length := by rw [Hist.length_toList]; omega
    rw [List.getElem?_eq_getElem hlt]
    exact hh x h t h1 hv _ (List.getElem_mem hlt)

mutual
theorem eval_fine (hx : Exact Γ) (hg : GlobTy Γ glob) (hm : SubsTy ms Γ) (he : EnvTy Γ env) (hh : HistTy Γ hist) :
    {e : Expr} → {t : TyTuple} → HasType Γ e t → Side hist env k e →
    ∀ {s : NodeState ms}, StateTy ms Γ hist k s →
      Fine (fun p => ValTy t p.1 ∧ StateTy ms Γ hist k p.2) (eval A glob ms env e s)
  | _, _, .lit (l := l), _, s, hs => by
    simp only [eval]
    exact ⟨by cases l <;> exact leafTy_defined.2 trivial, hs⟩
  | _, _, .global h, _, s, hs => by
    obtain ⟨v, h1, h2⟩ := hg _ _ h
    simp only [eval, h1]
    exact ⟨leafTy_defined.2 h2, hs⟩
  | _, _, .var h, hside, s, hs => by
    simp only [eval]
    exact (readVar_fine h he hh hs hside).bind fun v hv => ⟨hv, hs⟩
  | _, _, .dummyPre h, hside, s, hs => by
    simp only [eval]
    exact eval_fine hx hg hm he hh h (hside.operand .dummyPre) hs
  | _, _, .dummyParen h, hside, s, hs => by
    simp only [eval]
    exact eval_fine hx hg hm he hh h (hside.operand .dummyParen) hs
  | _, _, .tuple h, hside, s, hs => by
    simp only [eval]
    refine (evalList_fine hx hg hm he hh h (fun e he => hside.operand (.tuple he)) hs).bind ?_
    rintro ⟨vs, s1⟩ ⟨hv, hs⟩
    exact ⟨valTy_tuple hv, hs⟩
  | _, _, .bin hl hr h, hside, s, hs => by
    simp only [eval]
    refine (eval_fine hx hg hm he hh hl (hside.operand .binL) hs).bind ?_
    rintro ⟨v1, s1⟩ ⟨hv1, hs1⟩
    refine (eval_fine hx hg hm he hh hr (hside.operand .binR) hs1).bind ?_
    rintro ⟨v2, s2⟩ ⟨hv2, hs2⟩
    refine (asLeaf_fine hv1).bind fun l1 hl1 => (asLeaf_fine hv2).bind fun l2 hl2 => ?_
    exact (binop_fine h hl1 hl2).bind fun v hv => ⟨hv, hs2⟩
  | _, _, .un he' h, hside, s, hs => by
    simp only [eval]
    refine (eval_fine hx hg hm he hh he' (hside.operand .un) hs).bind ?_
    rintro ⟨v1, s1⟩ ⟨hv1, hs1⟩
    refine (asLeaf_fine hv1).bind fun l1 hl1 => ?_
    exact (unop_fine h hl1).bind fun v hv => ⟨hv, hs1⟩
  | _, _, .cmp hl hr h, hside, s, hs => by
    simp only [eval]
    refine (eval_fine hx hg hm he hh hl (hside.operand .cmpL) hs).bind ?_
    rintro ⟨v1, s1⟩ ⟨hv1, hs1⟩
    refine (eval_fine hx hg hm he hh hr (hside.operand .cmpR) hs1).bind ?_
    rintro ⟨v2, s2⟩ ⟨hv2, hs2⟩
    refine (asLeaf_fine hv1).bind fun l1 hl1 => (asLeaf_fine hv2).bind fun l2 hl2 => ?_
    exact (cmp_fine h hl1 hl2).bind fun v hv => ⟨hv, hs2⟩
  | _, _, .clock (op := op) he' hb, hside, s, hs => by
    simp only [eval]
    refine (eval_fine hx hg hm he hh hb (hside.operand .clockGuard) hs).bind ?_
    rintro ⟨v1, s1⟩ ⟨hv1, hs1⟩
    refine (asBool_fine hv1).bind fun b _ => ?_
    refine (eval_fine hx hg hm he hh he' (hside.operand .clockInner) hs1).bind ?_
    rintro ⟨v2, s2⟩ ⟨hv2, hs2⟩
    cases op
    · exact ⟨valTy_when hv2, hs2⟩
    · exact ⟨valTy_whenot hv2, hs2⟩
  | _, _, .later he' he'', hside, s, hs => by
    simp only [eval]
    refine (eval_fine hx hg hm he hh he'' (hside.operand .laterAfter) hs).bind ?_
    rintro ⟨v1, s1⟩ ⟨hv1, hs1⟩
    dsimp only
    split
    · exact ⟨hv1, hs1⟩
    · exact eval_fine hx hg hm he hh he' (hside.operand .laterBefore) hs1
  | _, _, .flip (i := i) he' he'', hside, s, hs => by
    simp only [eval]
    refine (eval_fine hx hg hm he hh he' (hside.operand .flipInitial) hs).bind ?_
    rintro ⟨v1, s1⟩ ⟨hv1, hs1⟩
    refine (eval_fine hx hg hm he hh he'' (hside.operand .flipContinued) hs1).bind ?_
    rintro ⟨v2, s2⟩ ⟨hv2, hs2⟩
    dsimp only
    split
    · exact ⟨valTy_nilLike _ hv1, hs2⟩
    · have hi : i < s2.flips.length := by
        rw [hs2.flips]; exact hside.flips i (by simp [slots])
      rw [List.getElem?_eq_getElem hi]
      refine ⟨?_, ⟨hs2.hist, by simpa using hs2.flips, hs2.regs, hs2.nodes⟩⟩
      dsimp only
      split
      · exact hv1
      · exact hv2
  | _, _, .ifx hb hy hn, hside, s, hs => by
    simp only [eval]
    refine (eval_fine hx hg hm he hh hy (hside.operand .ifYes) hs).bind ?_
    rintro ⟨v1, s1⟩ ⟨hv1, hs1⟩
    refine (eval_fine hx hg hm he hh hn (hside.operand .ifNo) hs1).bind ?_
    rintro ⟨v2, s2⟩ ⟨hv2, hs2⟩
    refine (eval_fine hx hg hm he hh hb (hside.operand .ifCond) hs2).bind ?_
    rintro ⟨v3, s3⟩ ⟨hv3, hs3⟩
    exact (asBool_fine hv3).bind fun b _ => ⟨valTy_ifx hv1 hv2, hs3⟩
  | _, _, .merge hb hy hn, hside, s, hs => by
    simp only [eval]
    refine (eval_fine hx hg hm he hh hb (hside.operand .mergeSwitch) hs).bind ?_
    rintro ⟨v1, s1⟩ ⟨hv1, hs1⟩
    refine (asBool_fine hv1).bind fun b _ => ?_
    refine (eval_fine hx hg hm he hh hy (hside.operand .mergeOn) hs1).bind ?_
    rintro ⟨v2, s2⟩ ⟨hv2, hs2⟩
    refine (eval_fine hx hg hm he hh hn (hside.operand .mergeOff) hs2).bind ?_
    rintro ⟨v3, s3⟩ ⟨hv3, hs3⟩
    exact ⟨valTy_merge hv2 hv3, hs3⟩
  | _, _, .substep (i := i) (t := t) (u := u) he' h, hside, s, hs => by
    obtain ⟨m, h1, h2⟩ := hm i t u h
    simp only [eval]
    split
    · refine (eval_fine hx hg hm he hh he' (hside.operand .arg) hs).bind ?_
      rintro ⟨v1, s1⟩ ⟨hv1, hs1⟩
      refine (States.stepAt_fine (Q := fun v => ValTy u v) hs1.nodes h1 fun σ hσ => ?_).bind ?_
      · refine (safe_step (hσ t u h) hv1).mono fun p hp => ⟨hp.1, fun t' u' hc => ?_⟩
        obtain ⟨rfl, rfl⟩ := hx.call i t u t' u' h hc
        exact hp.2
      · rintro ⟨o, ns⟩ ⟨ho, hns⟩
        exact ⟨ho, ⟨hs1.hist, hs1.flips, hs1.regs, hns⟩⟩
    · rw [h1]
      exact ⟨h2, hs⟩
  | _, _, .fetchPre he' h, hside, s, hs => by
    obtain ⟨r, h1, h2, h3⟩ := hs.regs _ _ h
    simp only [eval, h1]
    refine ⟨?_, hs⟩
    unfold Register.get
    dsimp only
    split
    · exact h2
    · exact valTy_nilLike _ h2
  | _, _, .fetchFby he' he'' h, hside, s, hs => by
    obtain ⟨r, h1, h2, h3⟩ := hs.regs _ _ h
    simp only [eval, h1]
    refine ⟨?_, hs⟩
    unfold Register.get
    dsimp only
    split
    · exact h2
    · exact valTy_nilLike _ h2
theorem evalList_fine (hx : Exact Γ) (hg : GlobTy Γ glob) (hm : SubsTy ms Γ) (he : EnvTy Γ env)
    (hh : HistTy Γ hist) : {es : List Expr} → {ts : List TyTuple} → HasTypes Γ es ts →
    (∀ e ∈ es, Side hist env k e) → ∀ {s : NodeState ms}, StateTy ms Γ hist k s →
      Fine (fun p => ValTys ts p.1 ∧ StateTy ms Γ hist k p.2) (evalList A glob ms env es s)
  | _, _, .nil, _, s, hs => by
    simp only [evalList]
    exact ⟨by simp [ValTys], hs⟩
  | _, _, .cons h hs', hside, s, hs => by
    simp only [evalList]
    refine (eval_fine hx hg hm he hh h (hside _ (by simp)) hs).bind ?_
    rintro ⟨v1, s1⟩ ⟨hv1, hs1⟩
    refine (evalList_fine hx hg hm he hh hs' (fun e he => hside e (by simp [he])) hs1).bind ?_
    rintro ⟨v2, s2⟩ ⟨hv2, hs2⟩
    exact ⟨⟨hv1, hv2⟩, hs2⟩
end

/-! ## Statements -/

mutual
theorem bindTarget_fine : {x : VarTuple} → {t : TyTuple} → {v : Value} → {env : Env} →
    TargetType Γ.vars x t → ValTy t v → EnvTy Γ env →
    Fine (fun env' => EnvTy Γ env' ∧ (∀ y w, env y = some w → ∃ w, env' y = some w) ∧
      ∀ y ∈ x.vars, ∃ w, env' y = some w) (bindTarget x v env)
  | _, _, .leaf v, env, .single (x := x) (t := t) h, hv, he => by
    simp only [bindTarget]
    refine ⟨fun y w hy => ?_, fun y w hy => ?_, fun y hy => ?_⟩
    · unfold Env.set at hy
      split at hy
      · rename_i e; subst e; cases hy; exact ⟨t, h, hv⟩
      · exact he y w hy
    · unfold Env.set
      split
      · exact ⟨_, rfl⟩
      · exact ⟨w, hy⟩
    · simp only [VarTuple.vars, List.mem_singleton] at hy
      subst hy
      exact ⟨v, by simp [Env.set]⟩
  | _, _, .tup _ _, env, .single h, hv, he => by simp [ValTy] at hv
  | _, _, v, env, .multiple .nil, hv, he => by
    simp only [bindTarget]
    exact ⟨he, fun y w hy => ⟨w, hy⟩, by simp [VarTuple.vars, VarTuple.varsList]⟩
  | _, _, v, env, .multiple (.cons h .nil), hv, he => by
    simp only [bindTarget]
    simp only [ValTy] at hv
    refine (bindTarget_fine h hv he).mono ?_
    rintro env' ⟨h1, h2, h3⟩
    exact ⟨h1, h2, by simpa [VarTuple.vars, VarTuple.varsList] using h3⟩
  | _, _, .tup a l, env, .multiple (.cons h (.cons h' hs)), hv, he => by
    simp only [bindTarget]
    simp only [ValTy] at hv
    refine (bindTarget_fine h hv.1 he).bind ?_
    rintro env1 ⟨h1, h2, h3⟩
    refine (bindTargets_fine (.cons h' hs) hv.2 h1).mono ?_
    rintro env2 ⟨k1, k2, k3⟩
    refine ⟨k1, fun y w hy => ?_, fun y hy => ?_⟩
    · obtain ⟨w', hw⟩ := h2 y w hy; exact k2 y w' hw
    · simp only [VarTuple.vars, VarTuple.varsList] at hy
      rcases List.mem_append.1 hy with hy | hy
      · obtain ⟨w', hw⟩ := h3 y hy; exact k2 y w' hw
      · exact k3 y (by simpa [VarTuple.varsList] using hy)
  | _, _, .leaf _, env, .multiple (.cons h (.cons h' hs)), hv, he => by simp [ValTy] at hv
theorem bindTargets_fine : {xs : List VarTuple} → {ts : List TyTuple} → {vs : List Value} →
    {env : Env} → TargetTypes Γ.vars xs ts → ValTys ts vs → EnvTy Γ env →
    Fine (fun env' => EnvTy Γ env' ∧ (∀ y w, env y = some w → ∃ w, env' y = some w) ∧
      ∀ y ∈ VarTuple.varsList xs, ∃ w, env' y = some w) (bindTargets xs vs env)
  | _, _, [], env, .nil, hv, he => by
    simp only [bindTargets]
    exact ⟨he, fun y w hy => ⟨w, hy⟩, by simp [VarTuple.varsList]⟩
  | _, _, _ :: _, env, .nil, hv, he => by simp [ValTys] at hv
  | _, _, [], env, .cons h hs, hv, he => by simp [ValTys] at hv
  | _, _, v :: vs, env, .cons h hs, hv, he => by
    simp only [bindTargets]
    simp only [ValTys] at hv
    refine (bindTarget_fine h hv.1 he).bind ?_
    rintro env1 ⟨h1, h2, h3⟩
    refine (bindTargets_fine hs hv.2 h1).mono ?_
    rintro env2 ⟨k1, k2, k3⟩
    refine ⟨k1, fun y w hy => ?_, fun y hy => ?_⟩
    · obtain ⟨w', hw⟩ := h2 y w hy; exact k2 y w' hw
    · simp only [VarTuple.varsList] at hy
      rcases List.mem_append.1 hy with hy | hy
      · obtain ⟨w', hw⟩ := h3 y hy; exact k2 y w' hw
      · exact k3 y hy
end

theorem updReg_fine {s : NodeState ms} {i : Nat} {t : TyTuple}
    {f : Register Scalar → Register Scalar} (hx : Exact Γ) (hs : StateTy ms Γ hist k s)
    (hr : Γ.regs i t) (hf : ∀ r, ValTy t r.inner → ValTy t r.next →
      ValTy t (f r).inner ∧ ValTy t (f r).next) :
    Fine (fun s' => StateTy ms Γ hist k s') (updReg ms s i f) := by
  obtain ⟨r, h1, h2, h3⟩ := hs.regs i t hr
  unfold updReg
  rw [h1]
  refine ⟨hs.hist, hs.flips, fun j u hj => ?_, hs.nodes⟩
  by_cases hij : i = j
  · subst hij
    have := hx.regs i t u hr hj
    subst this
    have hlt : i < s.regs.length := by
      rcases Nat.lt_or_ge i s.regs.length with h | h
      · exact h
      · rw [List.getElem?_eq_none h] at h1; cases h1
    exact ⟨f r, by simp [hlt], (hf r h2 h3).1, (hf r h2 h3).2⟩
  · obtain ⟨r', g1, g2⟩ := hs.regs j u hj
    exact ⟨r', by simp [hij, g1], g2⟩

theorem schedule_ty {t : TyTuple} {v : Value} (hv : ValTy t v) (r : Register Scalar)
    (h1 : ValTy t r.inner) (h2 : ValTy t r.next) :
    ValTy t (r.schedule v).inner ∧ ValTy t (r.schedule v).next := by
  unfold Register.schedule
  split
  · exact ⟨h1, hv⟩
  · exact ⟨h1, h2⟩

theorem tryInitialize_ty {t : TyTuple} {v : Value} (hv : ValTy t v) (r : Register Scalar)
    (h1 : ValTy t r.inner) (h2 : ValTy t r.next) :
    ValTy t (r.tryInitialize v).inner ∧ ValTy t (r.tryInitialize v).next := by
  unfold Register.tryInitialize
  split
  · exact ⟨hv, h2⟩
  · exact ⟨h1, h2⟩

theorem truth_fine (b : Nillable Bool) : Fine (fun _ => True) (Candle.truth b) := by
  rcases b with (_ | _) | _ <;> simp [Candle.truth, Fine, Faulty]

theorem exec_fine (hx : Exact Γ) (hg : GlobTy Γ glob) (hm : SubsTy ms Γ) (hh : HistTy Γ hist)
    {st : Stmt} (ht : RunTyped Γ st) {env : Env} (he : EnvTy Γ env)
    (hside : ∀ e ∈ evaluated st, Side hist env k e) {s : NodeState ms}
    (hs : StateTy ms Γ hist k s) :
    Fine (fun p => EnvTy Γ p.1 ∧ (∀ y w, env y = some w → ∃ w, p.1 y = some w) ∧
      (∀ y ∈ binds st, ∃ w, p.1 y = some w) ∧ StateTy ms Γ hist k p.2)
      (exec A glob ms st (env, s)) := by
  cases ht with
  | let_ h1 h2 =>
    simp only [exec]
    refine (eval_fine hx hg hm he hh h2 (hside _ (by simp [evaluated])) hs).bind ?_
    rintro ⟨v, s1⟩ ⟨hv, hs1⟩
    refine (bindTarget_fine h1 hv he).bind ?_
    rintro env1 ⟨g1, g2, g3⟩
    exact ⟨g1, g2, g3, hs1⟩
  | assert h =>
    simp only [exec]
    refine (eval_fine hx hg hm he hh h (hside _ (by simp [evaluated])) hs).bind ?_
    rintro ⟨v, s1⟩ ⟨hv, hs1⟩
    refine (asBool_fine hv).bind fun b _ => (truth_fine b).bind fun _ _ => ?_
    exact ⟨he, fun y w hy => ⟨w, hy⟩, by simp [binds], hs1⟩
  | update h hr =>
    simp only [exec]
    refine (eval_fine hx hg hm he hh h (hside _ (by simp [evaluated])) hs).bind ?_
    rintro ⟨v, s1⟩ ⟨hv, hs1⟩
    refine (updReg_fine hx hs1 hr (schedule_ty hv)).bind fun s2 hs2 => ?_
    exact ⟨he, fun y w hy => ⟨w, hy⟩, by simp [binds], hs2⟩
  | initPre hr hc =>
    simp only [exec]
    refine (eval_fine hx hg hm he hh hc (hside _ (by simp [evaluated])) hs).bind ?_
    rintro ⟨v, s1⟩ ⟨hv, hs1⟩
    refine (asBool_fine hv).bind fun b _ => ?_
    refine (updReg_fine (f := fun r => r.withClock b) hx hs1 hr fun r g1 g2 => ⟨g1, g2⟩).bind fun s2 hs2 => ?_
    exact ⟨he, fun y w hy => ⟨w, hy⟩, by simp [binds], hs2⟩
  | initFby h hr hc =>
    simp only [exec]
    refine (eval_fine hx hg hm he hh hc (hside _ (by simp [evaluated])) hs).bind ?_
    rintro ⟨v, s1⟩ ⟨hv, hs1⟩
    refine (asBool_fine hv).bind fun b _ => ?_
    refine (updReg_fine (f := fun r => r.withClock b) hx hs1 hr fun r g1 g2 => ⟨g1, g2⟩).bind fun s2 hs2 => ?_
    refine (eval_fine hx hg hm he hh h (hside _ (by simp [evaluated])) hs2).bind ?_
    rintro ⟨v, s3⟩ ⟨hv, hs3⟩
    refine (updReg_fine hx hs3 hr (tryInitialize_ty hv)).bind fun s4 hs4 => ?_
    exact ⟨he, fun y w hy => ⟨w, hy⟩, by simp [binds], hs4⟩

theorem execAll_fine (hx : Exact Γ) (hg : GlobTy Γ glob) (hm : SubsTy ms Γ) (hh : HistTy Γ hist) :
    ∀ {sts : List Stmt} {bound : List String} {env : Env} {s : NodeState ms},
    (∀ st ∈ sts, RunTyped Γ st) → Ordered bound sts →
    (∀ st ∈ sts, ∀ e ∈ evaluated st, Within hist (occurrences e)) →
    (∀ st ∈ sts, ∀ e ∈ evaluated st, ∀ i, Slot.flip i ∈ slots e → i < k) →
    EnvTy Γ env → (∀ x ∈ bound, ∃ w, env x = some w) → StateTy ms Γ hist k s →
    Fine (fun p => EnvTy Γ p.1 ∧ (∀ x ∈ bound, ∃ w, p.1 x = some w) ∧
      (∀ x, (∃ st ∈ sts, x ∈ binds st) → ∃ w, p.1 x = some w) ∧ StateTy ms Γ hist k p.2)
      (execAll A glob ms sts (env, s))
  | [], bound, env, s, _, _, _, _, he, hb, hs => by
    simp only [execAll]
    exact ⟨he, hb, by simp, hs⟩
  | st :: sts, bound, env, s, ht, ho, hw, hf, he, hb, hs => by
    simp only [execAll]
    refine (exec_fine hx hg hm hh (ht st (by simp)) he (fun e hm => ⟨fun x hx => hb x
      (ho.1 e hm x (requires_local.1 hx)), hw st (by simp) e hm, hf st (by simp) e hm⟩) hs).bind ?_
    rintro ⟨env1, s1⟩ ⟨g1, g2, g3, g4⟩
    refine (execAll_fine hx hg hm hh (fun st h => ht st (by simp [h])) ho.2
      (fun st h => hw st (by simp [h])) (fun st h => hf st (by simp [h])) g1 (fun x hxb => ?_)
      g4).mono ?_
    · rcases List.mem_append.1 hxb with h | h
      · obtain ⟨w, hw⟩ := hb x h; exact g2 x w hw
      · exact g3 x h
    · rintro ⟨env2, s2⟩ ⟨k1, k2, k3, k4⟩
      refine ⟨k1, fun x hxb => k2 x (by simp [hxb]), ?_, k4⟩
      rintro x ⟨st', hst, hx'⟩
      rcases List.mem_cons.1 hst with rfl | hst
      · exact k2 x (by simp [hx'])
      · exact k3 x ⟨st', hst, hx'⟩

end
end Chandeliers.San
