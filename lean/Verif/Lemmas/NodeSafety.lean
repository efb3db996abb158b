import Verif.Lemmas.TypeSafety

/-! Nodes whose statements are well typed. -/

set_option autoImplicit false

namespace Chandeliers.San
open Chandeliers.Spec

/-! ## Substitution of type variables -/

/-- Replace the type variables everywhere. -/
def _root_.Chandeliers.Spec.TyEnv.subst (θ : Subst) (Γ : TyEnv) : TyEnv where
  global := fun x => (Γ.global x).map (substBase θ)
  vars := fun x => (Γ.vars x).map (substBase θ)
  regs := fun i t => ∃ t₀, Γ.regs i t₀ ∧ t = substTy θ t₀
  call := fun i t u => ∃ t₀ u₀, Γ.call i t₀ u₀ ∧ t = substTy θ t₀ ∧ u = substTy θ u₀

theorem binTypes_subst {θ : Subst} {op : BinOp} {t : TyBase} (h : t ∈ binTypes op) :
    substBase θ t = t := by
  cases op <;> simp [binTypes] at h <;> (rcases h with rfl | rfl) <;> rfl

theorem unTypes_subst {θ : Subst} {op : UnOp} {t : TyBase} (h : t ∈ unTypes op) :
    substBase θ t = t := by
  cases op <;> simp [unTypes] at h <;> (rcases h with rfl | rfl) <;> rfl

theorem cmpTypes_subst {θ : Subst} {op : CmpOp} {t : TyBase} (h : t ∈ cmpTypes op) :
    substBase θ t = t := by
  cases t with
  | other g => cases op <;> simp [cmpTypes] at h
  | _ => rfl

mutual
theorem HasType.subst {Γ : TyEnv} (θ : Subst) : {e : Expr} → {t : TyTuple} → HasType Γ e t →
    HasType (Γ.subst θ) e (substTy θ t)
  | _, _, .lit (l := l) => by cases l <;> exact .lit
  | _, _, .global h => .global (by simp [TyEnv.subst, h])
  | _, _, .var h => .var (by simp [TyEnv.subst, h])
  | _, _, .dummyPre h => .dummyPre (HasType.subst θ h)
  | _, _, .dummyParen h => .dummyParen (HasType.subst θ h)
  | _, _, .tuple h => .tuple (HasTypes.subst θ h)
  | _, _, .bin hl hr h => .bin (HasType.subst θ hl) (HasType.subst θ hr)
      (by rw [binTypes_subst h]; exact h)
  | _, _, .un he h => .un (HasType.subst θ he) (by rw [unTypes_subst h]; exact h)
  | _, _, .cmp hl hr h => .cmp (HasType.subst θ hl) (HasType.subst θ hr)
      (by rw [cmpTypes_subst h]; exact h)
  | _, _, .clock he hb => .clock (HasType.subst θ he) (HasType.subst θ hb)
  | _, _, .later he he' => .later (HasType.subst θ he) (HasType.subst θ he')
  | _, _, .flip he he' => .flip (HasType.subst θ he) (HasType.subst θ he')
  | _, _, .ifx hb hy hn => .ifx (HasType.subst θ hb) (HasType.subst θ hy) (HasType.subst θ hn)
  | _, _, .merge hb hy hn => .merge (HasType.subst θ hb) (HasType.subst θ hy) (HasType.subst θ hn)
  | _, _, .substep he h => .substep (HasType.subst θ he) ⟨_, _, h, rfl, rfl⟩
  | _, _, .fetchPre he h => .fetchPre (HasType.subst θ he) ⟨_, h, rfl⟩
  | _, _, .fetchFby he he' h => .fetchFby (HasType.subst θ he) (HasType.subst θ he') ⟨_, h, rfl⟩
theorem HasTypes.subst {Γ : TyEnv} (θ : Subst) : {es : List Expr} → {ts : List TyTuple} →
    HasTypes Γ es ts → HasTypes (Γ.subst θ) es (substTys θ ts)
  | _, _, .nil => .nil
  | _, _, .cons h hs => .cons (HasType.subst θ h) (HasTypes.subst θ hs)
end

mutual
theorem TargetType.subst {Γ : TyEnv} (θ : Subst) : {x : VarTuple} → {t : TyTuple} →
    TargetType Γ.vars x t → TargetType (Γ.subst θ).vars x (substTy θ t)
  | _, _, .single h => .single (by simp [TyEnv.subst, h])
  | _, _, .multiple h => .multiple (TargetTypes.subst θ h)
theorem TargetTypes.subst {Γ : TyEnv} (θ : Subst) : {xs : List VarTuple} → {ts : List TyTuple} →
    TargetTypes Γ.vars xs ts → TargetTypes (Γ.subst θ).vars xs (substTys θ ts)
  | _, _, .nil => .nil
  | _, _, .cons h hs => .cons (TargetType.subst θ h) (TargetTypes.subst θ hs)
end

theorem RunTyped.subst {Γ : TyEnv} (θ : Subst) {st : Stmt} (h : RunTyped Γ st) :
    RunTyped (Γ.subst θ) st := by
  cases h with
  | let_ hx he => exact .let_ (TargetType.subst θ hx) (HasType.subst θ he)
  | assert he => exact .assert (HasType.subst θ he)
  | update he hr => exact .update (HasType.subst θ he) ⟨_, hr, rfl⟩
  | initPre hr hc => exact .initPre ⟨_, hr, rfl⟩ (HasType.subst θ hc)
  | initFby he hr hc => exact .initFby (HasType.subst θ he) ⟨_, hr, rfl⟩ (HasType.subst θ hc)

mutual
theorem substTy_comp (θ θ' : Subst) : (t : TyTuple) →
    substTy θ (substTy θ' t) = substTy (fun x => substBase θ (θ' x)) t
  | .single t => by cases t <;> rfl
  | .multiple ts => by simp only [substTy, substTys_comp θ θ' ts]
theorem substTys_comp (θ θ' : Subst) : (ts : List TyTuple) →
    substTys θ (substTys θ' ts) = substTys (fun x => substBase θ (θ' x)) ts
  | [] => rfl
  | t :: ts => by simp only [substTys, substTy_comp θ θ' t, substTys_comp θ θ' ts]
end

theorem substTys_single (θ : Subst) (ts : List TyBase) :
    substTys θ (ts.map .single) = (ts.map (substBase θ)).map .single := by
  induction ts with
  | nil => rfl
  | cons t ts ih => simp [substTys, substTy, ih]

theorem subst_flat (θ : Subst) (ts : List TyBase) :
    substTy θ (flatTuple ts) = flatTuple (ts.map (substBase θ)) := by
  rcases ts with _ | ⟨t, _ | ⟨u, ts⟩⟩
  · rfl
  · rfl
  · simp only [flatTuple, substTy, substTys_single]; rfl

theorem valTy_flat {ts : List TyBase} {v : Value} :
    ValTy (flatTuple ts) v ↔ ValTy (.multiple (ts.map .single)) v := by
  rcases ts with _ | ⟨t, _ | ⟨u, ts⟩⟩
  · rfl
  · simp [flatTuple, ValTy]
  · rfl

mutual
theorem subst_shape (θ : Subst) : (t : TyTuple) → (substTy θ t).shape = t.shape
  | .single t => by cases t <;> rfl
  | .multiple [] => rfl
  | .multiple (t :: ts) => by
    simp only [substTy, substTys, TyTuple.shape, subst_shape θ t, subst_shapes θ ts]
theorem subst_shapes (θ : Subst) : (ts : List TyTuple) →
    TyTuple.shapeList (substTys θ ts) = TyTuple.shapeList ts
  | [] => rfl
  | t :: ts => by simp only [substTys, TyTuple.shapeList, subst_shape θ t, subst_shapes θ ts]
end

mutual
theorem noSingleton_subst (θ : Subst) : (t : TyTuple) → NoSingleton t → NoSingleton (substTy θ t)
  | .single t, _ => by simp [substTy, NoSingleton]
  | .multiple [], _ => by simp [substTy, substTys, NoSingleton, NoSingletons]
  | .multiple [t], h => by simp [NoSingleton] at h
  | .multiple (t :: u :: ts), h => by
    simp only [NoSingleton, NoSingletons] at h
    simp only [substTy, substTys, NoSingleton, NoSingletons]
    exact ⟨noSingleton_subst θ t h.1, noSingleton_subst θ u h.2.1, noSingletons_subst θ ts h.2.2⟩
theorem noSingletons_subst (θ : Subst) : (ts : List TyTuple) → NoSingletons ts →
    NoSingletons (substTys θ ts)
  | [], _ => by simp [substTys, NoSingletons]
  | t :: ts, h => by
    simp only [NoSingletons] at h
    simp only [substTys, NoSingletons]
    exact ⟨noSingleton_subst θ t h.1, noSingletons_subst θ ts h.2⟩
end

mutual
theorem valTy_allNil : (t : TyTuple) → NoSingleton t → ValTy t (Tup.allNil Scalar t.shape)
  | .single t, _ => by simp [TyTuple.shape, Tup.allNil, Tup.map, ValTy, leafTy_nil]
  | .multiple [], _ => by simp [TyTuple.shape, Tup.allNil, Tup.map, ValTy]
  | .multiple [t], h => by simp [NoSingleton] at h
  | .multiple (t :: u :: ts), h => by
    simp only [NoSingleton, NoSingletons] at h
    have h1 := valTy_allNil t h.1
    have h2 := valTy_allNil u h.2.1
    have h3 := valTys_allNil ts h.2.2
    simp only [Tup.allNil] at h1 h2 h3
    simp only [TyTuple.shape, TyTuple.shapeList, Tup.allNil, Tup.map, Tup.mapList, ValTy, ValTys]
    exact ⟨h1, h2, h3⟩
theorem valTys_allNil : (ts : List TyTuple) → NoSingletons ts →
    ValTys ts (Tup.mapList (fun _ => .nil) (TyTuple.shapeList ts))
  | [], _ => by simp [TyTuple.shapeList, Tup.mapList, ValTys]
  | t :: ts, h => by
    simp only [NoSingletons] at h
    have h1 := valTy_allNil t h.1
    simp only [Tup.allNil] at h1
    simp only [TyTuple.shapeList, Tup.mapList, ValTys]
    exact ⟨h1, valTys_allNil ts h.2⟩
end

theorem valTy_absent (ts : List TyBase) :
    ValTy (flatTuple ts) (Tup.allNil Scalar (flatShape ts.length)) := by
  have key : ∀ ts : List TyBase, ValTys (ts.map .single)
      (Tup.mapList (fun _ => .nil) (List.replicate ts.length (.leaf ()))) := by
    intro ts
    induction ts with
    | nil => simp [Tup.mapList, ValTys]
    | cons t ts ih =>
      simp only [List.length_cons, List.replicate_succ, List.map_cons, Tup.mapList, ValTys, Tup.map]
      exact ⟨leafTy_nil t, ih⟩
  rcases ts with _ | ⟨t, _ | ⟨u, ts⟩⟩
  · simp [flatTuple, flatShape, Tup.allNil, Tup.map, ValTy]
  · simp [flatTuple, flatShape, Tup.allNil, Tup.map, ValTy, leafTy_nil]
  · simp only [flatTuple, List.length_cons, flatShape, Tup.allNil, Tup.map, List.map_cons, ValTy]
    exact ⟨leafTy_nil t, key (u :: ts)⟩

/-! ## One step -/

section
variable {A : Arith} {glob : Globals} {ms : List Machine}

theorem updHists_fine {Γ : TyEnv} {env : Env} (he : EnvTy Γ env) : ∀ {xs : List String}
    {s : NodeState ms}, (∀ x ∈ xs, (∃ h, s.hist x = some h) ∧ ∃ v, env x = some v) →
    HistTy Γ s.hist →
    Fine (fun s' => (∀ x, (s'.hist x).map (·.1) = (s.hist x).map (·.1)) ∧ HistTy Γ s'.hist ∧
      s'.flips = s.flips ∧ s'.regs = s.regs ∧ s'.nodes = s.nodes) (updHists ms env xs s)
  | [], s, _, hh => by simp only [updHists]; exact ⟨fun _ => rfl, hh, rfl, rfl, rfl⟩
  | x :: xs, s, hxs, hh => by
    obtain ⟨⟨h, h1⟩, v, h2⟩ := hxs x (by simp)
    obtain ⟨q0, hq0⟩ : ∃ q : AnyHist, q = ⟨h.1, h.2.update v⟩ := ⟨_, rfl⟩
    obtain ⟨f, hf⟩ : ∃ f : String → Option AnyHist, f = fun y => if y = x then some q0 else s.hist y :=
      ⟨_, rfl⟩
    have hstep : updHist ms env x s = .ok { s with hist := f } := by
      unfold updHist; rw [h1, h2, hf, hq0]
    simp only [updHists, hstep]
    have hcap : ∀ y, (f y).map (·.1) = (s.hist y).map (·.1) := by
      intro y
      rw [hf]
      dsimp only
      split
      · rename_i e; subst e; rw [h1, hq0]; rfl
      · rfl
    have := updHists_fine he (xs := xs) (s := { s with hist := f }) (fun y hy => by
          refine ⟨?_, (hxs y (by simp [hy])).2⟩
          obtain ⟨⟨h', h3⟩, _⟩ := hxs y (by simp [hy])
          have := hcap y
          rw [h3] at this
          cases hq : f y with
          | none => rw [hq] at this; cases this
          | some q => exact ⟨q, hq⟩)
      (by
        intro y q t hq ht w hw
        rw [hf] at hq
        dsimp only at hq
        split at hq
        · rename_i e; subst e
          cases hq
          rw [hq0, Hist.toList_update] at hw
          rcases List.mem_cons.1 hw with rfl | hw
          · obtain ⟨t', g1, g2⟩ := he y w h2
            rw [ht] at g1; cases g1; exact g2
          · exact hh y h t h1 ht w (List.dropLast_subset _ hw)
        · exact hh y q t hq ht w hw)
    refine Fine.mono this ?_
    rintro s' ⟨g1, g2, g3, g4, g5⟩
    exact ⟨fun y => (g1 y).trans (hcap y), g2, g3, g4, g5⟩

theorem readOutputs_fine {Γ : TyEnv} {env : Env} (he : EnvTy Γ env) {τ : TyBase → TyBase} :
    ∀ {xs : List TyVar},
    (∀ x ∈ xs, (∃ v, env x.name = some v) ∧ Γ.vars x.name = some (τ x.ty)) →
    Fine (fun vs => ValTys (((xs.map (·.ty)).map τ).map .single) vs) (readOutputs env xs)
  | [], _ => by simp [readOutputs, Fine, ValTys]
  | x :: xs, hxs => by
    obtain ⟨⟨v, h1⟩, h2⟩ := hxs x (by simp)
    simp only [readOutputs, h1]
    refine (readOutputs_fine he (xs := xs) fun y hy => hxs y (by simp [hy])).bind fun vs hvs => ?_
    obtain ⟨t, g1, g2⟩ := he _ _ h1
    rw [h2] at g1
    cases g1
    exact ⟨g2, hvs⟩

theorem find_of_nodup {vs : List TyVar} (hn : (vs.map (·.name)).Nodup) {v : TyVar} (hv : v ∈ vs)
    {p : TyVar → Bool} (hp : p v = true) (hu : ∀ w ∈ vs, p w = true → w.name = v.name) :
    vs.find? p = some v := by
  induction vs with
  | nil => simp at hv
  | cons w vs ih =>
    simp only [List.map_cons, List.nodup_cons] at hn
    rcases List.mem_cons.1 hv with rfl | hv
    · simp [hp]
    · have hw : p w = false := by
        cases h : p w with
        | false => rfl
        | true =>
          have := hu w (by simp) h
          exact absurd (this ▸ List.mem_map_of_mem (f := (·.name)) hv) hn.1
      simp only [List.find?_cons, hw]
      exact ih hn.2 hv fun x hx => hu x (by simp [hx])

theorem typeIn_of_mem {vs : List TyVar} (hn : (vs.map (·.name)).Nodup) {v : TyVar} (hv : v ∈ vs) :
    typeIn vs v.name = some v.ty := by
  unfold typeIn
  rw [find_of_nodup hn hv (by simp) (by simp)]
  rfl

theorem initHist_of_mem {n : Node} (hn : ((declared n).map (·.name)).Nodup) {v : TyVar}
    (hv : v ∈ declared n) (hd : 0 < v.depth) :
    initHist n v.name = some ⟨v.depth - 1, Hist.default (v.depth - 1)⟩ := by
  unfold initHist
  have := find_of_nodup hn hv (p := fun w => w.name = v.name ∧ w.depth > 0) (by simpa using hd)
    (by simp +contextual)
  unfold declared at this
  rw [this]

/-- What holds between two steps. -/
structure Between (Γ : TyEnv) (n : Node) (s : NodeState ms) : Prop where
  caps : ∀ x, (s.hist x).map (·.1) = (initHist n x).map (·.1)
  hist : HistTy Γ s.hist
  flips : s.flips.length = n.flips
  regs : ∀ i t, Γ.regs i t → ∃ r, s.regs[i]? = some r ∧ ValTy t r.inner ∧ ValTy t r.next
  nodes : States.AllI (fun i m σ => ∀ t u, Γ.call i t u → Safe m t u σ) ms s.nodes

theorem exact_subst {Γ : TyEnv} (θ : Subst) (h : Exact Γ) : Exact (Γ.subst θ) := by
  constructor
  · rintro i t t' ⟨u, h1, rfl⟩ ⟨u', h1', rfl⟩
    rw [h.regs i u u' h1 h1']
  · rintro i t u t' u' ⟨a, b, h1, rfl, rfl⟩ ⟨a', b', h1', rfl, rfl⟩
    obtain ⟨rfl, rfl⟩ := h.call _ _ _ _ _ h1 h1'
    exact ⟨rfl, rfl⟩

mutual
theorem substTy_congr {θ θ' : Subst} : (t : TyTuple) → (∀ x ∈ tyVars t, θ x = θ' x) →
    substTy θ t = substTy θ' t
  | .single t, h => by
    cases t with
    | other x => simp [substTy, substBase, h x (by simp [tyVars, baseVars])]
    | _ => rfl
  | .multiple ts, h => by simp only [substTy, substTys_congr ts h]
theorem substTys_congr {θ θ' : Subst} : (ts : List TyTuple) → (∀ x ∈ tyVarsList ts, θ x = θ' x) →
    substTys θ ts = substTys θ' ts
  | [], _ => rfl
  | t :: ts, h => by
    simp only [substTys]
    rw [substTy_congr t fun x hx => h x (by simp [tyVarsList, hx]),
      substTys_congr ts fun x hx => h x (by simp [tyVarsList, hx])]
end

theorem map_eq_on {θ θ' : Subst} : ∀ {l : List String}, l.map θ = l.map θ' →
    ∀ x ∈ l, θ x = θ' x
  | [], _, x, hx => by simp at hx
  | a :: l, h, x, hx => by
    simp only [List.map_cons, List.cons.injEq] at h
    rcases List.mem_cons.1 hx with rfl | hx
    · exact h.1
    · exact map_eq_on h.2 x hx

theorem runEnv_exact {sigs : String → Option Sig} {consts : String → Option TyBase} {n : Node}
    (hw : ∀ f s, sigs f = some s → s.Wf) : Exact (runEnv sigs consts n) := by
  constructor
  · intro i t t' h h'
    simp only [runEnv] at h h'
    rw [h] at h'; cases h'; rfl
  · rintro i t u t' u' ⟨b, gens, ins, outs, θ, h1, h2, h3, rfl, rfl⟩
      ⟨b', gens', ins', outs', θ', h1', h2', h3', rfl, rfl⟩
    rw [h1] at h1'; cases h1'
    rw [h2] at h2'; cases h2'
    rw [h3] at h3'
    simp only [Option.some.injEq] at h3'
    have hwf := hw _ _ h2
    have heq := map_eq_on h3'
    exact ⟨substTy_congr _ fun x hx => heq x ((hwf.2.1 x).1 hx),
      substTy_congr _ fun x hx => heq x (hwf.2.2 x hx)⟩

variable {sigs : String → Option Sig} {consts : String → Option TyBase} {n : Node}

theorem globTy_subst {Γ : TyEnv} (θ : Subst) (hΓ : Γ.global = consts) (hc : ConstsOk consts glob) :
    GlobTy (Γ.subst θ) glob := by
  intro x t h
  simp only [TyEnv.subst, hΓ, Option.map_eq_some_iff] at h
  obtain ⟨t0, h1, rfl⟩ := h
  obtain ⟨h2, v, h3, h4⟩ := hc x t0 h1
  refine ⟨v, h3, ?_⟩
  cases t0 with
  | other g => exact absurd rfl (h2 g)
  | _ => exact h4

theorem subsTy_subst (θ : Subst) (hs : SubsOk sigs n ms) :
    SubsTy ms ((runEnv sigs consts n).subst θ) := by
  rintro i t u ⟨t0, u0, ⟨b, gens, ins, outs, θ', h1, h2, h3, rfl, rfl⟩, rfl, rfl⟩
  obtain ⟨m, gens', ins', outs', g1, g2, g3⟩ := hs i b h1
  rw [h2] at g2; cases g2
  refine ⟨m, g1, ?_⟩
  rw [substTy_comp]
  exact (g3 _).absent

theorem init_between (θ : Subst) (h : CodegenReady sigs consts n) (hs : SubsOk sigs n ms) :
    Between ((runEnv sigs consts n).subst θ) n (n.initState ms) := by
  refine ⟨fun _ => rfl, ?_, by simp [Node.initState], ?_, ?_⟩
  · intro x q t hq _ v hv
    simp only [Node.initState, initHist] at hq
    split at hq
    · cases hq
      rw [Hist.toList_default] at hv
      rw [(List.mem_replicate.1 hv).2]
      exact leafTy_nil t
    · cases hq
  · rintro i t ⟨t0, h1, rfl⟩
    simp only [runEnv] at h1
    refine ⟨Register.default Scalar t0.shape, by simp [Node.initState, h1], ?_⟩
    have := valTy_allNil _ (noSingleton_subst θ t0 (h.shapes t0 (List.mem_of_getElem? h1)))
    rw [subst_shape] at this
    exact ⟨this, this⟩
  · refine States.allI_init ?_
    rintro i m hm t u ⟨t0, u0, ⟨b, gens, ins, outs, θ', h1, h2, h3, rfl, rfl⟩, rfl, rfl⟩
    obtain ⟨m', gens', ins', outs', g1, g2, g3⟩ := hs i b h1
    rw [h2] at g2; cases g2
    rw [hm] at g1; cases g1
    rw [substTy_comp, substTy_comp]
    exact (g3 _).safe

theorem targets_inputs {vars : String → Option TyBase} : ∀ {vs : List TyVar},
    (∀ v ∈ vs, vars v.name = some v.ty) →
    TargetTypes vars (vs.map fun v => .single v.name) ((vs.map (·.ty)).map .single)
  | [], _ => .nil
  | v :: vs, h => .cons (.single (h v (by simp))) (targets_inputs fun w hw => h w (by simp [hw]))

theorem varsList_inputs (vs : List TyVar) :
    VarTuple.varsList (vs.map fun v => .single v.name) = vs.map (·.name) := by
  induction vs with
  | nil => rfl
  | cons v vs ih => simp [VarTuple.varsList, VarTuple.vars, ih]

theorem mem_posNames {x : String} {vs : List TyVar} (h : x ∈ posNames vs) :
    ∃ v ∈ vs, v.name = x ∧ 0 < v.depth := by
  simp only [posNames, List.mem_map, List.mem_filter, decide_eq_true_eq] at h
  obtain ⟨v, ⟨h1, h2⟩, h3⟩ := h
  exact ⟨v, h1, h3, h2⟩

theorem body_fine (θ : Subst) (hw : ∀ f s, sigs f = some s → s.Wf)
    (h : CodegenReady sigs consts n) (hc : ConstsOk consts glob) (hs : SubsOk sigs n ms)
    {s : NodeState ms} (hb : Between ((runEnv sigs consts n).subst θ) n s) {v : Value}
    (hv : ValTy (substTy θ (flatTuple (n.inputs.map (·.ty)))) v) :
    Fine (fun p => ValTy (substTy θ (flatTuple (n.outputs.map (·.ty)))) p.1 ∧
      Between ((runEnv sigs consts n).subst θ) n p.2) (n.body A glob ms s v) := by
  have hx := exact_subst θ (runEnv_exact (consts := consts) (n := n) hw)
  have hg := globTy_subst (glob := glob) (Γ := runEnv sigs consts n) θ rfl hc
  have hm := subsTy_subst (consts := consts) θ hs
  have hvars : ∀ w ∈ declared n, (runEnv sigs consts n).vars w.name = some w.ty :=
    fun w hw => typeIn_of_mem h.names hw
  have hvars' : ∀ w ∈ declared n,
      ((runEnv sigs consts n).subst θ).vars w.name = some (substBase θ w.ty) :=
    fun w hw => by simp [TyEnv.subst, hvars w hw]
  have hcap : ∀ w ∈ declared n, 0 < w.depth → ∃ q, s.hist w.name = some q ∧ q.1 = w.depth - 1 := by
    intro w hw hd
    have := hb.caps w.name
    rw [initHist_of_mem h.names hw hd] at this
    cases hq : s.hist w.name with
    | none => rw [hq] at this; cases this
    | some q => rw [hq] at this; simp only [Option.map_some, Option.some.injEq] at this; exact ⟨q, rfl, this⟩
  have hwithin : ∀ st ∈ n.stmts, ∀ e ∈ evaluated st, Within s.hist (occurrences e) := by
    intro st hst e he x d hxd
    obtain ⟨w, h1, rfl, h3⟩ := h.deep st hst e he x d hxd
    obtain ⟨q, g1, g2⟩ := hcap w h1 (by omega)
    exact ⟨q, g1, by omega⟩
  unfold Node.body
  rw [subst_flat, valTy_flat] at hv
  have htin : TargetType ((runEnv sigs consts n).subst θ).vars (inputPattern n.inputs)
      (.multiple (((n.inputs.map (·.ty)).map (substBase θ)).map .single)) := by
    refine .multiple ?_
    have := TargetTypes.subst (Γ := runEnv sigs consts n) θ (targets_inputs (vs := n.inputs)
      (vars := (runEnv sigs consts n).vars) fun w hw => hvars w (by simp [declared, hw]))
    rw [substTys_single] at this
    exact this
  refine (bindTarget_fine htin hv (env := fun _ => none) (by intro x w hx; cases hx)).bind ?_
  rintro env ⟨e1, _, e3⟩
  have e3' : ∀ x ∈ n.inputs.map (·.name), ∃ w, env x = some w := by
    intro x hx
    exact e3 x (by simpa [inputPattern, VarTuple.vars, varsList_inputs] using hx)
  refine (execAll_fine hx hg hm hb.hist (fun st hst => RunTyped.subst θ (h.typed st hst)) h.ordered
    hwithin h.flips e1 e3' ⟨rfl, hb.flips, hb.regs, hb.nodes⟩).bind ?_
  rintro ⟨env1, s1⟩ ⟨k1, k2, k3, k4⟩
  have hbound : ∀ w ∈ declared n, ∃ v, env1 w.name = some v := by
    intro w hw
    simp only [declared, List.mem_append] at hw
    rcases hw with (hw | hw) | hw
    · exact k2 _ (List.mem_map_of_mem hw)
    · exact k3 _ (h.defined w (by simp [hw]))
    · exact k3 _ (h.defined w (by simp [hw]))
  have hpos : ∀ vs : List TyVar, (∀ w ∈ vs, w ∈ declared n) → ∀ t : NodeState ms,
      (∀ x, (t.hist x).map (·.1) = (s.hist x).map (·.1)) → ∀ x ∈ posNames vs,
        (∃ q, t.hist x = some q) ∧ ∃ v, env1 x = some v := by
    intro vs hvs t ht x hx
    obtain ⟨w, h1, rfl, h3⟩ := mem_posNames hx
    refine ⟨?_, hbound w (hvs w h1)⟩
    obtain ⟨q, g1, _⟩ := hcap w (hvs w h1) h3
    have := ht w.name
    rw [g1] at this
    cases hq : t.hist w.name with
    | none => rw [hq] at this; cases this
    | some q => exact ⟨q, rfl⟩
  have hh1 : HistTy ((runEnv sigs consts n).subst θ) s1.hist := k4.hist ▸ hb.hist
  have c1 : ∀ x, (s1.hist x).map (·.1) = (s.hist x).map (·.1) := fun x => by rw [k4.hist]
  refine (updHists_fine (s := { s1 with clock := s1.clock + 1 }) k1 (hpos n.inputs
    (fun w hw => by simp [declared, hw]) _ c1) hh1).bind ?_
  rintro s2 ⟨c2, hh2, f2, r2, n2⟩
  have c2' : ∀ x, (s2.hist x).map (·.1) = (s.hist x).map (·.1) := fun x => (c2 x).trans (c1 x)
  refine (updHists_fine k1 (hpos n.outputs (fun w hw => by simp [declared, hw]) _ c2') hh2).bind ?_
  rintro s3 ⟨c3, hh3, f3, r3, n3⟩
  have c3' : ∀ x, (s3.hist x).map (·.1) = (s.hist x).map (·.1) := fun x => (c3 x).trans (c2' x)
  refine (updHists_fine k1 (hpos n.locals (fun w hw => by simp [declared, hw]) _ c3') hh3).bind ?_
  rintro s4 ⟨c4, hh4, f4, r4, n4⟩
  refine (readOutputs_fine (τ := substBase θ) k1 fun w hw => ⟨hbound w (by simp [declared, hw]),
    hvars' w (by simp [declared, hw])⟩).bind fun outs ho => ?_
  refine ⟨?_, fun x => ((c4 x).trans (c3' x)).trans (hb.caps x), hh4, ?_, ?_, ?_⟩
  · rw [subst_flat, valTy_flat]
    exact valTy_tuple ho
  · simp only [f4, f3, f2]; exact k4.flips
  · intro i t hr
    obtain ⟨r, g1, g2, g3⟩ := k4.regs i t hr
    refine ⟨r.commit, ?_, g3, g3⟩
    simp only [r4, r3, r2, List.getElem?_map]
    change Option.map _ s1.regs[i]? = _
    rw [show s1.regs[i]? = some r from g1]; rfl
  · simp only [n4, n3, n2]; exact k4.nodes

theorem node_respects (hw : ∀ f s, sigs f = some s → s.Wf) (h : CodegenReady sigs consts n)
    (hc : ConstsOk consts glob) (hs : SubsOk sigs n ms) (θ : Subst) :
    Respects (n.machine A glob ms) (substTy θ (flatTuple (n.inputs.map (·.ty))))
      (substTy θ (flatTuple (n.outputs.map (·.ty)))) := by
  have habs : ValTy (substTy θ (flatTuple (n.outputs.map (·.ty)))) (Tup.allNil Scalar n.outTy) := by
    have := valTy_absent ((n.outputs.map (·.ty)).map (substBase θ))
    rw [subst_flat]
    simpa [Node.outTy] using this
  refine ⟨?_, habs⟩
  refine safe_of_inv (m := n.machine A glob ms)
    (fun s : NodeState ms => Between ((runEnv sigs consts n).subst θ) n s) (fun s v hb hv => ?_)
    (init_between θ h hs)
  change Fine _ (n.step A glob ms s v)
  unfold Node.step Candle.implicitClock
  split
  · exact ⟨habs, hb⟩
  · exact body_fine θ hw h hc hs hb hv

end
end Chandeliers.San
