import Verif.Lemmas.BlameTypes

/-!
# Messages about nodes and constants
-/

set_option autoImplicit false

namespace Chandeliers.Tell
open Chandeliers.San Chandeliers.Spec Chandeliers.Err Chandeliers.Err.Chk

/-! ## Runs from one state -/

theorem adds_bind {E σ α β : Type} {P : E → Prop} {m : Chk E σ α} {f : α → Chk E σ β}
    {a : EAccum E} {s : σ} (hm : Adds P a (m (a, s)).2.1)
    (hf : ∀ x a' s', m (a, s) = (.some x, (a', s')) → Adds P a' (f x (a', s')).2.1) :
    Adds P a ((m >>= f) (a, s)).2.1 := by
  rw [run_bind]
  rcases h : m (a, s) with ⟨r, a', s'⟩
  rw [h] at hm
  cases r with
  | some x => exact hm.trans (hf x a' s' h)
  | none => exact hm
  | abort => exact hm

theorem adds_scope {E σ : Type} {P : E → Prop} {m : Chk E σ Unit} {ms : List (Chk E σ Unit)}
    {a : EAccum E} {s : σ} (hm : Adds P a (m (a, s)).2.1)
    (hms : Adds P (m (a, s)).2.1 (Chk.inScope ms (m (a, s)).2).2.1) :
    Adds P a (Chk.inScope (m :: ms) (a, s)).2.1 := by
  rw [inScope_cons]
  rcases h : m (a, s) with ⟨r, a', s'⟩
  rw [h] at hm hms
  cases r with
  | some x => exact hm.trans hms
  | abort => exact hm
  | none =>
    simp only at hms ⊢
    rcases h2 : Chk.inScope ms (a', s') with ⟨r2, s2⟩
    rw [h2] at hms
    cases r2 <;> exact hm.trans hms

theorem local_at {σ τ α : Type} {I : σ → Prop} {P : Diag → Prop} {init : τ}
    {m : Chk Diag τ α} (hm : ∀ a, Adds P a (m (a, init)).2.1) :
    Tells I P (San.Chk.local_ init m : Chk Diag σ (α × τ)) (fun _ => True) := by
  intro a s hs
  have h2 := hm a
  rw [local_run]
  rcases hr : m (a, init) with ⟨r, a', t⟩
  rw [hr] at h2
  cases r <;> exact ⟨hs, h2, fun _ _ => trivial⟩

/-! ## Statements -/

theorem mem_varsList {x : String} {v : VarTuple} : {vs : List VarTuple} → v ∈ vs → x ∈ v.vars →
    x ∈ VarTuple.varsList vs
  | w :: vs, h, hx => by
    simp only [VarTuple.varsList, List.mem_append]
    rcases List.mem_cons.1 h with rfl | h
    · exact .inl hx
    · exact .inr (mem_varsList h hx)

mutual
theorem target_tells {Γ : TyEnv} {sig : Nat → Option Sig} : (v : VarTuple) →
    Tells (Ctx Γ sig) (fun d => ∃ x ∈ v.vars, Γ.vars x = none ∧ d = .varNotFound x) v.typecheck
      fun t => TargetType Γ.vars v t
  | .single x => by
    simp only [VarTuple.typecheck, getVar]
    refine bind get fun c hc => ?_
    cases h : c.vars x with
    | none => exact error ⟨x, by simp [VarTuple.vars], hc.vars ▸ h, rfl⟩
    | some t => exact pure (.single (hc.vars ▸ h))
  | .multiple vs => by
    simp only [VarTuple.typecheck]
    refine bind (because (targets_tells vs) ?_) fun ts h => pure (.multiple h)
    rintro d ⟨v, hv, x, hx, h1, h2⟩
    exact ⟨x, by simp only [VarTuple.vars]; exact mem_varsList hv hx, h1, h2⟩
theorem targets_tells {Γ : TyEnv} {sig : Nat → Option Sig} : (vs : List VarTuple) →
    Tells (Ctx Γ sig)
      (fun d => ∃ v ∈ vs, ∃ x ∈ v.vars, Γ.vars x = none ∧ d = .varNotFound x)
      (VarTuple.typecheckList vs) fun ts => TargetTypes Γ.vars vs ts
  | [] => by simp only [VarTuple.typecheckList]; exact pure .nil
  | v :: vs => by
    simp only [VarTuple.typecheckList]
    refine bind (because (target_tells v) fun d hd => ⟨v, by simp, hd⟩) fun t ht => ?_
    refine bind (because (targets_tells vs) ?_) fun ts hts => pure (.cons ht hts)
    rintro d ⟨w, hw, h⟩
    exact ⟨w, by simp [hw], h⟩
end

theorem stmt_tells {Γ : TyEnv} {sig : Nat → Option Sig} (hΓ : Rules Γ sig) (st : Stmt) :
    Tells (Ctx Γ sig) (StmtTypeBlame Γ sig st) st.typecheck fun _ => True := by
  cases st with
  | let_ v e =>
    simp only [Stmt.typecheck]
    refine bind (both (because (target_tells v) ?_) (because (expr_tells hΓ e) ?_)) fun p hp => ?_
    · rintro d ⟨x, hx, h, rfl⟩
      exact .target hx h
    · rintro d ⟨c, hc, h⟩
      exact .source hc h
    · obtain ⟨t, u⟩ := p
      refine any (because (sameType_tells t u) ?_)
      rintro d ⟨t', u', rfl, h1, h2⟩
      exact .sides hp.1 hp.2 h1 h2
  | assert e =>
    simp only [Stmt.typecheck]
    refine bind (because (expr_tells hΓ e) ?_) fun t ht => ?_
    · rintro d ⟨c, hc, h⟩
      exact .asserted hc h
    · refine bind (isPrimitive_tells fun ts e => .assertScalar (e ▸ ht)) fun b hb => ?_
      subst hb
      exact any (isBool_tells fun h => .assertBool ht h)
  | updateRegister _ _ => simp only [Stmt.typecheck]; exact unit
  | initRegister _ _ _ => simp only [Stmt.typecheck]; exact unit

/-! ## Signatures -/

theorem checkDeclared_tells {σ : Type} {I : σ → Prop} {P : Diag → Prop} {g : List String} :
    (vs : List TyVar) →
    (∀ v ∈ vs, ∀ x, v.ty = .other x → x ∉ g → P (.undeclaredGeneric x)) →
    Tells I P (checkDeclared g vs : Chk Diag σ Unit) fun _ => True
  | [], _ => by simp only [checkDeclared]; exact unit
  | v :: vs, h => by
    simp only [checkDeclared]
    have ih := checkDeclared_tells (I := I) vs fun w hw => h w (by simp [hw])
    cases ht : v.ty with
    | other x =>
      by_cases hx : x ∈ g
      · simpa only [hx, if_true] using ih
      · simp only [hx, if_false]
        exact bind (Q := fun _ => True) (error (h v (by simp) x ht hx)) fun _ _ => ih
    | _ => exact ih

theorem checkUsed_tells {σ : Type} {I : σ → Prop} {P : Diag → Prop} {vs : List TyVar} :
    (g : List String) →
    (∀ x ∈ g, (∀ v ∈ vs, v.ty ≠ .other x) → P (.unusedGeneric x)) →
    Tells I P (checkUsed vs g : Chk Diag σ Unit) fun _ => True
  | [], _ => by simp only [checkUsed]; exact unit
  | x :: g, h => by
    simp only [checkUsed]
    have ih := checkUsed_tells (I := I) g fun y hy => h y (by simp [hy])
    refine ite (fun _ => ih) fun hx =>
      bind (Q := fun _ => True) (error (h x (by simp) fun v hv e => ?_)) fun _ _ => ih
    exact hx (List.mem_map.2 ⟨v, hv, e⟩)

theorem signature_tells {σ : Type} {I : σ → Prop} {b : Bool} {g : List String}
    {i o l : List TyVar} :
    Tells I (SigBlame b g i o l) (checkSignature b g i o l : Chk Diag σ Unit) fun _ => True := by
  unfold checkSignature
  have hrest : Tells I (SigBlame b g i o l) (do
      checkDeclared g i
      checkDeclared g (o ++ l)
      checkUsed i g : Chk Diag σ Unit) fun _ => True := by
    refine bind (checkDeclared_tells i fun v hv x hx hg => .undeclared (by simp [hv]) hx hg)
      fun _ _ => ?_
    refine bind (checkDeclared_tells (o ++ l) fun v hv x hx hg => .undeclared (v := v) ?_ hx hg)
      fun _ _ => ?_
    · rw [List.append_assoc]; exact List.mem_append_right _ hv
    · exact checkUsed_tells g fun x hx h => .unused hx h
  refine ite (fun h => bind (Q := fun _ => True) (error ?_) fun _ _ => hrest) fun _ => hrest
  · simp only [Bool.and_eq_true, Bool.not_eq_true', Bool.and_eq_false_iff] at h
    refine .exec h.1 ?_ ?_ ?_
    · cases i <;> simp
    · cases o <;> simp
    · rcases h.2 with h | h <;> simp [h]

/-! ## Declarations of variables -/

/-- The variables of the context are these. -/
def Vars (c : TyCtx) (pre : List TyVar) : Prop :=
  (∀ x t, c.vars x = some t → ∃ w ∈ pre, w.name = x ∧ w.ty = t) ∧
  ∀ x, c.vars x = none → ∀ w ∈ pre, w.name ≠ x

theorem declare_adds (P : Diag → Prop) : (vs pre : List TyVar) →
    (∀ d, DeclBlame (pre ++ vs) d → P d) → (a : EAccum Diag) → (c : TyCtx) → Vars c pre →
    Adds P a (Chk.inScope (vs.flatMap declareVar) (a, c)).2.1
  | [], pre, _, a, c, _ => by
    rw [List.flatMap_nil, inScope_run]
    simpa [scopeLoop] using Adds.refl a
  | v :: vs, pre, hP, a, c, hc => by
    have he : pre ++ v :: vs = (pre ++ [v]) ++ vs := by simp
    rw [List.flatMap_cons]
    simp only [declareVar, List.cons_append, List.nil_append]
    -- is it declared already?
    have h1 : ∀ a : EAccum Diag, Tells (fun c => Vars c pre) P
        (do match (← Chk.get).vars v.name with
            | some _ => Chk.error (.declTwice v.name)
            | none => Pure.pure () : Chk Diag TyCtx Unit) fun _ => True := by
      intro _
      refine bind get fun c' hc' => ?_
      cases h : c'.vars v.name with
      | none => exact unit
      | some t =>
        obtain ⟨w, hw, hn, -⟩ := hc'.1 _ _ h
        refine error (hP _ (.twice ?_))
        rw [List.map_append, List.duplicate_iff_two_le_count, List.count_append]
        have h1 : 1 ≤ List.count v.name (pre.map (·.name)) := by
          rw [List.one_le_count_iff]; exact List.mem_map.2 ⟨w, hw, hn⟩
        have h2 : 1 ≤ List.count v.name ((v :: vs).map (·.name)) := by
          rw [List.one_le_count_iff]; simp
        omega
    have h2 : Tells (fun c => Vars c pre) P v.clk.typecheck fun _ => True := by
      cases hk : v.clk with
      | implicit => exact unit
      | adaptative => exact unit
      | explicit b x =>
        unfold Clock.typecheck
        refine bind get fun c' hc' => ?_
        cases h : c'.vars x with
        | none => exact error (hP _ (.clock rfl hk (hc'.2 x h)))
        | some t =>
          obtain ⟨w, hw, hn, ht⟩ := hc'.1 _ _ h
          subst hn ht
          exact any (isBool_tells fun hb => hP _ (.bool rfl hw hk hb))
    obtain ⟨k1, k2, -⟩ := h1 a a c hc
    refine adds_scope k2 ?_
    generalize (do match (← Chk.get).vars v.name with
            | some _ => Chk.error (.declTwice v.name)
            | none => Pure.pure () : Chk Diag TyCtx Unit) (a, c) = r at k1 ⊢
    obtain ⟨r, a1, c1⟩ := r
    obtain ⟨l1, l2, -⟩ := h2 a1 c1 k1
    refine adds_scope l2 ?_
    generalize v.clk.typecheck (a1, c1) = r at l1 ⊢
    obtain ⟨r, a2, c2⟩ := r
    refine adds_scope (.refl _) ?_
    refine declare_adds P vs (pre ++ [v]) (by rwa [← he]) _ _ ?_
    refine ⟨fun x t hx => ?_, fun x hx w hw => ?_⟩
    · simp only at hx
      split at hx
      · rename_i e
        subst e
        cases hx
        exact ⟨v, by simp, rfl, rfl⟩
      · obtain ⟨w, hw, h⟩ := l1.1 x t hx
        exact ⟨w, by simp [hw], h⟩
    · simp only at hx
      split at hx
      · cases hx
      · rename_i e
        rcases List.mem_append.1 hw with hw | hw
        · exact l1.2 x hx w hw
        · simp only [List.mem_singleton] at hw
          subst hw
          exact fun h => e h.symm

theorem vars_nil (g : String → Option TyBase) : Vars (TyCtx.fromExt g) [] :=
  ⟨fun x t h => by simp [TyCtx.fromExt] at h, fun x _ w hw => by simp at hw⟩

theorem blocks_tells {I : TyCtx → Prop} (hI : ∀ c c' : TyCtx, I c → I c') {P : Diag → Prop}
    {sigs : String → Option Sig} : (bs : List NodeInstance) → (k : Nat) →
    (∀ b ∈ bs, sigs b.name = none → P (.funNotFound b.name)) →
    Tells I P (declareBlocks sigs k bs) fun _ => True
  | [], k, _ => by simp only [declareBlocks]; exact unit
  | b :: bs, k, h => by
    simp only [declareBlocks]
    cases hb : sigs b.name with
    | none => exact error (h b (by simp) hb)
    | some s =>
      obtain ⟨g, i, o⟩ := s
      exact bind (modify fun c hc => hI c _ hc) fun _ _ =>
        blocks_tells hI bs (k + 1) fun b' hb' => h b' (by simp [hb'])

theorem bodyCtx_ctx {sigs : String → Option Sig} {consts : String → Option TyBase} {n : Node} :
    Ctx (nodeEnv sigs consts n) (calledSig sigs n) (bodyCtx sigs consts n) := by
  have h : ∀ id, blockSig sigs n.blocks id = calledSig sigs n id := fun _ => rfl
  refine ⟨rfl, rfl, fun id i hi => ?_, fun id o ho => ?_, fun id g hg => ?_⟩
  · simp only [bodyCtx, TyCtx.withBlocks, h] at hi
    obtain ⟨⟨g, i', o⟩, h1, rfl⟩ := Option.map_eq_some_iff.1 hi
    exact ⟨g, o, h1⟩
  · simp only [bodyCtx, TyCtx.withBlocks, h] at ho
    obtain ⟨⟨g, i', o⟩, h1, rfl⟩ := Option.map_eq_some_iff.1 ho
    exact ⟨g, i', h1⟩
  · simp only [bodyCtx, TyCtx.withBlocks, h] at hg
    obtain ⟨⟨g, i', o⟩, h1, rfl⟩ := Option.map_eq_some_iff.1 hg
    exact ⟨i', o, h1⟩

theorem nodeEnv_rules {sigs : String → Option Sig} {consts : String → Option TyBase} {n : Node} :
    Rules (nodeEnv sigs consts n) (calledSig sigs n) := by
  refine ⟨fun _ _ => trivial, fun id gens ins outs θ h => ?_⟩
  unfold calledSig at h
  obtain ⟨b, h1, h2⟩ := Option.bind_eq_some_iff.1 h
  exact ⟨b, gens, ins, outs, θ, h1, h2, rfl, rfl⟩

theorem node_tells {σ : Type} {I : σ → Prop} {o : TyOpts} {sigs : String → Option Sig}
    {consts : String → Option TyBase} {n : Node} :
    Tells I (NodeBlame o sigs consts n) (n.typecheck o sigs consts : Chk Diag σ Node)
      fun _ => True := by
  unfold Node.typecheck
  refine bind (because signature_tells fun _ h => .sig h) fun _ _ => ?_
  refine bind (Q := fun _ => True) (local_at fun a => ?_) fun _ _ => unit
  refine adds_bind ?_ fun _ a1 c1 h1 => ?_
  · exact declare_adds _ _ [] (fun d h => .decls h) a _ (vars_nil _)
  have h0 : TyCtx.fromExt consts = (TyCtx.fromExt consts).withVars [] := rfl
  rw [h0] at h1
  obtain ⟨-, e⟩ := (declare_some _ [] .nil).1 h1
  rw [List.nil_append] at e
  refine adds_bind ?_ fun _ a2 c2 h2 => ?_
  · refine (blocks_tells (I := fun _ => True) (fun _ _ _ => trivial) (sigs := sigs) n.blocks 0
      (fun b hb h => .called hb h) a1 c1 trivial).2.1
  cases e
  have h3 : ∀ vs, (TyCtx.fromExt consts).withVars vs =
      ((TyCtx.fromExt consts).withVars vs).withBlocks sigs [] := by
    intro vs
    simp [TyCtx.withVars, TyCtx.withBlocks, TyCtx.fromExt, blockSig]
  rw [h3] at h2
  obtain ⟨-, e⟩ := (declareBlocks_some n.blocks []).1 h2
  cases e
  refine (inScope (I := Ctx (nodeEnv sigs consts n) (calledSig sigs n))
    (n.stmts.map Stmt.typecheck) (fun m hm => ?_) _ _ bodyCtx_ctx).2.1
  obtain ⟨st, hst, rfl⟩ := List.mem_map.1 hm
  exact because (stmt_tells nodeEnv_rules st) fun d hd => .types hst hd

theorem extNode_tells {σ : Type} {I : σ → Prop} {o : TyOpts} {n : ExtNode} :
    Tells I (ExtNodeBlame o n) (n.typecheck o : Chk Diag σ Unit) fun _ => True := by
  unfold ExtNode.typecheck
  refine bind (because signature_tells fun _ h => .sig h) fun _ _ => ?_
  refine bind (Q := fun _ => True) (local_at fun a => ?_) fun _ _ => unit
  exact declare_adds _ _ [] (fun d h => .decls h) a _ (vars_nil _)

/-! ## Constants -/

theorem isConst_tells {σ : Type} {I : σ → Prop} : (e : Expr) →
    Tells I (fun d => ∃ c what, Inside c e ∧ NotConst what c ∧ d = .notConst what)
      (e.isConst : Chk Diag σ Unit) fun _ => True
  | .lit _ => by simp only [Expr.isConst]; exact unit
  | .global _ => by simp only [Expr.isConst]; exact unit
  | .var _ _ => by simp only [Expr.isConst]; exact unit
  | .dummyParen e => by
    simp only [Expr.isConst]
    refine because (isConst_tells e) ?_
    rintro d ⟨c, w, h1, h2⟩
    exact ⟨c, w, h1.tail (.operand .dummyParen), h2⟩
  | .un _ e => by
    simp only [Expr.isConst]
    refine because (isConst_tells e) ?_
    rintro d ⟨c, w, h1, h2⟩
    exact ⟨c, w, h1.tail (.operand .un), h2⟩
  | .bin _ l r => by
    simp only [Expr.isConst]
    refine bind (both (because (isConst_tells l) ?_) (because (isConst_tells r) ?_)) fun _ _ => unit
    · rintro d ⟨c, w, h1, h2⟩
      exact ⟨c, w, h1.tail (.operand .binL), h2⟩
    · rintro d ⟨c, w, h1, h2⟩
      exact ⟨c, w, h1.tail (.operand .binR), h2⟩
  | .cmp _ l r => by
    simp only [Expr.isConst]
    refine bind (both (because (isConst_tells l) ?_) (because (isConst_tells r) ?_)) fun _ _ => unit
    · rintro d ⟨c, w, h1, h2⟩
      exact ⟨c, w, h1.tail (.operand .cmpL), h2⟩
    · rintro d ⟨c, w, h1, h2⟩
      exact ⟨c, w, h1.tail (.operand .cmpR), h2⟩
  | .ifx c y n => by
    simp only [Expr.isConst]
    refine bind (opt (because (isConst_tells c) ?_)) fun oc _ => ?_
    · rintro d ⟨c, w, h1, h2⟩
      exact ⟨c, w, h1.tail (.operand .ifCond), h2⟩
    refine bind (opt (because (isConst_tells y) ?_)) fun oy _ => ?_
    · rintro d ⟨c, w, h1, h2⟩
      exact ⟨c, w, h1.tail (.operand .ifYes), h2⟩
    refine bind (opt (because (isConst_tells n) ?_)) fun on _ => ?_
    · rintro d ⟨c, w, h1, h2⟩
      exact ⟨c, w, h1.tail (.operand .ifNo), h2⟩
    exact bind (ofOption fun _ _ => trivial) fun _ _ => bind (ofOption fun _ _ => trivial) fun _ _ =>
      ofOption fun _ _ => trivial
  | .tuple _ => by simp only [Expr.isConst]; exact error ⟨_, _, .refl, .tuple, rfl⟩
  | .dummyPre _ => by simp only [Expr.isConst]; exact error ⟨_, _, .refl, .pre, rfl⟩
  | .later _ _ _ => by simp only [Expr.isConst]; exact error ⟨_, _, .refl, .later, rfl⟩
  | .fetchPre _ _ => by simp only [Expr.isConst]; exact error ⟨_, _, .refl, .fetchPre, rfl⟩
  | .fetchFby _ _ _ => by simp only [Expr.isConst]; exact error ⟨_, _, .refl, .fetchFby, rfl⟩
  | .flip _ _ _ => by simp only [Expr.isConst]; exact error ⟨_, _, .refl, .flip, rfl⟩
  | .substep _ _ _ => by simp only [Expr.isConst]; exact error ⟨_, _, .refl, .call, rfl⟩
  | .merge _ _ _ => by simp only [Expr.isConst]; exact error ⟨_, _, .refl, .merge, rfl⟩
  | .clock _ _ _ => by simp only [Expr.isConst]; exact error ⟨_, _, .refl, .clock, rfl⟩

theorem const_tells {σ : Type} {I : σ → Prop} {consts : String → Option TyBase} {c : Const} :
    Tells I (ConstBlame consts c) (c.typecheck consts : Chk Diag σ Unit) fun _ => True := by
  unfold Const.typecheck
  refine bind (because (isConst_tells c.value) ?_) fun _ _ => ?_
  · rintro d ⟨e, w, h1, h2, rfl⟩
    exact .notConst h1 h2
  have hr : Rules (constEnv consts) (fun _ => none) :=
    ⟨fun _ _ => trivial, fun _ _ _ _ _ h => by cases h⟩
  have hc : Ctx (constEnv consts) (fun _ => none) (TyCtx.fromExt consts) :=
    ⟨rfl, rfl, fun _ _ h => by simp [TyCtx.fromExt] at h, fun _ _ h => by simp [TyCtx.fromExt] at h,
      fun _ _ h => by simp [TyCtx.fromExt] at h⟩
  refine bind (local_ hc (because (expr_tells hr c.value) ?_)) fun p hp => ?_
  · rintro d ⟨e, h1, h2⟩
    exact .value h1 h2
  obtain ⟨t, _⟩ := p
  refine bind (local_ (I' := TyUnifier.Plain) trivial (because (identical_mis _ t) ?_))
    fun _ _ => unit
  rintro d ⟨t', u', rfl, h1, h2⟩
  exact .type hp.1 h1 h2

end Chandeliers.Tell
