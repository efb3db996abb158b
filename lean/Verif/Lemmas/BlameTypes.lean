import Verif.Lemmas.Tells

/-!
# Messages about types
-/

set_option autoImplicit false

namespace Chandeliers.Tell
open Chandeliers.San Chandeliers.Spec Chandeliers.Err Chandeliers.Err.Chk

/-! ## Comparing types -/

/-- What a comparison says when it fails. -/
def Mis (t u : TyTuple) (d : Diag) : Prop :=
  ∃ t' u', d = .typeMismatch t' u' ∧ Facing t u t' u' ∧ t' ≠ u'

/-- What the comparison with an instance says when it fails. -/
def CallMis (t u : TyTuple) (d : Diag) : Prop :=
  (∃ t' u', d = .typeMismatch t' u' ∧ Facing t u t' u' ∧ ∀ θ, substTy θ t' ≠ u') ∨
  ∃ x v w, d = .unsatGeneric x v w ∧ Facing t u (.single (.other x)) (.single v) ∧
    Facing t u (.single (.other x)) (.single w) ∧ v ≠ w

mutual
theorem identical_mis : (t r : TyTuple) →
    Tells TyUnifier.Plain (Mis t r) (t.identical r) fun _ => True
  | .single l, .single r => by
    simp only [TyTuple.identical]
    intro a u hu
    rw [requireIdentical_plain hu]
    split
    · exact ⟨hu, .refl a, fun _ _ => trivial⟩
    · rename_i hne
      exact ⟨hu, .one a ⟨_, _, rfl, .here, fun e => hne (by cases e; rfl)⟩, fun _ _ => trivial⟩
  | .single l, .multiple us => by
    simp only [TyTuple.identical]
    exact error ⟨_, _, rfl, .here, by simp⟩
  | .multiple ts, .single r => by
    simp only [TyTuple.identical]
    exact error ⟨_, _, rfl, .here, by simp⟩
  | .multiple ts, .multiple us => by
    simp only [TyTuple.identical]
    refine ite (fun h => error ⟨_, _, rfl, .here, fun e => h (by cases e; rfl)⟩) fun h => ?_
    refine because (identicals_mis ts us) ?_
    rintro d ⟨i, t, u, h1, h2, t', u', rfl, h3, h4⟩
    exact ⟨t', u', rfl, .inside (by simpa using h) h1 h2 h3, h4⟩
theorem identicals_mis : (ts us : List TyTuple) → Tells TyUnifier.Plain
    (fun d => ∃ (i : Nat) (t u : TyTuple), ts[i]? = some t ∧ us[i]? = some u ∧ Mis t u d)
    (Chk.inScope (TyTuple.identicals ts us)) fun _ => True
  | [], us => by simp only [TyTuple.identicals]; exact scopeNil
  | t :: ts, [] => by simp only [TyTuple.identicals]; exact scopeNil
  | t :: ts, u :: us => by
    simp only [TyTuple.identicals]
    refine any (scopeCons (Q := True) (R := True)
      (because (identical_mis t u) fun d hd => ⟨0, t, u, rfl, rfl, hd⟩)
      (because (identicals_mis ts us) ?_))
    rintro d ⟨i, t', u', h1, h2, h3⟩
    exact ⟨i + 1, t', u', by simpa using h1, by simpa using h2, h3⟩
end

theorem sameType_tells {I : TyCtx → Prop} (t u : TyTuple) :
    Tells I (Mis t u) (sameType t u) fun _ => t = u := by
  have h : Tells I (Mis t u) (sameType t u) fun _ => True := by
    unfold sameType
    exact bind (local_ (I' := TyUnifier.Plain) trivial (identical_mis t u)) fun _ _ => unit
  intro a c hc
  obtain ⟨h1, h2, -⟩ := h a c hc
  refine ⟨h1, h2, fun x hx => ?_⟩
  rcases hr : sameType t u (a, c) with ⟨r, s⟩
  rw [hr] at hx
  cases hx
  exact (sameType_some.1 hr).1

/-- The choices of a unifier come from what is compared. -/
def From (gens : List String) (t u : TyTuple) (m : TyUnifier) : Prop :=
  m.Wf gens ∧ ∀ x v, m.val x = some v → Facing t u (.single (.other x)) (.single v)

theorem requireIdentical_unknown {gens : List String} {u : TyUnifier} (h : u.Wf gens) {x : String}
    (hx : x ∉ gens) (r : TyBase) (a : EAccum Diag) :
    requireIdentical (.other x) r (a, u) = (.abort, (a, u)) := by
  cases u with
  | identity => exact h.elim
  | null => exact h.elim
  | mapping idx subst =>
    have hi : idx x = none := by
      cases hi : idx x with
      | none => rfl
      | some i => exact absurd (List.mem_of_getElem? ((h.1 x i).1 hi)) hx
    simp only [requireIdentical, run_bind, Chk.get, hi]
    rfl

mutual
theorem identical_call {gens : List String} {T A : TyTuple} : (t r : TyTuple) →
    (∀ a b, Facing t r a b → Facing T A a b) →
    Tells (From gens T A) (CallMis T A) (t.identical r) fun _ => ∀ x ∈ tyVars t, x ∈ gens
  | .single (.other x), .single r, hf => by
    simp only [TyTuple.identical]
    intro a u hu
    by_cases hx : x ∈ gens
    · have hq : ∀ y ∈ tyVars (.single (.other x)), y ∈ gens := by
        intro y hy; simp only [tyVars, baseVars, List.mem_singleton] at hy; subst hy; exact hx
      rcases requireIdentical_other hu.1 hx r a with ⟨-, u', h2, h3, h4⟩ | ⟨h1, h2⟩ | ⟨v, h1, h3, h2⟩
      · rw [h2]
        refine ⟨⟨h3, fun y v hy => ?_⟩, .refl a, fun _ _ => hq⟩
        rw [h4] at hy
        split at hy
        · rename_i e
          subst e
          cases hy
          exact hf _ _ .here
        · exact hu.2 y v hy
      · rw [h2]
        exact ⟨hu, .refl a, fun _ _ => hq⟩
      · rw [h2]
        exact ⟨hu, .one a (.inr ⟨x, v, r, rfl, hu.2 x v h1, hf _ _ .here, h3⟩), fun _ _ => hq⟩
    · rw [requireIdentical_unknown hu.1 hx]
      exact ⟨hu, .refl a, fun y hy => by cases hy⟩
  | .single .int, .single r, hf => by
    simp only [TyTuple.identical, requireIdentical]
    exact ite (fun _ => pure (by simp [tyVars, baseVars])) fun h =>
      error (.inl ⟨_, _, rfl, hf _ _ .here, fun θ e => h (by simpa [substTy, substBase] using e)⟩)
  | .single .float, .single r, hf => by
    simp only [TyTuple.identical, requireIdentical]
    exact ite (fun _ => pure (by simp [tyVars, baseVars])) fun h =>
      error (.inl ⟨_, _, rfl, hf _ _ .here, fun θ e => h (by simpa [substTy, substBase] using e)⟩)
  | .single .bool, .single r, hf => by
    simp only [TyTuple.identical, requireIdentical]
    exact ite (fun _ => pure (by simp [tyVars, baseVars])) fun h =>
      error (.inl ⟨_, _, rfl, hf _ _ .here, fun θ e => h (by simpa [substTy, substBase] using e)⟩)
  | .single l, .multiple us, hf => by
    simp only [TyTuple.identical]
    exact error (.inl ⟨_, _, rfl, hf _ _ .here, fun θ e => by simp [substTy] at e⟩)
  | .multiple ts, .single r, hf => by
    simp only [TyTuple.identical]
    exact error (.inl ⟨_, _, rfl, hf _ _ .here, fun θ e => by simp [substTy] at e⟩)
  | .multiple ts, .multiple us, hf => by
    simp only [TyTuple.identical]
    refine ite (fun h => error (.inl ⟨_, _, rfl, hf _ _ .here, fun θ e => h ?_⟩)) fun h => ?_
    · have hlen : ∀ l : List TyTuple, (substTys θ l).length = l.length := by
        intro l
        induction l with
        | nil => rfl
        | cons t l ih => simp [substTys, ih]
      simp only [substTy, TyTuple.multiple.injEq] at e
      rw [← e, hlen]
    · have hl : ts.length = us.length := by simpa using h
      exact weaken (identicals_call ts us fun i t u h1 h2 a b h3 => hf _ _ (.inside hl h1 h2 h3))
        fun _ hq => hq hl
theorem identicals_call {gens : List String} {T A : TyTuple} : (ts us : List TyTuple) →
    (∀ (i : Nat) (t u : TyTuple), ts[i]? = some t → us[i]? = some u → ∀ a b, Facing t u a b → Facing T A a b) →
    Tells (From gens T A) (CallMis T A) (Chk.inScope (TyTuple.identicals ts us))
      fun _ => ts.length = us.length → ∀ x ∈ tyVarsList ts, x ∈ gens
  | [], us, _ => by
    simp only [TyTuple.identicals]
    exact weaken scopeNil fun _ _ _ => by simp [tyVarsList]
  | t :: ts, [], _ => by
    simp only [TyTuple.identicals]
    exact weaken scopeNil fun _ _ h => by simp at h
  | t :: ts, u :: us, hf => by
    simp only [TyTuple.identicals]
    refine weaken (scopeCons (identical_call t u (hf 0 t u rfl rfl))
      (identicals_call ts us fun i t' u' h1 h2 => hf (i + 1) t' u' (by simpa using h1)
        (by simpa using h2))) ?_
    intro _ ⟨h1, h2⟩ hl x hx
    simp only [tyVarsList, List.mem_append] at hx
    rcases hx with hx | hx
    · exact h1 x hx
    · exact h2 (by simpa using hl) x hx
end

mutual
theorem substitute_some {u : TyUnifier} {gens : List String} (hu : u.Wf gens) {θ : Subst}
    (hθ : ∀ x, θ x = (u.val x).getD (.other x)) :
    (t : TyTuple) → {t' : TyTuple} → t.substitute u = some t' → t' = substTy θ t
  | .single l, t', h => by
    cases l with
    | other x =>
      cases u with
      | identity => exact hu.elim
      | null => exact hu.elim
      | mapping idx subst =>
        have hx := hθ x
        simp only [TyUnifier.val] at hx
        simp only [TyTuple.substitute, TyBase.substitute, TyUnifier.image] at h
        cases hi : idx x with
        | none =>
          simp only [hi, Option.map_some, Option.some.injEq] at h
          simp [← h, substTy, substBase, hx, hi]
        | some i =>
          simp only [hi] at h
          obtain ⟨b, hb, rfl⟩ := Option.map_eq_some_iff.1 h
          simp [substTy, substBase, hx, hi, hb]
    | _ =>
      simp only [TyTuple.substitute, TyBase.substitute, Option.map_some, Option.some.injEq] at h
      subst h; rfl
  | .multiple ts, t', h => by
    simp only [TyTuple.substitute] at h
    obtain ⟨ts', h', rfl⟩ := Option.map_eq_some_iff.1 h
    rw [substitutes_some hu hθ ts h']; rfl
theorem substitutes_some {u : TyUnifier} {gens : List String} (hu : u.Wf gens) {θ : Subst}
    (hθ : ∀ x, θ x = (u.val x).getD (.other x)) :
    (ts : List TyTuple) → {ts' : List TyTuple} → TyTuple.substitutes u ts = some ts' →
    ts' = substTys θ ts
  | [], ts', h => by simp only [TyTuple.substitutes, Option.some.injEq] at h; subst h; rfl
  | t :: ts, ts', h => by
    simp only [TyTuple.substitutes, Option.bind_eq_bind, Option.pure_def] at h
    obtain ⟨t1, h1, h⟩ := Option.bind_eq_some_iff.1 h
    obtain ⟨ts1, h2, h⟩ := Option.bind_eq_some_iff.1 h
    cases h
    rw [substitute_some hu hθ t h1, substitutes_some hu hθ ts h2]; rfl
end

/-! ## Expressions -/

/-- What the typing environment allows. -/
def Rules (Γ : TyEnv) (sig : Nat → Option Sig) : Prop :=
  (∀ id t, Γ.regs id t) ∧ ∀ id gens ins outs θ, sig id = some (gens, ins, outs) →
    Γ.call id (substTy θ (flatTuple ins)) (substTy θ (flatTuple outs))

/-- The context is that of the environment. -/
structure Ctx (Γ : TyEnv) (sig : Nat → Option Sig) (c : TyCtx) : Prop where
  global : c.global = Γ.global
  vars : c.vars = Γ.vars
  ins : ∀ id i, c.nodesIn id = some i → ∃ g o, sig id = some (g, i, o)
  outs : ∀ id o, c.nodesOut id = some o → ∃ g i, sig id = some (g, i, o)
  gens : ∀ id g, c.nodesGenerics id = some g → ∃ i o, sig id = some (g.1, i, o)

theorem getOrAbort_tells {α : Type} {I : TyCtx → Prop} {P : Diag → Prop} {f : TyCtx → Option α}
    {Q : α → Prop} (h : ∀ c, I c → ∀ x, f c = some x → Q x) : Tells I P (getOrAbort f) Q := by
  unfold getOrAbort
  refine bind get fun c hc => ?_
  cases hf : f c with
  | none => exact abort
  | some x => exact pure (h c hc x hf)

theorem isPrimitive_tells {σ : Type} {I : σ → Prop} {P : Diag → Prop} {t : TyTuple}
    (h : ∀ ts, t = .multiple ts → P (.scalarNotTuple (.multiple ts))) :
    Tells I P (t.isPrimitive : Chk Diag σ TyBase) fun b => t = .single b := by
  cases t with
  | single t => exact pure rfl
  | multiple ts => exact error (h ts rfl)

theorem isBool_tells {σ : Type} {I : σ → Prop} {P : Diag → Prop} {what : String} {t : TyBase}
    (h : t ≠ .bool → P (.boolRequired what t)) :
    Tells I P (t.isBool what : Chk Diag σ Unit) fun _ => t = .bool := by
  cases t with
  | bool => exact pure rfl
  | _ => exact error (h (by simp))

theorem binAccepts_tells {σ : Type} {I : σ → Prop} {P : Diag → Prop} {op : BinOp} {l r : TyBase}
    (h : ∀ x, Refused (binTypes op) l r x → P (.binopMismatch op x l r)) :
    Tells I P (op.accepts l r : Chk Diag σ Unit) fun _ => l = r ∧ l ∈ binTypes op := by
  unfold BinOp.accepts
  refine ite (fun hne => error (h _ hne)) fun he => ?_
  simp only [ne_eq, Decidable.not_not] at he
  subst he
  cases op <;> cases l <;>
    first
    | exact pure (by simp [binTypes])
    | exact error (h _ (by simp [Refused, binTypes]))

theorem unAccepts_tells {σ : Type} {I : σ → Prop} {P : Diag → Prop} {op : UnOp} {t : TyBase}
    (h : ∀ x, Refused (unTypes op) t t x → P (.unopMismatch op x t)) :
    Tells I P (op.accepts t : Chk Diag σ Unit) fun _ => t ∈ unTypes op := by
  unfold UnOp.accepts
  cases op <;> cases t <;>
    first
    | exact pure (by simp [unTypes])
    | exact error (h _ ⟨rfl, _, rfl⟩)
    | exact error (h _ ⟨rfl, by simp [unTypes], by intro t; simp [unTypes, or_comm]⟩)

theorem cmpAccepts_tells {σ : Type} {I : σ → Prop} {P : Diag → Prop} {op : CmpOp} {l r : TyBase}
    (h : ∀ x, Refused (cmpTypes op) l r x → P (.cmpMismatch op x l r)) :
    Tells I P (op.accepts l r : Chk Diag σ Unit) fun _ => l = r ∧ l ∈ cmpTypes op := by
  unfold CmpOp.accepts
  refine ite (fun hne => error (h _ hne)) fun he => ?_
  simp only [ne_eq, Decidable.not_not] at he
  subst he
  cases op <;> cases l <;>
    first
    | exact pure (by simp [cmpTypes])
    | exact error (h _ (by simp [Refused, cmpTypes]))

/-- The message blames something inside `e`. -/
def Blames (Γ : TyEnv) (sig : Nat → Option Sig) (e : Expr) (d : Diag) : Prop :=
  ∃ c, Inside c e ∧ TypeBlame Γ sig c d

theorem Blames.up {Γ : TyEnv} {sig : Nat → Option Sig} {c e : Expr} (h : Under c e) (d : Diag)
    (hd : Blames Γ sig c d) : Blames Γ sig e d := by
  obtain ⟨c', h1, h2⟩ := hd
  exact ⟨c', h1.tail h, h2⟩

theorem Blames.here {Γ : TyEnv} {sig : Nat → Option Sig} {e : Expr} {d : Diag}
    (h : TypeBlame Γ sig e d) : Blames Γ sig e d := ⟨e, .refl, h⟩

theorem instantiate_tells {Γ : TyEnv} {sig : Nat → Option Sig} {P : Diag → Prop} {id : Nat}
    {u : TyUnifier} : Tells (Ctx Γ sig) P (instantiate id u) fun _ => True := by
  have hset : ∀ g : List String, (∃ i o, sig id = some (g, i, o)) → ∀ ts,
      Tells (Ctx Γ sig) P (setGenerics id g ts) fun _ => True := by
    intro g hg ts
    refine modify fun c hc => ⟨hc.global, hc.vars, hc.ins, hc.outs, fun k g' h => ?_⟩
    dsimp only at h
    split at h
    · rename_i e
      subst e
      cases h
      exact hg
    · exact hc.gens k g' h
  unfold instantiate
  refine bind (getOrAbort_tells (Q := fun g => ∃ i o, sig id = some (g.1, i, o))
    fun c hc x hx => hc.gens id x hx) fun g hg => ?_
  cases u with
  | mapping idx subst =>
    dsimp only
    cases allSome subst with
    | none => exact abort
    | some ts => exact hset g.1 hg ts
  | _ => exact hset g.1 hg _

theorem match_tells {σ : Type} {I : σ → Prop} {gens : List String} {u : TyUnifier}
    (hu : u.Wf gens) (hn : ∀ x, u.val x = none) (t r : TyTuple) :
    Tells I (CallMis t r) (San.Chk.local_ u (t.identical r) : Chk Diag σ (Unit × TyUnifier))
      fun p => p.2.Wf gens ∧ ∀ θ, p.2.Below θ → substTy θ t = r := by
  have hi : From gens t r u := ⟨hu, fun x v hx => by rw [hn] at hx; cases hx⟩
  have h := identical_call (gens := gens) (T := t) (A := r) t r fun _ _ h => h
  intro a s hs
  obtain ⟨h1, h2, -⟩ := local_ (I := I) hi h a s hs
  refine ⟨h1, h2, ?_⟩
  rintro ⟨⟨⟩, u'⟩ hx
  rcases hr : San.Chk.local_ u (t.identical r) (a, s) with ⟨r', s'⟩
  rw [hr] at hx
  simp only at hx
  subst hx
  obtain ⟨a', h3, -⟩ := local_some.1 hr
  have h4 := (h a u hi).2.2 () (by rw [h3])
  obtain ⟨u'', e, hm⟩ := identical_matches _ hu h4 h3
  cases e
  exact ⟨hm.wf, hm.sound⟩

theorem callType_tells {Γ : TyEnv} {sig : Nat → Option Sig} (hΓ : Rules Γ sig) {d id : Nat}
    {gens : List String} {ins outs : List TyBase} {a : Expr} {t : TyTuple}
    (hs : sig id = some (gens, ins, outs)) (ht : HasType Γ a t) :
    Tells (Ctx Γ sig) (Blames Γ sig (.substep d id a)) (callType id gens ins t)
      fun t => HasType Γ (.substep d id a) t := by
  unfold callType
  cases hu : TyUnifier.fromGenerics gens with
  | none => exact abort
  | some u =>
    obtain ⟨hwf, hn⟩ := fromGenerics_wf hu
    dsimp only
    refine bind (because (match_tells hwf hn (asFlatTyTuple ins) t) ?_) fun p hp => ?_
    · rw [flat_eq]
      rintro e (⟨t', u', rfl, h1, h2⟩ | ⟨x, v, w, rfl, h1, h2, h3⟩)
      · exact .here (.call hs ht h1 h2)
      · exact .here (.generic hs ht h1 h2 h3)
    · obtain ⟨⟨⟩, u'⟩ := p
      refine bind instantiate_tells fun _ _ => ?_
      refine bind (getOrAbort_tells (Q := fun o => o = outs) fun c hc o ho => ?_) fun o ho => ?_
      · obtain ⟨g, i, h⟩ := hc.outs id o ho
        rw [hs] at h
        cases h
        rfl
      · subst ho
        cases h : (asFlatTyTuple o).substitute u' with
        | none => exact abort
        | some t' =>
          refine pure ?_
          let θ : Subst := fun x => (u'.val x).getD (.other x)
          have h1 := hp.2 θ fun x v hx => by simp only at hx; simp [θ, hx]
          have h2 := substitute_some hp.1 (θ := θ) (fun _ => rfl) _ h
          rw [flat_eq] at h1 h2
          subst h1 h2
          exact .substep ht (hΓ.2 id gens ins o θ hs)

mutual
theorem expr_tells {Γ : TyEnv} {sig : Nat → Option Sig} (hΓ : Rules Γ sig) : (e : Expr) →
    Tells (Ctx Γ sig) (Blames Γ sig e) e.typecheck fun t => HasType Γ e t
  | .lit l => by
    cases l <;> simp only [Expr.typecheck]
    all_goals exact pure .lit
  | .global x => by
    simp only [Expr.typecheck, getGlobal]
    refine bind get fun c hc => ?_
    cases h : c.global x with
    | none => exact error (.here (.global (hc.global ▸ h)))
    | some t => exact pure (.global (hc.global ▸ h))
  | .var x d => by
    simp only [Expr.typecheck, getVar]
    refine bind get fun c hc => ?_
    cases h : c.vars x with
    | none => exact error (.here (.var (hc.vars ▸ h)))
    | some t => exact pure (.var (hc.vars ▸ h))
  | .dummyPre e => by
    simp only [Expr.typecheck]
    exact weaken (because (expr_tells hΓ e) (.up (.operand .dummyPre))) fun t h => .dummyPre h
  | .dummyParen e => by
    simp only [Expr.typecheck]
    exact weaken (because (expr_tells hΓ e) (.up (.operand .dummyParen))) fun t h => .dummyParen h
  | .tuple es => by
    simp only [Expr.typecheck]
    refine bind (because (exprs_tells hΓ es) ?_) fun ts h => pure (.tuple h)
    rintro d ⟨c, hc, h⟩
    exact h.up (.operand (.tuple hc))
  | .bin op l r => by
    simp only [Expr.typecheck]
    refine bind (both
      (bind (because (expr_tells hΓ l) (.up (.operand .binL))) fun t h => weaken
        (isPrimitive_tells (P := Blames Γ sig (.bin op l r)) fun ts e => .here (.scalar .binL (e ▸ h)))
        fun b e => show HasType Γ l (.single b) from e ▸ h)
      (bind (because (expr_tells hΓ r) (.up (.operand .binR))) fun t h => weaken
        (isPrimitive_tells fun ts e => .here (.scalar .binR (e ▸ h)))
        fun b e => show HasType Γ r (.single b) from e ▸ h)) fun p hp => ?_
    obtain ⟨t, u⟩ := p
    exact bind (binAccepts_tells fun x hx => .here (.bin hp.1 hp.2 hx)) fun _ h =>
      pure (.bin hp.1 (h.1 ▸ hp.2) h.2)
  | .cmp op l r => by
    simp only [Expr.typecheck]
    refine bind (both
      (bind (because (expr_tells hΓ l) (.up (.operand .cmpL))) fun t h => weaken
        (isPrimitive_tells (P := Blames Γ sig (.cmp op l r)) fun ts e => .here (.scalar .cmpL (e ▸ h)))
        fun b e => show HasType Γ l (.single b) from e ▸ h)
      (bind (because (expr_tells hΓ r) (.up (.operand .cmpR))) fun t h => weaken
        (isPrimitive_tells fun ts e => .here (.scalar .cmpR (e ▸ h)))
        fun b e => show HasType Γ r (.single b) from e ▸ h)) fun p hp => ?_
    obtain ⟨t, u⟩ := p
    exact bind (cmpAccepts_tells fun x hx => .here (.cmp hp.1 hp.2 hx)) fun _ h =>
      pure (.cmp hp.1 (h.1 ▸ hp.2) h.2)
  | .un op e => by
    simp only [Expr.typecheck]
    refine bind (because (expr_tells hΓ e) (.up (.operand .un))) fun t h => ?_
    refine bind (isPrimitive_tells fun ts e => .here (.scalar .un (e ▸ h))) fun b hb => ?_
    subst hb
    exact bind (unAccepts_tells fun x hx => .here (.un h hx)) fun _ h' => pure (.un h h')
  | .later d b a => by
    simp only [Expr.typecheck]
    refine bind (both (because (expr_tells hΓ b) (.up (.operand .laterBefore)))
      (because (expr_tells hΓ a) (.up (.operand .laterAfter)))) fun p hp => ?_
    obtain ⟨t, u⟩ := p
    refine bind (because (sameType_tells t u) ?_) fun _ h => pure (.later hp.1 (h ▸ hp.2))
    rintro d ⟨t', u', rfl, h1, h2⟩
    exact .here (.sides .later hp.1 hp.2 h1 h2)
  | .flip id i a => by
    simp only [Expr.typecheck]
    refine bind (both (because (expr_tells hΓ i) (.up (.operand .flipInitial)))
      (because (expr_tells hΓ a) (.up (.operand .flipContinued)))) fun p hp => ?_
    obtain ⟨t, u⟩ := p
    refine bind (because (sameType_tells t u) ?_) fun _ h => pure (.flip hp.1 (h ▸ hp.2))
    rintro d ⟨t', u', rfl, h1, h2⟩
    exact .here (.sides .flip hp.1 hp.2 h1 h2)
  | .ifx c y n => by
    simp only [Expr.typecheck]
    refine bind (opt (bind (because (expr_tells hΓ c) (.up (.operand .ifCond))) fun t h => weaken
        (isPrimitive_tells (P := Blames Γ sig (.ifx c y n)) fun ts e => .here (.scalar .cond (e ▸ h)))
        fun b e => show HasType Γ c (.single b) from e ▸ h)) fun oc hc => ?_
    refine bind (opt (because (expr_tells hΓ y) (.up (.operand .ifYes)))) fun oy hy => ?_
    refine bind (opt (because (expr_tells hΓ n) (.up (.operand .ifNo)))) fun on hn => ?_
    refine bind (ofOption hc) fun b hb => ?_
    refine bind (isBool_tells fun h => .here (.bool .cond hb h)) fun _ h1 => ?_
    subst h1
    refine bind (ofOption hy) fun t ht => ?_
    refine bind (ofOption hn) fun u hu => ?_
    refine bind (because (sameType_tells t u) ?_) fun _ h => pure (.ifx hb ht (h ▸ hu))
    rintro d ⟨t', u', rfl, h1, h2⟩
    exact .here (.sides .ifx ht hu h1 h2)
  | .substep d id a => by
    have h : (Expr.substep d id a).typecheck = (do
      let expected ← getOrAbort (·.nodesIn id)
      let gens ← getOrAbort (·.nodesGenerics id)
      let actual ← a.typecheck
      callType id gens.1 expected actual : Chk Diag TyCtx TyTuple) :=
      funext fun s => substep_typecheck d id a s
    rw [h]
    refine bind (getOrAbort_tells (Q := fun i => ∃ g o, sig id = some (g, i, o))
      fun c hc x hx => hc.ins id x hx) fun ins hi => ?_
    refine bind (getOrAbort_tells (Q := fun g => ∃ i o, sig id = some (g.1, i, o))
      fun c hc x hx => hc.gens id x hx) fun gens hg => ?_
    refine bind (because (expr_tells hΓ a) (.up (.operand .arg))) fun t ht => ?_
    obtain ⟨g, o, hs⟩ := hi
    obtain ⟨i, o', hs'⟩ := hg
    rw [hs] at hs'
    cases hs'
    exact callType_tells hΓ hs ht
  | .clock op e a => by
    simp only [Expr.typecheck]
    refine bind (opt (bind (because (expr_tells hΓ a) (.up (.operand .clockGuard))) fun t h => weaken
        (isPrimitive_tells (P := Blames Γ sig (.clock op e a)) fun ts e => .here (.scalar .guard (e ▸ h)))
        fun b e => show HasType Γ a (.single b) from e ▸ h)) fun oa ha => ?_
    refine bind (because (expr_tells hΓ e) (.up (.operand .clockInner))) fun t ht => ?_
    refine bind (ofOption ha) fun b hb => ?_
    refine bind (isBool_tells fun h => .here (.bool .guard hb h)) fun _ h1 => ?_
    subst h1
    exact pure (.clock ht hb)
  | .merge c y n => by
    simp only [Expr.typecheck]
    refine bind (because (expr_tells hΓ c) (.up (.operand .mergeSwitch))) fun t hc => ?_
    refine bind (because (expr_tells hΓ y) (.up (.operand .mergeOn))) fun ty hy => ?_
    refine bind (because (expr_tells hΓ n) (.up (.operand .mergeOff))) fun tn hn => ?_
    refine bind (isPrimitive_tells fun ts e => .here (.scalar .switch (e ▸ hc))) fun b hb => ?_
    subst hb
    refine bind (isBool_tells fun h => .here (.bool .switch hc h)) fun _ h1 => ?_
    subst h1
    refine bind (because (sameType_tells ty tn) ?_) fun _ h => pure (.merge hc hy (h ▸ hn))
    rintro d ⟨t', u', rfl, h1, h2⟩
    exact .here (.sides .merge hy hn h1 h2)
  | .fetchPre id f => by
    simp only [Expr.typecheck]
    refine bind (because (expr_tells hΓ f) (.up .pre)) fun t ht => ?_
    exact bind (modify fun c hc => ⟨hc.global, hc.vars, hc.ins, hc.outs, hc.gens⟩) fun _ _ =>
      pure (.fetchPre ht (hΓ.1 id t))
  | .fetchFby id i f => by
    simp only [Expr.typecheck]
    refine bind (because (expr_tells hΓ f) (.up .fbyNext)) fun t ht => ?_
    refine bind (because (expr_tells hΓ i) (.up .fbyInit)) fun u hu => ?_
    refine bind (because (sameType_tells t u) ?_) fun _ h => ?_
    · rintro d ⟨t', u', rfl, h1, h2⟩
      exact .here (.sides .fby ht hu h1 h2)
    · subst h
      exact bind (modify fun c hc => ⟨hc.global, hc.vars, hc.ins, hc.outs, hc.gens⟩) fun _ _ =>
        pure (.fetchFby hu ht (hΓ.1 id t))
theorem exprs_tells {Γ : TyEnv} {sig : Nat → Option Sig} (hΓ : Rules Γ sig) : (es : List Expr) →
    Tells (Ctx Γ sig) (fun d => ∃ c ∈ es, Blames Γ sig c d) (Expr.typecheckList es)
      fun ts => HasTypes Γ es ts
  | [] => by simp only [Expr.typecheckList]; exact pure .nil
  | e :: es => by
    simp only [Expr.typecheckList]
    refine bind (because (expr_tells hΓ e) fun d hd => ⟨e, by simp, hd⟩) fun t ht => ?_
    refine bind (because (exprs_tells hΓ es) ?_) fun ts hts => pure (.cons ht hts)
    rintro d ⟨c, hc, h⟩
    exact ⟨c, by simp [hc], h⟩
end

end Chandeliers.Tell
