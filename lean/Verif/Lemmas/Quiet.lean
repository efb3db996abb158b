import Verif.Lemmas.NodeTyping
import Verif.Lemmas.Clockcheck

/-!
# Checks that do not abort
-/

set_option autoImplicit false

namespace Chandeliers.Quiet
open Chandeliers.San Chandeliers.Spec Chandeliers.Err Chandeliers.Err.Chk

/-- From states with `P` the computation does not abort, ends in a state with `P`, and its result
has `Q`. -/
def Quiet {E σ α : Type} (P : σ → Prop) (m : Chk E σ α) (Q : α → Prop) : Prop :=
  ∀ a s, P s → (m (a, s)).1 ≠ .abort ∧ P (m (a, s)).2.2 ∧ ∀ x, (m (a, s)).1 = .some x → Q x

section
variable {E σ α β : Type} {P : σ → Prop}

theorem pure {x : α} {Q : α → Prop} (h : Q x) : Quiet P (Pure.pure x : Chk E σ α) Q :=
  fun a s hs => ⟨by simp, hs, fun y hy => by simp at hy; subst hy; exact h⟩

theorem unit {x : α} : Quiet P (Pure.pure x : Chk E σ α) (fun _ => True) := pure trivial

theorem error (e : E) {Q : α → Prop} : Quiet P (Chk.error e : Chk E σ α) Q :=
  fun a s hs => ⟨by simp [Chk.error], hs, fun y hy => by simp [Chk.error] at hy⟩

theorem weaken {m : Chk E σ α} {Q R : α → Prop} (h : Quiet P m Q) (hq : ∀ x, Q x → R x) :
    Quiet P m R :=
  fun a s hs => ⟨(h a s hs).1, (h a s hs).2.1, fun x hx => hq x ((h a s hs).2.2 x hx)⟩

theorem any {m : Chk E σ α} {Q : α → Prop} (h : Quiet P m Q) : Quiet P m (fun _ => True) :=
  weaken h fun _ _ => trivial

theorem bind {m : Chk E σ α} {f : α → Chk E σ β} {Q : α → Prop} {R : β → Prop} (hm : Quiet P m Q)
    (hf : ∀ x, Q x → Quiet P (f x) R) : Quiet P (m >>= f) R := by
  intro a s hs
  obtain ⟨h1, h2, h3⟩ := hm a s hs
  rw [run_bind]
  rcases hr : m (a, s) with ⟨r, a', s'⟩
  rw [hr] at h1 h2 h3
  cases r with
  | some x => exact hf x (h3 x rfl) a' s' h2
  | none => exact ⟨by simp, h2, fun y hy => by simp at hy⟩
  | abort => exact absurd rfl h1

theorem opt {m : Chk E σ α} {Q : α → Prop} (hm : Quiet P m Q) :
    Quiet P (Chk.opt m) (fun o => ∀ x, o = some x → Q x) := by
  intro a s hs
  obtain ⟨h1, h2, h3⟩ := hm a s hs
  unfold Chk.opt
  rcases hr : m (a, s) with ⟨r, a', s'⟩
  rw [hr] at h1 h2 h3
  cases r with
  | some x =>
    refine ⟨by simp, h2, fun y hy z hz => ?_⟩
    simp at hy
    subst hy
    cases hz
    exact h3 _ rfl
  | none =>
    refine ⟨by simp, h2, fun y hy z hz => ?_⟩
    simp at hy
    subst hy
    cases hz
  | abort => exact absurd rfl h1

theorem ofOption {o : Option α} {Q : α → Prop} (h : ∀ x, o = some x → Q x) :
    Quiet P (Chk.ofOption o : Chk E σ α) Q := by
  cases o with
  | none => exact fun a s hs => ⟨by simp [Chk.ofOption], hs, fun y hy => by simp [Chk.ofOption] at hy⟩
  | some x => exact pure (h x rfl)

theorem both {m : Chk E σ α} {n : Chk E σ β} {Q : α → Prop} {R : β → Prop} (hm : Quiet P m Q)
    (hn : Quiet P n R) : Quiet P (Chk.both m n) (fun p => Q p.1 ∧ R p.2) := by
  unfold Chk.both
  exact bind (opt hm) fun _ h1 => bind (opt hn) fun _ h2 => bind (ofOption h1) fun _ h3 =>
    bind (ofOption h2) fun _ h4 => pure ⟨h3, h4⟩

theorem get : Quiet P (Chk.get : Chk E σ σ) P :=
  fun _ _ hs => ⟨by simp [Chk.get], hs, fun y hy => by simp [Chk.get] at hy; subst hy; exact hs⟩

theorem modify {f : σ → σ} (h : ∀ s, P s → P (f s)) :
    Quiet P (Chk.modify f : Chk E σ Unit) (fun _ => True) :=
  fun _ s hs => ⟨by simp [Chk.modify], h s hs, fun _ _ => trivial⟩

theorem inScope : (ms : List (Chk E σ Unit)) → (∀ m ∈ ms, Quiet P m fun _ => True) →
    Quiet P (Chk.inScope ms) fun _ => True
  | [], _ => by
    intro a s hs
    rw [inScope_run]; exact ⟨by simp [scopeLoop], by simpa [scopeLoop] using hs, fun _ _ => trivial⟩
  | m :: ms, h => by
    intro a u hu
    rw [inScope_cons]
    have hm := h m (by simp) a u hu
    have hms := inScope ms fun m hm => h m (by simp [hm])
    rcases h1 : m (a, u) with ⟨r, a1, u1⟩
    rw [h1] at hm
    have hms1 := hms a1 u1 hm.2.1
    cases r with
    | some _ => exact hms1
    | abort => exact absurd rfl hm.1
    | none =>
      simp only
      rcases h2 : Chk.inScope ms (a1, u1) with ⟨r2, a2, u2⟩
      rw [h2] at hms1
      cases r2 with
      | abort => exact absurd rfl hms1.1
      | _ => exact ⟨by simp, hms1.2.1, fun _ _ => trivial⟩

end

theorem local_ {σ τ α : Type} {P : σ → Prop} {P' : τ → Prop} {init : τ} {m : Chk Diag τ α}
    {Q : α → Prop} (hi : P' init) (hm : Quiet P' m Q) :
    Quiet P (San.Chk.local_ init m : Chk Diag σ (α × τ)) (fun p => Q p.1 ∧ P' p.2) := by
  intro a s hs
  obtain ⟨h1, h2, h3⟩ := hm a init hi
  rw [local_run]
  rcases hr : m (a, init) with ⟨r, a', t⟩
  rw [hr] at h1 h2 h3
  cases r with
  | some x =>
    refine ⟨by simp, hs, fun y hy => ?_⟩
    simp at hy
    subst hy
    exact ⟨h3 x rfl, h2⟩
  | none => exact ⟨by simp, hs, fun y hy => by simp at hy⟩
  | abort => exact absurd rfl h1

/-! ## Types -/

theorem calm {P : TyUnifier → Prop} {m : Chk Diag TyUnifier Unit} (h : Calm P m) :
    Quiet P m fun _ => True := fun a s hs => ⟨(h a s hs).1, (h a s hs).2, fun _ _ => trivial⟩

theorem identical_plain {t r : TyTuple} : Quiet TyUnifier.Plain (t.identical r) fun _ => True :=
  calm (identical_calm (gens := tyVars t) (fun l r _ => requireIdentical_calm_plain l r) t r
    fun _ h => h)

theorem sameType {P : TyCtx → Prop} (t u : TyTuple) : Quiet P (San.sameType t u) fun _ => True := by
  unfold San.sameType
  exact bind (local_ (P' := TyUnifier.Plain) trivial identical_plain) fun _ _ => unit

section
variable {σ : Type} {P : σ → Prop}

theorem isPrimitive (t : TyTuple) : Quiet P (t.isPrimitive : Chk Diag σ TyBase) fun _ => True := by
  cases t with
  | single t => exact unit
  | multiple ts => exact error _

theorem isBool (w : String) (t : TyBase) : Quiet P (t.isBool w : Chk Diag σ Unit) fun _ => True := by
  cases t <;> first | exact unit | exact error _

theorem binAccepts (op : BinOp) (l r : TyBase) :
    Quiet P (op.accepts l r : Chk Diag σ Unit) fun _ => True := by
  unfold BinOp.accepts
  split
  · exact error _
  · cases op <;> cases l <;> first | exact unit | exact error _

theorem unAccepts (op : UnOp) (l : TyBase) :
    Quiet P (op.accepts l : Chk Diag σ Unit) fun _ => True := by
  unfold UnOp.accepts
  cases op <;> cases l <;> first | exact unit | exact error _

theorem cmpAccepts (op : CmpOp) (l r : TyBase) :
    Quiet P (op.accepts l r : Chk Diag σ Unit) fun _ => True := by
  unfold CmpOp.accepts
  split
  · exact error _
  · cases op <;> cases l <;> first | exact unit | exact error _

end

theorem getVar {P : TyCtx → Prop} (x : String) : Quiet P (San.getVar x) fun _ => True := by
  unfold San.getVar
  refine bind get fun c _ => ?_
  cases c.vars x with
  | none => exact error _
  | some t => exact unit

theorem getGlobal {P : TyCtx → Prop} (x : String) : Quiet P (San.getGlobal x) fun _ => True := by
  unfold San.getGlobal
  refine bind get fun c _ => ?_
  cases c.global x with
  | none => exact error _
  | some t => exact unit

theorem getOrAbort {α : Type} {P : TyCtx → Prop} {f : TyCtx → Option α} {Q : α → Prop}
    (h : ∀ c, P c → ∃ x, f c = some x ∧ Q x) : Quiet P (San.getOrAbort f) Q := by
  unfold San.getOrAbort
  refine bind get fun c hc => ?_
  obtain ⟨x, h1, h2⟩ := h c hc
  rw [h1]
  exact pure h2

/-- The first blocks have these signatures. -/
def Blocks (S : Nat → Sig) (N : Nat) (c : TyCtx) : Prop :=
  ∀ id < N, c.nodesIn id = some (S id).2.1 ∧ c.nodesOut id = some (S id).2.2 ∧
    ∃ o, c.nodesGenerics id = some ((S id).1, o)

theorem callType_quiet {S : Nat → Sig} {N : Nat} {id : Nat} (hid : id < N) (hw : (S id).Wf)
    (actual : TyTuple) :
    Quiet (Blocks S N) (callType id (S id).1 (S id).2.1 actual) fun _ => True := by
  intro a c hc
  obtain ⟨h1, h2, o, h3⟩ := hc id hid
  by_cases hθ : ∃ θ, substTy θ (flatTuple (S id).2.1) = actual
  · obtain ⟨θ, hθ⟩ := hθ
    have := (callType_some (a := a) h3 h2 hw).2 ⟨θ, hθ, rfl, rfl⟩
    rw [this]
    refine ⟨by simp, fun i hi => ?_, fun _ _ => trivial⟩
    obtain ⟨k1, k2, o', k3⟩ := hc i hi
    refine ⟨k1, k2, ?_⟩
    simp only [TyCtx.inst]
    by_cases e : i = id
    · subst e; exact ⟨some ((S i).1.map θ), by simp⟩
    · exact ⟨o', by simp [e, k3]⟩
  · obtain ⟨u, hu⟩ := fromGenerics_ok hw.1
    obtain ⟨hwf, hnone⟩ := fromGenerics_wf hu
    have hvars : ∀ x ∈ tyVars (asFlatTyTuple (S id).2.1), x ∈ (S id).1 := fun x hx => by
      rw [flat_eq] at hx; exact (hw.2.1 x).1 hx
    have hq := identical_calm (fun l r h => requireIdentical_calm h r) (asFlatTyTuple (S id).2.1)
      actual hvars a u hwf
    unfold callType
    rw [hu]
    simp only
    rw [run_bind, local_run]
    rcases hr : (asFlatTyTuple (S id).2.1).identical actual (a, u) with ⟨r, a', u'⟩
    rw [hr] at hq
    cases r with
    | some x =>
      exfalso
      obtain ⟨u'', e, hm⟩ := identical_matches _ hwf hvars hr
      cases e
      refine hθ ⟨fun x => (u'.val x).getD (.other x), ?_⟩
      rw [← flat_eq]
      exact hm.sound _ fun x v hx => by simp [hx]
    | none => exact ⟨by simp, hc, fun y hy => by simp at hy⟩
    | abort => exact absurd rfl hq.1

mutual
theorem typecheck {S : Nat → Sig} {N : Nat} (hS : ∀ id < N, (S id).Wf) :
    (e : Expr) → (∀ id, .sub id ∈ slots e → id < N) →
    Quiet (Blocks S N) e.typecheck fun _ => True
  | .lit l, _ => by cases l <;> simp only [Expr.typecheck] <;> exact unit
  | .global x, _ => by simp only [Expr.typecheck]; exact getGlobal x
  | .var x d, _ => by simp only [Expr.typecheck]; exact getVar x
  | .dummyPre e, h => by simp only [Expr.typecheck]; exact typecheck hS e h
  | .dummyParen e, h => by simp only [Expr.typecheck]; exact typecheck hS e h
  | .tuple es, h => by
    simp only [Expr.typecheck]; exact bind (typecheckList hS es h) fun _ _ => unit
  | .bin op l r, h => by
    simp only [Expr.typecheck]
    have h1 := typecheck hS l fun id hi => h id (by simp [slots, hi])
    have h2 := typecheck hS r fun id hi => h id (by simp [slots, hi])
    exact bind (both (bind h1 fun t _ => isPrimitive t) (bind h2 fun t _ => isPrimitive t))
      fun _ _ => bind (binAccepts op _ _) fun _ _ => unit
  | .un op e, h => by
    simp only [Expr.typecheck]
    exact bind (typecheck hS e h) fun t _ => bind (isPrimitive t) fun t _ =>
      bind (unAccepts op t) fun _ _ => unit
  | .cmp op l r, h => by
    simp only [Expr.typecheck]
    have h1 := typecheck hS l fun id hi => h id (by simp [slots, hi])
    have h2 := typecheck hS r fun id hi => h id (by simp [slots, hi])
    exact bind (both (bind h1 fun t _ => isPrimitive t) (bind h2 fun t _ => isPrimitive t))
      fun _ _ => bind (cmpAccepts op _ _) fun _ _ => unit
  | .later _ l r, h => by
    simp only [Expr.typecheck]
    have h1 := typecheck hS l fun id hi => h id (by simp [slots, hi])
    have h2 := typecheck hS r fun id hi => h id (by simp [slots, hi])
    exact bind (both h1 h2) fun _ _ => bind (sameType _ _) fun _ _ => unit
  | .flip _ l r, h => by
    simp only [Expr.typecheck]
    have h1 := typecheck hS l fun id hi => h id (by simp [slots, hi])
    have h2 := typecheck hS r fun id hi => h id (by simp [slots, hi])
    exact bind (both h1 h2) fun _ _ => bind (sameType _ _) fun _ _ => unit
  | .ifx b y n, h => by
    simp only [Expr.typecheck]
    have h1 := typecheck hS b fun id hi => h id (by simp [slots, hi])
    have h2 := typecheck hS y fun id hi => h id (by simp [slots, hi])
    have h3 := typecheck hS n fun id hi => h id (by simp [slots, hi])
    exact bind (opt (bind h1 fun t _ => isPrimitive t)) fun _ k1 => bind (opt h2) fun _ k2 =>
      bind (opt h3) fun _ k3 => bind (ofOption k1) fun c _ => bind (isBool _ c) fun _ _ =>
      bind (ofOption k2) fun _ _ => bind (ofOption k3) fun _ _ => bind (sameType _ _) fun _ _ => unit
  | .substep d id e, h => by
    have hid := h id (by simp [slots])
    have h1 := typecheck hS e fun id hi => h id (by simp [slots, hi])
    intro a s hs
    rw [substep_typecheck]
    refine (bind (Q := fun x => x = (S id).2.1) (getOrAbort fun c hc => ⟨_, (hc id hid).1, rfl⟩)
      fun x hx => bind (Q := fun x => x.1 = (S id).1) (getOrAbort fun c hc => ?_) fun y hy =>
      bind h1 fun t _ => ?_) a s hs
    · obtain ⟨o, ho⟩ := (hc id hid).2.2
      exact ⟨_, ho, rfl⟩
    · rw [hx, hy]
      exact callType_quiet hid (hS id hid) t
  | .clock _ e b, h => by
    simp only [Expr.typecheck]
    have h1 := typecheck hS e fun id hi => h id (by simp [slots, hi])
    have h2 := typecheck hS b fun id hi => h id (by simp [slots, hi])
    exact bind (opt (bind h2 fun t _ => isPrimitive t)) fun _ k1 => bind h1 fun _ _ =>
      bind (ofOption k1) fun c _ => bind (isBool _ c) fun _ _ => unit
  | .merge b y n, h => by
    simp only [Expr.typecheck]
    have h1 := typecheck hS b fun id hi => h id (by simp [slots, hi])
    have h2 := typecheck hS y fun id hi => h id (by simp [slots, hi])
    have h3 := typecheck hS n fun id hi => h id (by simp [slots, hi])
    exact bind h1 fun s _ => bind h2 fun _ _ => bind h3 fun _ _ => bind (isPrimitive s) fun c _ =>
      bind (isBool _ c) fun _ _ => bind (sameType _ _) fun _ _ => unit
  | .fetchPre id e, h => by
    simp only [Expr.typecheck]
    have h1 := typecheck hS e fun id hi => h id (by simp [slots, hi])
    exact bind h1 fun _ _ => bind (modify fun _ hs => hs) fun _ _ => unit
  | .fetchFby id i e, h => by
    simp only [Expr.typecheck]
    have h1 := typecheck hS i fun id hi => h id (by simp [slots, hi])
    have h2 := typecheck hS e fun id hi => h id (by simp [slots, hi])
    exact bind h2 fun _ _ => bind h1 fun _ _ => bind (sameType _ _) fun _ _ =>
      bind (modify fun _ hs => hs) fun _ _ => unit
theorem typecheckList {S : Nat → Sig} {N : Nat} (hS : ∀ id < N, (S id).Wf) :
    (es : List Expr) → (∀ id, .sub id ∈ slotsList es → id < N) →
    Quiet (Blocks S N) (Expr.typecheckList es) fun _ => True
  | [], _ => by simp only [Expr.typecheckList]; exact unit
  | e :: es, h => by
    simp only [Expr.typecheckList]
    have h1 := typecheck hS e fun id hi => h id (by simp [slotsList, hi])
    have h2 := typecheckList hS es fun id hi => h id (by simp [slotsList, hi])
    exact bind h1 fun _ _ => bind h2 fun _ _ => unit
end

mutual
theorem target {P : TyCtx → Prop} : (v : VarTuple) → Quiet P v.typecheck fun _ => True
  | .single x => by simp only [VarTuple.typecheck]; exact getVar x
  | .multiple vs => by
    simp only [VarTuple.typecheck]; exact bind (targets vs) fun _ _ => unit
theorem targets {P : TyCtx → Prop} : (vs : List VarTuple) →
    Quiet P (VarTuple.typecheckList vs) fun _ => True
  | [] => by simp only [VarTuple.typecheckList]; exact unit
  | v :: vs => by
    simp only [VarTuple.typecheckList]
    exact bind (target v) fun _ _ => bind (targets vs) fun _ _ => unit
end

theorem stmt {S : Nat → Sig} {N : Nat} (hS : ∀ id < N, (S id).Wf) (st : Stmt)
    (h : ∀ id, .sub id ∈ slotsOf [st] → id < N) : Quiet (Blocks S N) st.typecheck fun _ => True := by
  cases st with
  | let_ v e =>
    have h1 := typecheck hS e fun id hi => h id (by simp [slotsOf, hi])
    exact bind (both (target v) h1) fun _ _ => sameType _ _
  | assert e =>
    have h1 := typecheck hS e fun id hi => h id (by simp [slotsOf, hi])
    exact bind h1 fun t _ => bind (isPrimitive t) fun t _ => isBool _ t
  | updateRegister i e => exact unit
  | initRegister i e c => exact unit

theorem clockTy {P : TyCtx → Prop} (k : Clock) : Quiet P k.typecheck fun _ => True := by
  cases k with
  | implicit => exact unit
  | adaptative => exact unit
  | explicit b x =>
    unfold Clock.typecheck
    refine bind get fun c _ => ?_
    cases c.vars x with
    | none => exact error _
    | some t => exact isBool _ t

theorem declareVars (vs : List TyVar) :
    Quiet (fun _ : TyCtx => True) (Chk.inScope (vs.flatMap declareVar)) fun _ => True := by
  refine inScope _ fun m hm => ?_
  obtain ⟨v, -, hm⟩ := List.mem_flatMap.1 hm
  simp only [declareVar, List.mem_cons, List.not_mem_nil, or_false] at hm
  rcases hm with rfl | rfl | rfl
  · refine bind get fun c _ => ?_
    cases c.vars v.name with
    | none => exact unit
    | some t => exact error _
  · exact clockTy _
  · exact modify fun _ _ => trivial

section
variable {σ : Type} {P : σ → Prop}

theorem checkDeclared (g : List String) : (vs : List TyVar) →
    Quiet P (San.checkDeclared g vs : Chk Diag σ Unit) fun _ => True
  | [] => unit
  | v :: vs => by
    unfold San.checkDeclared
    dsimp only
    split
    · split
      · exact checkDeclared g vs
      · exact bind (Q := fun _ => True) (error _) fun _ _ => checkDeclared g vs
    · exact checkDeclared g vs

theorem checkUsed (vs : List TyVar) : (g : List String) →
    Quiet P (San.checkUsed vs g : Chk Diag σ Unit) fun _ => True
  | [] => unit
  | x :: g => by
    unfold San.checkUsed
    dsimp only
    split
    · exact checkUsed vs g
    · exact bind (Q := fun _ => True) (error _) fun _ _ => checkUsed vs g

theorem checkSignature (b : Bool) (g : List String) (i o l : List TyVar) :
    Quiet P (San.checkSignature b g i o l : Chk Diag σ Unit) fun _ => True := by
  unfold San.checkSignature
  have h : Quiet P (do San.checkDeclared g i; San.checkDeclared g (o ++ l); San.checkUsed i g :
      Chk Diag σ Unit) fun _ => True :=
    bind (checkDeclared g i) fun _ _ => bind (checkDeclared g _) fun _ _ => checkUsed i g
  dsimp only
  split
  · exact bind (Q := fun _ => True) (error _) fun _ _ => h
  · exact h

end

/-- Declaring the blocks: if it succeeds, all the signatures are known. -/
theorem declareBlocks {sigs : String → Option Sig} {a : EAccum Diag} : (bs pre : List NodeInstance) →
    (c : TyCtx) →
    (San.declareBlocks sigs pre.length bs (a, c.withBlocks sigs pre)).1 ≠ .abort
  | [], pre, c => by simp [San.declareBlocks]
  | b :: bs, pre, c => by
    have ih := declareBlocks (sigs := sigs) (a := a) bs (pre ++ [b]) c
    unfold San.declareBlocks
    cases hb : sigs b.name with
    | none => simp [Chk.error]
    | some s =>
      obtain ⟨g, i, o⟩ := s
      have hc : (Chk.modify (E := Diag) fun c : TyCtx =>
          { c with
              nodesIn := fun k => if k = pre.length then some i else c.nodesIn k
              nodesOut := fun k => if k = pre.length then some o else c.nodesOut k
              nodesGenerics := fun k =>
                if k = pre.length then some (g, none) else c.nodesGenerics k })
          (a, c.withBlocks sigs pre) = (.some (), (a, c.withBlocks sigs (pre ++ [b]))) := by
        simp only [Chk.modify, TyCtx.withBlocks, Prod.mk.injEq, true_and]
        congr 1 <;> funext k <;> rw [blockSig_snoc] <;> split <;> simp [hb]
      dsimp only
      rw [run_bind, hc]
      dsimp only
      rw [List.length_append] at ih
      exact ih

theorem local_init {σ τ α : Type} {P : σ → Prop} {init : τ} {m : Chk Diag τ α}
    (hm : ∀ a, (m (a, init)).1 ≠ .abort) :
    Quiet P (San.Chk.local_ init m : Chk Diag σ (α × τ)) (fun _ => True) := by
  intro a s hs
  have h1 := hm a
  rw [local_run]
  rcases hr : m (a, init) with ⟨r, a', t⟩
  rw [hr] at h1
  cases r with
  | some x => exact ⟨by simp, hs, fun _ _ => trivial⟩
  | none => exact ⟨by simp, hs, fun _ _ => trivial⟩
  | abort => exact absurd rfl h1

theorem slotsOf_mem {st : Stmt} {l : Slot} : {sts : List Stmt} → st ∈ sts → l ∈ slotsOf [st] →
    l ∈ slotsOf sts
  | st' :: sts, h, hl => by
    rcases List.mem_cons.1 h with rfl | h
    · cases st <;> simp_all [slotsOf]
    · have := slotsOf_mem h hl
      cases st' <;> simp_all [slotsOf]

theorem node {σ : Type} {P : σ → Prop} {o : TyOpts} {sigs : String → Option Sig}
    {consts : String → Option TyBase} {n : Node}
    (hs : ∀ b ∈ n.blocks, ∀ s, sigs b.name = some s → s.Wf)
    (hi : ∀ id, .sub id ∈ slotsOf n.stmts → id < n.blocks.length) :
    Quiet P (n.typecheck o sigs consts : Chk Diag σ Node) fun _ => True := by
  have h0 : TyCtx.fromExt consts = (TyCtx.fromExt consts).withVars [] := rfl
  have h1 : ∀ vs, (TyCtx.fromExt consts).withVars vs =
      ((TyCtx.fromExt consts).withVars vs).withBlocks sigs [] := by
    intro vs
    simp [TyCtx.withVars, TyCtx.withBlocks, TyCtx.fromExt, blockSig]
  unfold Node.typecheck
  refine bind (checkSignature _ _ _ _ _) fun _ _ => bind (local_init fun a => ?_) fun _ _ => unit
  have hv := declareVars (n.inputs ++ n.outputs ++ n.locals) a (TyCtx.fromExt consts) trivial
  rw [run_bind]
  rcases e1 : Chk.inScope ((n.inputs ++ n.outputs ++ n.locals).flatMap declareVar)
    (a, TyCtx.fromExt consts) with ⟨r, s1⟩
  rw [e1] at hv
  cases r with
  | abort => exact absurd rfl hv.1
  | none => simp
  | some u =>
    rw [h0] at e1
    obtain ⟨-, rfl⟩ := (declare_some _ _ .nil).1 e1
    dsimp only
    rw [run_bind, h1]
    have hb := declareBlocks (sigs := sigs) (a := a) n.blocks []
      ((TyCtx.fromExt consts).withVars ([] ++ (n.inputs ++ n.outputs ++ n.locals)))
    rcases e2 : San.declareBlocks sigs 0 n.blocks (a, ((TyCtx.fromExt consts).withVars
      ([] ++ (n.inputs ++ n.outputs ++ n.locals))).withBlocks sigs []) with ⟨r, s2⟩
    rw [List.length_nil, e2] at hb
    cases r with
    | abort => exact absurd rfl hb
    | none => simp
    | some u =>
      obtain ⟨hk, rfl⟩ := (declareBlocks_some _ []).1 e2
      dsimp only
      have hB : ∀ id < n.blocks.length, ∃ s, blockSig sigs n.blocks id = some s ∧ s.Wf := by
        intro id hid
        obtain ⟨s, hs'⟩ := hk _ (List.getElem_mem hid)
        exact ⟨s, by simp [blockSig, List.getElem?_eq_getElem hid, hs'], hs _ (List.getElem_mem hid) s hs'⟩
      let S : Nat → Sig := fun id => (blockSig sigs n.blocks id).getD ([], [], [])
      have hS : ∀ id < n.blocks.length, (S id).Wf := by
        intro id hid
        obtain ⟨s, e, w⟩ := hB id hid
        simpa [S, e] using w
      refine (inScope (P := Blocks S n.blocks.length) _ (fun m hm => ?_) _ _ ?_).1
      · obtain ⟨st, hst, rfl⟩ := List.mem_map.1 hm
        refine stmt hS st fun id hid => hi id ?_
        exact slotsOf_mem hst hid
      · intro id hid
        obtain ⟨s, e, w⟩ := hB id hid
        simp only [List.nil_append, TyCtx.withBlocks, e, S]
        exact ⟨rfl, rfl, none, rfl⟩

theorem isConst {σ : Type} {P : σ → Prop} : (e : Expr) →
    Quiet P (e.isConst : Chk Diag σ Unit) fun _ => ∀ id, .sub id ∉ slots e
  | .lit l => by simp only [Expr.isConst]; exact pure (by simp [slots])
  | .global x => by simp only [Expr.isConst]; exact pure (by simp [slots])
  | .var x d => by simp only [Expr.isConst]; exact pure (by simp [slots])
  | .bin op l r => by
    simp only [Expr.isConst]
    exact bind (both (isConst l) (isConst r)) fun _ h => pure fun id hi => by
      simp only [slots, List.mem_append] at hi
      exact hi.elim (h.1 id) (h.2 id)
  | .cmp op l r => by
    simp only [Expr.isConst]
    exact bind (both (isConst l) (isConst r)) fun _ h => pure fun id hi => by
      simp only [slots, List.mem_append] at hi
      exact hi.elim (h.1 id) (h.2 id)
  | .dummyParen e => by simp only [Expr.isConst]; exact isConst e
  | .un op e => by simp only [Expr.isConst]; exact isConst e
  | .ifx c y n => by
    simp only [Expr.isConst]
    exact bind (opt (isConst c)) fun _ k1 => bind (opt (isConst y)) fun _ k2 =>
      bind (opt (isConst n)) fun _ k3 => bind (ofOption k1) fun _ h1 => bind (ofOption k2) fun _ h2 =>
      weaken (ofOption k3) fun _ h3 id hi => by
        simp only [slots, List.mem_append] at hi
        rcases hi with hi | hi | hi
        · exact h1 id hi
        · exact h2 id hi
        · exact h3 id hi
  | .tuple _ => by simp only [Expr.isConst]; exact error _
  | .dummyPre _ => by simp only [Expr.isConst]; exact error _
  | .later _ _ _ => by simp only [Expr.isConst]; exact error _
  | .fetchPre _ _ => by simp only [Expr.isConst]; exact error _
  | .fetchFby _ _ _ => by simp only [Expr.isConst]; exact error _
  | .flip _ _ _ => by simp only [Expr.isConst]; exact error _
  | .substep _ _ _ => by simp only [Expr.isConst]; exact error _
  | .merge _ _ _ => by simp only [Expr.isConst]; exact error _
  | .clock _ _ _ => by simp only [Expr.isConst]; exact error _

theorem const {σ : Type} {P : σ → Prop} (c : Const) (vars : String → Option TyBase) :
    Quiet P (c.typecheck vars : Chk Diag σ Unit) fun _ => True := by
  unfold Const.typecheck
  refine bind (isConst _) fun _ h => bind (local_init fun a => ?_) fun _ _ =>
    bind (local_ (P' := TyUnifier.Plain) trivial identical_plain) fun _ _ => unit
  exact (typecheck (S := fun _ => ([], [], [])) (N := 0) (fun _ h => absurd h (by simp)) c.value
    (fun id hi => absurd hi (h id)) a _ (fun _ h => absurd h (by simp))).1

theorem extNode {σ : Type} {P : σ → Prop} (n : ExtNode) (o : TyOpts) :
    Quiet P (n.typecheck o : Chk Diag σ Unit) fun _ => True := by
  unfold ExtNode.typecheck
  refine bind (checkSignature _ _ _ _ _) fun _ _ => bind (local_init fun a => ?_) fun _ _ => unit
  exact (declareVars _ a _ trivial).1

/-- What a declaration introduces. -/
def intro' : San.Decl → Reference
  | .const c => .globalVarName c.name
  | .node n => .funName n.name
  | .extConst c => .globalVarName c.name
  | .extNode n => .funName n.name

theorem progLoop {σ : Type} {P : σ → Prop} {opts : String → TyOpts} {called : String → Prop} :
    (ds : List San.Decl) → (fatal : Bool) → (p : ProgCtx) →
    (ds.map intro').Nodup → (∀ x, (p.vars x).isSome → .globalVarName x ∉ ds.map intro') →
    (∀ x, (p.funs x).isSome → .funName x ∉ ds.map intro') →
    (∀ f s, p.funs f = some s → called f → Sig.Wf s) →
    (∀ n, San.Decl.node n ∈ ds → (∀ b ∈ n.blocks, called b.name) ∧
      (∀ id, .sub id ∈ slotsOf n.stmts → id < n.blocks.length) ∧
      (called n.name → Sig.Wf ((opts n.name).generics, n.inputs.map (·.ty), n.outputs.map (·.ty)))) →
    (∀ n, San.Decl.extNode n ∈ ds →
      (called n.name → Sig.Wf ((opts n.name).generics, n.inputs.map (·.ty), n.outputs.map (·.ty)))) →
    Quiet P (progTypecheckLoop opts fatal p ds : Chk Diag σ _) fun _ => True
  | [], _, _, _, _, _, _, _, _ => unit
  | d :: ds, fatal, p, hn, hv, hf, hw, hN, hX => by
    rw [List.map_cons, List.nodup_cons] at hn
    have hvar : ∀ (x : String) (t : TyBase) (Q : ProgCtx → Prop), intro' d = .globalVarName x →
        Q { p with vars := fun y => if y = x then some t else p.vars y } →
        Quiet P (p.addVar x t : Chk Diag σ ProgCtx) Q := by
      intro x t Q e hQ
      unfold ProgCtx.addVar
      cases h : p.vars x with
      | none => exact pure hQ
      | some _ => exact absurd (by simp [e]) (hv x (by simp [h]))
    have hfun : ∀ (x : String) (t : FunSig) (Q : ProgCtx → Prop), intro' d = .funName x →
        Q { p with funs := fun y => if y = x then some t else p.funs y } →
        Quiet P (p.addFun x t : Chk Diag σ ProgCtx) Q := by
      intro x t Q e hQ
      unfold ProgCtx.addFun
      cases h : p.funs x with
      | none => exact pure hQ
      | some _ => exact absurd (by simp [e]) (hf x (by simp [h]))
    have hN' := fun n h => hN n (List.mem_cons_of_mem d h)
    have hX' := fun n h => hX n (List.mem_cons_of_mem d h)
    have goVar : ∀ (x : String) (t : TyBase) (b : Bool), intro' d = .globalVarName x →
        ∀ p', p' = { p with vars := fun y => if y = x then some t else p.vars y } →
        Quiet P (progTypecheckLoop opts b p' ds : Chk Diag σ _) fun _ => True := by
      rintro x t b e p' rfl
      refine progLoop ds b _ hn.2 (fun y hy => ?_) (fun y hy => ?_) hw hN' hX'
      · simp only at hy
        split at hy
        · rename_i h; rw [h, ← e]; exact hn.1
        · exact fun k => hv y hy (List.mem_cons_of_mem _ k)
      · exact fun k => hf y hy (List.mem_cons_of_mem _ k)
    have goFun : ∀ (x : String) (t : FunSig) (b : Bool), intro' d = .funName x →
        (called x → Sig.Wf t) →
        ∀ p', p' = { p with funs := fun y => if y = x then some t else p.funs y } →
        Quiet P (progTypecheckLoop opts b p' ds : Chk Diag σ _) fun _ => True := by
      rintro x t b e hwt p' rfl
      refine progLoop ds b _ hn.2 (fun y hy => ?_) (fun y hy => ?_) (fun f s h hc => ?_) hN' hX'
      · exact fun k => hv y hy (List.mem_cons_of_mem _ k)
      · simp only at hy
        split at hy
        · rename_i h; rw [h, ← e]; exact hn.1
        · exact fun k => hf y hy (List.mem_cons_of_mem _ k)
      · simp only at h
        split at h
        · rename_i e'; cases h; exact hwt (e' ▸ hc)
        · exact hw f s h hc
    cases d with
    | const c =>
      unfold progTypecheckLoop
      exact bind (opt (const c _)) fun _ _ => bind (hvar c.name c.ty (· = _) rfl rfl) fun p' hp =>
        bind (goVar c.name c.ty _ rfl p' hp) fun _ _ => unit
    | extConst c =>
      unfold progTypecheckLoop
      exact bind (hvar c.name c.ty (· = _) rfl rfl) fun p' hp =>
        bind (goVar c.name c.ty _ rfl p' hp) fun _ _ => unit
    | node n =>
      unfold progTypecheckLoop
      obtain ⟨k1, k2, k3⟩ := hN n (by simp)
      exact bind (opt (node (fun b hb s hs => hw _ _ hs (k1 b hb)) k2)) fun _ _ =>
        bind (hfun n.name _ (· = _) rfl rfl) fun p' hp =>
        bind (goFun n.name _ _ rfl k3 p' hp) fun _ _ => unit
    | extNode n =>
      unfold progTypecheckLoop
      exact bind (opt (extNode n _)) fun _ _ => bind (hfun n.name _ (· = _) rfl rfl) fun p' hp =>
        bind (goFun n.name _ _ rfl (hX n (by simp)) p' hp) fun _ _ => unit

theorem prog {σ : Type} {P : σ → Prop} {opts : String → TyOpts} {called : String → Prop}
    {ds : List San.Decl} (hn : (ds.map intro').Nodup)
    (hN : ∀ n, San.Decl.node n ∈ ds → (∀ b ∈ n.blocks, called b.name) ∧
      (∀ id, .sub id ∈ slotsOf n.stmts → id < n.blocks.length) ∧
      (called n.name → Sig.Wf ((opts n.name).generics, n.inputs.map (·.ty), n.outputs.map (·.ty))))
    (hX : ∀ n, San.Decl.extNode n ∈ ds →
      (called n.name → Sig.Wf ((opts n.name).generics, n.inputs.map (·.ty), n.outputs.map (·.ty)))) :
    Quiet P (progTypecheck opts ds : Chk Diag σ _) fun _ => True := by
  unfold progTypecheck
  refine bind (progLoop (called := called) ds false _ hn (by simp) (by simp) (by simp) hN hX)
    fun r _ => bind (Q := fun _ => True) ?_ fun _ _ => unit
  unfold Chk.scopeClose
  intro a s hs
  cases r.1
  · exact ⟨by simp, hs, fun _ _ => trivial⟩
  · exact ⟨by simp, hs, fun _ _ => trivial⟩

end Chandeliers.Quiet
