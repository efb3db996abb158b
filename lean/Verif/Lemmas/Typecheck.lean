import Verif.Lemmas.Positivity
import Verif.Lemmas.Unify
import Verif.Spec.Typing

/-! # The type checker and the typing rules -/

set_option autoImplicit false
set_option linter.unusedSectionVars false

namespace Chandeliers.San
open Chandeliers.Err Chandeliers.Err.Chk Chandeliers.Spec

theorem flat_eq (ts : List TyBase) : asFlatTyTuple ts = flatTuple ts := by
  rcases ts with _ | ⟨t, _ | ⟨t', ts⟩⟩ <;> rfl

theorem local_run {σ τ α : Type} (init : τ) (m : Chk Diag τ α) (a : EAccum Diag) (s : σ) :
    San.Chk.local_ init m (a, s) = (match m (a, init) with
      | (.some x, (a, t)) => (.some (x, t), (a, s))
      | (.none, (a, _)) => (.none, (a, s))
      | (.abort, (a, _)) => (.abort, (a, s))) := by
  unfold San.Chk.local_
  dsimp only
  generalize m (a, init) = r
  rcases r with ⟨r, a', t⟩
  cases r <;> rfl

theorem local_some {σ τ α : Type} {init : τ} {m : Chk Diag τ α} {a : EAccum Diag} {s : σ} {x : α}
    {t : τ} {s' : EAccum Diag × σ} :
    San.Chk.local_ init m (a, s) = (.some (x, t), s') ↔
      ∃ a', m (a, init) = (.some x, (a', t)) ∧ s' = (a', s) := by
  rw [local_run]
  rcases h : m (a, init) with ⟨r, a', t'⟩
  cases r with
  | some y =>
    simp only [Prod.mk.injEq, Res.some.injEq]
    constructor
    · rintro ⟨⟨rfl, rfl⟩, rfl⟩; exact ⟨_, ⟨rfl, rfl, rfl⟩, rfl⟩
    · rintro ⟨a'', ⟨rfl, rfl, rfl⟩, rfl⟩; exact ⟨⟨rfl, rfl⟩, rfl⟩
  | none => simp
  | abort => simp

theorem sameType_some {t u : TyTuple} {a : EAccum Diag} {c : TyCtx} {s' : EAccum Diag × TyCtx} :
    sameType t u (a, c) = (.some (), s') ↔ t = u ∧ s' = (a, c) := by
  unfold sameType
  rw [bind_some]
  constructor
  · rintro ⟨⟨x, v⟩, s1, h1, h2⟩
    cases h2
    obtain ⟨a', h3, rfl⟩ := local_some.1 h1
    obtain ⟨rfl, h4⟩ := (identical_plain t (u := .identity) trivial).1 h3
    cases h4
    exact ⟨rfl, rfl⟩
  · rintro ⟨rfl, rfl⟩
    exact ⟨((), .identity), (a, c), local_some.2 ⟨a, (identical_plain t (u := .identity) trivial).2 ⟨rfl, rfl⟩, rfl⟩,
      rfl⟩

theorem isPrimitive_some {σ : Type} {t : TyTuple} {b : TyBase} {s s' : EAccum Diag × σ} :
    t.isPrimitive s = (.some b, s') ↔ t = .single b ∧ s' = s := by
  cases t with
  | single t =>
    simp only [TyTuple.isPrimitive, run_pure, Prod.mk.injEq, Res.some.injEq, TyTuple.single.injEq]
    exact ⟨fun ⟨h1, h2⟩ => ⟨h1, h2.symm⟩, fun ⟨h1, h2⟩ => ⟨h1, h2.symm⟩⟩
  | multiple ts => simp [TyTuple.isPrimitive, error]

theorem isBool_some {σ : Type} {w : String} {t : TyBase} {s s' : EAccum Diag × σ} :
    t.isBool w s = (.some (), s') ↔ t = .bool ∧ s' = s := by
  cases t <;> simp [TyBase.isBool, error, eq_comm]

theorem getVar_some {x : String} {a : EAccum Diag} {c : TyCtx} {t : TyTuple}
    {s' : EAccum Diag × TyCtx} :
    getVar x (a, c) = (.some t, s') ↔ ∃ b, c.vars x = some b ∧ t = .single b ∧ s' = (a, c) := by
  simp only [getVar, run_bind, Chk.get]
  cases h : c.vars x with
  | none => simp [error]
  | some b => simp [eq_comm]

theorem getGlobal_some {x : String} {a : EAccum Diag} {c : TyCtx} {t : TyTuple}
    {s' : EAccum Diag × TyCtx} :
    getGlobal x (a, c) = (.some t, s') ↔
      ∃ b, c.global x = some b ∧ t = .single b ∧ s' = (a, c) := by
  simp only [getGlobal, run_bind, Chk.get]
  cases h : c.global x with
  | none => simp [error]
  | some b => simp [eq_comm]

theorem getOrAbort_some {α : Type} {f : TyCtx → Option α} {a : EAccum Diag} {c : TyCtx} {x : α}
    {s' : EAccum Diag × TyCtx} :
    getOrAbort f (a, c) = (.some x, s') ↔ f c = some x ∧ s' = (a, c) := by
  simp only [getOrAbort, run_bind, Chk.get]
  cases h : f c with
  | none => simp [abort]
  | some b => simp [eq_comm]

theorem binAccepts_some {σ : Type} {op : BinOp} {l r : TyBase} {s s' : EAccum Diag × σ} :
    op.accepts l r s = (.some (), s') ↔ l = r ∧ l ∈ binTypes op ∧ s' = s := by
  unfold BinOp.accepts
  by_cases h : l = r
  · subst h
    rw [if_neg (by simp)]
    cases op <;> cases l <;> simp [binTypes, error, eq_comm]
  · simp [h, error]

theorem unAccepts_some {σ : Type} {op : UnOp} {l : TyBase} {s s' : EAccum Diag × σ} :
    op.accepts l s = (.some (), s') ↔ l ∈ unTypes op ∧ s' = s := by
  unfold UnOp.accepts
  cases op <;> cases l <;> simp [unTypes, error, eq_comm]

theorem cmpAccepts_some {σ : Type} {op : CmpOp} {l r : TyBase} {s s' : EAccum Diag × σ} :
    op.accepts l r s = (.some (), s') ↔ l = r ∧ l ∈ cmpTypes op ∧ s' = s := by
  unfold CmpOp.accepts
  by_cases h : l = r
  · subst h
    rw [if_neg (by simp)]
    cases op <;> cases l <;> simp [cmpTypes, error, eq_comm]
  · simp [h, error]

/-- The signature of a block is well formed: no duplicate type variable, all of them mentioned by
the inputs, and no other one mentioned.  `checkSignature` (and the parsing of attributes, within
one attribute) ensures it. -/
def SigWf (gens : List String) (ins outs : List TyBase) : Prop :=
  gens.Nodup ∧ (∀ x, x ∈ tyVars (flatTuple ins) ↔ x ∈ gens) ∧
    ∀ x ∈ tyVars (flatTuple outs), x ∈ gens

/-- All signatures in the context are well formed. -/
def TyCtx.Wf (c : TyCtx) : Prop :=
  ∀ id gens o ins outs, c.nodesGenerics id = some (gens, o) → c.nodesIn id = some ins →
    c.nodesOut id = some outs → SigWf gens ins outs

/-- The context after the instantiation of a block. -/
def TyCtx.inst (c : TyCtx) (id : Nat) (gens : List String) (θ : Subst) : TyCtx :=
  { c with nodesGenerics := fun i => if i = id then some (gens, some (gens.map θ))
                                     else c.nodesGenerics i }

/-- The context after a register was typed. -/
def TyCtx.setReg (c : TyCtx) (id : Nat) (t : TyTuple) : TyCtx :=
  { c with registers := fun i => if i = id then some t else c.registers i }

/-- What is done once the argument is typed (typecheck.rs 425-430). -/
def callType (id : Nat) (gens : List String) (expected : List TyBase) (actual : TyTuple) :
    Chk Diag TyCtx TyTuple :=
  match TyUnifier.fromGenerics gens with
  | none => Chk.abort
  | some u => do
    let (_, u) ← Chk.local_ u ((asFlatTyTuple expected).identical actual)
    instantiate id u
    let out ← getOrAbort (·.nodesOut id)
    match (asFlatTyTuple out).substitute u with
    | none => Chk.abort
    | some t => pure t

theorem callType_some {id : Nat} {gens : List String} {o : Option (List TyBase)}
    {ins outs : List TyBase} {actual t : TyTuple}
    {a : EAccum Diag} {c : TyCtx} {s' : EAccum Diag × TyCtx}
    (hg : c.nodesGenerics id = some (gens, o)) (ho : c.nodesOut id = some outs)
    (hw : SigWf gens ins outs) :
    callType id gens ins actual (a, c) = (.some t, s') ↔
      ∃ θ, substTy θ (flatTuple ins) = actual ∧ t = substTy θ (flatTuple outs) ∧
        s' = (a, c.inst id gens θ) := by
  obtain ⟨u, hu⟩ := fromGenerics_ok hw.1
  obtain ⟨hwf, hnone⟩ := fromGenerics_wf hu
  have hvars : ∀ x ∈ tyVars (asFlatTyTuple ins), x ∈ gens := fun x hx => by
    rw [flat_eq] at hx; exact (hw.2.1 x).1 hx
  -- what follows the comparison
  have hrest : ∀ (u' : TyUnifier) (θ : Subst), u'.Wf gens → (∀ x ∈ gens, u'.val x = some (θ x)) →
      (do instantiate id u'
          let out ← getOrAbort (·.nodesOut id)
          match (asFlatTyTuple out).substitute u' with
          | none => Chk.abort
          | some t => pure t : Chk Diag TyCtx TyTuple) (a, c) =
        (.some (substTy θ (flatTuple outs)), (a, c.inst id gens θ)) := by
    intro u' θ hw' hθ
    obtain ⟨idx, rfl⟩ := wf_total hw' hθ
    have hi : instantiate id (.mapping idx (gens.map fun x => some (θ x))) (a, c) =
        (.some (), (a, c.inst id gens θ)) := by
      simp only [instantiate]
      rw [run_bind, getOrAbort_some.2 ⟨hg, rfl⟩]
      simp only [allSome_map]
      rfl
    rw [run_bind, hi]
    simp only
    rw [run_bind, (getOrAbort_some (f := (·.nodesOut id)) (c := c.inst id gens θ) (x := outs)).2 ⟨ho, rfl⟩]
    simp only [flat_eq, substitute_eq hw' hθ (flatTuple outs) hw.2.2]
    rfl
  unfold callType
  rw [hu]
  simp only
  constructor
  · intro h
    obtain ⟨⟨⟨⟩, u'⟩, s1, h1, h2⟩ := bind_some.1 h
    obtain ⟨a', h3, rfl⟩ := local_some.1 h1
    obtain ⟨u'', e, hm⟩ := identical_matches _ hwf hvars h3
    cases e
    let θ : Subst := fun x => (u'.val x).getD (.other x)
    have hθ : u'.Below θ := fun x v hx => by simp [θ, hx]
    have htot : ∀ x ∈ gens, u'.val x = some (θ x) := fun x hx => by
      obtain ⟨v, hv⟩ := hm.dom x (by rw [flat_eq]; exact (hw.2.1 x).2 hx)
      rw [hv, hθ x v hv]
    refine ⟨θ, ?_, ?_⟩
    · have := hm.sound θ hθ
      rwa [flat_eq] at this
    · have := hrest u' θ hm.wf htot
      simp only at h2
      rw [this] at h2
      simp only [Prod.mk.injEq, Res.some.injEq] at h2
      exact ⟨h2.1.symm, h2.2.symm⟩
  · rintro ⟨θ, h1, rfl, rfl⟩
    obtain ⟨u', h2, hb⟩ := identical_complete _ hwf (r := actual) hvars
      (fun x v hx => by rw [hnone] at hx; cases hx) (by rw [flat_eq]; exact h1) a
    obtain ⟨u'', e, hm⟩ := identical_matches _ hwf hvars h2
    cases e
    have htot : ∀ x ∈ gens, u'.val x = some (θ x) := fun x hx => by
      obtain ⟨v, hv⟩ := hm.dom x (by rw [flat_eq]; exact (hw.2.1 x).2 hx)
      rw [hv, hb x v hv]
    rw [run_bind, local_run, h2]
    exact hrest u' θ hm.wf htot

/-- What the type checker may change in the context. -/
structure CtxFrame (c c' : TyCtx) (l : List Slot) : Prop where
  global : c'.global = c.global
  vars : c'.vars = c.vars
  nodesIn : c'.nodesIn = c.nodesIn
  nodesOut : c'.nodesOut = c.nodesOut
  gens : ∀ id, (c'.nodesGenerics id).map (·.1) = (c.nodesGenerics id).map (·.1)
  regs : ∀ id, .reg id ∉ l → c'.registers id = c.registers id
  subs : ∀ id, .sub id ∉ l → c'.nodesGenerics id = c.nodesGenerics id

theorem CtxFrame.refl (c : TyCtx) (l : List Slot) : CtxFrame c c l :=
  ⟨rfl, rfl, rfl, rfl, fun _ => rfl, fun _ _ => rfl, fun _ _ => rfl⟩

theorem CtxFrame.trans {c c' c'' : TyCtx} {l l' l'' : List Slot} (h : CtxFrame c c' l)
    (h' : CtxFrame c' c'' l') (h1 : ∀ x ∈ l, x ∈ l'') (h2 : ∀ x ∈ l', x ∈ l'') :
    CtxFrame c c'' l'' :=
  ⟨h'.global.trans h.global, h'.vars.trans h.vars, h'.nodesIn.trans h.nodesIn,
    h'.nodesOut.trans h.nodesOut, fun id => (h'.gens id).trans (h.gens id),
    fun id hi => (h'.regs id fun hx => hi (h2 _ hx)).trans (h.regs id fun hx => hi (h1 _ hx)),
    fun id hi => (h'.subs id fun hx => hi (h2 _ hx)).trans (h.subs id fun hx => hi (h1 _ hx))⟩

theorem CtxFrame.wf {c c' : TyCtx} {l : List Slot} (h : CtxFrame c c' l) (hc : c.Wf) : c'.Wf := by
  intro id gens o ins outs hg hi ho
  have := h.gens id
  rw [hg] at this
  rw [h.nodesIn] at hi
  rw [h.nodesOut] at ho
  cases hg' : c.nodesGenerics id with
  | none => rw [hg'] at this; cases this
  | some p =>
    obtain ⟨gens', o'⟩ := p
    rw [hg'] at this
    simp only [Option.map_some, Option.some.injEq] at this
    subst this
    exact hc id _ o' ins outs hg' hi ho

theorem frame_inst {c : TyCtx} {id : Nat} {gens : List String} {o : Option (List TyBase)}
    (hg : c.nodesGenerics id = some (gens, o)) (θ : Subst) :
    CtxFrame c (c.inst id gens θ) [.sub id] := by
  refine ⟨rfl, rfl, rfl, rfl, fun i => ?_, fun _ _ => rfl, fun i hi => ?_⟩
  · simp only [TyCtx.inst]
    split
    · rename_i e; subst e; rw [hg]; rfl
    · rfl
  · simp only [List.mem_singleton, Slot.sub.injEq] at hi
    simp [TyCtx.inst, hi]

theorem frame_setReg (c : TyCtx) (id : Nat) (t : TyTuple) :
    CtxFrame c (c.setReg id t) [.reg id] := by
  refine ⟨rfl, rfl, rfl, rfl, fun _ => rfl, fun i hi => ?_, fun _ _ => rfl⟩
  simp only [List.mem_singleton, Slot.reg.injEq] at hi
  simp [TyCtx.setReg, hi]

/-- What the final context records about a slot holds in the typing environment. -/
def SlotOk (Γ : TyEnv) (c : TyCtx) : Slot → Prop
  | .reg id => ∀ t, c.registers id = some t → Γ.regs id t
  | .sub id => ∀ gens θ ins outs, c.nodesGenerics id = some (gens, some (gens.map θ)) →
      c.nodesIn id = some ins → c.nodesOut id = some outs →
      Γ.call id (substTy θ (flatTuple ins)) (substTy θ (flatTuple outs))
  | .flip _ => True

/-- The typing environment allows everything: any type in registers, calls at any instance. -/
def Free (Γ : TyEnv) (c : TyCtx) : Prop :=
  (∀ id t, Γ.regs id t) ∧ ∀ id θ ins outs, c.nodesIn id = some ins → c.nodesOut id = some outs →
    Γ.call id (substTy θ (flatTuple ins)) (substTy θ (flatTuple outs))

/-- Either everything is allowed, or the slots are distinct and what was recorded about them
holds. -/
def Recorded (Γ : TyEnv) (c : TyCtx) (l : List Slot) : Prop :=
  Free Γ c ∨ (l.Nodup ∧ ∀ x ∈ l, SlotOk Γ c x)

theorem Free.frame {Γ : TyEnv} {c c' : TyCtx} {l : List Slot} (hf : CtxFrame c c' l) :
    Free Γ c' → Free Γ c := fun h =>
  ⟨h.1, fun id θ ins outs h1 h2 => h.2 id θ ins outs (hf.nodesIn ▸ h1) (hf.nodesOut ▸ h2)⟩

theorem SlotOk.frame {Γ : TyEnv} {c c' : TyCtx} {l : List Slot} (hf : CtxFrame c c' l) {x : Slot}
    (hx : x ∉ l) (h : SlotOk Γ c' x) : SlotOk Γ c x := by
  cases x with
  | reg id => intro t ht; exact h t ((hf.regs id hx).trans ht)
  | sub id =>
    intro gens θ ins outs hg hi ho
    exact h gens θ ins outs ((hf.subs id hx).trans hg) (hf.nodesIn ▸ hi) (hf.nodesOut ▸ ho)
  | flip id => trivial

theorem Recorded.left {Γ : TyEnv} {c c' : TyCtx} {l r : List Slot} (hf : CtxFrame c c' r)
    (h : Recorded Γ c' (l ++ r)) : Recorded Γ c l := by
  rcases h with h | ⟨hn, h⟩
  · exact .inl (h.frame hf)
  · rw [List.nodup_append] at hn
    exact .inr ⟨hn.1, fun x hx => (h x (by simp [hx])).frame hf fun hr => hn.2.2 x hx x hr rfl⟩

theorem Recorded.right {Γ : TyEnv} {c : TyCtx} {l r : List Slot}
    (h : Recorded Γ c (l ++ r)) : Recorded Γ c r := by
  rcases h with h | ⟨hn, h⟩
  · exact .inl h
  · rw [List.nodup_append] at hn
    exact .inr ⟨hn.2.1, fun x hx => h x (by simp [hx])⟩

/-- The order of the slots does not matter. -/
theorem Recorded.perm {Γ : TyEnv} {c : TyCtx} {l r : List Slot} (hp : l.Perm r)
    (h : Recorded Γ c l) : Recorded Γ c r := by
  rcases h with h | ⟨hn, h⟩
  · exact .inl h
  · exact .inr ⟨hp.nodup_iff.1 hn, fun x hx => h x (hp.mem_iff.2 hx)⟩

/-- The environment has the variables of the context. -/
def SameVars (Γ : TyEnv) (c : TyCtx) : Prop := Γ.global = c.global ∧ Γ.vars = c.vars

theorem SameVars.frame {Γ : TyEnv} {c c' : TyCtx} {l : List Slot} (hf : CtxFrame c c' l)
    (h : SameVars Γ c) : SameVars Γ c' := ⟨h.1.trans hf.global.symm, h.2.trans hf.vars.symm⟩

/-- What a successful run of the checker on an expression with these slots does. -/
def Sound {α : Type} (m : Chk Diag TyCtx α) (l : List Slot) (J : TyEnv → α → Prop) : Prop :=
  ∀ (a : EAccum Diag) (c : TyCtx) (t : α) (s' : EAccum Diag × TyCtx), c.Wf →
    m (a, c) = (.some t, s') → ∃ c', s' = (a, c') ∧ CtxFrame c c' l ∧
      ∀ Γ, SameVars Γ c → Recorded Γ c' l → J Γ t

theorem Sound.both {α β : Type} {m : Chk Diag TyCtx α} {n : Chk Diag TyCtx β} {l r : List Slot}
    {J : TyEnv → α → Prop} {K : TyEnv → β → Prop} (hm : Sound m l J) (hn : Sound n r K) :
    Sound (Chk.both m n) (l ++ r) (fun Γ p => J Γ p.1 ∧ K Γ p.2) := by
  intro a c p s' hc h
  obtain ⟨s1, h1, h2⟩ := both_some.1 h
  obtain ⟨c1, rfl, f1, j1⟩ := hm _ _ _ _ hc h1
  obtain ⟨c2, rfl, f2, j2⟩ := hn _ _ _ _ (f1.wf hc) h2
  exact ⟨c2, rfl, f1.trans f2 (by simp +contextual) (by simp +contextual), fun Γ hv hr =>
    ⟨j1 Γ hv (hr.left f2), j2 Γ (hv.frame f1) hr.right⟩⟩

theorem Sound.bind {α β : Type} {m : Chk Diag TyCtx α} {f : α → Chk Diag TyCtx β} {l r : List Slot}
    {J : TyEnv → α → Prop} {K : α → TyEnv → β → Prop} (hm : Sound m l J)
    (hf : ∀ x, Sound (f x) r (K x)) :
    Sound (m >>= f) (l ++ r) (fun Γ y => ∃ x, J Γ x ∧ K x Γ y) := by
  intro a c p s' hc h
  obtain ⟨x, s1, h1, h2⟩ := bind_some.1 h
  obtain ⟨c1, rfl, f1, j1⟩ := hm _ _ _ _ hc h1
  obtain ⟨c2, rfl, f2, j2⟩ := hf x _ _ _ _ (f1.wf hc) h2
  exact ⟨c2, rfl, f1.trans f2 (by simp +contextual) (by simp +contextual), fun Γ hv hr =>
    ⟨x, j1 Γ hv (hr.left f2), j2 Γ (hv.frame f1) hr.right⟩⟩

theorem Sound.pure {α : Type} (x : α) : Sound (Pure.pure x : Chk Diag TyCtx α) []
    (fun _ y => y = x) := by
  intro a c p s' hc h
  cases h
  exact ⟨c, rfl, CtxFrame.refl _ _, fun _ _ _ => rfl⟩

theorem Sound.weaken {α : Type} {m : Chk Diag TyCtx α} {l : List Slot} {J K : TyEnv → α → Prop}
    (hm : Sound m l J) (h : ∀ Γ x, J Γ x → K Γ x) : Sound m l K := by
  intro a c p s' hc hr
  obtain ⟨c1, rfl, f1, j1⟩ := hm _ _ _ _ hc hr
  exact ⟨c1, rfl, f1, fun Γ hv hr => h _ _ (j1 Γ hv hr)⟩

theorem Sound.prim {m : Chk Diag TyCtx TyTuple} {l : List Slot} {J : TyEnv → TyTuple → Prop}
    (hm : Sound m l J) :
    Sound (do let t ← m; t.isPrimitive) l (fun Γ b => J Γ (.single b)) := by
  intro a c p s' hc h
  obtain ⟨x, s1, h1, h2⟩ := bind_some.1 h
  obtain ⟨rfl, rfl⟩ := isPrimitive_some.1 h2
  exact hm _ _ _ _ hc h1

/-- A final test that leaves the context alone. -/
theorem Sound.test {α β : Type} {m : Chk Diag TyCtx α} {f : α → Chk Diag TyCtx β} {l : List Slot}
    {J : TyEnv → α → Prop} {K : TyEnv → β → Prop} (hm : Sound m l J)
    (hf : ∀ x (s s' : EAccum Diag × TyCtx) y, f x s = (.some y, s') →
      s' = s ∧ ∀ Γ, J Γ x → K Γ y) : Sound (m >>= f) l K := by
  intro a c p s' hc h
  obtain ⟨x, s1, h1, h2⟩ := bind_some.1 h
  obtain ⟨c1, rfl, f1, j1⟩ := hm _ _ _ _ hc h1
  obtain ⟨rfl, h3⟩ := hf _ _ _ _ h2
  exact ⟨c1, rfl, f1, fun Γ hv hr => h3 Γ (j1 Γ hv hr)⟩

theorem ofOption_some {σ α : Type} {o : Option α} {s s' : EAccum Diag × σ} {x : α} :
    Chk.ofOption o s = (.some x, s') ↔ o = some x ∧ s' = s := by
  cases o with
  | none => simp [Chk.ofOption]
  | some y => simp [Chk.ofOption, eq_comm]

theorem opt_some_some {σ α : Type} {m : Chk Diag σ α} {s s' : EAccum Diag × σ} {x : α} :
    Chk.opt m s = (.some (some x), s') ↔ m s = (.some x, s') := by
  unfold Chk.opt
  rcases h : m s with ⟨r, s1⟩
  cases r <;> simp

theorem substep_typecheck (d id : Nat) (args : Expr) (s : EAccum Diag × TyCtx) :
    (Expr.substep d id args).typecheck s = (do
      let expected ← getOrAbort (·.nodesIn id)
      let gens ← getOrAbort (·.nodesGenerics id)
      let actual ← args.typecheck
      callType id gens.1 expected actual : Chk Diag TyCtx TyTuple) s := by
  simp only [Expr.typecheck]; rfl

mutual
theorem typecheck_sound : (e : Expr) → Sound e.typecheck (slots e) (fun Γ t => HasType Γ e t)
  | .lit l => by
    cases l <;> simp only [Expr.typecheck, slots]
    all_goals exact (Sound.pure _).weaken fun Γ x h => h ▸ .lit
  | .global x => by
    intro a c t s' hc h
    simp only [Expr.typecheck] at h
    obtain ⟨b, hb, rfl, rfl⟩ := getGlobal_some.1 h
    exact ⟨c, rfl, CtxFrame.refl _ _, fun Γ hv _ => .global (hv.1 ▸ hb)⟩
  | .var x d => by
    intro a c t s' hc h
    simp only [Expr.typecheck] at h
    obtain ⟨b, hb, rfl, rfl⟩ := getVar_some.1 h
    exact ⟨c, rfl, CtxFrame.refl _ _, fun Γ hv _ => .var (hv.2 ▸ hb)⟩
  | .tuple es => by
    simp only [Expr.typecheck, slots]
    exact (typecheckList_sound es).test fun x s s' y h => by
      cases h; exact ⟨rfl, fun Γ h => .tuple h⟩
  | .dummyPre e => by
    simp only [Expr.typecheck, slots]
    exact (typecheck_sound e).weaken fun _ _ h => .dummyPre h
  | .dummyParen e => by
    simp only [Expr.typecheck, slots]
    exact (typecheck_sound e).weaken fun _ _ h => .dummyParen h
  | .bin op l r => by
    simp only [Expr.typecheck, slots]
    refine ((typecheck_sound l).prim.both (typecheck_sound r).prim).test fun x s s' y h => ?_
    obtain ⟨⟨⟩, s1, h1, h2⟩ := bind_some.1 h
    obtain ⟨e1, e2, rfl⟩ := binAccepts_some.1 h1
    cases h2
    exact ⟨rfl, fun Γ h => .bin h.1 (e1 ▸ h.2) e2⟩
  | .un op e => by
    simp only [Expr.typecheck, slots]
    have := (typecheck_sound e).prim.test (K := fun Γ t => HasType Γ (.un op e) t)
      (f := fun t => do op.accepts t; pure (.single t)) fun x s s' y h => by
        obtain ⟨⟨⟩, s1, h1, h2⟩ := bind_some.1 h
        obtain ⟨e2, rfl⟩ := unAccepts_some.1 h1
        cases h2
        exact ⟨rfl, fun Γ h => .un h e2⟩
    intro a c t s' hc h
    refine this _ _ _ _ hc ?_
    simp only [run_bind] at h ⊢
    rcases h1 : e.typecheck (a, c) with ⟨r, s1⟩
    rw [h1] at h
    cases r <;> exact h
  | .cmp op l r => by
    simp only [Expr.typecheck, slots]
    refine ((typecheck_sound l).prim.both (typecheck_sound r).prim).test fun x s s' y h => ?_
    obtain ⟨⟨⟩, s1, h1, h2⟩ := bind_some.1 h
    obtain ⟨e1, e2, rfl⟩ := cmpAccepts_some.1 h1
    cases h2
    exact ⟨rfl, fun Γ h => .cmp h.1 (e1 ▸ h.2) e2⟩
  | .later d l r => by
    simp only [Expr.typecheck, slots]
    refine ((typecheck_sound l).both (typecheck_sound r)).test fun x s s' y h => ?_
    obtain ⟨⟨⟩, s1, h1, h2⟩ := bind_some.1 h
    obtain ⟨e1, rfl⟩ := sameType_some.1 h1
    cases h2
    exact ⟨rfl, fun Γ h => .later h.1 (e1 ▸ h.2)⟩
  | .flip i l r => by
    simp only [Expr.typecheck, slots]
    have := ((typecheck_sound l).both (typecheck_sound r)).test
      (K := fun Γ t => HasType Γ (.flip i l r) t)
      (f := fun x => do sameType x.1 x.2; pure x.1) fun x s s' y h => by
        obtain ⟨⟨⟩, s1, h1, h2⟩ := bind_some.1 h
        obtain ⟨e1, rfl⟩ := sameType_some.1 h1
        cases h2
        exact ⟨rfl, fun Γ h => .flip h.1 (e1 ▸ h.2)⟩
    intro a c t s' hc h
    obtain ⟨c1, rfl, f1, j1⟩ := this _ _ _ _ hc h
    refine ⟨c1, rfl, f1.trans (CtxFrame.refl _ []) (by simp +contextual) (by simp),
      fun Γ hv hr => j1 Γ hv ?_⟩
    exact Recorded.right (l := [.flip i]) hr
  | .ifx b y n => by
    intro a c t s' hc h
    simp only [Expr.typecheck] at h
    obtain ⟨ob, s1, h1, g1⟩ := bind_some.1 h
    obtain ⟨oy, s2, h2, g2⟩ := bind_some.1 g1
    obtain ⟨on, s3, h3, g3⟩ := bind_some.1 g2
    obtain ⟨tb, s4, h4, g4⟩ := bind_some.1 g3
    obtain ⟨rfl, rfl⟩ := ofOption_some.1 h4
    obtain ⟨⟨⟩, s5, h5, g5⟩ := bind_some.1 g4
    obtain ⟨rfl, rfl⟩ := isBool_some.1 h5
    obtain ⟨ty, s6, h6, g6⟩ := bind_some.1 g5
    obtain ⟨rfl, rfl⟩ := ofOption_some.1 h6
    obtain ⟨tn, s7, h7, g7⟩ := bind_some.1 g6
    obtain ⟨rfl, rfl⟩ := ofOption_some.1 h7
    obtain ⟨⟨⟩, s8, h8, g8⟩ := bind_some.1 g7
    cases g8
    obtain ⟨c1, rfl, f1, j1⟩ := (typecheck_sound b).prim _ _ _ _ hc (opt_some_some.1 h1)
    obtain ⟨c2, rfl, f2, j2⟩ := typecheck_sound y _ _ _ _ (f1.wf hc) (opt_some_some.1 h2)
    obtain ⟨c3, rfl, f3, j3⟩ := typecheck_sound n _ _ _ _ (f2.wf (f1.wf hc)) (opt_some_some.1 h3)
    obtain ⟨rfl, rfl⟩ := sameType_some.1 h8
    refine ⟨c3, rfl, f1.trans (f2.trans f3 (l'' := slots y ++ slots n) (by simp +contextual)
      (by simp +contextual)) (by simp +contextual [slots]) (by simp +contextual [slots]),
      fun Γ hv hr => ?_⟩
    simp only [slots] at hr
    exact .ifx (j1 Γ hv (hr.left (f2.trans f3 (by simp +contextual) (by simp +contextual))))
      (j2 Γ (hv.frame f1) (hr.right.left f3)) (j3 Γ ((hv.frame f1).frame f2) hr.right.right)
  | .merge b y n => by
    intro a c t s' hc h
    simp only [Expr.typecheck] at h
    obtain ⟨tb, s1, h1, g1⟩ := bind_some.1 h
    obtain ⟨ty, s2, h2, g2⟩ := bind_some.1 g1
    obtain ⟨tn, s3, h3, g3⟩ := bind_some.1 g2
    obtain ⟨tb', s4, h4, g4⟩ := bind_some.1 g3
    obtain ⟨rfl, rfl⟩ := isPrimitive_some.1 h4
    obtain ⟨⟨⟩, s5, h5, g5⟩ := bind_some.1 g4
    obtain ⟨rfl, rfl⟩ := isBool_some.1 h5
    obtain ⟨⟨⟩, s8, h8, g6⟩ := bind_some.1 g5
    cases g6
    obtain ⟨c1, rfl, f1, j1⟩ := typecheck_sound b _ _ _ _ hc h1
    obtain ⟨c2, rfl, f2, j2⟩ := typecheck_sound y _ _ _ _ (f1.wf hc) h2
    obtain ⟨c3, rfl, f3, j3⟩ := typecheck_sound n _ _ _ _ (f2.wf (f1.wf hc)) h3
    obtain ⟨rfl, rfl⟩ := sameType_some.1 h8
    refine ⟨c3, rfl, f1.trans (f2.trans f3 (l'' := slots y ++ slots n) (by simp +contextual)
      (by simp +contextual)) (by simp +contextual [slots]) (by simp +contextual [slots]),
      fun Γ hv hr => ?_⟩
    simp only [slots] at hr
    exact .merge (j1 Γ hv (hr.left (f2.trans f3 (by simp +contextual) (by simp +contextual))))
      (j2 Γ (hv.frame f1) (hr.right.left f3)) (j3 Γ ((hv.frame f1).frame f2) hr.right.right)
  | .clock op e b => by
    intro a c t s' hc h
    simp only [Expr.typecheck] at h
    obtain ⟨ob, s1, h1, g1⟩ := bind_some.1 h
    obtain ⟨te, s2, h2, g2⟩ := bind_some.1 g1
    obtain ⟨tb, s4, h4, g3⟩ := bind_some.1 g2
    obtain ⟨rfl, rfl⟩ := ofOption_some.1 h4
    obtain ⟨⟨⟩, s5, h5, g4⟩ := bind_some.1 g3
    obtain ⟨rfl, rfl⟩ := isBool_some.1 h5
    cases g4
    obtain ⟨c1, rfl, f1, j1⟩ := (typecheck_sound b).prim _ _ _ _ hc (opt_some_some.1 h1)
    obtain ⟨c2, rfl, f2, j2⟩ := typecheck_sound e _ _ _ _ (f1.wf hc) h2
    refine ⟨c2, rfl, f1.trans f2 (by simp +contextual [slots]) (by simp +contextual [slots]),
      fun Γ hv hr => ?_⟩
    simp only [slots] at hr
    have hr := hr.perm List.perm_append_comm
    exact .clock (j2 Γ (hv.frame f1) hr.right) (j1 Γ hv (hr.left f2))
  | .substep d id args => by
    intro a c t s' hc h
    rw [substep_typecheck] at h
    obtain ⟨ins, s1, h1, h⟩ := bind_some.1 h
    obtain ⟨hi, rfl⟩ := getOrAbort_some.1 h1
    obtain ⟨⟨gens, o⟩, s2, h2, h⟩ := bind_some.1 h
    obtain ⟨hg, rfl⟩ := getOrAbort_some.1 h2
    obtain ⟨actual, s3, h3, h⟩ := bind_some.1 h
    obtain ⟨c1, rfl, f1, j1⟩ := typecheck_sound args _ _ _ _ hc h3
    simp only at h hi hg
    have hg1 : ∃ o', c1.nodesGenerics id = some (gens, o') := by
      have := f1.gens id
      rw [hg] at this
      cases hx : c1.nodesGenerics id with
      | none => rw [hx] at this; cases this
      | some p =>
        rw [hx] at this
        simp only [Option.map_some, Option.some.injEq] at this
        exact ⟨p.2, by rw [← this]⟩
    obtain ⟨o', hg1⟩ := hg1
    cases hout : c1.nodesOut id with
    | none =>
      -- then the lookup of the outputs aborts
      exfalso
      unfold callType at h
      cases hu : TyUnifier.fromGenerics gens with
      | none => rw [hu] at h; cases h
      | some u =>
        rw [hu] at h
        obtain ⟨⟨x, u'⟩, s4, h4, h⟩ := bind_some.1 h
        obtain ⟨⟨⟩, s5, h5, h⟩ := bind_some.1 h
        obtain ⟨out, s6, h6, h⟩ := bind_some.1 h
        obtain ⟨a4, -, rfl⟩ := local_some.1 h4
        obtain ⟨a5, c5⟩ := s5
        have : c5.nodesOut = c1.nodesOut := by
          simp only [instantiate] at h5
          obtain ⟨g, s7, h7, h8⟩ := bind_some.1 h5
          obtain ⟨-, rfl⟩ := getOrAbort_some.1 h7
          cases u' with
          | mapping idx subst =>
            simp only at h8
            cases hs : allSome subst with
            | none => rw [hs] at h8; cases h8
            | some ts => rw [hs] at h8; cases h8; rfl
          | _ => cases h8; rfl
        obtain ⟨h6, -⟩ := getOrAbort_some.1 h6
        rw [this, hout] at h6
        cases h6
    | some outs =>
      have hi1 : c1.nodesIn id = some ins := by rw [f1.nodesIn]; exact hi
      have hw := f1.wf hc id gens o' ins outs hg1 hi1 hout
      obtain ⟨θ, rfl, rfl, rfl⟩ := (callType_some hg1 hout hw).1 h
      have f2 := frame_inst hg1 θ
      refine ⟨_, rfl, f1.trans f2 (by simp +contextual [slots]) (by simp +contextual [slots]),
        fun Γ hv hr => ?_⟩
      simp only [slots] at hr
      have hr2 := hr.perm (r := slots args ++ [.sub id]) (List.perm_append_comm (l₁ := [_]))
      refine .substep (j1 Γ hv (hr2.left f2)) ?_
      rcases hr with hr | ⟨-, hr⟩
      · exact hr.2 id θ ins outs hi1 hout
      · exact hr (.sub id) (by simp) gens θ ins outs (by simp [TyCtx.inst]) hi1 hout
  | .fetchPre id e => by
    intro a c t s' hc h
    simp only [Expr.typecheck] at h
    obtain ⟨te, s1, h1, h⟩ := bind_some.1 h
    obtain ⟨⟨⟩, s2, h2, h⟩ := bind_some.1 h
    obtain ⟨c1, rfl, f1, j1⟩ := typecheck_sound e _ _ _ _ hc h1
    cases h2
    cases h
    have f2 := frame_setReg c1 id t
    refine ⟨c1.setReg id t, rfl, f1.trans f2 (by simp +contextual [slots])
      (by simp +contextual [slots]), fun Γ hv hr => ?_⟩
    simp only [slots] at hr
    have hr2 := hr.perm (r := slots e ++ [.reg id]) (List.perm_append_comm (l₁ := [_]))
    refine .fetchPre (j1 Γ hv (hr2.left f2)) ?_
    rcases hr with hr | ⟨-, hr⟩
    · exact hr.1 id t
    · exact hr (.reg id) (by simp) t (by simp [TyCtx.setReg])
  | .fetchFby id i e => by
    intro a c t s' hc h
    simp only [Expr.typecheck] at h
    obtain ⟨te, s1, h1, h⟩ := bind_some.1 h
    obtain ⟨ti, s3, h3, h⟩ := bind_some.1 h
    obtain ⟨⟨⟩, s4, h4, h⟩ := bind_some.1 h
    obtain ⟨⟨⟩, s2, h2, h⟩ := bind_some.1 h
    obtain ⟨c1, rfl, f1, j1⟩ := typecheck_sound e _ _ _ _ hc h1
    obtain ⟨c3, rfl, f3, j3⟩ := typecheck_sound i _ _ _ _ (f1.wf hc) h3
    obtain ⟨rfl, rfl⟩ := sameType_some.1 h4
    cases h2
    cases h
    have f2 := frame_setReg c3 id t
    refine ⟨c3.setReg id t, rfl, f1.trans (f3.trans f2 (l'' := slots i ++ [.reg id])
      (by simp +contextual) (by simp +contextual)) (by simp +contextual [slots])
      (by intro x hx; simp [slots] at hx ⊢; rcases hx with h | h <;> simp [h]),
      fun Γ hv hr => ?_⟩
    simp only [slots] at hr
    have hr2 := hr.perm (r := slots e ++ (slots i ++ [.reg id])) (by
      refine (List.perm_append_comm (l₁ := [Slot.reg id]) (l₂ := slots i ++ slots e)).trans ?_
      rw [List.append_assoc]
      exact List.perm_append_comm_assoc _ _ _)
    refine .fetchFby (j3 Γ (hv.frame f1) (hr2.right.left f2))
      (j1 Γ hv (hr2.left (f3.trans f2 (by simp +contextual) (by simp +contextual)))) ?_
    rcases hr with hr | ⟨-, hr⟩
    · exact hr.1 id t
    · exact hr (.reg id) (by simp) t (by simp [TyCtx.setReg])
theorem typecheckList_sound : (es : List Expr) →
    Sound (Expr.typecheckList es) (slotsList es) (fun Γ ts => HasTypes Γ es ts)
  | [] => by
    simp only [Expr.typecheckList, slotsList]
    exact (Sound.pure _).weaken fun Γ x h => by subst h; exact .nil
  | e :: es => by
    simp only [Expr.typecheckList, slotsList]
    refine (typecheck_sound e).bind (K := fun t Γ ts => ∃ us, ts = t :: us ∧ HasTypes Γ es us)
      (fun t => (typecheckList_sound es).test fun x s s' y h => ?_) |>.weaken ?_
    · cases h; exact ⟨rfl, fun Γ h => ⟨x, rfl, h⟩⟩
    · rintro Γ x ⟨t, ht, us, rfl, hu⟩; exact .cons ht hu
end

/-- Calls are instances of the signatures of the context. -/
def CallsFrom (Γ : TyEnv) (c : TyCtx) : Prop :=
  ∀ id t u, Γ.call id t u → ∃ gens o ins outs θ, c.nodesGenerics id = some (gens, o) ∧
    c.nodesIn id = some ins ∧ c.nodesOut id = some outs ∧ t = substTy θ (flatTuple ins) ∧
    u = substTy θ (flatTuple outs)

/-- The environment fits the context. -/
structure Fits (Γ : TyEnv) (c : TyCtx) : Prop where
  wf : c.Wf
  vars : SameVars Γ c
  calls : CallsFrom Γ c

theorem Fits.frame {Γ : TyEnv} {c c' : TyCtx} {l : List Slot} (h : Fits Γ c)
    (f : CtxFrame c c' l) : Fits Γ c' := by
  refine ⟨f.wf h.wf, h.vars.frame f, fun id t u hc => ?_⟩
  obtain ⟨gens, o, ins, outs, θ, h1, h2, h3, h4, h5⟩ := h.calls id t u hc
  have := f.gens id
  rw [h1] at this
  cases hx : c'.nodesGenerics id with
  | none => rw [hx] at this; cases this
  | some p =>
    obtain ⟨g, o'⟩ := p
    rw [hx] at this
    simp only [Option.map_some, Option.some.injEq] at this
    subst this
    exact ⟨g, o', ins, outs, θ, rfl, f.nodesIn ▸ h2, f.nodesOut ▸ h3, h4, h5⟩

theorem prim_run {m : Chk Diag TyCtx TyTuple} {s s' : EAccum Diag × TyCtx} {t : TyBase}
    (h : m s = (.some (.single t), s')) :
    (do let t ← m; t.isPrimitive : Chk Diag TyCtx TyBase) s = (.some t, s') := by
  rw [run_bind, h]; rfl

mutual
theorem typecheck_complete {Γ : TyEnv} : {e : Expr} → {t : TyTuple} → HasType Γ e t →
    ∀ (a : EAccum Diag) {c : TyCtx}, Fits Γ c →
      ∃ c', e.typecheck (a, c) = (.some t, (a, c')) ∧ Fits Γ c'
  | _, _, .lit (l := l), a, c, hf => by
    cases l <;> exact ⟨c, by simp only [Expr.typecheck]; rfl, hf⟩
  | _, _, .global h, a, c, hf => by
    exact ⟨c, by simp only [Expr.typecheck]; exact getGlobal_some.2 ⟨_, hf.vars.1 ▸ h, rfl, rfl⟩, hf⟩
  | _, _, .var h, a, c, hf => by
    exact ⟨c, by simp only [Expr.typecheck]; exact getVar_some.2 ⟨_, hf.vars.2 ▸ h, rfl, rfl⟩, hf⟩
  | _, _, .dummyPre h, a, c, hf => by
    simp only [Expr.typecheck]; exact typecheck_complete h a hf
  | _, _, .dummyParen h, a, c, hf => by
    simp only [Expr.typecheck]; exact typecheck_complete h a hf
  | _, _, .tuple h, a, c, hf => by
    obtain ⟨c1, h1, f1⟩ := typecheckList_complete h a hf
    exact ⟨c1, by simp only [Expr.typecheck]; rw [run_bind, h1]; rfl, f1⟩
  | _, _, .bin hl hr h, a, c, hf => by
    obtain ⟨c1, h1, f1⟩ := typecheck_complete hl a hf
    obtain ⟨c2, h2, f2⟩ := typecheck_complete hr a f1
    refine ⟨c2, ?_, f2⟩
    simp only [Expr.typecheck]
    exact bind_some.2 ⟨(_, _), _, both_some.2 ⟨_, prim_run h1, prim_run h2⟩,
      bind_some.2 ⟨(), _, binAccepts_some.2 ⟨rfl, h, rfl⟩, rfl⟩⟩
  | _, _, .un he h, a, c, hf => by
    obtain ⟨c1, h1, f1⟩ := typecheck_complete he a hf
    refine ⟨c1, ?_, f1⟩
    simp only [Expr.typecheck]
    exact bind_some.2 ⟨_, _, h1, bind_some.2 ⟨_, _, isPrimitive_some.2 ⟨rfl, rfl⟩,
      bind_some.2 ⟨(), _, unAccepts_some.2 ⟨h, rfl⟩, rfl⟩⟩⟩
  | _, _, .cmp hl hr h, a, c, hf => by
    obtain ⟨c1, h1, f1⟩ := typecheck_complete hl a hf
    obtain ⟨c2, h2, f2⟩ := typecheck_complete hr a f1
    refine ⟨c2, ?_, f2⟩
    simp only [Expr.typecheck]
    exact bind_some.2 ⟨(_, _), _, both_some.2 ⟨_, prim_run h1, prim_run h2⟩,
      bind_some.2 ⟨(), _, cmpAccepts_some.2 ⟨rfl, h, rfl⟩, rfl⟩⟩
  | _, _, .later hl hr, a, c, hf => by
    obtain ⟨c1, h1, f1⟩ := typecheck_complete hl a hf
    obtain ⟨c2, h2, f2⟩ := typecheck_complete hr a f1
    refine ⟨c2, ?_, f2⟩
    simp only [Expr.typecheck]
    exact bind_some.2 ⟨(_, _), _, both_some.2 ⟨_, h1, h2⟩,
      bind_some.2 ⟨(), _, sameType_some.2 ⟨rfl, rfl⟩, rfl⟩⟩
  | _, _, .flip hl hr, a, c, hf => by
    obtain ⟨c1, h1, f1⟩ := typecheck_complete hl a hf
    obtain ⟨c2, h2, f2⟩ := typecheck_complete hr a f1
    refine ⟨c2, ?_, f2⟩
    simp only [Expr.typecheck]
    exact bind_some.2 ⟨(_, _), _, both_some.2 ⟨_, h1, h2⟩,
      bind_some.2 ⟨(), _, sameType_some.2 ⟨rfl, rfl⟩, rfl⟩⟩
  | _, _, .ifx hb hy hn, a, c, hf => by
    obtain ⟨c1, h1, f1⟩ := typecheck_complete hb a hf
    obtain ⟨c2, h2, f2⟩ := typecheck_complete hy a f1
    obtain ⟨c3, h3, f3⟩ := typecheck_complete hn a f2
    refine ⟨c3, ?_, f3⟩
    simp only [Expr.typecheck]
    exact bind_some.2 ⟨_, _, opt_some_some.2 (prim_run h1), bind_some.2 ⟨_, _, opt_some_some.2 h2,
      bind_some.2 ⟨_, _, opt_some_some.2 h3, bind_some.2 ⟨_, _, ofOption_some.2 ⟨rfl, rfl⟩,
      bind_some.2 ⟨_, _, isBool_some.2 ⟨rfl, rfl⟩, bind_some.2 ⟨_, _, ofOption_some.2 ⟨rfl, rfl⟩,
      bind_some.2 ⟨_, _, ofOption_some.2 ⟨rfl, rfl⟩, bind_some.2 ⟨_, _,
        sameType_some.2 ⟨rfl, rfl⟩, rfl⟩⟩⟩⟩⟩⟩⟩⟩
  | _, _, .merge hb hy hn, a, c, hf => by
    obtain ⟨c1, h1, f1⟩ := typecheck_complete hb a hf
    obtain ⟨c2, h2, f2⟩ := typecheck_complete hy a f1
    obtain ⟨c3, h3, f3⟩ := typecheck_complete hn a f2
    refine ⟨c3, ?_, f3⟩
    simp only [Expr.typecheck]
    exact bind_some.2 ⟨_, _, h1, bind_some.2 ⟨_, _, h2,
      bind_some.2 ⟨_, _, h3, bind_some.2 ⟨_, _, isPrimitive_some.2 ⟨rfl, rfl⟩,
      bind_some.2 ⟨_, _, isBool_some.2 ⟨rfl, rfl⟩, bind_some.2 ⟨_, _,
        sameType_some.2 ⟨rfl, rfl⟩, rfl⟩⟩⟩⟩⟩⟩
  | _, _, .clock he hb, a, c, hf => by
    obtain ⟨c1, h1, f1⟩ := typecheck_complete hb a hf
    obtain ⟨c2, h2, f2⟩ := typecheck_complete he a f1
    refine ⟨c2, ?_, f2⟩
    simp only [Expr.typecheck]
    exact bind_some.2 ⟨_, _, opt_some_some.2 (prim_run h1), bind_some.2 ⟨_, _, h2,
      bind_some.2 ⟨_, _, ofOption_some.2 ⟨rfl, rfl⟩,
      bind_some.2 ⟨_, _, isBool_some.2 ⟨rfl, rfl⟩, rfl⟩⟩⟩⟩
  | _, _, .substep (i := id) he h, a, c, hf => by
    obtain ⟨c1, h1, f1⟩ := typecheck_complete he a hf
    obtain ⟨gens, o, ins, outs, θ, e1, e2, e3, rfl, rfl⟩ := hf.calls _ _ _ h
    obtain ⟨c1', e, fr, -⟩ := typecheck_sound _ _ _ _ _ hf.wf h1
    cases e
    have hg := fr.gens id
    rw [e1] at hg
    cases hx : c1.nodesGenerics id with
    | none => rw [hx] at hg; cases hg
    | some p =>
      obtain ⟨g, o'⟩ := p
      rw [hx] at hg
      simp only [Option.map_some, Option.some.injEq] at hg
      subst hg
      have e2' : c1.nodesIn id = some ins := fr.nodesIn ▸ e2
      have e3' : c1.nodesOut id = some outs := fr.nodesOut ▸ e3
      have := (callType_some (a := a) hx e3' (f1.wf id _ _ _ _ hx e2' e3')).2 ⟨θ, rfl, rfl, rfl⟩
      refine ⟨c1.inst id g θ, ?_, f1.frame (frame_inst hx θ)⟩
      rw [substep_typecheck]
      exact bind_some.2 ⟨_, _, getOrAbort_some.2 ⟨e2, rfl⟩,
        bind_some.2 ⟨_, _, getOrAbort_some.2 ⟨e1, rfl⟩, bind_some.2 ⟨_, _, h1, this⟩⟩⟩
  | _, _, .fetchPre (i := id) (t := t) he h, a, c, hf => by
    obtain ⟨c1, h1, f1⟩ := typecheck_complete he a hf
    refine ⟨c1.setReg id t, ?_, f1.frame (frame_setReg _ _ _)⟩
    simp only [Expr.typecheck]
    exact bind_some.2 ⟨_, _, h1, bind_some.2 ⟨_, _, rfl, rfl⟩⟩
  | _, _, .fetchFby (i := id) (t := t) hi he h, a, c, hf => by
    obtain ⟨c1, h1, f1⟩ := typecheck_complete he a hf
    obtain ⟨c2, h2, f2⟩ := typecheck_complete hi a f1
    refine ⟨c2.setReg id t, ?_, f2.frame (frame_setReg _ _ _)⟩
    simp only [Expr.typecheck]
    exact bind_some.2 ⟨_, _, h1, bind_some.2 ⟨_, _, h2, bind_some.2 ⟨_, _,
      sameType_some.2 ⟨rfl, rfl⟩, bind_some.2 ⟨_, _, rfl, rfl⟩⟩⟩⟩
theorem typecheckList_complete {Γ : TyEnv} : {es : List Expr} → {ts : List TyTuple} →
    HasTypes Γ es ts → ∀ (a : EAccum Diag) {c : TyCtx}, Fits Γ c →
      ∃ c', Expr.typecheckList es (a, c) = (.some ts, (a, c')) ∧ Fits Γ c'
  | _, _, .nil, a, c, hf => ⟨c, by simp only [Expr.typecheckList]; rfl, hf⟩
  | _, _, .cons h hs, a, c, hf => by
    obtain ⟨c1, h1, f1⟩ := typecheck_complete h a hf
    obtain ⟨c2, h2, f2⟩ := typecheckList_complete hs a f1
    refine ⟨c2, ?_, f2⟩
    simp only [Expr.typecheckList]
    exact bind_some.2 ⟨_, _, h1, bind_some.2 ⟨_, _, h2, rfl⟩⟩
end

/-! ## Statements -/

mutual
theorem target_typecheck : (x : VarTuple) → {a : EAccum Diag} → {c : TyCtx} → {t : TyTuple} →
    {s' : EAccum Diag × TyCtx} →
    (x.typecheck (a, c) = (.some t, s') ↔ TargetType c.vars x t ∧ s' = (a, c))
  | .single x, a, c, t, s' => by
    simp only [VarTuple.typecheck, getVar_some]
    constructor
    · rintro ⟨b, h1, rfl, rfl⟩; exact ⟨.single h1, rfl⟩
    · rintro ⟨h, rfl⟩; cases h with | single h => exact ⟨_, h, rfl, rfl⟩
  | .multiple vs, a, c, t, s' => by
    simp only [VarTuple.typecheck, bind_some]
    constructor
    · rintro ⟨ts, s1, h1, h2⟩
      obtain ⟨g1, rfl⟩ := (targets_typecheck vs).1 h1
      cases h2; exact ⟨.multiple g1, rfl⟩
    · rintro ⟨h, rfl⟩
      cases h with | multiple h => exact ⟨_, _, (targets_typecheck vs).2 ⟨h, rfl⟩, rfl⟩
theorem targets_typecheck : (xs : List VarTuple) → {a : EAccum Diag} → {c : TyCtx} →
    {ts : List TyTuple} → {s' : EAccum Diag × TyCtx} →
    (VarTuple.typecheckList xs (a, c) = (.some ts, s') ↔ TargetTypes c.vars xs ts ∧ s' = (a, c))
  | [], a, c, ts, s' => by
    simp only [VarTuple.typecheckList, run_pure]
    constructor
    · intro h; cases h; exact ⟨.nil, rfl⟩
    · rintro ⟨h, rfl⟩; cases h; rfl
  | x :: xs, a, c, ts, s' => by
    simp only [VarTuple.typecheckList, bind_some]
    constructor
    · rintro ⟨t, s1, h1, us, s2, h2, h3⟩
      obtain ⟨g1, rfl⟩ := (target_typecheck x).1 h1
      obtain ⟨g2, rfl⟩ := (targets_typecheck xs).1 h2
      cases h3; exact ⟨.cons g1 g2, rfl⟩
    · rintro ⟨h, rfl⟩
      cases h with
      | cons h hs => exact ⟨_, _, (target_typecheck x).2 ⟨h, rfl⟩, _, _,
          (targets_typecheck xs).2 ⟨hs, rfl⟩, rfl⟩
end

theorem stmt_sound (st : Stmt) : Sound st.typecheck (slotsOf [st]) (fun Γ _ => StmtTyped Γ st) := by
  cases st with
  | let_ x e =>
    intro a c t s' hc h
    simp only [Stmt.typecheck] at h
    obtain ⟨⟨t1, t2⟩, s1, h1, h2⟩ := bind_some.1 h
    obtain ⟨s2, h3, h4⟩ := both_some.1 h1
    obtain ⟨h3, rfl⟩ := (target_typecheck x).1 h3
    obtain ⟨c1, rfl, f1, j1⟩ := typecheck_sound e _ _ _ _ hc h4
    obtain ⟨h5, rfl⟩ := sameType_some.1 h2
    simp only at h5 h3 j1
    subst h5
    refine ⟨c1, rfl, by simpa [slotsOf] using f1, fun Γ hv hr => ?_⟩
    exact .let_ (hv.2 ▸ h3) (j1 Γ hv (by simpa [slotsOf] using hr))
  | assert e =>
    intro a c t s' hc h
    simp only [Stmt.typecheck] at h
    obtain ⟨t1, s1, h1, g1⟩ := bind_some.1 h
    obtain ⟨t2, s2, h2, g2⟩ := bind_some.1 g1
    obtain ⟨rfl, rfl⟩ := isPrimitive_some.1 h2
    obtain ⟨rfl, rfl⟩ := isBool_some.1 g2
    obtain ⟨c1, rfl, f1, j1⟩ := typecheck_sound e _ _ _ _ hc h1
    exact ⟨c1, rfl, by simpa [slotsOf] using f1, fun Γ hv hr =>
      .assert (j1 Γ hv (by simpa [slotsOf] using hr))⟩
  | updateRegister i e =>
    exact (Sound.pure ()).weaken fun _ _ _ => .updateRegister
  | initRegister i e k =>
    exact (Sound.pure ()).weaken fun _ _ _ => .initRegister

theorem slotsOf_cons (st : Stmt) (sts : List Stmt) :
    slotsOf (st :: sts) = slotsOf [st] ++ slotsOf sts := by
  cases st <;> simp [slotsOf]

theorem stmts_sound : (sts : List Stmt) → Sound (inScope (sts.map Stmt.typecheck)) (slotsOf sts)
    (fun Γ _ => ∀ st ∈ sts, StmtTyped Γ st)
  | [] => by
    intro a c t s' hc h
    have := inScope_some_nil.1 h
    exact ⟨c, this.symm, CtxFrame.refl _ _, by simp⟩
  | st :: sts => by
    intro a c t s' hc h
    obtain ⟨s1, h1, h2⟩ := inScope_some_cons.1 h
    obtain ⟨c1, rfl, f1, j1⟩ := stmt_sound st _ _ _ _ hc h1
    obtain ⟨c2, rfl, f2, j2⟩ := stmts_sound sts _ _ _ _ (f1.wf hc) h2
    rw [slotsOf_cons]
    refine ⟨c2, rfl, f1.trans f2 (by simp +contextual) (by simp +contextual), fun Γ hv hr => ?_⟩
    intro st' hst'
    rcases List.mem_cons.1 hst' with rfl | hst'
    · exact j1 Γ hv (hr.left f2)
    · exact j2 Γ (hv.frame f1) hr.right st' hst'

theorem stmts_complete {Γ : TyEnv} (a : EAccum Diag) : (sts : List Stmt) → {c : TyCtx} →
    (∀ st ∈ sts, StmtTyped Γ st) → Fits Γ c →
    ∃ c', inScope (sts.map Stmt.typecheck) (a, c) = (.some (), (a, c')) ∧ Fits Γ c'
  | [], c, _, hf => ⟨c, inScope_some_nil.2 rfl, hf⟩
  | st :: sts, c, h, hf => by
    have h1 : ∃ c', st.typecheck (a, c) = (.some (), (a, c')) ∧ Fits Γ c' := by
      cases h st (by simp) with
      | let_ hx he =>
        obtain ⟨c1, h1, f1⟩ := typecheck_complete he a hf
        refine ⟨c1, ?_, f1⟩
        simp only [Stmt.typecheck]
        exact bind_some.2 ⟨(_, _), _, both_some.2 ⟨_, (target_typecheck _).2
          ⟨hf.vars.2 ▸ hx, rfl⟩, h1⟩, sameType_some.2 ⟨rfl, rfl⟩⟩
      | assert he =>
        obtain ⟨c1, h1, f1⟩ := typecheck_complete he a hf
        refine ⟨c1, ?_, f1⟩
        simp only [Stmt.typecheck]
        exact bind_some.2 ⟨_, _, h1, bind_some.2 ⟨_, _, isPrimitive_some.2 ⟨rfl, rfl⟩,
          isBool_some.2 ⟨rfl, rfl⟩⟩⟩
      | updateRegister => exact ⟨c, rfl, hf⟩
      | initRegister => exact ⟨c, rfl, hf⟩
    obtain ⟨c1, h1, f1⟩ := h1
    obtain ⟨c2, h2, f2⟩ := stmts_complete a sts (fun st hst => h st (by simp [hst])) f1
    exact ⟨c2, inScope_some_cons.2 ⟨_, h1, h2⟩, f2⟩

/-! ## Errors are reported -/

theorem isPrimitive_honest {σ : Type} (t : TyTuple) : Honest (t.isPrimitive : Chk Diag σ TyBase) := by
  cases t <;> first | exact honest_pure _ | exact honest_error _

theorem isBool_honest {σ : Type} (w : String) (t : TyBase) :
    Honest (t.isBool w : Chk Diag σ Unit) := by
  cases t <;> first | exact honest_pure _ | exact honest_error _

theorem getVar_honest (x : String) : Honest (getVar x) :=
  honest_bind honest_get fun c => by
    cases c.vars x <;> first | exact honest_pure _ | exact honest_error _

theorem getGlobal_honest (x : String) : Honest (getGlobal x) :=
  honest_bind honest_get fun c => by
    cases c.global x <;> first | exact honest_pure _ | exact honest_error _

theorem getOrAbort_honest {α : Type} (f : TyCtx → Option α) : Honest (getOrAbort f) :=
  honest_bind honest_get fun c => by
    cases f c <;> first | exact honest_pure _ | exact honest_abort

theorem binAccepts_honest {σ : Type} (op : BinOp) (l r : TyBase) :
    Honest (op.accepts l r : Chk Diag σ Unit) := by
  unfold BinOp.accepts
  refine honest_ite (honest_error _) ?_
  cases op <;> cases l <;> first | exact honest_pure _ | exact honest_error _

theorem unAccepts_honest {σ : Type} (op : UnOp) (l : TyBase) :
    Honest (op.accepts l : Chk Diag σ Unit) := by
  cases op <;> cases l <;> first | exact honest_pure _ | exact honest_error _

theorem cmpAccepts_honest {σ : Type} (op : CmpOp) (l r : TyBase) :
    Honest (op.accepts l r : Chk Diag σ Unit) := by
  unfold CmpOp.accepts
  refine honest_ite (honest_error _) ?_
  cases op <;> cases l <;> first | exact honest_pure _ | exact honest_error _

theorem sameType_honest (t u : TyTuple) : Honest (sameType t u) :=
  honest_bind (honest_local _ (identical_honest t u)) fun _ => honest_pure _

theorem instantiate_honest (id : Nat) (u : TyUnifier) : Honest (instantiate id u) :=
  honest_bind (getOrAbort_honest _) fun g => by
    cases u with
    | mapping idx subst =>
      dsimp only
      cases allSome subst
      · exact honest_abort
      · exact honest_modify _
    | identity => exact honest_modify _
    | null => exact honest_modify _

theorem prim_honest {m : Chk Diag TyCtx TyTuple} (h : Honest m) :
    Honest (do let t ← m; t.isPrimitive : Chk Diag TyCtx TyBase) :=
  honest_bind h fun _ => isPrimitive_honest _

mutual
theorem typecheck_honest : (e : Expr) → Honest e.typecheck
  | .lit (.int _) => by simp only [Expr.typecheck]; exact honest_pure _
  | .lit (.float _) => by simp only [Expr.typecheck]; exact honest_pure _
  | .lit (.bool _) => by simp only [Expr.typecheck]; exact honest_pure _
  | .global x => by simp only [Expr.typecheck]; exact getGlobal_honest x
  | .var x _ => by simp only [Expr.typecheck]; exact getVar_honest x
  | .dummyPre e => by simp only [Expr.typecheck]; exact typecheck_honest e
  | .dummyParen e => by simp only [Expr.typecheck]; exact typecheck_honest e
  | .tuple es => by
    simp only [Expr.typecheck]
    exact honest_bind (typecheckList_honest es) fun _ => honest_pure _
  | .bin op l r => by
    simp only [Expr.typecheck]
    exact honest_bind (honest_both (prim_honest (typecheck_honest l)) (prim_honest (typecheck_honest r)))
      fun _ => honest_bind (binAccepts_honest _ _ _) fun _ => honest_pure _
  | .cmp op l r => by
    simp only [Expr.typecheck]
    exact honest_bind (honest_both (prim_honest (typecheck_honest l)) (prim_honest (typecheck_honest r)))
      fun _ => honest_bind (cmpAccepts_honest _ _ _) fun _ => honest_pure _
  | .un op e => by
    simp only [Expr.typecheck]
    exact honest_bind (typecheck_honest e) fun _ => honest_bind (isPrimitive_honest _)
      fun _ => honest_bind (unAccepts_honest _ _) fun _ => honest_pure _
  | .later _ e e' => by
    simp only [Expr.typecheck]
    exact honest_bind (honest_both (typecheck_honest e) (typecheck_honest e'))
      fun _ => honest_bind (sameType_honest _ _) fun _ => honest_pure _
  | .flip _ e e' => by
    simp only [Expr.typecheck]
    exact honest_bind (honest_both (typecheck_honest e) (typecheck_honest e'))
      fun _ => honest_bind (sameType_honest _ _) fun _ => honest_pure _
  | .ifx b y n => by
    simp only [Expr.typecheck]
    have hb := prim_honest (typecheck_honest b)
    have hy := typecheck_honest y
    have hn := typecheck_honest n
    refine honest_opt hb (fun c => honest_opt hy (fun t => honest_opt hn (fun u => ?_) ?_) ?_) ?_
    · exact honest_some (honest_bind (isBool_honest _ _) fun _ => honest_some
        (honest_some (honest_bind (sameType_honest _ _) fun _ => honest_pure _)))
    · exact after_some (after_bind (isBool_honest _ _).appends fun _ => after_some after_none)
    · exact after_opt hn.appends fun _ =>
        after_some (after_bind (isBool_honest _ _).appends fun _ => after_none)
    · exact after_opt hy.appends fun _ => after_opt hn.appends fun _ => after_none
  | .merge b y n => by
    simp only [Expr.typecheck]
    exact honest_bind (typecheck_honest b) fun _ => honest_bind (typecheck_honest y) fun _ =>
      honest_bind (typecheck_honest n) fun _ => honest_bind (isPrimitive_honest _) fun _ =>
      honest_bind (isBool_honest _ _) fun _ => honest_bind (sameType_honest _ _) fun _ =>
      honest_pure _
  | .clock _ e b => by
    simp only [Expr.typecheck]
    have he := typecheck_honest e
    refine honest_opt (prim_honest (typecheck_honest b)) (fun c => ?_) ?_
    · exact honest_bind he fun _ => honest_some (honest_bind (isBool_honest _ _) fun _ =>
        honest_pure _)
    · exact after_bind he.appends fun _ => after_none
  | .substep _ id e => by
    simp only [Expr.typecheck]
    refine honest_bind (getOrAbort_honest _) fun _ => honest_bind (getOrAbort_honest _) fun g =>
      honest_bind (typecheck_honest e) fun t => ?_
    cases TyUnifier.fromGenerics g.1 with
    | none => exact honest_abort
    | some u =>
      refine honest_bind (honest_local _ (identical_honest _ _)) fun _ =>
        honest_bind (instantiate_honest _ _) fun _ => honest_bind (getOrAbort_honest _) fun o => ?_
      generalize TyTuple.substitute _ _ = x
      cases x
      · exact honest_abort
      · exact honest_pure _
  | .fetchPre id e => by
    simp only [Expr.typecheck]
    exact honest_bind (typecheck_honest e) fun _ => honest_bind (honest_modify _) fun _ =>
      honest_pure _
  | .fetchFby id e e' => by
    simp only [Expr.typecheck]
    exact honest_bind (typecheck_honest e') fun _ => honest_bind (typecheck_honest e) fun _ =>
      honest_bind (sameType_honest _ _) fun _ => honest_bind (honest_modify _) fun _ =>
      honest_pure _
theorem typecheckList_honest : (es : List Expr) → Honest (Expr.typecheckList es)
  | [] => by simp only [Expr.typecheckList]; exact honest_pure _
  | e :: es => by
    simp only [Expr.typecheckList]
    exact honest_bind (typecheck_honest e) fun _ => honest_bind (typecheckList_honest es) fun _ =>
      honest_pure _
end

mutual
theorem target_honest : (x : VarTuple) → Honest x.typecheck
  | .single x => by simp only [VarTuple.typecheck]; exact getVar_honest x
  | .multiple vs => by
    simp only [VarTuple.typecheck]
    exact honest_bind (targets_honest vs) fun _ => honest_pure _
theorem targets_honest : (xs : List VarTuple) → Honest (VarTuple.typecheckList xs)
  | [] => by simp only [VarTuple.typecheckList]; exact honest_pure _
  | x :: xs => by
    simp only [VarTuple.typecheckList]
    exact honest_bind (target_honest x) fun _ => honest_bind (targets_honest xs) fun _ =>
      honest_pure _
end

theorem stmt_honest (st : Stmt) : Honest st.typecheck := by
  cases st with
  | let_ x e =>
    exact honest_bind (honest_both (target_honest x) (typecheck_honest e)) fun _ =>
      sameType_honest _ _
  | assert e =>
    exact honest_bind (typecheck_honest e) fun _ => honest_bind (isPrimitive_honest _) fun _ =>
      isBool_honest _ _
  | updateRegister _ _ => exact honest_pure _
  | initRegister _ _ _ => exact honest_pure _

theorem isConst_honest {σ : Type} : (e : Expr) → Honest (e.isConst : Chk Diag σ Unit)
  | .lit _ => by simp only [Expr.isConst]; exact honest_pure _
  | .global _ => by simp only [Expr.isConst]; exact honest_pure _
  | .var _ _ => by simp only [Expr.isConst]; exact honest_pure _
  | .bin _ l r => by
    simp only [Expr.isConst]
    exact honest_bind (honest_both (isConst_honest l) (isConst_honest r)) fun _ => honest_pure _
  | .cmp _ l r => by
    simp only [Expr.isConst]
    exact honest_bind (honest_both (isConst_honest l) (isConst_honest r)) fun _ => honest_pure _
  | .dummyParen e => by simp only [Expr.isConst]; exact isConst_honest e
  | .un _ e => by simp only [Expr.isConst]; exact isConst_honest e
  | .ifx b y n => by
    simp only [Expr.isConst]
    have hb := isConst_honest (σ := σ) b
    have hy := isConst_honest (σ := σ) y
    have hn := isConst_honest (σ := σ) n
    refine honest_opt hb (fun c => honest_opt hy (fun t => honest_opt hn (fun u => ?_) ?_) ?_) ?_
    · exact honest_some (honest_some (honest_pure _))
    · exact after_some (after_some ⟨fun s => ⟨[], [], by simp [ofOption]⟩, fun s a h => by
        simp [ofOption] at h⟩)
    · exact after_opt hn.appends fun _ => after_some after_none
    · exact after_opt hy.appends fun _ => after_opt hn.appends fun _ => after_none
  | .tuple _ => by simp only [Expr.isConst]; exact honest_error _
  | .dummyPre _ => by simp only [Expr.isConst]; exact honest_error _
  | .later _ _ _ => by simp only [Expr.isConst]; exact honest_error _
  | .fetchPre _ _ => by simp only [Expr.isConst]; exact honest_error _
  | .fetchFby _ _ _ => by simp only [Expr.isConst]; exact honest_error _
  | .flip _ _ _ => by simp only [Expr.isConst]; exact honest_error _
  | .substep _ _ _ => by simp only [Expr.isConst]; exact honest_error _
  | .merge _ _ _ => by simp only [Expr.isConst]; exact honest_error _
  | .clock _ _ _ => by simp only [Expr.isConst]; exact honest_error _

theorem checkDeclared_honest {σ : Type} (g : List String) : (vs : List TyVar) →
    Honest (checkDeclared g vs : Chk Diag σ Unit)
  | [] => honest_pure _
  | v :: vs => by
    have ih := checkDeclared_honest (σ := σ) g vs
    obtain ⟨n, t, c, d⟩ := v
    cases t with
    | other t =>
      by_cases h : t ∈ g
      · simp only [checkDeclared, h, if_true]; exact ih
      · simp only [checkDeclared, h, if_false]; exact honest_bind (honest_error _) fun _ => ih
    | int => exact ih
    | float => exact ih
    | bool => exact ih

theorem checkUsed_honest {σ : Type} (vs : List TyVar) : (g : List String) →
    Honest (checkUsed vs g : Chk Diag σ Unit)
  | [] => honest_pure _
  | g :: gs => by
    have ih := checkUsed_honest (σ := σ) vs gs
    by_cases h : TyBase.other g ∈ vs.map (·.ty)
    · simp only [checkUsed, h, if_true]; exact ih
    · simp only [checkUsed, h, if_false]; exact honest_bind (honest_error _) fun _ => ih

theorem checkSignature_honest {σ : Type} (b : Bool) (g : List String) (i o l : List TyVar) :
    Honest (checkSignature b g i o l : Chk Diag σ Unit) := by
  have h : Honest (do checkDeclared g i; checkDeclared g (o ++ l); checkUsed i g : Chk Diag σ Unit) :=
    honest_bind (checkDeclared_honest _ _) fun _ => honest_bind (checkDeclared_honest _ _) fun _ =>
      checkUsed_honest _ _
  unfold checkSignature
  split
  · exact honest_bind (honest_error _) fun _ => h
  · exact h

theorem clockTy_honest (k : Clock) : Honest k.typecheck := by
  cases k with
  | explicit _ x =>
    exact honest_bind honest_get fun c => by
      cases c.vars x <;> first | exact isBool_honest _ _ | exact honest_error _
  | implicit => exact honest_pure _
  | adaptative => exact honest_pure _

theorem declareVar_honest (v : TyVar) : ∀ m ∈ declareVar v, Honest m := by
  intro m hm
  simp only [declareVar, List.mem_cons, List.not_mem_nil, or_false] at hm
  rcases hm with rfl | rfl | rfl
  · exact honest_bind honest_get fun c => by
      cases c.vars v.name <;> first | exact honest_pure _ | exact honest_error _
  · exact clockTy_honest _
  · exact honest_modify _

theorem declareVars_honest (vs : List TyVar) : Honest (inScope (vs.flatMap declareVar)) :=
  honest_inScope _ fun m hm => by
    obtain ⟨v, -, hm⟩ := List.mem_flatMap.1 hm
    exact declareVar_honest v m hm

theorem declareBlocks_honest (f : String → Option FunSig) : (bs : List NodeInstance) → (i : Nat) →
    Honest (declareBlocks f i bs)
  | [], _ => honest_pure _
  | b :: bs, i => by
    unfold declareBlocks
    cases f b.name with
    | none => exact honest_error _
    | some s => exact honest_bind (honest_modify _) fun _ => declareBlocks_honest f bs (i + 1)

theorem stmts_honest (sts : List Stmt) : Honest (inScope (sts.map Stmt.typecheck)) :=
  honest_inScope _ fun m hm => by
    obtain ⟨st, -, rfl⟩ := List.mem_map.1 hm
    exact stmt_honest st

theorem nodeTypecheck_honest {σ : Type} (o : TyOpts) (f : String → Option FunSig)
    (g : String → Option TyBase) (n : Node) : Honest (n.typecheck o f g : Chk Diag σ Node) :=
  honest_bind (checkSignature_honest _ _ _ _ _) fun _ =>
    honest_bind (honest_local _ (honest_bind (declareVars_honest _) fun _ =>
      honest_bind (declareBlocks_honest _ _ _) fun _ => stmts_honest _)) fun _ => honest_pure _

theorem extNodeTypecheck_honest {σ : Type} (o : TyOpts) (n : ExtNode) :
    Honest (n.typecheck o : Chk Diag σ Unit) :=
  honest_bind (checkSignature_honest _ _ _ _ _) fun _ =>
    honest_bind (honest_local _ (declareVars_honest _)) fun _ => honest_pure _

theorem constTypecheck_honest {σ : Type} (g : String → Option TyBase) (c : Const) :
    Honest (c.typecheck g : Chk Diag σ Unit) :=
  honest_bind (isConst_honest _) fun _ =>
    honest_bind (honest_local _ (typecheck_honest _)) fun _ =>
    honest_bind (honest_local _ (identical_honest _ _)) fun _ => honest_pure _

end Chandeliers.San
