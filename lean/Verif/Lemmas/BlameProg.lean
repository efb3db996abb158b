import Verif.Lemmas.BlameNodes
import Verif.Lemmas.Passes
import Verif.Lemmas.TypeMono

/-!
# Messages of the type checker about programs
-/

set_option autoImplicit false

namespace Chandeliers.Tell
open Chandeliers.San Chandeliers.Spec Chandeliers.Err Chandeliers.Err.Chk Chandeliers.Den

/-! ## What is inside an expression -/

theorem mem_fetchesList {p : Nat × Expr} {es : List Expr} {e : Expr} (h : e ∈ es)
    (hp : p ∈ Spec.fetches e) : p ∈ fetchesList es := by
  induction es with
  | nil => cases h
  | cons x es ih =>
    simp only [fetchesList, List.mem_append]
    rcases List.mem_cons.1 h with rfl | h
    · exact .inl hp
    · exact .inr (ih h)

theorem mem_startsList {p : Nat × Option Expr} {es : List Expr} {e : Expr} (h : e ∈ es)
    (hp : p ∈ starts e) : p ∈ startsList es := by
  induction es with
  | nil => cases h
  | cons x es ih =>
    simp only [startsList, List.mem_append]
    rcases List.mem_cons.1 h with rfl | h
    · exact .inl hp
    · exact .inr (ih h)

theorem fetches_under {p : Nat × Expr} {c e : Expr} (h : Under c e) (hp : p ∈ Spec.fetches c) :
    p ∈ Spec.fetches e := by
  cases h with
  | operand h =>
    cases h with
    | tuple h => rw [Spec.fetches]; exact mem_fetchesList h hp
    | _ => simp [Spec.fetches, hp]
  | _ => simp [Spec.fetches, hp]

theorem starts_under {p : Nat × Option Expr} {c e : Expr} (h : Under c e) (hp : p ∈ starts c) :
    p ∈ starts e := by
  cases h with
  | operand h =>
    cases h with
    | tuple h => rw [starts]; exact mem_startsList h hp
    | _ => simp [starts, hp]
  | _ => simp [starts, hp]

/-- What is inside an expression is evaluated with it, or with the contents of a register. -/
theorem inside_cases {c e : Expr} (h : Inside c e) :
    Part c e ∨ (∃ id f, (id, f) ∈ Spec.fetches e ∧ Part c f) ∨
      ∃ id i, (id, some i) ∈ starts e ∧ Part c i := by
  induction h with
  | refl => exact .inl .refl
  | @tail b e _ hu ih =>
    rcases ih with ih | ⟨id, f, h1, h2⟩ | ⟨id, f, h1, h2⟩
    · cases hu with
      | operand h => exact .inl (ih.tail h)
      | pre => exact .inr (.inl ⟨_, _, by simp [Spec.fetches]; exact .inr rfl, ih⟩)
      | fbyInit => exact .inr (.inr ⟨_, _, by simp [starts]; exact .inr (.inr rfl), ih⟩)
      | fbyNext => exact .inr (.inl ⟨_, _, by simp [Spec.fetches]; exact .inr (.inr rfl), ih⟩)
    · exact .inr (.inl ⟨id, f, fetches_under hu h1, h2⟩)
    · exact .inr (.inr ⟨id, f, starts_under hu h1, h2⟩)

/-- The registers that equations read are set up and updated by statements. -/
structure Kept (sts : List Stmt) : Prop where
  fetched : ∀ id f, (id, f) ∈ sts.flatMap fetchesIn → .updateRegister id f ∈ sts
  started : ∀ id i, (id, i) ∈ sts.flatMap startsIn → .initRegister id i none ∈ sts

theorem Kept.perm {l l' : List Stmt} (h : Kept l) (hp : l'.Perm l) : Kept l' := by
  refine ⟨fun id f hf => hp.mem_iff.2 (h.fetched id f ?_), fun id i hi => hp.mem_iff.2 (h.started id i ?_)⟩
  · obtain ⟨st, h1, h2⟩ := List.mem_flatMap.1 hf
    exact List.mem_flatMap.2 ⟨st, hp.mem_iff.1 h1, h2⟩
  · obtain ⟨st, h1, h2⟩ := List.mem_flatMap.1 hi
    exact List.mem_flatMap.2 ⟨st, hp.mem_iff.1 h1, h2⟩

theorem translate_kept {b : Bool} {n : Syn.SrcNode} {n' : Node} (h : n.translate b = .ok n') :
    Kept n'.stmts := by
  obtain ⟨c, hc, rfl⟩ := node_translate h
  obtain ⟨new, hb⟩ := built_stmts hc
  have hnew : c.stmts = new := by simpa using hb.stmts
  subst hnew
  exact ⟨fun id f => (hb.fetched id f).1, fun id i => (hb.started id i).1⟩

/-- The constants inside the equations of a node are mentioned by it. -/
theorem mentions_global {n : Node} (hk : Kept n.stmts) {st : Stmt} (hst : st ∈ n.stmts)
    {e : Expr} (he : (∃ v, st = .let_ v e) ∨ st = .assert e) {x : String}
    (h : Inside (.global x) e) : Mentions (.node n) (.globalVarName x) := by
  have hv : e ∈ values st := by
    rcases he with ⟨v, rfl⟩ | rfl <;> simp [values]
  have hf : fetchesIn st = Spec.fetches e := by rcases he with ⟨v, rfl⟩ | rfl <;> rfl
  have hs : startsIn st = starts e := by rcases he with ⟨v, rfl⟩ | rfl <;> rfl
  rcases inside_cases h with h | ⟨id, f, h1, h2⟩ | ⟨id, i, h1, h2⟩
  · exact .global hst (.global hv h)
  · have := hk.fetched id f (List.mem_flatMap.2 ⟨st, hst, hf ▸ h1⟩)
    exact .global this (.global (by simp [values]) h2)
  · have := hk.started id (some i) (List.mem_flatMap.2 ⟨st, hst, hs ▸ h1⟩)
    exact .global this (.global (by simp [values]) h2)

theorem isConst_plain {σ : Type} : (e : Expr) → {s s' : EAccum Diag × σ} →
    (e.isConst : Chk Diag σ Unit) s = (.some (), s') → Spec.fetches e = [] ∧ starts e = []
  | .lit _, _, _, _ => by simp [Spec.fetches, starts]
  | .global _, _, _, _ => by simp [Spec.fetches, starts]
  | .var _ _, _, _, _ => by simp [Spec.fetches, starts]
  | .dummyParen e, _, _, h => by
    simp only [Expr.isConst] at h
    simpa [Spec.fetches, starts] using isConst_plain e h
  | .un _ e, _, _, h => by
    simp only [Expr.isConst] at h
    simpa [Spec.fetches, starts] using isConst_plain e h
  | .bin _ l r, _, _, h => by
    simp only [Expr.isConst] at h
    obtain ⟨p, s1, h1, h2⟩ := bind_some.1 h
    obtain ⟨s2, h3, h4⟩ := both_some.1 h1
    simp [Spec.fetches, starts, isConst_plain l h3, isConst_plain r h4]
  | .cmp _ l r, _, _, h => by
    simp only [Expr.isConst] at h
    obtain ⟨p, s1, h1, h2⟩ := bind_some.1 h
    obtain ⟨s2, h3, h4⟩ := both_some.1 h1
    simp [Spec.fetches, starts, isConst_plain l h3, isConst_plain r h4]
  | .ifx c y n, s, s', h => by
    simp only [Expr.isConst] at h
    have h' : (do
        c.isConst
        y.isConst
        n.isConst : Chk Diag σ Unit) s = (.some (), s') := by
      refine Clk.opt_seq h (fun s s' hn => ?_) fun _ s s' h => ?_
      · obtain ⟨_, _, _, hn⟩ := bind_some.1 hn
        obtain ⟨_, _, _, hn⟩ := bind_some.1 hn
        obtain ⟨_, _, hn, _⟩ := bind_some.1 hn
        simp [Chk.ofOption] at hn
      refine Clk.opt_seq h (fun s s' hn => ?_) fun _ s s' h => ?_
      · obtain ⟨_, _, _, hn⟩ := bind_some.1 hn
        obtain ⟨_, _, _, hn⟩ := bind_some.1 hn
        obtain ⟨_, _, hn, _⟩ := bind_some.1 hn
        simp [Chk.ofOption] at hn
      obtain ⟨o, s1, h1, h2⟩ := bind_some.1 h
      obtain ⟨_, s2, h3, h4⟩ := bind_some.1 h2
      obtain ⟨_, s4, h5, h6⟩ := bind_some.1 h4
      cases h3
      cases h5
      cases o with
      | none => simp [Chk.ofOption] at h6
      | some u =>
        simp [Chk.ofOption] at h6
        subst h6
        unfold Chk.opt at h1
        rcases hr : (n.isConst : Chk Diag σ Unit) s with ⟨r, s1⟩
        rw [hr] at h1
        cases r <;> simp at h1
        rw [h1]
    obtain ⟨_, s1, h1, h2⟩ := bind_some.1 h'
    obtain ⟨_, s2, h3, h4⟩ := bind_some.1 h2
    simp [Spec.fetches, starts, isConst_plain c h1, isConst_plain y h3, isConst_plain n h4]
  | .tuple _, _, _, h => by simp [Expr.isConst, Chk.error] at h
  | .dummyPre _, _, _, h => by simp [Expr.isConst, Chk.error] at h
  | .later _ _ _, _, _, h => by simp [Expr.isConst, Chk.error] at h
  | .fetchPre _ _, _, _, h => by simp [Expr.isConst, Chk.error] at h
  | .fetchFby _ _ _, _, _, h => by simp [Expr.isConst, Chk.error] at h
  | .flip _ _ _, _, _, h => by simp [Expr.isConst, Chk.error] at h
  | .substep _ _ _, _, _, h => by simp [Expr.isConst, Chk.error] at h
  | .merge _ _ _, _, _, h => by simp [Expr.isConst, Chk.error] at h
  | .clock _ _ _, _, _, h => by simp [Expr.isConst, Chk.error] at h

/-! ## Larger environments -/

/-- `Γ'` and `sig'` have all of `Γ` and `sig`. -/
structure Larger (Γ Γ' : TyEnv) (sig sig' : Nat → Option Sig) : Prop where
  global : ∀ x t, Γ.global x = some t → Γ'.global x = some t
  vars : Γ'.vars = Γ.vars
  regs : ∀ i t, Γ.regs i t → Γ'.regs i t
  call : ∀ i t u, Γ.call i t u → Γ'.call i t u
  sig : ∀ i s, sig i = some s → sig' i = some s

section
variable {Γ Γ' : TyEnv} {sig sig' : Nat → Option Sig}

theorem Larger.type (h : Larger Γ Γ' sig sig') {e : Expr} {t : TyTuple} (ht : HasType Γ e t) :
    HasType Γ' e t := hasType_mono h.global h.vars h.regs h.call ht

theorem Larger.blame (h : Larger Γ Γ' sig sig') {e : Expr} {d : Diag} (hb : TypeBlame Γ sig e d)
    (hg : ∀ x, e = .global x → Γ.global x = none → Γ'.global x = none) : TypeBlame Γ' sig' e d := by
  cases hb with
  | global h1 => exact .global (hg _ rfl h1)
  | var h1 => exact .var (h.vars ▸ h1)
  | scalar h1 h2 => exact .scalar h1 (h.type h2)
  | bool h1 h2 h3 => exact .bool h1 (h.type h2) h3
  | bin h1 h2 h3 => exact .bin (h.type h1) (h.type h2) h3
  | cmp h1 h2 h3 => exact .cmp (h.type h1) (h.type h2) h3
  | un h1 h2 => exact .un (h.type h1) h2
  | sides h1 h2 h3 h4 h5 => exact .sides h1 (h.type h2) (h.type h3) h4 h5
  | call h1 h2 h3 h4 => exact .call (h.sig _ _ h1) (h.type h2) h3 h4
  | generic h1 h2 h3 h4 h5 => exact .generic (h.sig _ _ h1) (h.type h2) h3 h4 h5

theorem Larger.stmt (h : Larger Γ Γ' sig sig') {st : Stmt} {d : Diag} (hb : StmtTypeBlame Γ sig st d)
    (hg : ∀ e, ((∃ v, st = .let_ v e) ∨ st = .assert e) → ∀ x, Inside (.global x) e →
      Γ.global x = none → Γ'.global x = none) : StmtTypeBlame Γ' sig' st d := by
  cases hb with
  | source h1 h2 => exact .source h1 (h.blame h2 fun x e => hg _ (.inl ⟨_, rfl⟩) x (e ▸ h1))
  | asserted h1 h2 => exact .asserted h1 (h.blame h2 fun x e => hg _ (.inr rfl) x (e ▸ h1))
  | target h1 h2 => exact .target h1 (h.vars ▸ h2)
  | sides h1 h2 h3 h4 => exact .sides (h.vars ▸ h1) (h.type h2) h3 h4
  | assertScalar h1 => exact .assertScalar (h.type h1)
  | assertBool h1 h2 => exact .assertBool (h.type h1) h2

end

/-! ## The loop -/

/-- The constants of `consts'` are those of `consts` as far as a declaration knows. -/
def Agrees (consts consts' : String → Option TyBase) (x : San.Decl) : Prop :=
  (∀ y t, consts y = some t → consts' y = some t) ∧
    ∀ y, Mentions x (.globalVarName y) → consts y = none → consts' y = none

theorem const_tells' {σ : Type} {I : σ → Prop} {consts consts' : String → Option TyBase} {c : Const}
    (ha : Agrees consts consts' (.const c)) :
    Tells I (ConstBlame consts' c) (c.typecheck consts : Chk Diag σ Unit) fun _ => True := by
  unfold Const.typecheck
  have hi : Tells I (ConstBlame consts' c) (c.value.isConst : Chk Diag σ Unit)
      fun _ => Spec.fetches c.value = [] ∧ starts c.value = [] := by
    intro a s hs
    obtain ⟨h1, h2, -⟩ := isConst_tells c.value a s hs
    refine ⟨h1, h2.weaken ?_, fun x hx => ?_⟩
    · rintro d ⟨e, w, h1, h2, rfl⟩
      exact .notConst h1 h2
    · rcases hr : (c.value.isConst : Chk Diag σ Unit) (a, s) with ⟨r, s'⟩
      rw [hr] at hx
      cases hx
      exact isConst_plain c.value hr
  refine bind hi fun _ hplain => ?_
  have hr : Rules (constEnv consts) (fun _ => none) :=
    ⟨fun _ _ => trivial, fun _ _ _ _ _ h => by cases h⟩
  have hc : Ctx (constEnv consts) (fun _ => none) (TyCtx.fromExt consts) :=
    ⟨rfl, rfl, fun _ _ h => by simp [TyCtx.fromExt] at h, fun _ _ h => by simp [TyCtx.fromExt] at h,
      fun _ _ h => by simp [TyCtx.fromExt] at h⟩
  have hl : Larger (constEnv consts) (constEnv consts') (fun _ => none) (fun _ => none) :=
    ⟨ha.1, rfl, fun _ _ h => h, fun _ _ _ h => h, fun _ _ h => h⟩
  refine bind (local_ hc (because (expr_tells hr c.value) ?_)) fun p hp => ?_
  · rintro d ⟨e, h1, h2⟩
    refine .value h1 (hl.blame h2 ?_)
    rintro x rfl
    refine ha.2 x (.const ?_)
    rcases inside_cases h1 with h | ⟨id, f, h, -⟩ | ⟨id, f, h, -⟩
    · exact h
    · rw [hplain.1] at h; cases h
    · rw [hplain.2] at h; cases h
  obtain ⟨t, _⟩ := p
  refine bind (local_ (I' := TyUnifier.Plain) trivial (because (identical_mis _ t) ?_))
    fun _ _ => unit
  rintro d ⟨t', u', rfl, h1, h2⟩
  exact .type (hl.type hp.1) h1 h2

/-- The signatures of `sigs'` are those of `sigs` as far as a declaration knows. -/
def SigAgrees (sigs sigs' : String → Option Sig) (x : San.Decl) : Prop :=
  ∀ f, Mentions x (.funName f) → sigs' f = sigs f

theorem node_tells' {σ : Type} {I : σ → Prop} {o : TyOpts} {sigs sigs' : String → Option Sig}
    {consts consts' : String → Option TyBase} {n : Node} (hk : Kept n.stmts)
    (ha : Agrees consts consts' (.node n)) (hs : SigAgrees sigs sigs' (.node n)) :
    Tells I (NodeBlame o sigs' consts' n) (n.typecheck o sigs consts : Chk Diag σ Node)
      fun _ => True := by
  have hb : ∀ b ∈ n.blocks, sigs' b.name = sigs b.name := fun b hb => hs _ (.call hb)
  have hsig : calledSig sigs' n = calledSig sigs n := by
    funext i
    unfold calledSig
    cases h : n.blocks[i]? with
    | none => rfl
    | some b => exact hb b (List.mem_of_getElem? h)
  have hl : Larger (nodeEnv sigs consts n) (nodeEnv sigs' consts' n) (calledSig sigs n)
      (calledSig sigs' n) := by
    refine ⟨ha.1, rfl, fun _ _ h => h, ?_, fun i s h => hsig ▸ h⟩
    rintro i t u ⟨b, g, is, os, θ, h1, h2, h3⟩
    exact ⟨b, g, is, os, θ, h1, (hb b (List.mem_of_getElem? h1)).trans h2, h3⟩
  refine because (node_tells (sigs := sigs) (consts := consts)) fun d hd => ?_
  cases hd with
  | sig h => exact .sig h
  | decls h => exact .decls h
  | called h h' => exact .called h ((hb _ h).trans h')
  | types hst h =>
    exact .types hst (hl.stmt h fun e he x hx => ha.2 x (mentions_global hk hst he hx))
  | interface h h' => exact .interface h h'
  | clocks h h' h'' => exact .clocks h h' h''
  | equation h h' => exact .equation h h'
  | asserted h h' => exact .asserted h h'

/-- A message about the types of a declaration. -/
def DeclBlamed (opts : String → TyOpts) (sigs : String → Option Sig)
    (consts : String → Option TyBase) (x : San.Decl) (d : Diag) : Prop :=
  match x with
  | .const c => ConstBlame consts c d
  | .node n => NodeBlame (opts n.name) sigs consts n d
  | .extConst _ => False
  | .extNode n => ExtNodeBlame (opts n.name) n d

/-- What is known of a declaration when it is checked. -/
structure Known (sigs sigs' : String → Option Sig) (consts consts' : String → Option TyBase)
    (x : San.Decl) : Prop where
  kept : ∀ n, x = .node n → Kept n.stmts
  consts : Agrees consts consts' x
  sigs : SigAgrees sigs sigs' x

theorem constType_snoc (pre : List San.Decl) (x : San.Decl) (y : String) :
    constType (pre ++ [x]) y = (constType pre y).or (constType [x] y) := by
  simp [constType, List.findSome?_append]

theorem nodeSig_snoc (opts : String → TyOpts) (pre : List San.Decl) (x : San.Decl) (y : String) :
    nodeSig opts (pre ++ [x]) y = (nodeSig opts pre y).or (nodeSig opts [x] y) := by
  simp [nodeSig, List.findSome?_append]

/-- The context has the declarations so far. -/
def Holds (opts : String → TyOpts) (pre : List San.Decl) (p : ProgCtx) : Prop :=
  p.vars = constType pre ∧ p.funs = nodeSig opts pre

theorem addVar_holds {σ : Type} {I : σ → Prop} {P : Diag → Prop} {opts : String → TyOpts}
    {pre : List San.Decl} {p : ProgCtx} (h : Holds opts pre p) {x : San.Decl} {c : String}
    {t : TyBase} (hx : ∀ y, constType [x] y = if y = c then some t else none)
    (hf : ∀ y, nodeSig opts [x] y = none) :
    Tells I P (p.addVar c t : Chk Diag σ ProgCtx) (Holds opts (pre ++ [x])) := by
  unfold ProgCtx.addVar
  cases hp : p.vars c with
  | some _ => exact abort
  | none =>
    refine pure ⟨?_, ?_⟩
    · funext y
      simp only [constType_snoc, hx, h.1]
      split
      · rename_i e
        subst e
        rw [h.1] at hp
        simp [hp]
      · simp
    · funext y
      simp only [nodeSig_snoc, hf, h.2, Option.or_none]

theorem addFun_holds {σ : Type} {I : σ → Prop} {P : Diag → Prop} {opts : String → TyOpts}
    {pre : List San.Decl} {p : ProgCtx} (h : Holds opts pre p) {x : San.Decl} {c : String}
    {t : FunSig} (hx : ∀ y, constType [x] y = none)
    (hf : ∀ y, nodeSig opts [x] y = if y = c then some t else none) :
    Tells I P (p.addFun c t : Chk Diag σ ProgCtx) (Holds opts (pre ++ [x])) := by
  unfold ProgCtx.addFun
  cases hp : p.funs c with
  | some _ => exact abort
  | none =>
    refine pure ⟨?_, ?_⟩
    · funext y
      simp only [constType_snoc, hx, h.1, Option.or_none]
    · funext y
      simp only [nodeSig_snoc, hf, h.2]
      split
      · rename_i e
        subst e
        rw [h.2] at hp
        simp [hp]
      · simp

theorem loop_tells {σ : Type} {I : σ → Prop} {opts : String → TyOpts}
    {sigs' : String → Option Sig} {consts' : String → Option TyBase} {P : Diag → Prop} :
    (ds pre : List San.Decl) → (fatal : Bool) → (p : ProgCtx) → Holds opts pre p →
    (∀ l x r, ds = l ++ x :: r →
      Known (nodeSig opts (pre ++ l)) sigs' (constType (pre ++ l)) consts' x) →
    (∀ x ∈ ds, ∀ d, DeclBlamed opts sigs' consts' x d → P d) →
    Tells I P (progTypecheckLoop opts fatal p ds : Chk Diag σ _) fun _ => True
  | [], _, _, _, _, _, _ => by rw [progTypecheckLoop]; exact unit
  | x :: ds, pre, fatal, p, hp, hk, hP => by
    have h0 : Known p.funs sigs' p.vars consts' x := by
      have := hk [] x ds rfl
      rw [hp.1, hp.2]
      simpa using this
    have hrec : ∀ fatal p, Holds opts (pre ++ [x]) p →
        Tells I P (progTypecheckLoop opts fatal p ds : Chk Diag σ _) fun _ => True := by
      intro fatal p h
      refine loop_tells ds (pre ++ [x]) fatal p h (fun l y r e => ?_) fun y hy => hP y (by simp [hy])
      have := hk (x :: l) y r (by rw [e]; rfl)
      simpa using this
    have hP0 := hP x (by simp)
    cases x with
    | const c =>
      rw [progTypecheckLoop]
      refine bind (opt (because (const_tells' h0.consts) hP0)) fun r _ => ?_
      refine bind (addVar_holds hp (x := .const c) (fun y => ?_) fun y => rfl) fun p' hp' => ?_
      · by_cases h : c.name = y
        · subst h; simp [constType]
        · simp [constType, h, Ne.symm h]
      refine bind (hrec _ p' hp') fun _ _ => unit
    | extConst c =>
      rw [progTypecheckLoop]
      refine bind (addVar_holds hp (x := .extConst c) (fun y => ?_) fun y => rfl) fun p' hp' => ?_
      · by_cases h : c.name = y
        · subst h; simp [constType]
        · simp [constType, h, Ne.symm h]
      refine bind (hrec _ p' hp') fun _ _ => unit
    | node n =>
      rw [progTypecheckLoop]
      refine bind (opt (because (node_tells' (h0.kept n rfl) h0.consts h0.sigs) hP0)) fun r _ => ?_
      refine bind (addFun_holds hp (x := .node n) (fun y => rfl) fun y => ?_) fun p' hp' => ?_
      · by_cases h : n.name = y
        · subst h; simp [nodeSig, sigOf]
        · simp [nodeSig, h, Ne.symm h]
      refine bind (hrec _ p' hp') fun _ _ => unit
    | extNode n =>
      rw [progTypecheckLoop]
      refine bind (opt (because extNode_tells hP0)) fun r _ => ?_
      refine bind (addFun_holds hp (x := .extNode n) (fun y => rfl) fun y => ?_) fun p' hp' => ?_
      · by_cases h : n.name = y
        · subst h; simp [nodeSig, sigOf]
        · simp [nodeSig, h, Ne.symm h]
      refine bind (hrec _ p' hp') fun _ _ => unit

theorem progTypecheck_tells {σ : Type} {I : σ → Prop} {opts : String → TyOpts}
    {sigs' : String → Option Sig} {consts' : String → Option TyBase} {P : Diag → Prop}
    {ds : List San.Decl} (hk : ∀ l x r, ds = l ++ x :: r →
      Known (nodeSig opts l) sigs' (constType l) consts' x)
    (hP : ∀ x ∈ ds, ∀ d, DeclBlamed opts sigs' consts' x d → P d) :
    Tells I P (progTypecheck opts ds : Chk Diag σ _) fun _ => True := by
  unfold progTypecheck
  refine bind (loop_tells ds [] false _ ⟨rfl, rfl⟩ (by simpa using hk) hP) fun r _ => ?_
  obtain ⟨fatal, ds'⟩ := r
  refine bind (Q := fun _ => True) ?_ fun _ _ => unit
  intro a s hs
  cases fatal <;> exact ⟨hs, .refl a, fun _ _ => trivial⟩

/-! ## From the order of the scheduler to that of the program -/

theorem findSome_iff {α β : Type} {g : α → Option β} {l : List α} {y : β}
    (hu : ∀ a ∈ l, ∀ b ∈ l, ∀ y z, g a = some y → g b = some z → y = z) :
    l.findSome? g = some y ↔ ∃ a ∈ l, g a = some y := by
  constructor
  · exact List.exists_of_findSome?_eq_some
  · rintro ⟨a, ha, h⟩
    cases hf : l.findSome? g with
    | none => rw [List.findSome?_eq_none_iff.1 hf a ha] at h; cases h
    | some z =>
      obtain ⟨b, hb, h'⟩ := List.exists_of_findSome?_eq_some hf
      rw [hu b hb a ha z y h' h]

theorem findSome_perm {α β : Type} {g : α → Option β} {l l' : List α} (hp : l.Perm l')
    (hu : ∀ a ∈ l, ∀ b ∈ l, ∀ y z, g a = some y → g b = some z → y = z) :
    l.findSome? g = l'.findSome? g := by
  refine Option.ext fun y => ?_
  rw [findSome_iff hu, findSome_iff fun a ha b hb => hu a (hp.mem_iff.2 ha) b (hp.mem_iff.2 hb)]
  exact ⟨fun ⟨a, h, h'⟩ => ⟨a, hp.mem_iff.1 h, h'⟩, fun ⟨a, h, h'⟩ => ⟨a, hp.mem_iff.2 h, h'⟩⟩

theorem or_nothing {α : Type} (o : Option α) : o = match o with
    | some b => some b
    | none => none := by cases o <;> rfl

theorem constType_find (ds : List San.Decl) (x : String) :
    constType ds x = ds.findSome? fun d => constType [d] x := by
  unfold constType
  congr 1
  funext d
  simp only [List.findSome?_cons, List.findSome?_nil]
  exact or_nothing _

theorem nodeSig_find (opts : String → TyOpts) (ds : List San.Decl) (x : String) :
    nodeSig opts ds x = ds.findSome? fun d => nodeSig opts [d] x := by
  unfold nodeSig
  congr 1
  funext d
  simp only [List.findSome?_cons, List.findSome?_nil]
  exact or_nothing _

theorem introduces_const {d : San.Decl} {x : String} {t : TyBase} (h : constType [d] x = some t) :
    Introduces d (.globalVarName x) := by
  cases d with
  | const c =>
    simp only [constType, List.findSome?_cons, List.findSome?_nil] at h
    by_cases hx : c.name = x
    · subst hx; exact .const
    · simp [hx] at h
  | extConst c =>
    simp only [constType, List.findSome?_cons, List.findSome?_nil] at h
    by_cases hx : c.name = x
    · subst hx; exact .extConst
    · simp [hx] at h
  | node n => simp [constType] at h
  | extNode n => simp [constType] at h

theorem introduces_node {opts : String → TyOpts} {d : San.Decl} {x : String} {t : Sig}
    (h : nodeSig opts [d] x = some t) : Introduces d (.funName x) := by
  cases d with
  | node c =>
    simp only [nodeSig, List.findSome?_cons, List.findSome?_nil] at h
    by_cases hx : c.name = x
    · subst hx; exact .node
    · simp [hx] at h
  | extNode c =>
    simp only [nodeSig, List.findSome?_cons, List.findSome?_nil] at h
    by_cases hx : c.name = x
    · subst hx; exact .extNode
    · simp [hx] at h
  | const n => simp [nodeSig] at h
  | extConst n => simp [nodeSig] at h

/-- A declaration does what it did before its statements were reordered. -/
theorem causality_same {d d' : San.Decl} (h : d.causality = .ok d') :
    (∃ n n', d = .node n ∧ d' = .node n' ∧ n'.stmts.Perm n.stmts ∧ { n' with stmts := n.stmts } = n) ∨
      d = d' := by
  cases d with
  | node n =>
    simp only [San.Decl.causality] at h
    cases hn : n.causality with
    | error e => rw [hn] at h; cases h
    | ok n' =>
      rw [hn] at h
      cases h
      exact .inl ⟨n, n', rfl, rfl, Props.C22_node hn⟩
  | const c => cases h; exact .inr rfl
  | extConst c => cases h; exact .inr rfl
  | extNode c => cases h; exact .inr rfl

theorem causality_maps {opts : String → TyOpts} {d d' : San.Decl} (h : d.causality = .ok d') :
    (∀ x, constType [d'] x = constType [d] x) ∧ ∀ x, nodeSig opts [d'] x = nodeSig opts [d] x := by
  rcases causality_same h with ⟨n, n', rfl, rfl, -, h⟩ | rfl
  · refine ⟨fun x => rfl, fun x => ?_⟩
    rw [← h]
    rfl
  · exact ⟨fun _ => rfl, fun _ => rfl⟩

section
variable {decls s : List San.Decl}

theorem once_introduced (h : progCausality decls = .ok s) {a b : San.Decl} {r : Reference}
    (ha : a ∈ s) (hb : b ∈ s) (hra : Introduces a r) (hrb : Introduces b r) : a = b := by
  obtain ⟨l₁, l₂, e⟩ := List.append_of_mem ha
  have hb' := hb
  rw [e, List.mem_append, List.mem_cons] at hb'
  rcases hb' with hb' | hb' | hb'
  · exact absurd hrb ((Props.C24_program h).2 l₁ a l₂ r e hra b (by simp [hb']))
  · exact hb'.symm
  · exact absurd hrb ((Props.C24_program h).2 l₁ a l₂ r e hra b (by simp [hb']))

theorem scheduled_consts (h : progCausality decls = .ok s) : constType s = constType decls := by
  obtain ⟨ds, hp, hf⟩ := Props.C22_program h
  funext x
  have h1 : constType s x = constType ds x := by
    rw [constType_find, constType_find ds]
    refine findSome_perm hp fun a ha b hb y z hy hz => ?_
    have := once_introduced h ha hb (introduces_const hy) (introduces_const hz)
    subst this
    rw [hy] at hz
    exact Option.some.inj hz
  rw [h1, constType_find, constType_find decls]
  clear h1 hp h
  induction hf with
  | nil => rfl
  | cons hd _ ih =>
    simp only [List.findSome?_cons, ih, (causality_maps (opts := fun _ => ⟨false, false, []⟩) hd).1]

theorem scheduled_sigs (h : progCausality decls = .ok s) (opts : String → TyOpts) :
    nodeSig opts s = nodeSig opts decls := by
  obtain ⟨ds, hp, hf⟩ := Props.C22_program h
  funext x
  have h1 : nodeSig opts s x = nodeSig opts ds x := by
    rw [nodeSig_find, nodeSig_find opts ds]
    refine findSome_perm hp fun a ha b hb y z hy hz => ?_
    have := once_introduced h ha hb (introduces_node hy) (introduces_node hz)
    subst this
    rw [hy] at hz
    exact Option.some.inj hz
  rw [h1, nodeSig_find, nodeSig_find opts decls]
  clear h1 hp h
  induction hf with
  | nil => rfl
  | cons hd _ ih =>
    simp only [List.findSome?_cons, ih, (causality_maps hd).2]

theorem scheduled_mem (h : progCausality decls = .ok s) {x : San.Decl} (hx : x ∈ s) :
    ∃ y ∈ decls, y.causality = .ok x := by
  obtain ⟨ds, hp, hf⟩ := Props.C22_program h
  have hx' := hp.mem_iff.1 hx
  clear hp h
  induction hf with
  | nil => cases hx'
  | cons hd _ ih =>
    rcases List.mem_cons.1 hx' with rfl | hx'
    · exact ⟨_, by simp, hd⟩
    · obtain ⟨y, hy, h⟩ := ih hx'
      exact ⟨y, by simp [hy], h⟩

theorem prefix_consts (h : progCausality decls = .ok s) {l r : List San.Decl} {x : San.Decl}
    (e : s = l ++ x :: r) : Agrees (constType l) (constType decls) x := by
  rw [← scheduled_consts h]
  refine ⟨fun y t hy => ?_, fun y hm hy => ?_⟩
  · rw [e]
    unfold constType at hy ⊢
    rw [List.findSome?_append, hy]
    rfl
  · cases hs : constType s y with
    | none => rfl
    | some t =>
      rw [constType_find] at hs
      obtain ⟨d, hd, ht⟩ := List.exists_of_findSome?_eq_some hs
      have := Props.C23_program h e hm hd (introduces_const ht)
      rw [constType_find, List.findSome?_eq_none_iff] at hy
      rw [hy d this] at ht
      cases ht

theorem prefix_sigs (h : progCausality decls = .ok s) (opts : String → TyOpts)
    {l r : List San.Decl} {x : San.Decl} (e : s = l ++ x :: r) :
    SigAgrees (nodeSig opts l) (nodeSig opts decls) x := by
  rw [← scheduled_sigs h]
  intro f hm
  cases hl : nodeSig opts l f with
  | some t =>
    rw [e]
    unfold nodeSig at hl ⊢
    rw [List.findSome?_append, hl]
    rfl
  | none =>
    cases hs : nodeSig opts s f with
    | none => rfl
    | some t =>
      rw [nodeSig_find] at hs
      obtain ⟨d, hd, ht⟩ := List.exists_of_findSome?_eq_some hs
      have := Props.C23_program h e hm hd (introduces_node ht)
      rw [nodeSig_find, List.findSome?_eq_none_iff] at hl
      rw [hl d this] at ht
      cases ht

/-- Messages do not depend on the order of statements. -/
theorem nodeBlame_reorder {o : TyOpts} {sigs : String → Option Sig}
    {consts : String → Option TyBase} {n n' : Node} {d : Diag} (hp : n'.stmts.Perm n.stmts)
    (he : { n' with stmts := n.stmts } = n) (h : NodeBlame o sigs consts n' d) :
    NodeBlame o sigs consts n d := by
  have hi : n'.inputs = n.inputs := by rw [← he]
  have ho : n'.outputs = n.outputs := by rw [← he]
  have hl : n'.locals = n.locals := by rw [← he]
  have hb : n'.blocks = n.blocks := by rw [← he]
  have henv : nodeEnv sigs consts n' = nodeEnv sigs consts n := by
    unfold nodeEnv; rw [hi, ho, hl, hb]
  have hsig : calledSig sigs n' = calledSig sigs n := by
    funext i; unfold calledSig; rw [hb]
  cases h with
  | sig h => rw [hi, ho, hl] at h; exact .sig h
  | decls h => rw [hi, ho, hl] at h; exact .decls h
  | called h h' => rw [hb] at h; exact .called h h'
  | types hst h => rw [henv, hsig] at h; exact .types (hp.mem_iff.1 hst) h
  | interface h h' => rw [hi, ho] at h; exact .interface h h'
  | clocks hK hst h => rw [hi, ho, hl] at hK; exact .clocks hK (hp.mem_iff.1 hst) h
  | equation h h' => exact .equation (hp.mem_iff.1 h) h'
  | asserted h h' => exact .asserted (hp.mem_iff.1 h) h'

/-- A message about a scheduled declaration is one about the program. -/
theorem blame_scheduled (h : progCausality decls = .ok s) {opts : String → TyOpts} {x : San.Decl}
    (hx : x ∈ s) {d : Diag} (hd : DeclBlamed opts (nodeSig opts decls) (constType decls) x d) :
    Blame ⟨decls, opts⟩ d := by
  obtain ⟨y, hy, hc⟩ := scheduled_mem h hx
  rcases causality_same hc with ⟨n, n', rfl, rfl, hp, he⟩ | rfl
  · have hn : n'.name = n.name := by rw [← he]
    refine .node hy (nodeBlame_reorder hp he ?_)
    simpa only [DeclBlamed, hn] using hd
  · cases y with
    | const c => exact .const hy hd
    | node n => exact .node hy hd
    | extConst c => exact hd.elim
    | extNode n => exact .extNode hy hd

theorem typecheck_blame {σ : Type} {I : σ → Prop} (h : progCausality decls = .ok s)
    (opts : String → TyOpts) (hk : ∀ n, .node n ∈ decls → Kept n.stmts) :
    Tells I (Blame ⟨decls, opts⟩) (progTypecheck opts s : Chk Diag σ _) fun _ => True := by
  refine progTypecheck_tells (sigs' := nodeSig opts decls) (consts' := constType decls)
    (fun l x r e => ⟨?_, prefix_consts h e, prefix_sigs h opts e⟩) fun x hx d hd => blame_scheduled h hx hd
  rintro n rfl
  obtain ⟨y, hy, hc⟩ := scheduled_mem h (x := .node n) (by rw [e]; simp)
  rcases causality_same hc with ⟨n₁, n', rfl, e', hp, -⟩ | rfl
  · cases e'
    exact (hk n₁ hy).perm hp
  · exact hk n hy

end

end Chandeliers.Tell
