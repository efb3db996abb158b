import Verif.Lemmas.Presence
import Verif.Lemmas.Ready
import Verif.Lemmas.StreamTyping
import Verif.Lemmas.LinkInd
import Verif.Lemmas.TypeMono
import Verif.Props.Compile
import Verif.Spec.Program

/-! # When the variables of a node are present -/

set_option autoImplicit false
set_option linter.unusedSectionVars false

namespace Chandeliers.Pres
open Chandeliers.San Chandeliers.Spec Chandeliers.Syn Chandeliers.Den Chandeliers.Err
open Chandeliers.Err.Chk Chandeliers.Props

/-! ## Translation -/

theorem deep_compose {n : Nat} {op : LOp} {x y : Expr} (hx : Deep n x) (hy : Deep n y) :
    Deep n (op.compose x y) := by
  cases op <;> exact ⟨hx, hy⟩

theorem deep_paren {n : Nat} {xs : List Expr} {b : Bool} (h : DeepList n xs) :
    Deep n (parenthesise xs b) := by
  unfold parenthesise
  split
  · exact h.1
  · exact h

mutual
theorem translate_deep : ∀ (e : Src) (v : View) (c : ExprCtx) (x : Expr) (c' : ExprCtx),
    e.translate v c = .ok (x, c') → v.useRegisters = false → Deep v.depth x
  | .lit l, v, c, x, c', h, hu => by
    unfold Src.translate Lit.translate at h
    split at h
    · cases tr_pure_ok.1 h; trivial
    · split at h
      · cases tr_pure_ok.1 h; trivial
      · exact (tr_throw.1 h).elim
    · cases tr_pure_ok.1 h; trivial
    · exact (tr_throw.1 h).elim
    · exact (tr_throw.1 h).elim
  | .var y, v, c, x, c', h, hu => by
    unfold Src.translate at h
    split at h
    · cases tr_pure_ok.1 h; exact rfl
    · cases tr_pure_ok.1 h; trivial
  | .paren es b, v, c, x, c', h, hu => by
    unfold Src.translate at h
    obtain ⟨xs, c₁, h1, h2⟩ := tr_bind_ok.1 h
    cases tr_pure_ok.1 h2
    exact deep_paren (translate_deepList es v c xs c' h1 hu)
  | .left first rest, v, c, x, c', h, hu => by
    unfold Src.translate at h
    obtain ⟨acc, c₁, h1, h2⟩ := tr_bind_ok.1 h
    exact translate_deepLeft rest v c₁ acc x c' h2 hu (translate_deep first v c acc c₁ h1 hu)
  | .cmp first rest, v, c, x, c', h, hu => by
    unfold Src.translate at h
    obtain ⟨acc, c₁, h1, h2⟩ := tr_bind_ok.1 h
    exact translate_deepCmp rest v c₁ acc x c' h2 hu (translate_deep first v c acc c₁ h1 hu)
  | .fby first rest, v, c, x, c', h, hu => by
    unfold Src.translate at h
    obtain ⟨acc, c₁, h1, h⟩ := tr_bind_ok.1 h
    obtain ⟨before, c₂, h2, h⟩ := tr_bind_ok.1 h
    have e1 := translate_deepFby rest v 1 c acc c₁ h1 hu
    rw [if_neg (by simp [hu])] at h2
    have e2 := translate_deep first (v.bump 0) c₁ before c₂ h2 hu
    cases acc with
    | none => cases tr_pure_ok.1 h; exact e2
    | some after =>
      simp only [mkFby, hu, Bool.false_eq_true, if_false, Except.ok.injEq, Prod.mk.injEq] at h
      obtain ⟨rfl, rfl⟩ := h
      exact ⟨⟨_, e2⟩, _, e1 _ rfl⟩
  | .arrow first rest, v, c, x, c', h, hu => by
    unfold Src.translate at h
    obtain ⟨acc, c₁, h1, h⟩ := tr_bind_ok.1 h
    obtain ⟨before, c₂, h2, h⟩ := tr_bind_ok.1 h
    have e1 := translate_deepThen rest v 1 c acc c₁ h1 hu
    have e2 := translate_deep first v c₁ before c₂ h2 hu
    cases acc with
    | none => cases tr_pure_ok.1 h; exact e2
    | some after =>
      simp only [mkThen, hu, Bool.false_eq_true, if_false, Except.ok.injEq, Prod.mk.injEq] at h
      obtain ⟨rfl, rfl⟩ := h
      exact ⟨⟨_, e2⟩, _, e1 _ rfl⟩
  | .ifx b y z, v, c, x, c', h, hu => by
    unfold Src.translate at h
    obtain ⟨b', c₁, h1, h⟩ := tr_bind_ok.1 h
    obtain ⟨y', c₂, h2, h⟩ := tr_bind_ok.1 h
    obtain ⟨z', c₃, h3, h⟩ := tr_bind_ok.1 h
    cases tr_pure_ok.1 h
    exact ⟨translate_deep b v c b' c₁ h1 hu, translate_deep y v c₁ y' c₂ h2 hu,
      translate_deep z v c₂ z' c' h3 hu⟩
  | .merge b y z, v, c, x, c', h, hu => by
    unfold Src.translate at h
    obtain ⟨b', c₁, h1, h⟩ := tr_bind_ok.1 h
    obtain ⟨y', c₂, h2, h⟩ := tr_bind_ok.1 h
    obtain ⟨z', c₃, h3, h⟩ := tr_bind_ok.1 h
    cases tr_pure_ok.1 h
    exact ⟨translate_deep b v c b' c₁ h1 hu, translate_deep y v c₁ y' c₂ h2 hu,
      translate_deep z v c₂ z' c' h3 hu⟩
  | .call f es b, v, c, x, c', h, hu => by
    unfold Src.translate at h
    obtain ⟨xs, c₁, h1, h2⟩ := tr_bind_ok.1 h
    simp only [mkCall, Except.ok.injEq, Prod.mk.injEq] at h2
    obtain ⟨rfl, rfl⟩ := h2
    exact deep_paren (translate_deepList es v c xs c₁ h1 hu)
  | .pre e, v, c, x, c', h, hu => by
    unfold Src.translate at h
    rw [if_neg (by simp [hu])] at h
    obtain ⟨a, c₁, h1, h⟩ := tr_bind_ok.1 h
    cases tr_pure_ok.1 h
    exact translate_deep e (v.bump 1) c a c' h1 hu
  | .neg e, v, c, x, c', h, hu => by
    unfold Src.translate at h
    obtain ⟨a, c₁, h1, h⟩ := tr_bind_ok.1 h
    cases tr_pure_ok.1 h
    exact translate_deep e v c a c' h1 hu
  | .not e, v, c, x, c', h, hu => by
    unfold Src.translate at h
    obtain ⟨a, c₁, h1, h⟩ := tr_bind_ok.1 h
    cases tr_pure_ok.1 h
    exact translate_deep e v c a c' h1 hu
theorem translate_deepList : ∀ (es : List Src) (v : View) (c : ExprCtx) (xs : List Expr)
    (c' : ExprCtx), Src.translateList v es c = .ok (xs, c') → v.useRegisters = false →
    DeepList v.depth xs
  | [], v, c, xs, c', h, hu => by
    unfold Src.translateList at h
    cases tr_pure_ok.1 h
    trivial
  | e :: es, v, c, xs, c', h, hu => by
    unfold Src.translateList at h
    obtain ⟨x, c₁, h1, h⟩ := tr_bind_ok.1 h
    obtain ⟨ys, c₂, h2, h⟩ := tr_bind_ok.1 h
    cases tr_pure_ok.1 h
    exact ⟨translate_deep e v c x c₁ h1 hu, translate_deepList es v c₁ ys c' h2 hu⟩
theorem translate_deepLeft : ∀ (rest : List (LOp × Src)) (v : View) (c : ExprCtx) (acc : Expr)
    (x : Expr) (c' : ExprCtx), Src.translateLeft v acc rest c = .ok (x, c') →
    v.useRegisters = false → Deep v.depth acc → Deep v.depth x
  | [], v, c, acc, x, c', h, hu, ha => by
    unfold Src.translateLeft at h
    cases tr_pure_ok.1 h
    exact ha
  | (op, e) :: rest, v, c, acc, x, c', h, hu, ha => by
    unfold Src.translateLeft at h
    obtain ⟨y, c₁, h1, h⟩ := tr_bind_ok.1 h
    exact translate_deepLeft rest v c₁ _ x c' h hu
      (deep_compose ha (translate_deep e v c y c₁ h1 hu))
theorem translate_deepCmp : ∀ (rest : List (CmpOp × Src)) (v : View) (c : ExprCtx) (acc : Expr)
    (x : Expr) (c' : ExprCtx), Src.translateCmp v acc rest c = .ok (x, c') →
    v.useRegisters = false → Deep v.depth acc → Deep v.depth x
  | [], v, c, acc, x, c', h, hu, ha => by
    unfold Src.translateCmp at h
    cases tr_pure_ok.1 h
    exact ha
  | [(op, e)], v, c, acc, x, c', h, hu, ha => by
    unfold Src.translateCmp at h
    obtain ⟨y, c₁, h1, h⟩ := tr_bind_ok.1 h
    cases tr_pure_ok.1 h
    exact ⟨ha, translate_deep e v c y c' h1 hu⟩
  | (op, e) :: (op', e') :: rest, v, c, acc, x, c', h, hu, ha => by
    unfold Src.translateCmp at h
    obtain ⟨_, c₁, h1, h⟩ := tr_bind_ok.1 h
    obtain ⟨_, c₂, h2, h⟩ := tr_bind_ok.1 h
    exact (tr_throw.1 h).elim
theorem translate_deepFby : ∀ (es : List Src) (v : View) (i : Nat) (c : ExprCtx) (o : Option Expr)
    (c' : ExprCtx), Src.translateFby v i es c = .ok (o, c') → v.useRegisters = false →
    ∀ x, o = some x → Deep (v.depth + i) x
  | [], v, i, c, o, c', h, hu, x, hx => by
    unfold Src.translateFby at h
    cases tr_pure_ok.1 h
    cases hx
  | e :: es, v, i, c, o, c', h, hu, x, hx => by
    unfold Src.translateFby at h
    obtain ⟨acc, c₁, h1, h⟩ := tr_bind_ok.1 h
    obtain ⟨before, c₂, h2, h⟩ := tr_bind_ok.1 h
    have e1 := translate_deepFby es v (i + 1) c acc c₁ h1 hu
    rw [if_neg (by simp [hu])] at h2
    have e2 := translate_deep e (v.bump i) c₁ before c₂ h2 hu
    cases acc with
    | none =>
      cases tr_pure_ok.1 h
      cases hx
      exact e2
    | some after =>
      obtain ⟨y, c₃, h3, h⟩ := tr_bind_ok.1 h
      cases tr_pure_ok.1 h
      simp only [mkFby, hu, Bool.false_eq_true, if_false, Except.ok.injEq, Prod.mk.injEq] at h3
      obtain ⟨rfl, rfl⟩ := h3
      cases hx
      exact ⟨⟨_, e2⟩, _, e1 _ rfl⟩
theorem translate_deepThen : ∀ (es : List Src) (v : View) (i : Nat) (c : ExprCtx) (o : Option Expr)
    (c' : ExprCtx), Src.translateThen v i es c = .ok (o, c') → v.useRegisters = false →
    ∀ x, o = some x → Deep v.depth x
  | [], v, i, c, o, c', h, hu, x, hx => by
    unfold Src.translateThen at h
    cases tr_pure_ok.1 h
    cases hx
  | e :: es, v, i, c, o, c', h, hu, x, hx => by
    unfold Src.translateThen at h
    obtain ⟨acc, c₁, h1, h⟩ := tr_bind_ok.1 h
    obtain ⟨before, c₂, h2, h⟩ := tr_bind_ok.1 h
    have e1 := translate_deepThen es v (i + 1) c acc c₁ h1 hu
    have e2 := translate_deep e v c₁ before c₂ h2 hu
    cases acc with
    | none =>
      cases tr_pure_ok.1 h
      cases hx
      exact e2
    | some after =>
      obtain ⟨y, c₃, h3, h⟩ := tr_bind_ok.1 h
      cases tr_pure_ok.1 h
      simp only [mkThen, hu, Bool.false_eq_true, if_false, Except.ok.injEq, Prod.mk.injEq] at h3
      obtain ⟨rfl, rfl⟩ := h3
      cases hx
      exact ⟨⟨_, e2⟩, _, e1 _ rfl⟩
end

/-- The statements of a node of the default mode. -/
def Plain : Stmt → Prop
  | .let_ _ e => Deep 0 e
  | .assert e => Deep 0 e
  | _ => False

theorem translateStmts_plain {v : View} (hu : v.useRegisters = false) (hd : v.depth = 0) :
    ∀ {sts : List SrcStmt} {c : ExprCtx} {r : Unit × ExprCtx}, translateStmts v sts c = .ok r →
    (∀ st ∈ c.stmts, Plain st) → ∀ st ∈ r.2.stmts, Plain st
  | [], c, r, h, hc => by
    unfold translateStmts at h
    cases tr_pure_ok.1 h
    exact hc
  | st :: sts, c, r, h, hc => by
    unfold translateStmts at h
    obtain ⟨_, c₁, h1, h⟩ := tr_bind_ok.1 h
    refine translateStmts_plain hu hd h ?_
    have keep : ∀ {e : Src} {x : Expr} {c₂ : ExprCtx}, e.translate v c = .ok (x, c₂) →
        c₂.stmts = c.stmts := by
      intro e x c₂ he
      obtain ⟨n, hn⟩ := fresh_translate e v c x c₂ he
      rw [hn.stmts, (hn.plain hu).1]
      simp
    cases st with
    | assert e =>
      obtain ⟨x, c₂, h2, h3⟩ := tr_bind_ok.1 h1
      cases h3
      intro st hst
      rcases List.mem_append.1 hst with hst | hst
      · rw [keep h2] at hst; exact hc st hst
      · cases List.mem_singleton.1 hst
        have := translate_deep e v c x c₂ h2 hu
        rw [hd] at this
        exact this
    | def_ p e =>
      obtain ⟨x, c₂, h2, h3⟩ := tr_bind_ok.1 h1
      cases h3
      intro st hst
      rcases List.mem_append.1 hst with hst | hst
      · rw [keep h2] at hst; exact hc st hst
      · cases List.mem_singleton.1 hst
        have := translate_deep e v c x c₂ h2 hu
        rw [hd] at this
        exact this

/-! ## Positivity -/

/-- A check that succeeds whatever the state, or fails whatever the state. -/
def Tests (m : Chk Diag Depths Unit) (P : Prop) : Prop :=
  ∀ s, (∃ s', m s = (.some (), s')) ↔ P

theorem Tests.pure : Tests (Pure.pure ()) True := fun s => ⟨fun _ => trivial, fun _ => ⟨s, rfl⟩⟩

theorem Tests.bind {m n : Chk Diag Depths Unit} {P Q : Prop} (h : Tests m P) (h' : Tests n Q) :
    Tests (do m; n) (P ∧ Q) := by
  intro s
  constructor
  · rintro ⟨s', hs⟩
    obtain ⟨⟨⟩, s1, h1, h2⟩ := bind_some.1 hs
    exact ⟨(h s).1 ⟨_, h1⟩, (h' s1).1 ⟨_, h2⟩⟩
  · rintro ⟨p, q⟩
    obtain ⟨s1, h1⟩ := (h s).2 p
    obtain ⟨s2, h2⟩ := (h' s1).2 q
    exact ⟨s2, bind_some.2 ⟨(), s1, h1, h2⟩⟩

mutual
theorem checkPositive_tests : (e : Expr) → (c : Nat) → Tests (e.checkPositive c) (ReadsWithin c e)
  | .lit _, _ => Tests.pure
  | .global _, _ => Tests.pure
  | .var x d, c => by
    intro s
    simp only [Expr.checkPositive, ReadsWithin]
    by_cases h : d ≤ c
    · rw [if_pos (by simpa [allows] using h)]
      exact ⟨fun _ => h, fun _ => ⟨_, rfl⟩⟩
    · rw [if_neg (by simpa [allows] using h)]
      refine ⟨?_, fun h' => absurd h' h⟩
      rintro ⟨s', h'⟩
      cases h'
  | .tuple es, c => checkPositiveList_tests es c
  | .dummyPre e, c => checkPositive_tests e c
  | .dummyParen e, c => checkPositive_tests e c
  | .un _ e, c => checkPositive_tests e c
  | .bin _ l r, c => (checkPositive_tests l c).bind (checkPositive_tests r c)
  | .cmp _ l r, c => (checkPositive_tests l c).bind (checkPositive_tests r c)
  | .ifx b y n, c => (checkPositive_tests b c).bind ((checkPositive_tests y c).bind
      (checkPositive_tests n c))
  | .merge b y n, c => (checkPositive_tests b c).bind ((checkPositive_tests y c).bind
      (checkPositive_tests n c))
  | .later d b a, c => (checkPositive_tests b c).bind (checkPositive_tests a (d + 1))
  | .flip _ i k, c => (checkPositive_tests i c).bind (checkPositive_tests k (c + 1))
  | .substep _ _ a, c => checkPositive_tests a c
  | .clock _ e a, c => (checkPositive_tests a c).bind (checkPositive_tests e c)
  | .fetchFby _ i f, c => (checkPositive_tests i c).bind (checkPositive_tests f c)
  | .fetchPre _ f, c => by
    intro s
    simp only [Expr.checkPositive, ReadsWithin]
    by_cases h : 0 < c
    · rw [if_pos h]
      rw [checkPositive_tests f (c - 1) s]
      exact ⟨fun h' => ⟨h, h'⟩, fun h' => h'.2⟩
    · rw [if_neg h]
      refine ⟨?_, fun h' => absurd h'.1 h⟩
      rintro ⟨s', h'⟩
      cases h'
theorem checkPositiveList_tests : (es : List Expr) → (c : Nat) →
    Tests (Expr.checkPositiveList es c) (ReadWithin c es)
  | [], _ => Tests.pure
  | e :: es, c => (checkPositive_tests e c).bind (checkPositiveList_tests es c)
end

/-- The reads of a statement. -/
def StmtWithin : Stmt → Prop
  | .let_ _ e => ReadsWithin 0 e
  | .assert e => ReadsWithin 0 e
  | _ => True

theorem checkPositiveAll_tests : (sts : List Stmt) →
    Tests (checkPositiveAll sts) (∀ st ∈ sts, StmtWithin st)
  | [] => fun s => ⟨fun _ => by simp, fun _ => ⟨s, rfl⟩⟩
  | st :: sts => by
    have h : Tests st.checkPositive (StmtWithin st) := by
      cases st
      · exact checkPositive_tests _ 0
      · exact checkPositive_tests _ 0
      · exact Tests.pure
      · exact Tests.pure
    intro s
    rw [List.forall_mem_cons]
    exact h.bind (checkPositiveAll_tests sts) s

theorem makePositive_within {σ : Type} {n n' : Node} {s s' : EAccum Diag × σ}
    (h : n.makePositive s = (.some n', s')) : ∀ st ∈ n'.stmts, StmtWithin st := by
  obtain ⟨m, -, -, e⟩ := makePositive_some h
  have : n'.stmts = n.stmts := by rw [e]; rfl
  rw [this]
  obtain ⟨⟨⟨⟩, m⟩, s1, h1, h2⟩ := bind_some.1 h
  obtain ⟨a, t⟩ := s
  unfold San.Chk.local_ at h1
  simp only at h1
  rcases hm : checkPositiveAll n.stmts (a, fun _ => none) with ⟨r, a', m'⟩
  rw [hm] at h1
  cases r <;> cases h1
  exact (checkPositiveAll_tests n.stmts _).1 ⟨_, hm⟩

theorem passes_within {b : Bool} {o : TyOpts} {sigs : String → Option Sig}
    {consts : String → Option TyBase} {src : SrcNode} {n : Node}
    (h : Passes b o sigs consts src n) : ∀ st ∈ n.stmts, StmtWithin st := by
  obtain ⟨n₁, n₂, n₃, n₄, h1, h2, h3, h4, ⟨s3, s4, h5⟩⟩ := h
  exact makePositive_within h5

theorem passes_plain {o : TyOpts} {sigs : String → Option Sig}
    {consts : String → Option TyBase} {src : SrcNode} {n : Node}
    (h : Passes false o sigs consts src n) : ∀ st ∈ n.stmts, Plain st := by
  obtain ⟨n₁, n₂, c, ctx, clk, m, K, hf⟩ := passes_final h
  have hc : ∀ st ∈ c.stmts, Plain st :=
    translateStmts_plain (v := src.view false) rfl rfl hf.stmts (fun st hst => by cases hst)
  intro st hst
  rw [hf.final_stmts] at hst
  obtain ⟨st', h1, rfl⟩ := List.mem_map.1 hst
  have h2 := hc st' (hf.perm.mem_iff.1 h1)
  cases st' <;> exact h2

/-! ## Equations -/

section
variable {A : Arith} {glob : Globals} {ms : List Machine} {F : Flow} {n : Node}

theorem presentOn_same {X : String → Nat → Nillable Scalar} {k k' : Clk} {t : Nat} {v : Value}
    (h : SameClk k k') (hp : PresentOn X k t v) : PresentOn X k' t v :=
  presentAt_zero.1 ((presentAt_zero.2 hp).same h)

theorem full_of_tupleValue : {vs : List Value} → Full (tupleValue vs) → ∀ v ∈ vs, Full v
  | [], _ => by simp
  | [v], h => by
    intro w hw
    cases List.mem_singleton.1 hw
    exact h
  | v :: v' :: vs, h => by
    obtain ⟨h1, h2⟩ := full_tup.1 h
    intro w hw
    rcases List.mem_cons.1 hw with rfl | hw
    · exact h1
    · exact h2 w hw

mutual
theorem target_present {K : String → Option Clk} {t : Nat} : {p : VarTuple} → {k : Clk} →
    {v : Value} → TargetClock K p k → PresentOn F.X k t v → Assigns (F.X · t) p v →
    ∀ x ∈ p.vars, VarOk F.X K x t
  | .single y, k, .leaf v, hk, hv, ha, x, hx => by
    simp only [VarTuple.vars, List.mem_singleton] at hx
    subst hx
    cases hk with
    | single hk =>
    intro k' hk'
    rw [hk] at hk'
    cases hk'
    simp only [Assigns] at ha
    rw [ha]
    exact hv
  | .single y, k, .tup h t, hk, hv, ha, x, hx => ha.elim
  | .multiple [], k, v, hk, hv, ha, x, hx => by simp [VarTuple.vars, VarTuple.varsList] at hx
  | .multiple [p], k, v, hk, hv, ha, x, hx => by
    cases hk with
    | tuple hk hk' =>
    simp only [Assigns] at ha
    refine target_present hk hv ha x ?_
    simpa [VarTuple.vars, VarTuple.varsList] using hx
  | .multiple (p :: p' :: ps), k, .leaf v, hk, hv, ha, x, hx => ha.elim
  | .multiple (p :: p' :: ps), k, .tup w ws, hk, hv, ha, x, hx => by
    cases hk with
    | tuple hk hk' =>
    simp only [Assigns] at ha
    simp only [VarTuple.vars] at hx
    rw [VarTuple.varsList, List.mem_append] at hx
    rcases hx with hx | hx
    · exact target_present hk ⟨fun h => (full_tup.1 (hv.1 h)).1, fun h => (blank_tup.1 (hv.2 h)).1⟩
        ha.1 x hx
    · exact targets_present hk' (fun w hw => ⟨fun h => (full_tup.1 (hv.1 h)).2 w hw,
        fun h => (blank_tup.1 (hv.2 h)).2 w hw⟩) ha.2 x hx
theorem targets_present {K : String → Option Clk} {t : Nat} : {ps : List VarTuple} → {k : Clk} →
    {vs : List Value} → TargetsClock K ps k → (∀ v ∈ vs, PresentOn F.X k t v) →
    AssignsList (F.X · t) ps vs → ∀ x ∈ VarTuple.varsList ps, VarOk F.X K x t
  | [], k, vs, hk, hv, ha, x, hx => by simp [VarTuple.varsList] at hx
  | p :: ps, k, [], hk, hv, ha, x, hx => by simp [AssignsList] at ha
  | p :: ps, k, v :: vs, hk, hv, ha, x, hx => by
    cases hk with
    | cons hk hs hk' =>
    simp only [AssignsList] at ha
    rw [VarTuple.varsList, List.mem_append] at hx
    rcases hx with hx | hx
    · exact target_present hk (presentOn_same hs (hv v (List.mem_cons_self ..))) ha.1 x hx
    · exact targets_present hk' (fun w hw => hv w (List.mem_cons_of_mem _ hw)) ha.2 x hx
end

theorem stmts_present {K : String → Option Clk} (hs : Sur ms K) {t : Nat}
    (hpast : ∀ u, u < t → ∀ x, VarOk F.X K x u) : ∀ {sts : List Stmt} {vars : List String}
    {regs : List Nat}, Sorted vars regs sts → (∀ st ∈ sts, Plain st) →
    (∀ st ∈ sts, StmtWithin st) → (∀ st ∈ sts, StmtClocked true K st) →
    (∀ st ∈ sts, ∀ e ∈ evaluated st, CallsReady 0 e) →
    (∀ st ∈ sts, ∀ e ∈ evaluated st, Sane A glob ms F K t e) → (∀ st ∈ sts, Holds A glob ms F t st) →
    (∀ x ∈ vars, VarOk F.X K x t) → ∀ x ∈ sts.flatMap binds, VarOk F.X K x t
  | [], vars, regs, ho, hp, hw, hk, hc, hi, hh, hv => by simp
  | st :: sts, vars, regs, ho, hp, hw, hk, hc, hi, hh, hv => by
    simp only [Sorted] at ho
    have hnew : ∀ x ∈ binds st, VarOk F.X K x t := by
      have p1 := hp st (List.mem_cons_self ..)
      have p2 := hw st (List.mem_cons_self ..)
      have p3 := hk st (List.mem_cons_self ..)
      have p4 := hc st (List.mem_cons_self ..)
      have p5 := hi st (List.mem_cons_self ..)
      have p6 := hh st (List.mem_cons_self ..)
      have p7 := ho.1
      cases st with
      | let_ p e =>
        obtain ⟨v, hd, ha⟩ := p6
        cases p3 with
        | @let_ _ _ k k' hk1 hk2 hk3 =>
        have hpres := den_present hs e hk2 p1 p2 (p4 e (by simp [evaluated]))
          (p5 e (by simp [evaluated])) (by
            intro u hu x d hx hdu
            by_cases hlt : u - d < t
            · exact hpast _ hlt x
            · have hd0 : d = 0 := by omega
              subst hd0
              have hut : u - 0 = t := by omega
              rw [hut]
              exact hv x ((p7 e (by simp [evaluated])).1 x hx)) (Nat.zero_le _) (Nat.zero_le _) hd
        intro x hx
        have hne : p ≠ .multiple [] := by
          rintro rfl
          simp [binds, VarTuple.vars, VarTuple.varsList] at hx
        have hsame : SameClk k' k := (hk3 hne).elim (fun e => .inl e.symm) fun e => .inr ⟨e.2, e.1⟩
        exact target_present hk1 (presentOn_same hsame (presentAt_zero.1 hpres)) ha x hx
      | assert e => simp [binds]
      | updateRegister => exact p1.elim
      | initRegister => exact p1.elim
    intro x hx
    rw [List.flatMap_cons, List.mem_append] at hx
    rcases hx with hx | hx
    · exact hnew x hx
    · refine stmts_present hs hpast ho.2 (fun s h => hp s (List.mem_cons_of_mem _ h))
        (fun s h => hw s (List.mem_cons_of_mem _ h)) (fun s h => hk s (List.mem_cons_of_mem _ h))
        (fun s h => hc s (List.mem_cons_of_mem _ h)) (fun s h => hi s (List.mem_cons_of_mem _ h))
        (fun s h => hh s (List.mem_cons_of_mem _ h)) ?_ x hx
      intro y hy
      rcases List.mem_append.1 hy with hy | hy
      · exact hv y hy
      · exact hnew y hy

theorem declared_clk {vs : List TyVar} {K : String → Option Clk} (h : Declared vs K) {v : TyVar}
    (hv : v ∈ vs) : K v.name = some v.clk.intoClk := (h _ _).2 ⟨v, hv, rfl, rfl⟩

theorem varOk_always {X : String → Nat → Nillable Scalar} {K : String → Option Clk} {x : String}
    {t : Nat} {k : Clk} (hk : K x = some k) (ha : Always k) : VarOk X K x t ↔ X x t ≠ .nil := by
  constructor
  · intro h
    exact full_leaf.1 ((h k hk).1 (active_always ha))
  · intro h k' hk'
    rw [hk] at hk'
    cases hk'
    exact ⟨fun _ => full_leaf.2 h, fun h' => absurd (active_always ha) h'⟩

theorem mem_typed {Γ : TyEnv} : {es : List Expr} → {τs : List TyTuple} → HasTypes Γ es τs →
    ∀ {e : Expr}, e ∈ es → ∃ τ, HasType Γ e τ
  | _, _, .nil, e, h => by cases h
  | _, _, .cons h hs, e, hm => by
    rcases List.mem_cons.1 hm with rfl | hm
    · exact ⟨_, h⟩
    · exact mem_typed hs hm

/-- The operands of a typed expression are typed. -/
theorem operand_typed {Γ : TyEnv} {c e : Expr} (h : Operand c e) {τ : TyTuple}
    (ht : HasType Γ e τ) : ∃ τ', HasType Γ c τ' := by
  cases h with
  | tuple hm =>
    cases ht with
    | tuple hs => exact mem_typed hs hm
  | _ => cases ht; exact ⟨_, by assumption⟩

theorem part_typed {Γ : TyEnv} {c e : Expr} (h : Part c e) : ∀ {τ : TyTuple}, HasType Γ e τ →
    ∃ τ', HasType Γ c τ' := by
  induction h with
  | refl => exact fun h => ⟨_, h⟩
  | tail _ ho ih =>
    intro τ ht
    obtain ⟨τ', h⟩ := operand_typed ho ht
    exact ih h

theorem evaluated_typed {Γ : TyEnv} {st : Stmt} (h : RunTyped Γ st) : ∀ e ∈ evaluated st,
    ∃ τ, HasType Γ e τ := by
  cases h with
  | let_ _ h => simpa [evaluated] using ⟨_, h⟩
  | assert h => simpa [evaluated] using ⟨_, h⟩
  | update h _ => simpa [evaluated] using ⟨_, h⟩
  | initPre _ h => simpa [evaluated] using ⟨_, h⟩
  | initFby h _ h' =>
    intro e he
    simp only [evaluated, Option.toList, List.cons_append, List.nil_append, List.mem_cons,
      List.not_mem_nil, or_false] at he
    rcases he with rfl | rfl
    · exact ⟨_, h'⟩
    · exact ⟨_, h⟩

theorem runEnv_weaken {sigs : String → Option Sig} {consts : String → Option TyBase} {n : Node}
    {e : Expr} {t : TyTuple} (h : HasType (runEnv sigs consts n) e t) :
    HasType (nodeEnv sigs consts n) e t := by
  refine Tell.hasType_mono (Γ := runEnv sigs consts n) (Γ' := nodeEnv sigs consts n)
    (fun _ _ h => h) rfl (fun _ _ _ => trivial) ?_ h
  rintro i t u ⟨b, gens, ins, outs, θ, h1, h2, -, h4⟩
  exact ⟨b, gens, ins, outs, θ, h1, h2, h4⟩

/-- What is known of a node and of the nodes it calls. -/
structure Setting (glob : Globals) (ms : List Machine) (sigs : String → Option Sig)
    (consts : String → Option TyBase) (n : Node) (K : String → Option Clk) : Prop where
  ready : CodegenReady sigs consts n
  constsOk : ConstsOk consts glob
  subs : ∀ (i : Nat) b, n.blocks[i]? = some b → ∃ m gens ins outs, ms[i]? = some m ∧
    sigs b.name = some (gens, ins, outs) ∧
    ∀ θ, Respects m (substTy θ (flatTuple ins)) (substTy θ (flatTuple outs)) ∧
      Answers m (substTy θ (flatTuple ins))
  idle : ∀ m ∈ ms, Idle m
  wired : WiredInOrder n
  plain : ∀ st ∈ n.stmts, Plain st
  within : ∀ st ∈ n.stmts, StmtWithin st
  regs : n.registers = []
  sober : Sober n K

section
variable {sigs : String → Option Sig} {consts : String → Option TyBase} {K : String → Option Clk}

theorem Setting.globTy (hs : Setting glob ms sigs consts n K) (θ : Subst) :
    GlobTy ((runEnv sigs consts n).subst θ) glob := globTy_subst θ rfl hs.constsOk

theorem Setting.callsTy (hs : Setting glob ms sigs consts n K) (θ : Subst) :
    CallsTy ms ((runEnv sigs consts n).subst θ) := by
  rintro i t u ⟨t0, u0, ⟨b, gens, ins, outs, θ', h1, h2, h3, rfl, rfl⟩, rfl, rfl⟩
  obtain ⟨m, gens', ins', outs', g1, g2, g3⟩ := hs.subs i b h1
  rw [h2] at g2; cases g2
  refine ⟨m, g1, ?_⟩
  rw [substTy_comp, substTy_comp]
  exact (g3 _).1

theorem Setting.noRegs (hs : Setting glob ms sigs consts n K) (θ : Subst) :
    NoRegs ((runEnv sigs consts n).subst θ) := by
  rintro i t ⟨t0, h, -⟩
  simp [runEnv, hs.regs] at h

/-- All the variables of a node have values of their types when its inputs do. -/
theorem Setting.typed (hs : Setting glob ms sigs consts n K) (θ : Subst) {is : List Value}
    (hsol : Solution A glob ms F n is)
    (hi : ∀ i ∈ is, ValTy (substTy θ (flatTuple (n.inputs.map (·.ty)))) i) :
    ∀ t, t < is.length → ∀ x τ, ((runEnv sigs consts n).subst θ).vars x = some τ →
      LeafTy τ (F.X x t) := by
  have hvars : ∀ w ∈ declared n, (runEnv sigs consts n).vars w.name = some w.ty :=
    fun w hw => typeIn_of_mem hs.ready.names hw
  have htin : TargetType ((runEnv sigs consts n).subst θ).vars (inputPattern n.inputs)
      (.multiple (((n.inputs.map (·.ty)).map (substBase θ)).map .single)) := by
    refine .multiple ?_
    have := TargetTypes.subst (Γ := runEnv sigs consts n) θ (targets_inputs (vs := n.inputs)
      (vars := (runEnv sigs consts n).vars) fun w hw => hvars w (by simp [declared, hw]))
    rw [substTys_single] at this
    exact this
  refine node_ty (hs.globTy θ) (hs.callsTy θ) (hs.noRegs θ) hs.wired
    (fun st hst => RunTyped.subst θ (hs.ready.typed st hst)) ?_ htin hsol fun i h => ?_
  · intro x τ hx
    simp only [TyEnv.subst, runEnv, typeIn, Option.map_eq_some_iff] at hx
    obtain ⟨τ', ⟨v, h1, -⟩, -⟩ := hx
    exact ⟨v, List.mem_of_find?_eq_some h1, by simpa using List.find?_some h1⟩
  · have := hi i h
    rw [subst_flat, valTy_flat] at this
    exact this

theorem Setting.sane (hs : Setting glob ms sigs consts n K) (θ : Subst) {is : List Value}
    (hsol : Solution A glob ms F n is)
    (hi : ∀ i ∈ is, ValTy (substTy θ (flatTuple (n.inputs.map (·.ty)))) i) {t : Nat}
    (ht : t < is.length) : ∀ st ∈ n.stmts, ∀ e ∈ evaluated st, Sane A glob ms F K t e := by
  intro st hst e he
  have hty := hs.typed θ hsol hi
  obtain ⟨τ, hτ⟩ := evaluated_typed (hs.ready.typed st hst) e he
  have hpast : ∀ u e, u ≤ t → PastTy ((runEnv sigs consts n).subst θ) F.X u e :=
    fun u e hu w hw x d _ hd τ hx => hty (w - d) (by omega) x τ hx
  refine ⟨fun c y z k k' hp => hs.sober.conditions st hst e he c y z k k' hp, ?_, ?_⟩
  · intro op a b hp u hu lo x y ha hb
    obtain ⟨τ', hτ'⟩ := part_typed hp hτ
    cases hτ' with
    | @cmp _ _ _ β h1 h2 h3 =>
    have := den_ty (hs.globTy θ) (hs.callsTy θ) (hs.noRegs θ) (HasType.subst θ h1) (hpast u a hu) ha
    simp only [substTy] at this
    rw [cmpTypes_subst h3] at this
    have := leafTy_defined.1 this
    cases β with
    | float =>
      exact (hs.sober.comparisons st hst e he op a b hp sigs consts
        ⟨runEnv_weaken h1, runEnv_weaken h2⟩).elim
    | _ => exact this.elim
  · intro d i a hp m hm
    obtain ⟨τ', hτ'⟩ := part_typed hp hτ
    cases hτ' with
    | substep h1 h2 =>
    have h2' := h2
    obtain ⟨b, gens, ins, outs, θ', e1, e2, e3, rfl, rfl⟩ := h2
    obtain ⟨m', gens', ins', outs', g1, g2, g3⟩ := hs.subs i b e1
    rw [e2] at g2; cases g2
    rw [hm] at g1; cases g1
    refine ⟨_, (g3 (fun x => substBase θ (θ' x))).2, fun u hu lo w hw => ?_⟩
    have := den_ty (hs.globTy θ) (hs.callsTy θ) (hs.noRegs θ) (HasType.subst θ h1) (hpast u a hu) hw
    rw [substTy_comp] at this
    exact this

theorem Setting.sur (hn : Setting glob ms sigs consts n K) : Sur ms K := by
  refine ⟨hn.idle, fun x hx => ?_⟩
  obtain ⟨v, h1, -, h2⟩ := (hn.sober.clocks.declared _ _).1 hx
  have := hn.sober.written v h1
  cases hc : v.clk with
  | explicit b x => rw [hc] at h2; cases b <;> cases h2
  | implicit => rw [hc] at h2; cases h2
  | adaptative => exact this hc

/-- All the variables of a node are present on their clocks when its inputs are present. -/
theorem node_present (hn : Setting glob ms sigs consts n K) (θ : Subst)
    {is : List Value} (hsol : Solution A glob ms F n is)
    (hit : ∀ i ∈ is, ValTy (substTy θ (flatTuple (n.inputs.map (·.ty)))) i)
    (hi : ∀ i ∈ is, Full i) : ∀ t, t < is.length → ∀ x, VarOk F.X K x t := by
  have hs : Sur ms K := hn.sur
  intro t
  induction t using Nat.strongRecOn with
  | ind t ih =>
    intro ht x
    have hin : ∀ x ∈ n.inputs.map (·.name), VarOk F.X K x t := by
      intro x hx
      obtain ⟨v, hv, rfl⟩ := List.mem_map.1 hx
      have hk := declared_clk hn.sober.clocks.declared
        (List.mem_append_left _ (List.mem_append_left _ hv))
      have ha := hn.sober.clocks.interface v (List.mem_append_left _ hv)
      refine (varOk_always hk ha).2 ?_
      have h1 := hsol.inputs t is[t] (by simp [ht])
      have h2 := hi is[t] (List.getElem_mem ht)
      have h3 := assigns_inputs.1 h1 (by
        intro h
        rw [h] at hx
        cases hx)
      rw [h3] at h2
      exact full_leaf.1 (full_of_tupleValue h2 _ (List.mem_map.2 ⟨v.name, hx, rfl⟩))
    have hst := stmts_present hs (t := t) (fun u hu x => ih u hu (by omega) x) hn.wired.sorted
      hn.plain hn.within hn.sober.clocks.stmts hn.sober.calls (hn.sane θ hsol hit ht)
      (hsol.stmts t ht) hin
    intro k hk
    obtain ⟨v, hv, rfl, hvk⟩ := (hn.sober.clocks.declared _ _).1 hk
    have : VarOk F.X K v.name t := by
      rcases List.mem_append.1 hv with hv | hv
      · rcases List.mem_append.1 hv with hv | hv
        · exact hin _ (List.mem_map.2 ⟨v, hv, rfl⟩)
        · obtain ⟨st, h1, h2⟩ := hn.wired.defined v (List.mem_append_left _ hv)
          exact hst _ (List.mem_flatMap.2 ⟨st, h1, h2⟩)
      · obtain ⟨st, h1, h2⟩ := hn.wired.defined v (List.mem_append_right _ hv)
        exact hst _ (List.mem_flatMap.2 ⟨st, h1, h2⟩)
    exact this k hk

theorem evaluated_present (hn : Setting glob ms sigs consts n K) {st : Stmt} (hst : st ∈ n.stmts)
    {e : Expr} (he : e ∈ evaluated st) {k : Clk} (hk : HasClock true K e k) {t : Nat} {v : Value}
    (hsane : Sane A glob ms F K t e) (hpast : PastOk F.X K t e)
    (hv : den A glob ms F 0 e t = .ok v) : PresentOn F.X k t v := by
  have hs : Sur ms K := hn.sur
  have hw := hn.within st hst
  have hp := hn.plain st hst
  have hc := hn.sober.calls st hst e he
  cases st with
  | let_ p e' =>
    simp only [evaluated, List.mem_singleton] at he
    subst he
    exact presentAt_zero.1 (den_present hs e hk hp hw hc hsane hpast (Nat.zero_le _) (Nat.zero_le _) hv)
  | assert e' =>
    simp only [evaluated, List.mem_singleton] at he
    subst he
    exact presentAt_zero.1 (den_present hs e hk hp hw hc hsane hpast (Nat.zero_le _) (Nat.zero_le _) hv)
  | _ => exact hp.elim

theorem node_answers (hn : Setting glob ms sigs consts n K) (θ : Subst) :
    Answers (n.machine A glob ms) (substTy θ (flatTuple (n.inputs.map (·.ty)))) where
  idle := by
    intro s i hi
    simp [Node.machine, Node.step, Candle.implicitClock, hi]
  full := by
    intro is os hi hrun t i o ht hto hpi
    obtain ⟨F, h1, rfl⟩ := (C45_runs_are_solutions A glob ms hn.wired is os).1 hrun
    have hfull : ∀ i ∈ is.filter present, Full i := by
      intro i hi'
      obtain ⟨h2, h3⟩ := List.mem_filter.1 hi'
      rcases (hi i h2).2 with h4 | h4
      · simp [present, h4] at h3
      · exact h4
    have hall := node_present hn θ h1 (fun i h => (hi i (List.mem_filter.1 h).1).1) hfull
    have hsp := (C09_spread_filter n.outTy is (outputs F n (is.filter present).length)
      (by simp [outputs])).1
    have hmem : o ∈ outputs F n (is.filter present).length := by
      rw [← hsp]
      refine List.mem_map.2 ⟨(i, o), List.mem_filter.2 ⟨?_, by simp [present, hpi]⟩, rfl⟩
      refine List.mem_of_getElem? (i := t) ?_
      rw [List.getElem?_zip_eq_some]
      exact ⟨ht, hto⟩
    obtain ⟨j, hj, rfl⟩ := List.mem_map.1 hmem
    refine full_tupleValue fun w hw => ?_
    obtain ⟨v, hv, rfl⟩ := List.mem_map.1 hw
    refine full_leaf.2 ?_
    have hk := declared_clk hn.sober.clocks.declared
      (List.mem_append_left _ (List.mem_append_right _ hv))
    have ha := hn.sober.clocks.interface v (List.mem_append_right _ hv)
    exact (varOk_always hk ha).1 (hall j (List.mem_range.1 hj) v.name)

end

end

/-! ## Programs -/

theorem solution_passes {A : Arith} {glob : Globals} {ms : List Machine}
    {nodes : String → Option Machine} {o : TyOpts} {sigs : String → Option Sig}
    {consts : String → Option TyBase} {src : SrcNode} {n : Node}
    (h : Passes false o sigs consts src n) (hL : Linked ms nodes n.blocks) (F : Flow)
    (is : List Value) : Solution A glob ms F n is ↔
      SrcSolution ⟨A, SrcNode.vars src, F.X, glob, nodes⟩ src is := by
  obtain ⟨n₁, n₂, c, ctx, clk, m, K, hf⟩ := passes_final h
  have hr : c.registers = 0 := (hf.built.plain rfl).1
  have e1 : n₁.registers = [] := by rw [hf.start]; simp [hr]
  have e2 : n.registers = [] := by
    rw [hf.final, hf.same]; simp [Node.withDepths, Node.withClocks, Node.fill, e1]
  have hno : ∀ st ∈ n₂.stmts, Stmt.withClocks clk st = st := by
    intro st hst
    cases st with
    | initRegister id i k =>
      have h1 : id ∈ initialised n₂.stmts := mem_initialised'.2 ⟨_, _, hst⟩
      rw [(initialised_perm hf.perm).mem_iff, hf.built.inits.mem_iff, regsBetween, hr] at h1
      simp at h1
    | _ => rfl
  have e3 : n.stmts.Perm n₁.stmts := by
    rw [hf.final_stmts, List.map_congr_left hno, List.map_id']
    have : n₁.stmts = c.stmts := by rw [hf.start]
    rw [this]
    exact hf.perm
  have hb : n.blocks.map (·.name) = n₁.blocks.map (·.name) := by
    rw [hf.final, hf.same]
    simp only [Node.withDepths, Node.withClocks, Node.fill]
    apply List.ext_getElem?
    intro i
    simp
    cases n₁.blocks[i]? <;> rfl
  have hL' : Linked ms nodes n₁.blocks := by
    intro i bl hbl
    have h1 : (n.blocks.map (·.name))[i]? = some bl.name := by rw [hb]; simp [hbl]
    rw [List.getElem?_map, Option.map_eq_some_iff] at h1
    obtain ⟨b', h2, h3⟩ := h1
    rw [hL i b' h2, h3]
  have hin : inputPattern n.inputs = inputPattern n₁.inputs := by
    have := hf.inputs_names
    simp only [inputPattern]
    congr 1
    have h2 := congrArg (List.map VarTuple.single) this
    simpa [Function.comp_def] using h2
  rw [← solution_translate hf.translated hL' is]
  constructor
  · intro hs
    exact ⟨fun id ty he => by simp [e1] at he, fun t i ht => hin ▸ hs.inputs t i ht,
      fun t ht st hst => hs.stmts t ht st (e3.mem_iff.2 hst)⟩
  · intro hs
    exact ⟨fun id ty he => by simp [e2] at he, fun t i ht => hin ▸ hs.inputs t i ht,
      fun t ht st hst => hs.stmts t ht st (e3.mem_iff.1 hst)⟩

/-- What is proved of each node of a program. -/
def Good (m : Machine) (s : Sig) : Prop :=
  (∀ θ, Respects m (substTy θ (flatTuple s.2.1)) (substTy θ (flatTuple s.2.2))) ∧
  ∀ θ, Answers m (substTy θ (flatTuple s.2.1))

theorem Good.idle {m : Machine} {s : Sig} (h : Good m s) : Idle m :=
  (h.2 fun _ => .int).idle

theorem setting_of_inProg {g : Globals} {sigs : String → Option Sig}
    {consts : String → Option TyBase} {attrs : List Attribute} {src : SrcNode} {n : Node}
    {ms : List Machine} {K : String → Option Clk} (h : Prg.InProg Good g sigs consts attrs src n ms)
    (hu : (meaning attrs).universalPre = false) (hK : Sober n K) :
    Setting g ms sigs consts n K := by
  have hp := h.passes
  rw [hu] at hp
  obtain ⟨n₁, n₂, c, ctx, clk, m, K', hf⟩ := passes_final hp
  obtain ⟨d1, d2⟩ := passes_default hp
  have hr : c.registers = 0 := (hf.built.plain rfl).1
  refine ⟨hf.ready h.wf d1 d2, h.constsOk, ?_, ?_, passes_wired hp d1, passes_plain hp,
    passes_within hp, ?_, hK⟩
  · intro i b hb
    obtain ⟨m, ⟨gens, ins, outs⟩, e1, e2, e3⟩ := h.subs i b hb
    exact ⟨m, gens, ins, outs, e1, e2, fun θ => ⟨e3.1 θ, e3.2 θ⟩⟩
  · intro m hm
    obtain ⟨i, hi, rfl⟩ := List.getElem_of_mem hm
    obtain ⟨m', s, e1, e2, e3⟩ := h.subs i (n.blocks[i]'(h.len ▸ hi))
      (List.getElem?_eq_getElem _)
    rw [List.getElem?_eq_getElem hi] at e1
    cases e1
    exact e3.idle
  · have e1 : n₁.registers = [] := by rw [hf.start]; simp [hr]
    rw [hf.final, hf.same]; simp [Node.withDepths, Node.withClocks, Node.fill, e1]

end Chandeliers.Pres
