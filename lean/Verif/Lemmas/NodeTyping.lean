import Verif.Lemmas.Typecheck
import Verif.Lemmas.List

/-! Type checking of nodes and programs agrees with the rules. -/

set_option autoImplicit false

namespace Chandeliers.San
open Chandeliers.Err Chandeliers.Err.Chk Chandeliers.Spec

/-! ## Signatures -/

theorem checkDeclared_some {σ : Type} {g : List String} : (vs : List TyVar) →
    {s s' : EAccum Diag × σ} →
    (checkDeclared g vs s = (.some (), s') ↔
      (∀ v ∈ vs, ∀ x, v.ty = .other x → x ∈ g) ∧ s' = s)
  | [], s, s' => by simp [checkDeclared, eq_comm]
  | ⟨n, t, c, d⟩ :: vs, s, s' => by
    have ih := checkDeclared_some (g := g) vs (s := s) (s' := s')
    cases t with
    | other t =>
      by_cases h : t ∈ g
      · simp only [checkDeclared, h, if_true]
        refine ih.trans ?_
        simp [h]
      · simp only [checkDeclared, h, if_false]
        simp [bind_some, error, h]
    | int => exact ih.trans (by simp)
    | float => exact ih.trans (by simp)
    | bool => exact ih.trans (by simp)

theorem checkUsed_some {σ : Type} {vs : List TyVar} : (g : List String) →
    {s s' : EAccum Diag × σ} →
    (checkUsed vs g s = (.some (), s') ↔
      (∀ x ∈ g, ∃ v ∈ vs, v.ty = .other x) ∧ s' = s)
  | [], s, s' => by simp [checkUsed, eq_comm]
  | g :: gs, s, s' => by
    have ih := checkUsed_some (vs := vs) gs (s := s) (s' := s')
    by_cases h : TyBase.other g ∈ vs.map (·.ty)
    · simp only [checkUsed, h, if_true]
      refine ih.trans ?_
      have : ∃ v ∈ vs, v.ty = .other g := by simpa using h
      simp [this]
    · simp only [checkUsed, h, if_false]
      have : ¬ ∃ v ∈ vs, v.ty = .other g := by simpa using h
      simp [bind_some, error, this]

theorem checkSignature_some {σ : Type} {b : Bool} {g : List String} {i o l : List TyVar}
    {s s' : EAccum Diag × σ} :
    checkSignature b g i o l s = (.some (), s') ↔ SigTyped b g i o l ∧ s' = s := by
  have h : ∀ s, (do checkDeclared g i; checkDeclared g (o ++ l); checkUsed i g : Chk Diag σ Unit) s
      = (.some (), s') ↔ ((∀ v ∈ i ++ o ++ l, ∀ x, v.ty = .other x → x ∈ g) ∧
        ∀ x ∈ g, ∃ v ∈ i, v.ty = .other x) ∧ s' = s := by
    intro s
    constructor
    · intro h
      obtain ⟨_, s1, h1, g1⟩ := bind_some.1 h
      obtain ⟨j1, rfl⟩ := (checkDeclared_some _).1 h1
      obtain ⟨_, s2, h2, g2⟩ := bind_some.1 g1
      obtain ⟨j2, rfl⟩ := (checkDeclared_some _).1 h2
      obtain ⟨h3, rfl⟩ := (checkUsed_some _).1 g2
      refine ⟨⟨?_, h3⟩, rfl⟩
      intro v hv
      rw [List.append_assoc, List.mem_append] at hv
      exact hv.elim (j1 v) (j2 v)
    · rintro ⟨⟨h1, h2⟩, rfl⟩
      refine bind_some.2 ⟨(), s', (checkDeclared_some _).2 ⟨fun v hv => h1 v (by simp [hv]), rfl⟩,
        bind_some.2 ⟨(), s', (checkDeclared_some _).2 ⟨fun v hv => h1 v ?_, rfl⟩,
        (checkUsed_some _).2 ⟨h2, rfl⟩⟩⟩
      rw [List.append_assoc, List.mem_append]; exact .inr hv
  unfold checkSignature
  split
  next hc =>
    constructor
    · intro h'
      obtain ⟨_, s1, h1, -⟩ := bind_some.1 h'
      simp [error] at h1
    · rintro ⟨⟨h1, -, -⟩, -⟩
      simp only [Bool.and_eq_true] at hc
      obtain ⟨rfl, rfl⟩ := h1 hc.1
      simp at hc
  next hc =>
    refine (h s).trans ?_
    constructor
    · rintro ⟨⟨h1, h2⟩, h3⟩
      refine ⟨⟨fun hb => ?_, h1, h2⟩, h3⟩
      simp only [hb, Bool.true_and] at hc
      simpa using hc
    · rintro ⟨⟨-, h1, h2⟩, h3⟩
      exact ⟨⟨h1, h2⟩, h3⟩

/-! ## Declarations of variables -/

theorem declsTyped_snoc {vs : List TyVar} {v : TyVar} : DeclsTyped (vs ++ [v]) ↔
    DeclsTyped vs ∧ (∀ w ∈ vs, w.name ≠ v.name) ∧
      ∀ a x, v.clk = .explicit a x → typeIn vs x = some .bool := by
  constructor
  · intro h
    generalize he : vs ++ [v] = l at h
    cases h with
    | nil => simp at he
    | snoc hs hn hc =>
      obtain ⟨rfl, h2⟩ := List.append_inj' he rfl
      cases h2
      exact ⟨hs, hn, hc⟩
  · rintro ⟨h1, h2, h3⟩; exact .snoc h1 h2 h3

theorem declsTyped_append {vs ws : List TyVar} (h : DeclsTyped (vs ++ ws)) : DeclsTyped vs := by
  induction ws using Chandeliers.snocInduction with
  | nil => simpa using h
  | snoc ws w ih =>
    rw [← List.append_assoc] at h
    exact ih (declsTyped_snoc.1 h).1

theorem typeIn_none {vs : List TyVar} {x : String} : typeIn vs x = none ↔ ∀ w ∈ vs, w.name ≠ x := by
  simp [typeIn]

theorem typeIn_snoc {vs : List TyVar} {v : TyVar} (h : ∀ w ∈ vs, w.name ≠ v.name) (x : String) :
    typeIn (vs ++ [v]) x = if x = v.name then some v.ty else typeIn vs x := by
  unfold typeIn
  rw [List.find?_append]
  by_cases hx : x = v.name
  · subst hx
    have : vs.find? (fun w => decide (w.name = v.name)) = none := by simpa using h
    simp [this]
  · simp only [hx, if_false]
    have : [v].find? (fun w => decide (w.name = x)) = none := by simp [Ne.symm hx]
    simp [this]

/-- The context with these variables. -/
def TyCtx.withVars (c : TyCtx) (vs : List TyVar) : TyCtx := { c with vars := typeIn vs }

theorem clockTy_some {k : Clock} {a : EAccum Diag} {c : TyCtx} {s' : EAccum Diag × TyCtx} :
    k.typecheck (a, c) = (.some (), s') ↔
      (∀ b x, k = .explicit b x → c.vars x = some .bool) ∧ s' = (a, c) := by
  cases k with
  | implicit => simp [Clock.typecheck, eq_comm]
  | adaptative => simp [Clock.typecheck, eq_comm]
  | explicit b x =>
    unfold Clock.typecheck
    constructor
    · intro h
      obtain ⟨c1, s1, h1, g1⟩ := bind_some.1 h
      cases h1
      cases hv : c.vars x with
      | none => simp [hv, error] at g1
      | some t =>
        simp only [hv] at g1
        obtain ⟨rfl, rfl⟩ := isBool_some.1 g1
        refine ⟨?_, rfl⟩
        rintro b' x' e
        cases e
        exact hv
    · rintro ⟨h, rfl⟩
      refine bind_some.2 ⟨c, (a, c), rfl, ?_⟩
      simp only [h b x rfl]
      rfl

theorem declare_some {c : TyCtx} {a : EAccum Diag} : (vs pre : List TyVar) →
    {s' : EAccum Diag × TyCtx} → DeclsTyped pre →
    (inScope (vs.flatMap declareVar) (a, c.withVars pre) = (.some (), s') ↔
      DeclsTyped (pre ++ vs) ∧ s' = (a, c.withVars (pre ++ vs)))
  | [], pre, s', hp => by
    rw [List.flatMap_nil, inScope_some_nil]
    simp [hp, eq_comm]
  | v :: vs, pre, s', hp => by
    have ih := declare_some (c := c) (a := a) vs (pre ++ [v]) (s' := s')
    rw [List.flatMap_cons]
    simp only [declareVar, List.cons_append, List.nil_append]
    have he : pre ++ v :: vs = pre ++ [v] ++ vs := by simp
    rw [he]
    constructor
    · intro h
      obtain ⟨s1, h1, g1⟩ := inScope_some_cons.1 h
      obtain ⟨s2, h2, g2⟩ := inScope_some_cons.1 g1
      obtain ⟨s3, h3, g3⟩ := inScope_some_cons.1 g2
      obtain ⟨c1, s0, h0, h1⟩ := bind_some.1 h1
      cases h0
      cases hv : (c.withVars pre).vars v.name with
      | some t => simp [hv, error] at h1
      | none =>
        simp only [hv] at h1
        cases h1
        obtain ⟨hc, rfl⟩ := clockTy_some.1 h2
        have hn := typeIn_none.1 hv
        have hd := declsTyped_snoc.2 ⟨hp, hn, hc⟩
        have hs : s3 = (a, c.withVars (pre ++ [v])) := by
          simp only [Chk.modify] at h3
          cases h3
          simp only [TyCtx.withVars, Prod.mk.injEq, true_and]
          congr 1
          funext x
          exact (typeIn_snoc hn x).symm
        rw [hs] at g3
        exact (ih hd).1 g3
    · rintro ⟨hd, rfl⟩
      have hd1 := declsTyped_append hd
      obtain ⟨-, hn, hc⟩ := declsTyped_snoc.1 hd1
      refine inScope_some_cons.2 ⟨(a, c.withVars pre), ?_, inScope_some_cons.2
        ⟨(a, c.withVars pre), clockTy_some.2 ⟨hc, rfl⟩, inScope_some_cons.2
        ⟨(a, c.withVars (pre ++ [v])), ?_, (ih hd1).2 ⟨hd, rfl⟩⟩⟩⟩
      · refine bind_some.2 ⟨_, _, rfl, ?_⟩
        have : (c.withVars pre).vars v.name = none := typeIn_none.2 hn
        simp only [this]
        rfl
      · simp only [Chk.modify, TyCtx.withVars, Prod.mk.injEq, true_and]
        congr 1
        funext x
        exact (typeIn_snoc hn x).symm

/-! ## Blocks -/

/-- Signature of the k-th block. -/
def blockSig (sigs : String → Option Sig) (bs : List NodeInstance) (k : Nat) : Option Sig :=
  bs[k]?.bind fun b => sigs b.name

/-- The context with these blocks. -/
def TyCtx.withBlocks (c : TyCtx) (sigs : String → Option Sig) (bs : List NodeInstance) : TyCtx :=
  { c with
      nodesIn := fun k => (blockSig sigs bs k).map fun s => s.2.1
      nodesOut := fun k => (blockSig sigs bs k).map fun s => s.2.2
      nodesGenerics := fun k => (blockSig sigs bs k).map fun s => (s.1, none) }

theorem blockSig_snoc {sigs : String → Option Sig} {pre : List NodeInstance} {b : NodeInstance}
    (k : Nat) : blockSig sigs (pre ++ [b]) k =
      if k = pre.length then sigs b.name else blockSig sigs pre k := by
  unfold blockSig
  by_cases hk : k = pre.length
  · subst hk; simp
  · simp only [hk, if_false]
    rcases Nat.lt_or_ge k pre.length with h | h
    · rw [List.getElem?_append_left h]
    · rw [List.getElem?_append_right h, List.getElem?_eq_none h, List.getElem?_eq_none]
      simp only [List.length_cons, List.length_nil]; omega

theorem declareBlocks_some {sigs : String → Option Sig} {c : TyCtx} {a : EAccum Diag} :
    (bs pre : List NodeInstance) → {s' : EAccum Diag × TyCtx} →
    (declareBlocks sigs pre.length bs (a, c.withBlocks sigs pre) = (.some (), s') ↔
      (∀ b ∈ bs, ∃ s, sigs b.name = some s) ∧ s' = (a, c.withBlocks sigs (pre ++ bs)))
  | [], pre, s' => by simp [declareBlocks, eq_comm]
  | b :: bs, pre, s' => by
    have ih := declareBlocks_some (sigs := sigs) (c := c) (a := a) bs (pre ++ [b]) (s' := s')
    unfold declareBlocks
    cases hb : sigs b.name with
    | none => simp [error, hb]
    | some s =>
      obtain ⟨g, i, o⟩ := s
      have hc : (Chk.modify (E := Diag) fun c : TyCtx =>
          { c with
              nodesIn := fun k => if k = pre.length then some i else c.nodesIn k
              nodesOut := fun k => if k = pre.length then some o else c.nodesOut k
              nodesGenerics := fun k =>
                if k = pre.length then some (g, none) else c.nodesGenerics k })
          (a, c.withBlocks sigs pre) = (.some (), (a, c.withBlocks sigs (pre ++ [b]))) := by
        simp only [Chk.modify, TyCtx.withBlocks, Prod.mk.injEq, true_and]
        congr 1 <;> funext k <;> rw [blockSig_snoc] <;> split <;> simp [hb]
      dsimp only
      rw [run_bind, hc]
      dsimp only
      rw [List.length_append] at ih
      refine ih.trans ?_
      simp [hb]

/-! ## Nodes -/

/-- The context in which the statements of a node are checked. -/
def bodyCtx (sigs : String → Option Sig) (consts : String → Option TyBase) (n : Node) : TyCtx :=
  ((TyCtx.fromExt consts).withVars (n.inputs ++ n.outputs ++ n.locals)).withBlocks sigs n.blocks

theorem nodeTypecheck_some {σ : Type} {o : TyOpts} {sigs : String → Option Sig}
    {consts : String → Option TyBase} {n n' : Node} {a : EAccum Diag} {s : σ}
    {s' : EAccum Diag × σ} :
    n.typecheck o sigs consts (a, s) = (.some n', s') ↔
      SigTyped (o.main || o.test) o.generics n.inputs n.outputs n.locals ∧
      DeclsTyped (n.inputs ++ n.outputs ++ n.locals) ∧
      (∀ b ∈ n.blocks, ∃ s, sigs b.name = some s) ∧
      ∃ a' c, inScope (n.stmts.map Stmt.typecheck) (a, bodyCtx sigs consts n) =
        (.some (), (a', c)) ∧ n' = n.fill c ∧ s' = (a', s) := by
  have h0 : TyCtx.fromExt consts = (TyCtx.fromExt consts).withVars [] := rfl
  have h1 : ∀ vs, (TyCtx.fromExt consts).withVars vs =
      ((TyCtx.fromExt consts).withVars vs).withBlocks sigs [] := by
    intro vs
    simp [TyCtx.withVars, TyCtx.withBlocks, TyCtx.fromExt, blockSig]
  unfold Node.typecheck
  constructor
  · intro h
    obtain ⟨_, s1, k1, g1⟩ := bind_some.1 h
    obtain ⟨j1, rfl⟩ := checkSignature_some.1 k1
    obtain ⟨⟨_, c⟩, s2, k2, g2⟩ := bind_some.1 g1
    obtain ⟨a', j2, rfl⟩ := local_some.1 k2
    cases g2
    obtain ⟨_, s3, k3, g3⟩ := bind_some.1 j2
    rw [h0] at k3
    obtain ⟨j3, rfl⟩ := (declare_some _ _ .nil).1 k3
    obtain ⟨_, s4, k4, g4⟩ := bind_some.1 g3
    rw [h1] at k4
    obtain ⟨j4, rfl⟩ := (declareBlocks_some _ []).1 k4
    exact ⟨j1, by simpa using j3, j4, a', c, g4, rfl, rfl⟩
  · rintro ⟨k1, k3, k4, a', c, k5, rfl, rfl⟩
    refine bind_some.2 ⟨(), (a, s), checkSignature_some.2 ⟨k1, rfl⟩, bind_some.2
      ⟨((), c), (a', s), local_some.2 ⟨a', ?_, rfl⟩, rfl⟩⟩
    refine bind_some.2 ⟨(), (a, (TyCtx.fromExt consts).withVars
      (n.inputs ++ n.outputs ++ n.locals)), ?_, bind_some.2 ⟨(), (a, bodyCtx sigs consts n), ?_, k5⟩⟩
    · rw [h0]
      exact (declare_some _ [] .nil).2 ⟨k3, rfl⟩
    · rw [h1]
      exact (declareBlocks_some _ []).2 ⟨k4, rfl⟩

theorem bodyCtx_wf {sigs : String → Option Sig} {consts : String → Option TyBase} {n : Node}
    (h : ∀ f s, sigs f = some s → s.Wf) : (bodyCtx sigs consts n).Wf := by
  intro id gens o ins outs h1 h2 h3
  simp only [bodyCtx, TyCtx.withBlocks] at h1 h2 h3
  cases hb : blockSig sigs n.blocks id with
  | none => simp [hb] at h1
  | some s =>
    rw [hb] at h1 h2 h3
    simp only [Option.map_some, Option.some.injEq, Prod.mk.injEq] at h1 h2 h3
    obtain ⟨rfl, -⟩ := h1
    subst h2 h3
    unfold blockSig at hb
    obtain ⟨b, -, hb⟩ := Option.bind_eq_some_iff.1 hb
    exact h _ _ hb

theorem nodeEnv_vars {sigs : String → Option Sig} {consts : String → Option TyBase} {n : Node} :
    SameVars (nodeEnv sigs consts n) (bodyCtx sigs consts n) := ⟨rfl, rfl⟩

theorem nodeEnv_fits {sigs : String → Option Sig} {consts : String → Option TyBase} {n : Node}
    (h : ∀ f s, sigs f = some s → s.Wf) : Fits (nodeEnv sigs consts n) (bodyCtx sigs consts n) := by
  refine ⟨bodyCtx_wf h, nodeEnv_vars, ?_⟩
  rintro id t u ⟨b, gens, ins, outs, θ, hb, hs, rfl, rfl⟩
  have : blockSig sigs n.blocks id = some (gens, ins, outs) := by simp [blockSig, hb, hs]
  exact ⟨gens, none, ins, outs, θ, by simp [bodyCtx, TyCtx.withBlocks, this],
    by simp [bodyCtx, TyCtx.withBlocks, this], by simp [bodyCtx, TyCtx.withBlocks, this], rfl, rfl⟩

theorem nodeEnv_free {sigs : String → Option Sig} {consts : String → Option TyBase} {n : Node}
    {c : TyCtx} {l : List Slot} (h : CtxFrame (bodyCtx sigs consts n) c l) :
    Free (nodeEnv sigs consts n) c := by
  refine ⟨fun _ _ => trivial, fun id θ ins outs h1 h2 => ?_⟩
  rw [h.nodesIn] at h1
  rw [h.nodesOut] at h2
  simp only [bodyCtx, TyCtx.withBlocks] at h1 h2
  cases hb : blockSig sigs n.blocks id with
  | none => simp [hb] at h1
  | some s =>
    obtain ⟨g, i, o⟩ := s
    rw [hb] at h1 h2
    simp only [Option.map_some, Option.some.injEq] at h1 h2
    subst h1 h2
    unfold blockSig at hb
    obtain ⟨b, hb1, hb2⟩ := Option.bind_eq_some_iff.1 hb
    exact ⟨b, g, i, o, θ, hb1, hb2, rfl, rfl⟩

/-- The checker accepts a node exactly when the rules do, without a word. -/
theorem nodeTypecheck_iff {σ : Type} {o : TyOpts} {sigs : String → Option Sig}
    {consts : String → Option TyBase} {n : Node} {a : EAccum Diag} {s : σ}
    (hs : ∀ f s, sigs f = some s → s.Wf) :
    (∃ n', n.typecheck o sigs consts (a, s) = (.some n', (a, s))) ↔
      NodeTyped (o.main || o.test) o.generics sigs consts n := by
  constructor
  · rintro ⟨n', h⟩
    obtain ⟨k1, k2, k3, a', c, k4, -, -⟩ := nodeTypecheck_some.1 h
    obtain ⟨c', -, f, j⟩ := stmts_sound n.stmts _ _ _ _ (bodyCtx_wf hs) k4
    exact ⟨k1, k2, k3, j _ nodeEnv_vars (.inl (nodeEnv_free f))⟩
  · rintro ⟨k1, k2, k3, k4⟩
    obtain ⟨c', k5, -⟩ := stmts_complete a n.stmts k4 (nodeEnv_fits hs)
    exact ⟨n.fill c', nodeTypecheck_some.2 ⟨k1, k2, k3, a, c', k5, rfl, rfl⟩⟩

/-! ## Constants -/

/-- The environment of a constant. -/
theorem constEnv_fits {consts : String → Option TyBase} :
    Fits (constEnv consts) (TyCtx.fromExt consts) := by
  refine ⟨?_, ⟨rfl, rfl⟩, ?_⟩
  · intro id gens o ins outs h; simp [TyCtx.fromExt] at h
  · intro id t u h; cases h

theorem isConst_some {σ : Type} : {e : Expr} → {s s' : EAccum Diag × σ} →
    e.isConst s = (.some (), s') → ∀ {consts t}, HasType (constEnv consts) e t → ConstExpr e
  | .lit _, _, _, _, _, _, _ => .lit
  | .global _, _, _, _, _, _, _ => .global
  | .var _ _, _, _, _, _, _, ht => by cases ht with | var h => cases h
  | .dummyParen e, _, _, h, _, _, ht => by
    simp only [Expr.isConst] at h
    cases ht with | dummyParen ht => exact .paren (isConst_some h ht)
  | .un _ e, _, _, h, _, _, ht => by
    simp only [Expr.isConst] at h
    cases ht with | un ht _ => exact .un (isConst_some h ht)
  | .bin _ l r, _, _, h, _, _, ht => by
    simp only [Expr.isConst] at h
    obtain ⟨p, s1, h1, -⟩ := bind_some.1 h
    obtain ⟨s2, h1, h2⟩ := both_some.1 h1
    cases ht with | bin hl hr _ => exact .bin (isConst_some h1 hl) (isConst_some h2 hr)
  | .cmp _ l r, _, _, h, _, _, ht => by
    simp only [Expr.isConst] at h
    obtain ⟨p, s1, h1, -⟩ := bind_some.1 h
    obtain ⟨s2, h1, h2⟩ := both_some.1 h1
    cases ht with | cmp hl hr _ => exact .cmp (isConst_some h1 hl) (isConst_some h2 hr)
  | .ifx b y n, _, _, h, _, _, ht => by
    simp only [Expr.isConst] at h
    obtain ⟨ob, s1, h1, g1⟩ := bind_some.1 h
    obtain ⟨oy, s2, h2, g2⟩ := bind_some.1 g1
    obtain ⟨on, s3, h3, g3⟩ := bind_some.1 g2
    obtain ⟨_, s4, h4, g4⟩ := bind_some.1 g3
    obtain ⟨rfl, rfl⟩ := ofOption_some.1 h4
    obtain ⟨_, s5, h5, g5⟩ := bind_some.1 g4
    obtain ⟨rfl, rfl⟩ := ofOption_some.1 h5
    obtain ⟨rfl, rfl⟩ := ofOption_some.1 g5
    cases ht with
    | ifx hb hy hn =>
      have hb := isConst_some (opt_some_some.1 h1) hb
      have hy := isConst_some (opt_some_some.1 h2) hy
      exact .ifx hb hy (isConst_some (opt_some_some.1 h3) hn)
  | .tuple _, _, _, h, _, _, _ => by simp [Expr.isConst, error] at h
  | .dummyPre _, _, _, h, _, _, _ => by simp [Expr.isConst, error] at h
  | .later _ _ _, _, _, h, _, _, _ => by simp [Expr.isConst, error] at h
  | .fetchPre _ _, _, _, h, _, _, _ => by simp [Expr.isConst, error] at h
  | .fetchFby _ _ _, _, _, h, _, _, _ => by simp [Expr.isConst, error] at h
  | .flip _ _ _, _, _, h, _, _, _ => by simp [Expr.isConst, error] at h
  | .substep _ _ _, _, _, h, _, _, _ => by simp [Expr.isConst, error] at h
  | .merge _ _ _, _, _, h, _, _, _ => by simp [Expr.isConst, error] at h
  | .clock _ _ _, _, _, h, _, _, _ => by simp [Expr.isConst, error] at h

theorem isConst_state {σ : Type} : {e : Expr} → {s s' : EAccum Diag × σ} →
    e.isConst s = (.some (), s') → s' = s
  | .lit _, _, _, h => by cases h; rfl
  | .global _, _, _, h => by cases h; rfl
  | .var _ _, _, _, h => by cases h; rfl
  | .dummyParen e, _, _, h => by simp only [Expr.isConst] at h; exact isConst_state h
  | .un _ e, _, _, h => by simp only [Expr.isConst] at h; exact isConst_state h
  | .bin _ l r, _, _, h => by
    simp only [Expr.isConst] at h
    obtain ⟨p, s1, h1, g1⟩ := bind_some.1 h
    obtain ⟨s2, h3, h4⟩ := both_some.1 h1
    cases g1
    exact (isConst_state h4).trans (isConst_state h3)
  | .cmp _ l r, _, _, h => by
    simp only [Expr.isConst] at h
    obtain ⟨p, s1, h1, g1⟩ := bind_some.1 h
    obtain ⟨s2, h3, h4⟩ := both_some.1 h1
    cases g1
    exact (isConst_state h4).trans (isConst_state h3)
  | .ifx b y n, _, _, h => by
    simp only [Expr.isConst] at h
    obtain ⟨ob, s1, h1, g1⟩ := bind_some.1 h
    obtain ⟨oy, s2, h2, g2⟩ := bind_some.1 g1
    obtain ⟨on, s3, h3, g3⟩ := bind_some.1 g2
    obtain ⟨_, s4, h4, g4⟩ := bind_some.1 g3
    obtain ⟨rfl, rfl⟩ := ofOption_some.1 h4
    obtain ⟨_, s5, h5, g5⟩ := bind_some.1 g4
    obtain ⟨rfl, rfl⟩ := ofOption_some.1 h5
    obtain ⟨rfl, rfl⟩ := ofOption_some.1 g5
    exact (isConst_state (opt_some_some.1 h3)).trans
      ((isConst_state (opt_some_some.1 h2)).trans (isConst_state (opt_some_some.1 h1)))
  | .tuple _, _, _, h => by simp [Expr.isConst, error] at h
  | .dummyPre _, _, _, h => by simp [Expr.isConst, error] at h
  | .later _ _ _, _, _, h => by simp [Expr.isConst, error] at h
  | .fetchPre _ _, _, _, h => by simp [Expr.isConst, error] at h
  | .fetchFby _ _ _, _, _, h => by simp [Expr.isConst, error] at h
  | .flip _ _ _, _, _, h => by simp [Expr.isConst, error] at h
  | .substep _ _ _, _, _, h => by simp [Expr.isConst, error] at h
  | .merge _ _ _, _, _, h => by simp [Expr.isConst, error] at h
  | .clock _ _ _, _, _, h => by simp [Expr.isConst, error] at h

theorem null_plain : TyUnifier.null.Plain := by simp [TyUnifier.Plain]

theorem isConst_of {σ : Type} {e : Expr} (h : ConstExpr e) (s : EAccum Diag × σ) :
    e.isConst s = (.some (), s) := by
  induction h generalizing s with
  | lit => rfl
  | global => rfl
  | paren _ ih => simp only [Expr.isConst]; exact ih s
  | un _ ih => simp only [Expr.isConst]; exact ih s
  | bin _ _ ih1 ih2 =>
    simp only [Expr.isConst]
    exact bind_some.2 ⟨((), ()), s, both_some.2 ⟨s, ih1 s, ih2 s⟩, rfl⟩
  | cmp _ _ ih1 ih2 =>
    simp only [Expr.isConst]
    exact bind_some.2 ⟨((), ()), s, both_some.2 ⟨s, ih1 s, ih2 s⟩, rfl⟩
  | ifx _ _ _ ih1 ih2 ih3 =>
    simp only [Expr.isConst]
    exact bind_some.2 ⟨some (), s, opt_some_some.2 (ih1 s), bind_some.2 ⟨some (), s,
      opt_some_some.2 (ih2 s), bind_some.2 ⟨some (), s, opt_some_some.2 (ih3 s), rfl⟩⟩⟩

theorem constTypecheck_iff {σ : Type} {consts : String → Option TyBase} {c : Const}
    {a : EAccum Diag} {s : σ} :
    c.typecheck consts (a, s) = (.some (), (a, s)) ↔ ConstTyped consts c := by
  unfold Const.typecheck
  constructor
  · intro h
    obtain ⟨_, s1, h1, g1⟩ := bind_some.1 h
    obtain ⟨⟨t, c1⟩, s2, h2, g2⟩ := bind_some.1 g1
    have h1' : s1 = (a, s) := by
      exact isConst_state h1
    subst h1'
    obtain ⟨a', j2, rfl⟩ := local_some.1 h2
    obtain ⟨⟨_, u⟩, s3, h3, -⟩ := bind_some.1 g2
    obtain ⟨a'', j3, rfl⟩ := local_some.1 h3
    obtain ⟨rfl, -⟩ := (identical_plain _ null_plain).1 j3
    obtain ⟨c', -, f, j⟩ := typecheck_sound _ _ _ _ _ constEnv_fits.wf j2
    have ht : HasType (constEnv consts) c.value (.single c.ty) := by
      refine j _ ⟨rfl, rfl⟩ (.inl ⟨fun _ _ => trivial, fun id θ ins outs hi => ?_⟩)
      rw [f.nodesIn] at hi
      simp [TyCtx.fromExt] at hi
    exact ⟨isConst_some h1 ht, ht⟩
  · rintro ⟨h1, h2⟩
    obtain ⟨c', h3, -⟩ := typecheck_complete h2 a constEnv_fits
    exact bind_some.2 ⟨(), (a, s), isConst_of h1 _, bind_some.2 ⟨(.single c.ty, c'), (a, s),
      local_some.2 ⟨a, h3, rfl⟩, bind_some.2 ⟨((), .null), (a, s), local_some.2 ⟨a,
        (identical_plain _ null_plain).2 ⟨rfl, rfl⟩, rfl⟩, rfl⟩⟩⟩

theorem extNodeTypecheck_iff {σ : Type} {o : TyOpts} {n : ExtNode} {a : EAccum Diag} {s : σ} :
    n.typecheck o (a, s) = (.some (), (a, s)) ↔
      SigTyped o.main o.generics n.inputs n.outputs [] ∧ DeclsTyped (n.inputs ++ n.outputs) := by
  unfold ExtNode.typecheck
  have h0 : TyCtx.fromExt (fun _ => none) = (TyCtx.fromExt fun _ => none).withVars [] := rfl
  constructor
  · intro h
    obtain ⟨_, s1, h1, g1⟩ := bind_some.1 h
    obtain ⟨j1, rfl⟩ := checkSignature_some.1 h1
    obtain ⟨⟨_, c⟩, s2, h2, g2⟩ := bind_some.1 g1
    obtain ⟨a', j2, rfl⟩ := local_some.1 h2
    rw [h0] at j2
    obtain ⟨j3, -⟩ := (declare_some _ [] .nil).1 j2
    exact ⟨j1, by simpa using j3⟩
  · rintro ⟨h1, h2⟩
    refine bind_some.2 ⟨(), (a, s), checkSignature_some.2 ⟨h1, rfl⟩, bind_some.2
      ⟨((), (TyCtx.fromExt fun _ => none).withVars (n.inputs ++ n.outputs)), (a, s),
        local_some.2 ⟨a, ?_, rfl⟩, rfl⟩⟩
    rw [h0]
    exact (declare_some _ [] .nil).2 ⟨h2, rfl⟩

/-! ## Programs -/

theorem flat_vars (ts : List TyBase) : tyVars (flatTuple ts) = ts.flatMap baseVars := by
  have h : ∀ l : List TyBase, tyVarsList (l.map .single) = l.flatMap baseVars := by
    intro l
    induction l with
    | nil => rfl
    | cons t l ih => simp [tyVarsList, tyVars, ih]
  unfold flatTuple
  split
  · simp [tyVars]
  · simp only [tyVars]; exact h _

theorem mem_flat_vars {vs : List TyVar} {x : String} :
    x ∈ tyVars (flatTuple (vs.map (·.ty))) ↔ ∃ v ∈ vs, v.ty = .other x := by
  rw [flat_vars, List.mem_flatMap]
  constructor
  · rintro ⟨t, ht, hx⟩
    obtain ⟨v, hv, rfl⟩ := List.mem_map.1 ht
    refine ⟨v, hv, ?_⟩
    cases hb : v.ty <;> simp [hb, baseVars] at hx
    rw [hx]
  · rintro ⟨v, hv, hx⟩
    exact ⟨v.ty, List.mem_map.2 ⟨v, hv, rfl⟩, by rw [hx]; simp [baseVars]⟩

theorem sigOf_wf {b : Bool} {gens : List String} {i o l : List TyVar} (hg : gens.Nodup)
    (h : SigTyped b gens i o l) : (sigOf gens i o).Wf := by
  refine ⟨hg, fun x => ?_, fun x hx => ?_⟩
  · rw [sigOf, mem_flat_vars]
    exact ⟨fun ⟨v, hv, hx⟩ => h.declared v (by simp [hv]) x hx, h.used x⟩
  · rw [sigOf, mem_flat_vars] at hx
    obtain ⟨v, hv, hx⟩ := hx
    exact h.declared v (by simp [hv]) x hx

theorem extend_wf {sigs : String → Option Sig} {x : String} {s : Sig}
    (h : ∀ f s, sigs f = some s → s.Wf) (hs : s.Wf) : ∀ f t, extend sigs x s f = some t → t.Wf := by
  intro f t hf
  unfold extend at hf
  split at hf
  · cases hf; exact hs
  · exact h f t hf

/-- Once something failed the program is refused. -/
theorem progLoop_fatal {σ : Type} {opts : String → TyOpts} : (ds : List Decl) → {p : ProgCtx} →
    {r : Bool × List Decl} → {s s' : EAccum Diag × σ} →
    progTypecheckLoop opts true p ds s = (.some r, s') → r.1 = true
  | [], p, r, s, s', h => by
    simp only [progTypecheckLoop] at h
    cases h; rfl
  | .const c :: ds, p, r, s, s', h => by
    simp only [progTypecheckLoop, Bool.true_or] at h
    obtain ⟨_, s1, h1, g1⟩ := bind_some.1 h
    obtain ⟨p', s2, h2, g2⟩ := bind_some.1 g1
    obtain ⟨⟨b, ds'⟩, s3, h3, g3⟩ := bind_some.1 g2
    cases g3
    have := progLoop_fatal ds h3
    exact this
  | .node c :: ds, p, r, s, s', h => by
    simp only [progTypecheckLoop, Bool.true_or] at h
    obtain ⟨_, s1, h1, g1⟩ := bind_some.1 h
    obtain ⟨p', s2, h2, g2⟩ := bind_some.1 g1
    obtain ⟨⟨b, ds'⟩, s3, h3, g3⟩ := bind_some.1 g2
    cases g3
    have := progLoop_fatal ds h3
    exact this
  | .extNode c :: ds, p, r, s, s', h => by
    simp only [progTypecheckLoop, Bool.true_or] at h
    obtain ⟨_, s1, h1, g1⟩ := bind_some.1 h
    obtain ⟨p', s2, h2, g2⟩ := bind_some.1 g1
    obtain ⟨⟨b, ds'⟩, s3, h3, g3⟩ := bind_some.1 g2
    cases g3
    have := progLoop_fatal ds h3
    exact this
  | .extConst c :: ds, p, r, s, s', h => by
    simp only [progTypecheckLoop] at h
    obtain ⟨p', s2, h2, g2⟩ := bind_some.1 h
    obtain ⟨⟨b, ds'⟩, s3, h3, g3⟩ := bind_some.1 g2
    cases g3
    have := progLoop_fatal ds h3
    exact this

theorem addVar_some {σ : Type} {p p' : ProgCtx} {x : String} {t : TyBase} {s s' : EAccum Diag × σ} :
    p.addVar x t s = (.some p', s') ↔
      p.vars x = none ∧ p' = ⟨extend p.vars x t, p.funs⟩ ∧ s' = s := by
  unfold ProgCtx.addVar
  cases p.vars x with
  | some _ => simp [abort]
  | none =>
    simp only [run_pure, Prod.mk.injEq, Res.some.injEq, true_and]
    constructor
    · rintro ⟨rfl, rfl⟩; exact ⟨rfl, rfl⟩
    · rintro ⟨rfl, rfl⟩; exact ⟨rfl, rfl⟩

theorem addFun_some {σ : Type} {p p' : ProgCtx} {x : String} {t : FunSig} {s s' : EAccum Diag × σ} :
    p.addFun x t s = (.some p', s') ↔
      p.funs x = none ∧ p' = ⟨p.vars, extend p.funs x t⟩ ∧ s' = s := by
  unfold ProgCtx.addFun
  cases p.funs x with
  | some _ => simp [abort]
  | none =>
    simp only [run_pure, Prod.mk.injEq, Res.some.injEq, true_and]
    constructor
    · rintro ⟨rfl, rfl⟩; exact ⟨rfl, rfl⟩
    · rintro ⟨rfl, rfl⟩; exact ⟨rfl, rfl⟩

/-- A successful honest computation that does not touch the state is silent about errors. -/
theorem opt_none_or {σ α : Type} {m : Chk Diag σ α} {s s1 : EAccum Diag × σ} {r : Option α}
    (h : Chk.opt m s = (.some r, s1)) :
    (∃ x, r = some x ∧ m s = (.some x, s1)) ∨ (r = none ∧ m s = (.none, s1)) := by
  unfold Chk.opt at h
  rcases hm : m s with ⟨q, s2⟩
  rw [hm] at h
  cases q with
  | some a => cases h; exact .inl ⟨a, rfl, rfl⟩
  | none => cases h; exact .inr ⟨rfl, rfl⟩
  | abort => cases h

theorem nodeTypecheck_state {σ : Type} {o : TyOpts} {sigs : String → Option Sig}
    {consts : String → Option TyBase} {n n' : Node} {a : EAccum Diag} {s : σ}
    {s' : EAccum Diag × σ} (hs : ∀ f s, sigs f = some s → s.Wf)
    (h : n.typecheck o sigs consts (a, s) = (.some n', s')) : s' = (a, s) := by
  obtain ⟨k1, k2, k3, a', c, k4, -, rfl⟩ := nodeTypecheck_some.1 h
  obtain ⟨c', e, f, j⟩ := stmts_sound n.stmts _ _ _ _ (bodyCtx_wf hs) k4
  cases e; rfl

theorem constTypecheck_state {σ : Type} {consts : String → Option TyBase} {c : Const}
    {a : EAccum Diag} {s : σ} {s' : EAccum Diag × σ}
    (h : c.typecheck consts (a, s) = (.some (), s')) : s' = (a, s) := by
  unfold Const.typecheck at h
  obtain ⟨_, s1, h1, g1⟩ := bind_some.1 h
  obtain ⟨⟨t, c1⟩, s2, h2, g2⟩ := bind_some.1 g1
  have h1' : s1 = (a, s) := isConst_state h1
  subst h1'
  obtain ⟨a', j2, rfl⟩ := local_some.1 h2
  obtain ⟨⟨_, u⟩, s3, h3, g3⟩ := bind_some.1 g2
  obtain ⟨a'', j3, rfl⟩ := local_some.1 h3
  obtain ⟨rfl, e⟩ := (identical_plain _ null_plain).1 j3
  obtain ⟨c', e', f, j⟩ := typecheck_sound _ _ _ _ _ constEnv_fits.wf j2
  cases e; cases e'; cases g3; rfl

theorem extNodeTypecheck_state {σ : Type} {o : TyOpts} {n : ExtNode} {a : EAccum Diag} {s : σ}
    {s' : EAccum Diag × σ} (h : n.typecheck o (a, s) = (.some (), s')) : s' = (a, s) := by
  unfold ExtNode.typecheck at h
  have h0 : TyCtx.fromExt (fun _ => none) = (TyCtx.fromExt fun _ => none).withVars [] := rfl
  obtain ⟨_, s1, h1, g1⟩ := bind_some.1 h
  obtain ⟨j1, rfl⟩ := checkSignature_some.1 h1
  obtain ⟨⟨_, c⟩, s2, h2, g2⟩ := bind_some.1 g1
  obtain ⟨a', j2, rfl⟩ := local_some.1 h2
  rw [h0] at j2
  obtain ⟨j3, e⟩ := (declare_some _ [] .nil).1 j2
  cases e; cases g2; rfl

theorem progLoop_iff {σ : Type} {opts : String → TyOpts} (hg : ∀ f, (opts f).generics.Nodup)
    {a : EAccum Diag} {s : σ} : (ds : List Decl) → {p : ProgCtx} →
    (hp : ∀ f s, p.funs f = some s → Sig.Wf s) →
    ((∃ ds' s', progTypecheckLoop opts false p ds (a, s) = (.some (false, ds'), s')) ↔
      ProgTyped opts p.funs p.vars ds) ∧
    ∀ ds' s', progTypecheckLoop opts false p ds (a, s) = (.some (false, ds'), s') → s' = (a, s)
  | [], p, hp => by
    simp only [progTypecheckLoop]
    exact ⟨⟨fun _ => .nil, fun _ => ⟨[], _, rfl⟩⟩, fun ds' s' h => by cases h; rfl⟩
  | .const c :: ds, p, hp => by
    simp only [progTypecheckLoop]
    have hp' : ∀ f s, (⟨extend p.vars c.name c.ty, p.funs⟩ : ProgCtx).funs f = some s → Sig.Wf s := hp
    obtain ⟨ih1, ih2⟩ := progLoop_iff hg (a := a) (s := s) ds hp'
    have key : ∀ ds' s', (do
        let r ← Chk.opt (c.typecheck p.vars)
        let p ← p.addVar c.name c.ty
        let (fatal, ds) ← progTypecheckLoop opts (false || r.isNone) p ds
        pure (fatal, .const c :: ds) : Chk Diag σ (Bool × List Decl)) (a, s) =
          (.some (false, ds'), s') → ConstTyped p.vars c ∧ p.vars c.name = none ∧ ∃ ds'',
          ds' = .const c :: ds'' ∧ progTypecheckLoop opts false
            ⟨extend p.vars c.name c.ty, p.funs⟩ ds (a, s) = (.some (false, ds''), s') := by
      intro ds' s' h
      obtain ⟨r, s1, h1, g1⟩ := bind_some.1 h
      obtain ⟨p', s2, h2, g2⟩ := bind_some.1 g1
      obtain ⟨j1, rfl, rfl⟩ := addVar_some.1 h2
      obtain ⟨⟨b, ds''⟩, s3, h3, g3⟩ := bind_some.1 g2
      cases g3
      rcases opt_none_or h1 with ⟨x, rfl, j2⟩ | ⟨rfl, -⟩
      · have := constTypecheck_state j2
        subst this
        exact ⟨constTypecheck_iff.1 j2, j1, ds'', rfl, h3⟩
      · exact absurd (progLoop_fatal ds h3) (by simp)
    refine ⟨⟨?_, ?_⟩, ?_⟩
    · rintro ⟨ds', s', h⟩
      obtain ⟨k1, k2, ds'', -, k3⟩ := key _ _ h
      exact .const k1 k2 (ih1.1 ⟨_, _, k3⟩)
    · intro h
      cases h with
      | const k1 k2 k3 =>
        obtain ⟨ds', s', k3⟩ := ih1.2 k3
        exact ⟨.const c :: ds', s', bind_some.2 ⟨some (), (a, s), opt_some_some.2
          (constTypecheck_iff.2 k1), bind_some.2 ⟨_, (a, s), addVar_some.2 ⟨k2, rfl, rfl⟩,
          bind_some.2 ⟨(false, ds'), s', k3, rfl⟩⟩⟩⟩
    · intro ds' s' h
      obtain ⟨k1, k2, ds'', -, k3⟩ := key _ _ h
      exact ih2 _ _ k3
  | .extConst c :: ds, p, hp => by
    simp only [progTypecheckLoop]
    have hp' : ∀ f s, (⟨extend p.vars c.name c.ty, p.funs⟩ : ProgCtx).funs f = some s → Sig.Wf s := hp
    obtain ⟨ih1, ih2⟩ := progLoop_iff hg (a := a) (s := s) ds hp'
    have key : ∀ ds' s', (do
        let p ← p.addVar c.name c.ty
        let (fatal, ds) ← progTypecheckLoop opts false p ds
        pure (fatal, .extConst c :: ds) : Chk Diag σ (Bool × List Decl)) (a, s) =
          (.some (false, ds'), s') → p.vars c.name = none ∧ ∃ ds'',
          ds' = .extConst c :: ds'' ∧ progTypecheckLoop opts false
            ⟨extend p.vars c.name c.ty, p.funs⟩ ds (a, s) = (.some (false, ds''), s') := by
      intro ds' s' h
      obtain ⟨p', s2, h2, g2⟩ := bind_some.1 h
      obtain ⟨j1, rfl, rfl⟩ := addVar_some.1 h2
      obtain ⟨⟨b, ds''⟩, s3, h3, g3⟩ := bind_some.1 g2
      cases g3
      exact ⟨j1, ds'', rfl, h3⟩
    refine ⟨⟨?_, ?_⟩, ?_⟩
    · rintro ⟨ds', s', h⟩
      obtain ⟨k2, ds'', -, k3⟩ := key _ _ h
      exact .extConst k2 (ih1.1 ⟨_, _, k3⟩)
    · intro h
      cases h with
      | extConst k2 k3 =>
        obtain ⟨ds', s', k3⟩ := ih1.2 k3
        exact ⟨.extConst c :: ds', s', bind_some.2 ⟨_, (a, s), addVar_some.2 ⟨k2, rfl, rfl⟩,
          bind_some.2 ⟨(false, ds'), s', k3, rfl⟩⟩⟩
    · intro ds' s' h
      obtain ⟨k2, ds'', -, k3⟩ := key _ _ h
      exact ih2 _ _ k3
  | .node n :: ds, p, hp => by
    simp only [progTypecheckLoop]
    have ih : ∀ (hs : Sig.Wf (sigOf (opts n.name).generics n.inputs n.outputs)), _ := fun hs =>
      progLoop_iff hg (a := a) (s := s) ds (p := ⟨p.vars, extend p.funs n.name
        (sigOf (opts n.name).generics n.inputs n.outputs)⟩) (extend_wf hp hs)
    have key : ∀ ds' s', (do
        let r ← Chk.opt (n.typecheck (opts n.name) p.funs p.vars)
        let p ← p.addFun n.name ((opts n.name).generics, n.inputs.map (·.ty), n.outputs.map (·.ty))
        let (fatal, ds) ← progTypecheckLoop opts (false || r.isNone) p ds
        pure (fatal, .node (r.getD n) :: ds) : Chk Diag σ (Bool × List Decl)) (a, s) =
          (.some (false, ds'), s') → NodeTyped ((opts n.name).main || (opts n.name).test)
            (opts n.name).generics p.funs p.vars n ∧ p.funs n.name = none ∧ ∃ ds'',
          progTypecheckLoop opts false ⟨p.vars, extend p.funs n.name
            (sigOf (opts n.name).generics n.inputs n.outputs)⟩ ds (a, s) =
            (.some (false, ds''), s') := by
      intro ds' s' h
      obtain ⟨r, s1, h1, g1⟩ := bind_some.1 h
      obtain ⟨p', s2, h2, g2⟩ := bind_some.1 g1
      obtain ⟨j1, rfl, rfl⟩ := addFun_some.1 h2
      obtain ⟨⟨b, ds''⟩, s3, h3, g3⟩ := bind_some.1 g2
      cases g3
      rcases opt_none_or h1 with ⟨x, rfl, j2⟩ | ⟨rfl, -⟩
      · have := nodeTypecheck_state hp j2
        subst this
        exact ⟨(nodeTypecheck_iff hp).1 ⟨_, j2⟩, j1, ds'', h3⟩
      · exact absurd (progLoop_fatal ds h3) (by simp)
    refine ⟨⟨?_, ?_⟩, ?_⟩
    · rintro ⟨ds', s', h⟩
      obtain ⟨k1, k2, ds'', k3⟩ := key _ _ h
      exact .node k1 k2 ((ih (sigOf_wf (hg _) k1.sig)).1.1 ⟨_, _, k3⟩)
    · intro h
      cases h with
      | node k1 k2 k3 =>
        obtain ⟨ds', s', k3⟩ := (ih (sigOf_wf (hg _) k1.sig)).1.2 k3
        obtain ⟨n', k1⟩ := (nodeTypecheck_iff (a := a) (s := s) hp).2 k1
        exact ⟨.node n' :: ds', s', bind_some.2 ⟨some n', (a, s), opt_some_some.2 k1,
          bind_some.2 ⟨_, (a, s), addFun_some.2 ⟨k2, rfl, rfl⟩,
          bind_some.2 ⟨(false, ds'), s', k3, rfl⟩⟩⟩⟩
    · intro ds' s' h
      obtain ⟨k1, k2, ds'', k3⟩ := key _ _ h
      exact (ih (sigOf_wf (hg _) k1.sig)).2 _ _ k3
  | .extNode n :: ds, p, hp => by
    simp only [progTypecheckLoop]
    have ih : ∀ (hs : Sig.Wf (sigOf (opts n.name).generics n.inputs n.outputs)), _ := fun hs =>
      progLoop_iff hg (a := a) (s := s) ds (p := ⟨p.vars, extend p.funs n.name
        (sigOf (opts n.name).generics n.inputs n.outputs)⟩) (extend_wf hp hs)
    have key : ∀ ds' s', (do
        let r ← Chk.opt (n.typecheck (opts n.name))
        let p ← p.addFun n.name ((opts n.name).generics, n.inputs.map (·.ty), n.outputs.map (·.ty))
        let (fatal, ds) ← progTypecheckLoop opts (false || r.isNone) p ds
        pure (fatal, .extNode n :: ds) : Chk Diag σ (Bool × List Decl)) (a, s) =
          (.some (false, ds'), s') → (SigTyped (opts n.name).main
            (opts n.name).generics n.inputs n.outputs [] ∧ DeclsTyped (n.inputs ++ n.outputs)) ∧
          p.funs n.name = none ∧ ∃ ds'',
          progTypecheckLoop opts false ⟨p.vars, extend p.funs n.name
            (sigOf (opts n.name).generics n.inputs n.outputs)⟩ ds (a, s) =
            (.some (false, ds''), s') := by
      intro ds' s' h
      obtain ⟨r, s1, h1, g1⟩ := bind_some.1 h
      obtain ⟨p', s2, h2, g2⟩ := bind_some.1 g1
      obtain ⟨j1, rfl, rfl⟩ := addFun_some.1 h2
      obtain ⟨⟨b, ds''⟩, s3, h3, g3⟩ := bind_some.1 g2
      cases g3
      rcases opt_none_or h1 with ⟨x, rfl, j2⟩ | ⟨rfl, -⟩
      · have := extNodeTypecheck_state j2
        subst this
        exact ⟨extNodeTypecheck_iff.1 j2, j1, ds'', h3⟩
      · exact absurd (progLoop_fatal ds h3) (by simp)
    refine ⟨⟨?_, ?_⟩, ?_⟩
    · rintro ⟨ds', s', h⟩
      obtain ⟨k1, k2, ds'', k3⟩ := key _ _ h
      exact .extNode k1.1 k1.2 k2 ((ih (sigOf_wf (hg _) k1.1)).1.1 ⟨_, _, k3⟩)
    · intro h
      cases h with
      | extNode k1 k1' k2 k3 =>
        obtain ⟨ds', s', k3⟩ := (ih (sigOf_wf (hg _) k1)).1.2 k3
        exact ⟨.extNode n :: ds', s', bind_some.2 ⟨some (), (a, s), opt_some_some.2
          (extNodeTypecheck_iff.2 ⟨k1, k1'⟩),
          bind_some.2 ⟨_, (a, s), addFun_some.2 ⟨k2, rfl, rfl⟩,
          bind_some.2 ⟨(false, ds'), s', k3, rfl⟩⟩⟩⟩
    · intro ds' s' h
      obtain ⟨k1, k2, ds'', k3⟩ := key _ _ h
      exact (ih (sigOf_wf (hg _) k1.1)).2 _ _ k3

theorem progTypecheck_iff {σ : Type} {opts : String → TyOpts} (hg : ∀ f, (opts f).generics.Nodup)
    {a : EAccum Diag} {s : σ} {ds : List Decl} :
    (∃ ds' s', progTypecheck opts ds (a, s) = (.some ds', s')) ↔
      ProgTyped opts (fun _ => none) (fun _ => none) ds := by
  have hp : ∀ f s, (⟨fun _ => none, fun _ => none⟩ : ProgCtx).funs f = some s → Sig.Wf s := by
    intro f s h; cases h
  obtain ⟨h1, h2⟩ := progLoop_iff hg (a := a) (s := s) ds hp
  unfold progTypecheck
  constructor
  · rintro ⟨ds', s', h⟩
    obtain ⟨⟨b, ds''⟩, s1, k1, g1⟩ := bind_some.1 h
    cases b with
    | false => exact h1.1 ⟨_, _, k1⟩
    | true => obtain ⟨_, _, k2, -⟩ := bind_some.1 g1; simp [scopeClose] at k2
  · intro h
    obtain ⟨ds', s', k⟩ := h1.2 h
    exact ⟨ds', s', bind_some.2 ⟨(false, ds'), s', k, rfl⟩⟩

/-- A loop that remembers whether something failed. -/
structure Remembers {σ α : Type} (fatal : Bool) (m : Chk Diag σ (Bool × α)) : Prop where
  grows : ∀ s, ∃ es ws, (m s).2.1.err = s.1.err ++ es ∧ (m s).2.1.warn = s.1.warn ++ ws
  no_none : ∀ s, (m s).1 ≠ .none
  some_false : ∀ s x, (m s).1 = .some (false, x) → fatal = false ∧ (m s).2.1.err = s.1.err
  some_true : ∀ s x, (m s).1 = .some (true, x) →
    fatal = true ∨ ∃ e es, (m s).2.1.err = s.1.err ++ e :: es

theorem remembers_pure {σ α : Type} (fatal : Bool) (x : α) :
    Remembers fatal (pure (fatal, x) : Chk Diag σ (Bool × α)) := by
  refine ⟨fun s => ⟨[], [], by simp⟩, fun s => by simp, fun s y h => ?_, fun s y h => ?_⟩
  · simp at h; exact ⟨h.1, rfl⟩
  · simp at h; exact .inl h.1

theorem remembers_map {σ α β : Type} {fatal : Bool} {m : Chk Diag σ (Bool × α)} {f : α → β}
    (h : Remembers fatal m) :
    Remembers fatal (do let (b, x) ← m; pure (b, f x) : Chk Diag σ (Bool × β)) := by
  have key : ∀ s, (do let (b, x) ← m; pure (b, f x) : Chk Diag σ (Bool × β)) s =
      (match (m s).1 with | .some (b, x) => .some (b, f x) | .none => .none | .abort => .abort,
        (m s).2) := by
    intro s
    rw [run_bind]
    rcases m s with ⟨r, s1⟩
    cases r <;> rfl
  refine ⟨fun s => ?_, fun s => ?_, fun s y hy => ?_, fun s y hy => ?_⟩
  · rw [key]; exact h.grows s
  · rw [key]
    have := h.no_none s
    rcases hr : (m s).1 with ⟨b, x⟩ | _ | _ <;> simp_all
  · rw [key] at hy ⊢
    rcases hr : (m s).1 with ⟨b, x⟩ | _ | _ <;> simp [hr] at hy
    obtain ⟨rfl, -⟩ := hy
    exact h.some_false s x hr
  · rw [key] at hy ⊢
    rcases hr : (m s).1 with ⟨b, x⟩ | _ | _ <;> simp [hr] at hy
    obtain ⟨rfl, -⟩ := hy
    exact h.some_true s x hr

/-- A computation that does not report anything and does not fail (it may abort). -/
def Silent {σ α : Type} (m : Chk Diag σ α) : Prop := ∀ s, (m s).1 ≠ .none ∧ (m s).2.1 = s.1

theorem remembers_silent {σ α β : Type} {fatal : Bool} {m : Chk Diag σ β}
    {f : β → Chk Diag σ (Bool × α)} (hm : Silent m) (hf : ∀ b, Remembers fatal (f b)) :
    Remembers fatal (m >>= f) := by
  have key : ∀ s, (m >>= f) s = (match (m s).1 with
      | .some b => f b (m s).2
      | .none => (.none, (m s).2)
      | .abort => (.abort, (m s).2)) := by
    intro s
    rw [run_bind]
    rcases m s with ⟨r, s1⟩
    cases r <;> rfl
  refine ⟨fun s => ?_, fun s => ?_, fun s y hy => ?_, fun s y hy => ?_⟩
  · obtain ⟨h1, h2⟩ := hm s
    rw [key, ← h2]
    cases hr : (m s).1 with
    | none => exact absurd hr h1
    | abort => exact ⟨[], [], by simp⟩
    | some b => exact (hf b).grows _
  · obtain ⟨h1, h2⟩ := hm s
    rw [key]
    cases hr : (m s).1 with
    | none => exact absurd hr h1
    | abort => simp
    | some b => exact (hf b).no_none _
  · obtain ⟨h1, h2⟩ := hm s
    rw [key] at hy ⊢
    rw [← h2]
    cases hr : (m s).1 with
    | none => exact absurd hr h1
    | abort => simp [hr] at hy
    | some b => rw [hr] at hy; exact (hf b).some_false _ y hy
  · obtain ⟨h1, h2⟩ := hm s
    rw [key] at hy ⊢
    rw [← h2]
    cases hr : (m s).1 with
    | none => exact absurd hr h1
    | abort => simp [hr] at hy
    | some b => rw [hr] at hy; exact (hf b).some_true _ y hy

theorem remembers_opt {σ α β : Type} {fatal : Bool} {m : Chk Diag σ β}
    {f : Option β → Chk Diag σ (Bool × α)} (hm : Honest m)
    (hf : ∀ b, Remembers (fatal || b.isNone) (f b)) : Remembers fatal (Chk.opt m >>= f) := by
  refine ⟨fun s => ?_, fun s => ?_, fun s y hy => ?_, fun s y hy => ?_⟩
  · rw [opt_bind]
    obtain ⟨es, ws, h1, h2⟩ := hm.grows s
    rcases hr : m s with ⟨r, s1⟩
    rw [hr] at h1 h2
    cases r with
    | abort => exact ⟨es, ws, h1, h2⟩
    | some b =>
      obtain ⟨es', ws', h3, h4⟩ := (hf (some b)).grows s1
      exact ⟨es ++ es', ws ++ ws', by simp_all, by simp_all⟩
    | none =>
      obtain ⟨es', ws', h3, h4⟩ := (hf none).grows s1
      exact ⟨es ++ es', ws ++ ws', by simp_all, by simp_all⟩
  · rw [opt_bind]
    rcases hr : m s with ⟨r, s1⟩
    cases r with
    | abort => simp
    | some b => exact (hf _).no_none s1
    | none => exact (hf _).no_none s1
  · rw [opt_bind] at hy ⊢
    rcases hr : m s with ⟨r, s1⟩
    rw [hr] at hy
    cases r with
    | abort => cases hy
    | some b =>
      obtain ⟨h1, h2⟩ := (hf _).some_false s1 y hy
      have := hm.some_err s b (by rw [hr])
      rw [hr] at this
      exact ⟨by simpa using h1, by simp only at this ⊢; rw [h2, this]⟩
    | none =>
      obtain ⟨h1, h2⟩ := (hf _).some_false s1 y hy
      simp at h1
  · rw [opt_bind] at hy ⊢
    rcases hr : m s with ⟨r, s1⟩
    rw [hr] at hy
    cases r with
    | abort => cases hy
    | some b =>
      have := hm.some_err s b (by rw [hr])
      rw [hr] at this
      rcases (hf _).some_true s1 y hy with h1 | ⟨e, es, h1⟩
      · exact .inl (by simpa using h1)
      · exact .inr ⟨e, es, by simp only at this ⊢; rw [h1, this]⟩
    | none =>
      obtain ⟨e, es, h1⟩ := hm.none_err s (by rw [hr])
      rw [hr] at h1
      obtain ⟨es', ws', h3, h4⟩ := (hf none).grows s1
      exact .inr ⟨e, es ++ es', by simp only at h1 ⊢; rw [h3, h1]; simp⟩

theorem addVar_silent {σ : Type} (p : ProgCtx) (x : String) (t : TyBase) :
    Silent (p.addVar x t : Chk Diag σ ProgCtx) := by
  intro s; unfold ProgCtx.addVar; cases p.vars x <;> simp [abort]

theorem addFun_silent {σ : Type} (p : ProgCtx) (x : String) (t : FunSig) :
    Silent (p.addFun x t : Chk Diag σ ProgCtx) := by
  intro s; unfold ProgCtx.addFun; cases p.funs x <;> simp [abort]

theorem progLoop_remembers {σ : Type} {opts : String → TyOpts} : (ds : List Decl) → (fatal : Bool) →
    (p : ProgCtx) → Remembers fatal (progTypecheckLoop opts fatal p ds : Chk Diag σ _)
  | [], fatal, p => by simp only [progTypecheckLoop]; exact remembers_pure _ _
  | .const c :: ds, fatal, p => by
    simp only [progTypecheckLoop]
    exact remembers_opt (constTypecheck_honest _ _) fun r => remembers_silent (addVar_silent _ _ _)
      fun p => remembers_map (progLoop_remembers ds _ p)
  | .extConst c :: ds, fatal, p => by
    simp only [progTypecheckLoop]
    exact remembers_silent (addVar_silent _ _ _) fun p => remembers_map (progLoop_remembers ds _ p)
  | .node n :: ds, fatal, p => by
    simp only [progTypecheckLoop]
    exact remembers_opt (nodeTypecheck_honest _ _ _ _) fun r =>
      remembers_silent (addFun_silent _ _ _)
      fun p => remembers_map (progLoop_remembers ds _ p)
  | .extNode n :: ds, fatal, p => by
    simp only [progTypecheckLoop]
    exact remembers_opt (extNodeTypecheck_honest _ _) fun r =>
      remembers_silent (addFun_silent _ _ _)
      fun p => remembers_map (progLoop_remembers ds _ p)

theorem honest_remembers {σ α : Type} {m : Chk Diag σ (Bool × α)} (h : Remembers false m) :
    Honest (do let (b, x) ← m; Chk.scopeClose b; pure x : Chk Diag σ α) := by
  have key : ∀ s, (do let (b, x) ← m; Chk.scopeClose b; pure x : Chk Diag σ α) s =
      ((match (m s).1 with
        | .some (true, _) => .none
        | .some (false, x) => .some x
        | .none => .none
        | .abort => .abort), (m s).2) := by
    intro s
    rw [run_bind]
    rcases m s with ⟨r, s1⟩
    rcases r with ⟨b, x⟩ | _ | _
    · cases b <;> rfl
    · rfl
    · rfl
  refine ⟨fun s => ?_, fun s hs => ?_, fun s x hs => ?_⟩
  · rw [key]; exact h.grows s
  · rw [key] at hs ⊢
    rcases hr : (m s).1 with ⟨b, x⟩ | _ | _
    · cases b
      · simp [hr] at hs
      · rcases h.some_true s x hr with h | h
        · cases h
        · exact h
    · exact absurd hr (h.no_none s)
    · simp [hr] at hs
  · rw [key] at hs ⊢
    rcases hr : (m s).1 with ⟨b, y⟩ | _ | _
    · cases b
      · exact (h.some_false s y hr).2
      · simp [hr] at hs
    · simp [hr] at hs
    · simp [hr] at hs

theorem progTypecheck_honest {σ : Type} (opts : String → TyOpts) (ds : List Decl) :
    Honest (progTypecheck opts ds : Chk Diag σ (List Decl)) :=
  honest_remembers (progLoop_remembers ds false _)

end Chandeliers.San
