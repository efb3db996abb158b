import Verif.Lemmas.Passes

/-!
# What a check does when there are more constants

The passes do not look at the messages that were recorded before, and a check that succeeds
succeeds in the same way when it is given more constants.
-/

set_option autoImplicit false

namespace Chandeliers.Fol
open Chandeliers.San Chandeliers.Spec Chandeliers.Syn Chandeliers.Err Chandeliers.Err.Chk

section
variable {E σ τ α β : Type} {R : σ → σ → Prop}

/-- When it succeeds, it also does so with other messages and in a related context, with the same
result. -/
def Follows (R : σ → σ → Prop) (m : Chk E σ α) : Prop :=
  ∀ a b s s' x a' t, R s s' → m (a, s) = (.some x, (a', t)) →
    ∃ b' t', m (b, s') = (.some x, (b', t')) ∧ R t t'

/-- It never succeeds. -/
def Never (m : Chk E σ α) : Prop := ∀ s x s', m s ≠ (.some x, s')

theorem never_bind {m : Chk E σ α} {f : α → Chk E σ β} (h : ∀ x, Never (f x)) : Never (m >>= f) := by
  intro s x s' e
  obtain ⟨y, s1, -, h2⟩ := bind_some.1 e
  exact h y s1 x s' h2

theorem never_none {f : α → Chk E σ β} : Never (Chk.ofOption none >>= f) := by
  intro s x s' e
  obtain ⟨y, s1, h1, -⟩ := bind_some.1 e
  cases h1

theorem follows_pure (x : α) : Follows R (Pure.pure x : Chk E σ α) := by
  intro a b s s' y a' t hr h
  cases h
  exact ⟨b, s', rfl, hr⟩

theorem follows_error (e : E) : Follows R (Chk.error e : Chk E σ α) := by
  intro a b s s' y a' t hr h
  cases h

theorem follows_abort : Follows R (Chk.abort : Chk E σ α) := by
  intro a b s s' y a' t hr h
  cases h

theorem follows_bind {m : Chk E σ α} {f : α → Chk E σ β} (hm : Follows R m)
    (hf : ∀ x, Follows R (f x)) : Follows R (m >>= f) := by
  intro a b s s' y a' t hr h
  obtain ⟨x, ⟨a1, s1⟩, h1, h2⟩ := bind_some.1 h
  obtain ⟨b1, s1', k1, r1⟩ := hm a b s s' x a1 s1 hr h1
  obtain ⟨b2, s2', k2, r2⟩ := hf x a1 b1 s1 s1' y a' t r1 h2
  exact ⟨b2, s2', bind_some.2 ⟨x, _, k1, k2⟩, r2⟩

theorem follows_both {m : Chk E σ α} {n : Chk E σ β} (hm : Follows R m) (hn : Follows R n) :
    Follows R (Chk.both m n) := by
  intro a b s s' y a' t hr h
  obtain ⟨⟨a1, s1⟩, h1, h2⟩ := both_some.1 h
  obtain ⟨b1, s1', k1, r1⟩ := hm a b s s' y.1 a1 s1 hr h1
  obtain ⟨b2, s2', k2, r2⟩ := hn a1 b1 s1 s1' y.2 a' t r1 h2
  exact ⟨b2, s2', both_some.2 ⟨_, k1, k2⟩, r2⟩

/-- A check whose failure makes the rest fail. -/
theorem follows_opt {m : Chk E σ α} {f : Option α → Chk E σ β} (hm : Follows R m)
    (hf : ∀ x, Follows R (f (some x))) (hn : Never (f none)) : Follows R (Chk.opt m >>= f) := by
  intro a b s s' y a' t hr h
  rw [opt_bind] at h
  rcases h1 : m (a, s) with ⟨r, a1, s1⟩
  rw [h1] at h
  cases r with
  | abort => cases h
  | none => exact absurd h (hn _ _ _)
  | some x =>
    obtain ⟨b1, s1', k1, r1⟩ := hm a b s s' x a1 s1 hr h1
    obtain ⟨b2, s2', k2, r2⟩ := hf x a1 b1 s1 s1' y a' t r1 h
    exact ⟨b2, s2', by rw [opt_bind, k1]; exact k2, r2⟩

theorem follows_some {f : α → Chk E σ β} {x : α} (hf : Follows R (f x)) :
    Follows R (Chk.ofOption (some x) >>= f) := hf

theorem follows_modify {f : σ → σ} (hf : ∀ s s', R s s' → R (f s) (f s')) :
    Follows R (Chk.modify f : Chk E σ Unit) := by
  intro a b s s' y a' t hr h
  cases h
  exact ⟨b, f s', rfl, hf s s' hr⟩

theorem follows_inScope : ∀ (ms : List (Chk E σ Unit)), (∀ m ∈ ms, Follows R m) →
    Follows R (Chk.inScope ms)
  | [], _ => by
    intro a b s s' y a' t hr h
    cases inScope_some_nil.1 h
    exact ⟨b, s', inScope_some_nil.2 rfl, hr⟩
  | m :: ms, hm => by
    intro a b s s' y a' t hr h
    obtain ⟨⟨a1, s1⟩, h1, h2⟩ := inScope_some_cons.1 h
    obtain ⟨b1, s1', k1, r1⟩ := hm m (by simp) a b s s' () a1 s1 hr h1
    obtain ⟨b2, s2', k2, r2⟩ :=
      follows_inScope ms (fun m hm' => hm m (by simp [hm'])) a1 b1 s1 s1' y a' t r1 h2
    exact ⟨b2, s2', inScope_some_cons.2 ⟨_, k1, k2⟩, r2⟩

/-- A check with a context of its own that starts the same. -/
theorem follows_local {init : τ} {m : Chk Diag τ α} (h : Follows (· = ·) m) :
    Follows R (San.Chk.local_ init m : Chk Diag σ (α × τ)) := by
  rintro a b s s' ⟨x, t⟩ a' u hr hx
  obtain ⟨a1, h1, h2⟩ := local_some.1 hx
  cases h2
  obtain ⟨b', t', k1, rfl⟩ := h a b init init x _ t rfl h1
  exact ⟨b', s', local_some.2 ⟨b', k1, rfl⟩, hr⟩

theorem follows_ite {p : Prop} [Decidable p] {m n : Chk E σ α} (hm : Follows R m) (hn : Follows R n) :
    Follows R (if p then m else n) := by split <;> assumption

/-- Success determines the result. -/
theorem follows_unique {m : Chk E σ α} (h : Follows (· = ·) m) {a a' b b' : EAccum E} {s t t' : σ}
    {x x' : α} (hx : m (a, s) = (.some x, (a', t))) (hx' : m (b, s) = (.some x', (b', t'))) :
    x = x' ∧ t = t' := by
  obtain ⟨b1, t1, k, rfl⟩ := h a b s s x a' t rfl hx
  rw [hx'] at k
  cases k
  exact ⟨rfl, rfl⟩

end

/-! ## Types -/

section
variable {σ : Type} {R : σ → σ → Prop}

theorem isPrimitive_follows (t : TyTuple) : Follows R (t.isPrimitive : Chk Diag σ TyBase) := by
  intro a b s s' y a' u hr h
  obtain ⟨rfl, h2⟩ := isPrimitive_some.1 h
  exact ⟨b, s', isPrimitive_some.2 ⟨rfl, rfl⟩, by cases h2; exact hr⟩

theorem isBool_follows (w : String) (t : TyBase) : Follows R (t.isBool w : Chk Diag σ Unit) := by
  intro a b s s' y a' u hr h
  obtain ⟨rfl, h2⟩ := isBool_some.1 h
  exact ⟨b, s', isBool_some.2 ⟨rfl, rfl⟩, by cases h2; exact hr⟩

theorem binAccepts_follows (op : BinOp) (l r : TyBase) :
    Follows R (op.accepts l r : Chk Diag σ Unit) := by
  intro a b s s' y a' u hr h
  obtain ⟨h1, h2, h3⟩ := binAccepts_some.1 h
  exact ⟨b, s', binAccepts_some.2 ⟨h1, h2, rfl⟩, by cases h3; exact hr⟩

theorem unAccepts_follows (op : UnOp) (l : TyBase) : Follows R (op.accepts l : Chk Diag σ Unit) := by
  intro a b s s' y a' u hr h
  obtain ⟨h1, h3⟩ := unAccepts_some.1 h
  exact ⟨b, s', unAccepts_some.2 ⟨h1, rfl⟩, by cases h3; exact hr⟩

theorem cmpAccepts_follows (op : CmpOp) (l r : TyBase) :
    Follows R (op.accepts l r : Chk Diag σ Unit) := by
  intro a b s s' y a' u hr h
  obtain ⟨h1, h2, h3⟩ := cmpAccepts_some.1 h
  exact ⟨b, s', cmpAccepts_some.2 ⟨h1, h2, rfl⟩, by cases h3; exact hr⟩

end

/-- The same context with more constants. -/
structure More (c c' : TyCtx) : Prop where
  global : ∀ x t, c.global x = some t → c'.global x = some t
  vars : c.vars = c'.vars
  registers : c.registers = c'.registers
  nodesIn : c.nodesIn = c'.nodesIn
  nodesOut : c.nodesOut = c'.nodesOut
  nodesGenerics : c.nodesGenerics = c'.nodesGenerics

theorem sameType_follows (t u : TyTuple) : Follows More (sameType t u) := by
  intro a b s s' y a' v hr h
  obtain ⟨h1, h2⟩ := sameType_some.1 h
  exact ⟨b, s', sameType_some.2 ⟨h1, rfl⟩, by cases h2; exact hr⟩

theorem getVar_follows (x : String) : Follows More (getVar x) := by
  intro a b s s' y a' v hr h
  obtain ⟨t, h1, h2, h3⟩ := getVar_some.1 h
  exact ⟨b, s', getVar_some.2 ⟨t, by rw [← hr.vars]; exact h1, h2, rfl⟩, by cases h3; exact hr⟩

theorem getGlobal_follows (x : String) : Follows More (getGlobal x) := by
  intro a b s s' y a' v hr h
  obtain ⟨t, h1, h2, h3⟩ := getGlobal_some.1 h
  exact ⟨b, s', getGlobal_some.2 ⟨t, hr.global _ _ h1, h2, rfl⟩, by cases h3; exact hr⟩

theorem getOrAbort_follows {α : Type} {f : TyCtx → Option α}
    (hf : ∀ c c', More c c' → f c = f c') : Follows More (getOrAbort f) := by
  intro a b s s' y a' v hr h
  obtain ⟨h1, h3⟩ := getOrAbort_some.1 h
  exact ⟨b, s', getOrAbort_some.2 ⟨by rw [← hf s s' hr]; exact h1, rfl⟩, by cases h3; exact hr⟩

theorem setGenerics_follows (id : Nat) (gens : List String) (ts : List TyBase) :
    Follows More (setGenerics id gens ts) :=
  follows_modify fun s s' hr => ⟨hr.global, hr.vars, hr.registers, hr.nodesIn, hr.nodesOut,
    by simp only [hr.nodesGenerics]⟩

theorem setRegister_follows (id : Nat) (t : TyTuple) : Follows More (Chk.modify fun c : TyCtx =>
    { c with registers := fun i => if i = id then some t else c.registers i } :
    Chk Diag TyCtx Unit) :=
  follows_modify fun s s' hr => ⟨hr.global, hr.vars, by simp only [hr.registers], hr.nodesIn,
    hr.nodesOut, hr.nodesGenerics⟩

theorem instantiate_follows (id : Nat) (u : TyUnifier) : Follows More (instantiate id u) := by
  unfold instantiate
  refine follows_bind (getOrAbort_follows fun c c' h => by rw [h.nodesGenerics]) fun gens => ?_
  split
  · split
    · exact follows_abort
    · exact setGenerics_follows _ _ _
  · exact setGenerics_follows _ _ _

theorem requireIdentical_follows (l r : TyBase) : Follows (· = ·) (requireIdentical l r) := by
  rintro a b s _ y a' t rfl h
  cases l with
  | other l =>
    simp only [requireIdentical, run_bind, Chk.get] at h ⊢
    cases s with
    | mapping idx subst =>
      dsimp only at h ⊢
      cases h1 : idx l with
      | none => rw [h1] at h; cases h
      | some i =>
        rw [h1] at h
        dsimp only at h ⊢
        cases h2 : subst[i]? with
        | none => rw [h2] at h; cases h
        | some o =>
          rw [h2] at h
          cases o with
          | none => cases h; exact ⟨b, _, rfl, rfl⟩
          | some v =>
            dsimp only at h ⊢
            split at h
            · next hv => rw [if_pos hv]; cases h; exact ⟨b, _, rfl, rfl⟩
            · cases h
    | identity =>
      dsimp only at h ⊢
      split at h
      · next hv => rw [if_pos hv]; cases h; exact ⟨b, _, rfl, rfl⟩
      · cases h
    | null =>
      dsimp only at h ⊢
      split at h
      · next hv => rw [if_pos hv]; cases h; exact ⟨b, _, rfl, rfl⟩
      · cases h
  | _ =>
    simp only [requireIdentical] at h ⊢
    split at h
    · next hv => rw [if_pos hv]; cases h; exact ⟨b, _, rfl, rfl⟩
    · cases h

mutual
theorem identical_follows : (t u : TyTuple) → Follows (· = ·) (t.identical u)
  | .single l, .single r => by
    simp only [TyTuple.identical]; exact requireIdentical_follows l r
  | .multiple ts, .multiple us => by
    simp only [TyTuple.identical]
    exact follows_ite (follows_error _) (follows_inScope _ (identicals_follows ts us))
  | .multiple ts, .single r => by simp only [TyTuple.identical]; exact follows_error _
  | .single l, .multiple us => by simp only [TyTuple.identical]; exact follows_error _
theorem identicals_follows : (ts us : List TyTuple) →
    ∀ m ∈ TyTuple.identicals ts us, Follows (· = ·) m
  | t :: ts, u :: us => by
    simp only [TyTuple.identicals, List.mem_cons]
    rintro m (rfl | h)
    · exact identical_follows t u
    · exact identicals_follows ts us m h
  | [], _ => by simp [TyTuple.identicals]
  | _ :: _, [] => by simp [TyTuple.identicals]
end

mutual
/-- With more constants, an expression that had a type has the same. -/
theorem typecheck_follows : (e : Expr) → Follows More e.typecheck
  | .lit (.int _) => by simp only [Expr.typecheck]; exact follows_pure _
  | .lit (.float _) => by simp only [Expr.typecheck]; exact follows_pure _
  | .lit (.bool _) => by simp only [Expr.typecheck]; exact follows_pure _
  | .global x => by simp only [Expr.typecheck]; exact getGlobal_follows x
  | .var x _ => by simp only [Expr.typecheck]; exact getVar_follows x
  | .dummyPre e => by simp only [Expr.typecheck]; exact typecheck_follows e
  | .dummyParen e => by simp only [Expr.typecheck]; exact typecheck_follows e
  | .tuple es => by
    simp only [Expr.typecheck]
    exact follows_bind (typecheckList_follows es) fun _ => follows_pure _
  | .bin op l r => by
    simp only [Expr.typecheck]
    exact follows_bind (follows_both
      (follows_bind (typecheck_follows l) isPrimitive_follows)
      (follows_bind (typecheck_follows r) isPrimitive_follows)) fun _ =>
      follows_bind (binAccepts_follows _ _ _) fun _ => follows_pure _
  | .un op e => by
    simp only [Expr.typecheck]
    exact follows_bind (typecheck_follows e) fun _ => follows_bind (isPrimitive_follows _) fun _ =>
      follows_bind (unAccepts_follows _ _) fun _ => follows_pure _
  | .cmp op l r => by
    simp only [Expr.typecheck]
    exact follows_bind (follows_both
      (follows_bind (typecheck_follows l) isPrimitive_follows)
      (follows_bind (typecheck_follows r) isPrimitive_follows)) fun _ =>
      follows_bind (cmpAccepts_follows _ _ _) fun _ => follows_pure _
  | .later _ l r => by
    simp only [Expr.typecheck]
    exact follows_bind (follows_both (typecheck_follows l) (typecheck_follows r)) fun _ =>
      follows_bind (sameType_follows _ _) fun _ => follows_pure _
  | .flip _ l r => by
    simp only [Expr.typecheck]
    exact follows_bind (follows_both (typecheck_follows l) (typecheck_follows r)) fun _ =>
      follows_bind (sameType_follows _ _) fun _ => follows_pure _
  | .ifx c y n => by
    simp only [Expr.typecheck]
    refine follows_opt (follows_bind (typecheck_follows c) isPrimitive_follows) (fun c' => ?_)
      (never_bind fun _ => never_bind fun _ => never_none)
    refine follows_opt (typecheck_follows y) (fun y' => ?_)
      (never_bind fun _ => never_bind fun _ => never_bind fun _ => never_none)
    refine follows_opt (typecheck_follows n) (fun n' => ?_)
      (never_bind fun _ => never_bind fun _ => never_bind fun _ => never_none)
    exact follows_some (follows_bind (isBool_follows _ _) fun _ => follows_some (follows_some
      (follows_bind (sameType_follows _ _) fun _ => follows_pure _)))
  | .substep _ id args => by
    simp only [Expr.typecheck]
    refine follows_bind (getOrAbort_follows fun c c' h => by rw [h.nodesIn]) fun ins => ?_
    refine follows_bind (getOrAbort_follows fun c c' h => by rw [h.nodesGenerics]) fun gens => ?_
    refine follows_bind (typecheck_follows args) fun t => ?_
    split
    · exact follows_abort
    · refine follows_bind (follows_local (identical_follows _ _)) fun u => ?_
      refine follows_bind (instantiate_follows _ _) fun _ => ?_
      refine follows_bind (getOrAbort_follows fun c c' h => by rw [h.nodesOut]) fun outs => ?_
      split
      · exact follows_abort
      · exact follows_pure _
  | .clock _ inner act => by
    simp only [Expr.typecheck]
    refine follows_opt (follows_bind (typecheck_follows act) isPrimitive_follows) (fun c' => ?_)
      (never_bind fun _ => never_none)
    exact follows_bind (typecheck_follows inner) fun _ => follows_some
      (follows_bind (isBool_follows _ _) fun _ => follows_pure _)
  | .merge s y n => by
    simp only [Expr.typecheck]
    exact follows_bind (typecheck_follows s) fun _ => follows_bind (typecheck_follows y) fun _ =>
      follows_bind (typecheck_follows n) fun _ => follows_bind (isPrimitive_follows _) fun _ =>
      follows_bind (isBool_follows _ _) fun _ => follows_bind (sameType_follows _ _) fun _ =>
      follows_pure _
  | .fetchPre id f => by
    simp only [Expr.typecheck]
    exact follows_bind (typecheck_follows f) fun _ => follows_bind (setRegister_follows _ _) fun _ =>
      follows_pure _
  | .fetchFby id i f => by
    simp only [Expr.typecheck]
    exact follows_bind (typecheck_follows f) fun _ => follows_bind (typecheck_follows i) fun _ =>
      follows_bind (sameType_follows _ _) fun _ => follows_bind (setRegister_follows _ _) fun _ =>
      follows_pure _
/-- Of a list. -/
theorem typecheckList_follows : (es : List Expr) → Follows More (Expr.typecheckList es)
  | [] => by simp only [Expr.typecheckList]; exact follows_pure _
  | e :: es => by
    simp only [Expr.typecheckList]
    exact follows_bind (typecheck_follows e) fun _ => follows_bind (typecheckList_follows es) fun _ =>
      follows_pure _
end

mutual
theorem targetTypecheck_follows : (v : VarTuple) → Follows More v.typecheck
  | .single x => by simp only [VarTuple.typecheck]; exact getVar_follows x
  | .multiple vs => by
    simp only [VarTuple.typecheck]
    exact follows_bind (targetTypecheckList_follows vs) fun _ => follows_pure _
theorem targetTypecheckList_follows : (vs : List VarTuple) →
    Follows More (VarTuple.typecheckList vs)
  | [] => by simp only [VarTuple.typecheckList]; exact follows_pure _
  | v :: vs => by
    simp only [VarTuple.typecheckList]
    exact follows_bind (targetTypecheck_follows v) fun _ =>
      follows_bind (targetTypecheckList_follows vs) fun _ => follows_pure _
end

theorem stmtTypecheck_follows (st : Stmt) : Follows More st.typecheck := by
  cases st with
  | let_ v e =>
    exact follows_bind (follows_both (targetTypecheck_follows v) (typecheck_follows e)) fun _ =>
      sameType_follows _ _
  | assert e =>
    exact follows_bind (typecheck_follows e) fun _ => follows_bind (isPrimitive_follows _) fun _ =>
      isBool_follows _ _
  | updateRegister id e => exact follows_pure _
  | initRegister id i k => exact follows_pure _

/-- The context of a node, with more constants and more nodes. -/
theorem bodyCtx_more {sigs sigs' : String → Option Sig} {consts consts' : String → Option TyBase}
    {n : Node} (hc : ∀ x t, consts x = some t → consts' x = some t)
    (hs : ∀ x t, sigs x = some t → sigs' x = some t)
    (hb : ∀ b ∈ n.blocks, ∃ s, sigs b.name = some s) :
    More (bodyCtx sigs consts n) (bodyCtx sigs' consts' n) := by
  have h : ∀ i, blockSig sigs n.blocks i = blockSig sigs' n.blocks i := by
    intro i
    unfold blockSig
    cases h1 : n.blocks[i]? with
    | none => rfl
    | some b =>
      obtain ⟨s, h2⟩ := hb b (List.mem_of_getElem? h1)
      simp [h2, hs _ _ h2]
  constructor
  · exact hc
  · rfl
  · rfl
  · simp only [bodyCtx, TyCtx.withBlocks, h]
  · simp only [bodyCtx, TyCtx.withBlocks, h]
  · simp only [bodyCtx, TyCtx.withBlocks, h]

/-- With more constants and more nodes, a node that was accepted becomes the same. -/
theorem nodeTypecheck_more {σ τ : Type} {o : TyOpts} {sigs sigs' : String → Option Sig}
    {consts consts' : String → Option TyBase} {n n' : Node} {a b : EAccum Diag} {s : σ} {t : τ}
    {s' : EAccum Diag × σ}
    (hc : ∀ x t, consts x = some t → consts' x = some t)
    (hs : ∀ x t, sigs x = some t → sigs' x = some t)
    (h : n.typecheck o sigs consts (a, s) = (.some n', s')) :
    ∃ b', n.typecheck o sigs' consts' (b, t) = (.some n', (b', t)) := by
  obtain ⟨h1, h2, h3, a', c, h4, rfl, -⟩ := nodeTypecheck_some.1 h
  obtain ⟨b', c', h5, h6⟩ := follows_inScope (R := More) (n.stmts.map Stmt.typecheck)
    (by
      intro m hm
      obtain ⟨st, -, rfl⟩ := List.mem_map.1 hm
      exact stmtTypecheck_follows st) a b _ _ () a' c (bodyCtx_more hc hs h3) h4
  refine ⟨b', nodeTypecheck_some.2 ⟨h1, h2, fun b hb => ?_, b', c', h5, ?_, rfl⟩⟩
  · obtain ⟨s, h7⟩ := h3 b hb
    exact ⟨s, hs _ _ h7⟩
  · simp only [Node.fill, h6.registers, h6.nodesGenerics]

/-! ## Clocks -/

theorem clockOf_follows (x : String) : Follows (· = ·) (clockOf x) := by
  rintro a b s _ y a' t rfl h
  simp only [clockOf, run_bind, Chk.get] at h ⊢
  cases h1 : s.local_ x with
  | none => rw [h1] at h; cases h
  | some k => rw [h1] at h; cases h; exact ⟨b, s, rfl, rfl⟩

section
variable {σ : Type} {R : σ → σ → Prop}

theorem isImplicit_follows (k : Clk) : Follows R (k.isImplicit : Chk Diag σ Unit) := by
  cases k
  · exact follows_pure _
  · exact follows_pure _
  · exact follows_error _
  · exact follows_error _

theorem optImplicit_follows (k : Clk) : Follows R (Chk.opt k.isImplicit : Chk Diag σ (Option Unit)) := by
  intro a b s s' y a' t hr h
  cases k <;> cases h <;> exact ⟨_, s', rfl, hr⟩

theorem clkIdentical_follows (k k' : Clk) : Follows R (k.identical k' : Chk Diag σ Unit) := by
  cases k <;> cases k' <;> simp only [Clk.identical] <;>
    first
    | exact follows_pure _
    | exact follows_error _
    | exact follows_ite (follows_pure _) (follows_error _)

theorem clkRefine_follows (k k' : Clk) : Follows R (k.refine k' : Chk Diag σ Clk) := by
  cases k <;> cases k' <;> simp only [Clk.refine] <;>
    first
    | exact follows_pure _
    | exact follows_error _
    | exact follows_ite (follows_pure _) (follows_error _)

theorem asClock_follows (op : ClockOp) (e : Expr) : Follows R (e.asClock op : Chk Diag σ Clk) := by
  cases e <;> first | exact follows_error _ | (cases op <;> exact follows_pure _)

end

mutual
theorem clockcheck_follows : (e : Expr) → Follows (· = ·) e.clockcheck
  | .lit _ => by simp only [Expr.clockcheck]; exact follows_pure _
  | .global _ => by simp only [Expr.clockcheck]; exact follows_pure _
  | .var x _ => by simp only [Expr.clockcheck]; exact clockOf_follows x
  | .dummyParen e => by simp only [Expr.clockcheck]; exact clockcheck_follows e
  | .dummyPre e => by
    simp only [Expr.clockcheck]
    exact follows_bind (clockcheck_follows e) fun _ => follows_bind (isImplicit_follows _) fun _ =>
      follows_pure _
  | .bin _ l r => by
    simp only [Expr.clockcheck]
    exact follows_bind (follows_both (clockcheck_follows l) (clockcheck_follows r)) fun _ =>
      clkRefine_follows _ _
  | .cmp _ l r => by
    simp only [Expr.clockcheck]
    exact follows_bind (follows_both (clockcheck_follows l) (clockcheck_follows r)) fun _ =>
      clkRefine_follows _ _
  | .un _ e => by simp only [Expr.clockcheck]; exact clockcheck_follows e
  | .later _ l r => by
    simp only [Expr.clockcheck]
    exact follows_bind (follows_both (clockcheck_follows l) (clockcheck_follows r)) fun _ =>
      follows_bind (optImplicit_follows _) fun _ => follows_bind (optImplicit_follows _) fun _ =>
      follows_pure _
  | .flip _ l r => by
    simp only [Expr.clockcheck]
    exact follows_bind (follows_both (clockcheck_follows l) (clockcheck_follows r)) fun _ =>
      follows_bind (clkIdentical_follows _ _) fun _ => follows_pure _
  | .clock _ e c => by
    simp only [Expr.clockcheck]
    exact follows_bind (clockcheck_follows e) fun _ => follows_bind (clockcheck_follows c) fun _ =>
      follows_bind (asClock_follows _ _) fun _ => follows_bind (clkRefine_follows _ _) fun _ =>
      follows_pure _
  | .substep _ _ e => by simp only [Expr.clockcheck]; exact clockcheck_follows e
  | .tuple [] => by simp only [Expr.clockcheck]; exact follows_pure _
  | .tuple (e :: es) => by
    simp only [Expr.clockcheck]
    exact follows_bind (clockcheck_follows e) fun _ => follows_bind (clockcheck_follows e) fun _ =>
      follows_bind (clkIdentical_follows _ _) fun _ =>
      follows_bind (clockcheckList_follows _ es) fun _ => follows_pure _
  | .ifx c y n => by
    simp only [Expr.clockcheck]
    refine follows_opt (clockcheck_follows c) (fun c' => ?_)
      (never_bind fun _ => never_bind fun _ => never_none)
    refine follows_opt (clockcheck_follows y) (fun y' => ?_)
      (never_bind fun _ => never_bind fun _ => never_none)
    refine follows_opt (clockcheck_follows n) (fun n' => ?_)
      (never_bind fun _ => never_bind fun _ => never_none)
    exact follows_some (follows_some (follows_some
      (follows_bind (clkRefine_follows _ _) fun _ => clkRefine_follows _ _)))
  | .merge s y n => by
    simp only [Expr.clockcheck]
    refine follows_opt (asClock_follows _ _) (fun on => ?_)
      (never_bind fun _ => never_bind fun _ => never_bind fun _ => never_bind fun _ =>
        never_bind fun _ => never_bind fun _ => never_bind fun _ => never_none)
    refine follows_opt (asClock_follows _ _) (fun off => ?_)
      (never_bind fun _ => never_bind fun _ => never_bind fun _ => never_bind fun _ =>
        never_bind fun _ => never_bind fun _ => never_bind fun _ => never_bind fun _ => never_none)
    refine follows_opt (clockcheck_follows s) (fun c' => ?_)
      (never_bind fun _ => never_bind fun _ => never_none)
    refine follows_opt (clockcheck_follows y) (fun y' => ?_)
      (never_bind fun _ => never_bind fun _ => never_none)
    refine follows_opt (clockcheck_follows n) (fun n' => ?_)
      (never_bind fun _ => never_bind fun _ => never_none)
    exact follows_some (follows_some (follows_some (follows_some
      (follows_bind (clkRefine_follows _ _) fun _ => follows_some
        (follows_bind (clkRefine_follows _ _) fun _ => follows_pure _)))))
  | .fetchPre id f => by
    simp only [Expr.clockcheck, saveClock]
    exact follows_bind (clockcheck_follows f) fun _ =>
      follows_bind (follows_modify fun s s' h => by rw [h]) fun _ => follows_pure _
  | .fetchFby id i f => by
    simp only [Expr.clockcheck, saveClock]
    exact follows_bind (clockcheck_follows f) fun _ => follows_bind (clockcheck_follows i) fun _ =>
      follows_bind (clkIdentical_follows _ _) fun _ =>
      follows_bind (follows_modify fun s s' h => by rw [h]) fun _ => follows_pure _
theorem clockcheckList_follows (k : Clk) : (es : List Expr) →
    Follows (· = ·) (Expr.clockcheckList k es)
  | [] => by simp only [Expr.clockcheckList]; exact follows_pure _
  | e :: es => by
    simp only [Expr.clockcheckList]
    exact follows_bind (clockcheck_follows e) fun _ =>
      follows_bind (clkIdentical_follows _ _) fun _ => clockcheckList_follows k es
end

mutual
theorem targetClockcheck_follows : (v : VarTuple) → Follows (· = ·) v.clockcheck
  | .single x => by simp only [VarTuple.clockcheck]; exact clockOf_follows x
  | .multiple [] => by simp only [VarTuple.clockcheck]; exact follows_pure _
  | .multiple (v :: vs) => by
    simp only [VarTuple.clockcheck]
    exact follows_bind (targetClockcheck_follows v) fun _ =>
      follows_bind (targetClockcheck_follows v) fun _ =>
      follows_bind (clkIdentical_follows _ _) fun _ =>
      follows_bind (targetClockcheckList_follows _ vs) fun _ => follows_pure _
theorem targetClockcheckList_follows (k : Clk) : (vs : List VarTuple) →
    Follows (· = ·) (VarTuple.clockcheckList k vs)
  | [] => by simp only [VarTuple.clockcheckList]; exact follows_pure _
  | v :: vs => by
    simp only [VarTuple.clockcheckList]
    exact follows_bind (targetClockcheck_follows v) fun _ =>
      follows_bind (clkIdentical_follows _ _) fun _ => targetClockcheckList_follows k vs
end

theorem stmtClockcheck_follows (st : Stmt) : Follows (· = ·) st.clockcheck := by
  cases st with
  | let_ v e =>
    exact follows_bind (targetClockcheck_follows v) fun _ =>
      follows_bind (clockcheck_follows e) fun _ =>
      follows_ite (follows_pure _) (clkIdentical_follows _ _)
  | assert e => exact follows_bind (clockcheck_follows e) fun _ => isImplicit_follows _
  | updateRegister id e => exact follows_pure _
  | initRegister id i k => exact follows_pure _

theorem checkInterface_follows {σ : Type} {R : σ → σ → Prop} :
    (vs : List TyVar) → Follows R (checkInterface vs : Chk Diag σ Unit)
  | [] => by simp only [checkInterface]; exact follows_pure _
  | v :: vs => by
    simp only [checkInterface]
    exact follows_bind (isImplicit_follows _) fun _ => checkInterface_follows vs

theorem nodeClockcheck_follows {σ : Type} {R : σ → σ → Prop} (n : Node) :
    Follows R (n.clockcheck : Chk Diag σ Node) := by
  unfold Node.clockcheck
  refine follows_bind (checkInterface_follows _) fun _ => ?_
  refine follows_bind (follows_local (follows_inScope _ ?_)) fun c => ?_
  · intro m hm
    obtain ⟨st, -, rfl⟩ := List.mem_map.1 hm
    exact stmtClockcheck_follows st
  · dsimp only
    split
    · exact follows_pure _
    · exact follows_abort

/-! ## Depths -/

mutual
theorem checkPositive_follows : (e : Expr) → (d : Nat) → Follows (· = ·) (e.checkPositive d)
  | .lit _, _ => by simp only [Expr.checkPositive]; exact follows_pure _
  | .global _, _ => by simp only [Expr.checkPositive]; exact follows_pure _
  | .var x _, _ => by
    simp only [Expr.checkPositive]
    exact follows_ite (follows_modify fun s s' h => by rw [h]) (follows_error _)
  | .tuple es, d => by simp only [Expr.checkPositive]; exact checkPositiveList_follows es d
  | .dummyPre e, d => by simp only [Expr.checkPositive]; exact checkPositive_follows e d
  | .dummyParen e, d => by simp only [Expr.checkPositive]; exact checkPositive_follows e d
  | .un _ e, d => by simp only [Expr.checkPositive]; exact checkPositive_follows e d
  | .bin _ l r, d => by
    simp only [Expr.checkPositive]
    exact follows_bind (checkPositive_follows l d) fun _ => checkPositive_follows r d
  | .cmp _ l r, d => by
    simp only [Expr.checkPositive]
    exact follows_bind (checkPositive_follows l d) fun _ => checkPositive_follows r d
  | .ifx c y n, d => by
    simp only [Expr.checkPositive]
    exact follows_bind (checkPositive_follows c d) fun _ =>
      follows_bind (checkPositive_follows y d) fun _ => checkPositive_follows n d
  | .later k l r, d => by
    simp only [Expr.checkPositive]
    exact follows_bind (checkPositive_follows l d) fun _ => checkPositive_follows r _
  | .flip _ l r, d => by
    simp only [Expr.checkPositive]
    exact follows_bind (checkPositive_follows l d) fun _ => checkPositive_follows r _
  | .substep _ _ e, d => by simp only [Expr.checkPositive]; exact checkPositive_follows e d
  | .clock _ e c, d => by
    simp only [Expr.checkPositive]
    exact follows_bind (checkPositive_follows c d) fun _ => checkPositive_follows e d
  | .merge c y n, d => by
    simp only [Expr.checkPositive]
    exact follows_bind (checkPositive_follows c d) fun _ =>
      follows_bind (checkPositive_follows y d) fun _ => checkPositive_follows n d
  | .fetchFby _ i f, d => by
    simp only [Expr.checkPositive]
    exact follows_bind (checkPositive_follows i d) fun _ => checkPositive_follows f d
  | .fetchPre _ f, d => by
    simp only [Expr.checkPositive]
    exact follows_ite (checkPositive_follows f _) (follows_error _)
theorem checkPositiveList_follows : (es : List Expr) → (d : Nat) →
    Follows (· = ·) (Expr.checkPositiveList es d)
  | [], _ => by simp only [Expr.checkPositiveList]; exact follows_pure _
  | e :: es, d => by
    simp only [Expr.checkPositiveList]
    exact follows_bind (checkPositive_follows e d) fun _ => checkPositiveList_follows es d
end

theorem checkPositiveAll_follows : (sts : List Stmt) → Follows (· = ·) (checkPositiveAll sts)
  | [] => by simp only [checkPositiveAll]; exact follows_pure _
  | st :: sts => by
    simp only [checkPositiveAll]
    refine follows_bind ?_ fun _ => checkPositiveAll_follows sts
    cases st with
    | let_ v e => exact checkPositive_follows e 0
    | assert e => exact checkPositive_follows e 0
    | updateRegister id e => exact follows_pure _
    | initRegister id i k => exact follows_pure _

theorem makePositive_follows {σ : Type} {R : σ → σ → Prop} (n : Node) :
    Follows R (n.makePositive : Chk Diag σ Node) :=
  follows_bind (follows_local (checkPositiveAll_follows _)) fun _ => follows_pure _

end Chandeliers.Fol
