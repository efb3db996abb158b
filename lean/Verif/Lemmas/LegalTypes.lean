import Verif.Lemmas.Comes
import Verif.Spec.Legal

/-! Types of source expressions are those of their translations. -/

set_option autoImplicit false

namespace Chandeliers.Den
open Chandeliers.San Chandeliers.Spec Chandeliers.Syn Chandeliers.Spec.Static

/-- The environment gives to things the types that they have in the scope. -/
structure Fits (S : Scope) (C : ExprCtx) (Γ : TyEnv) : Prop where
  global : ∀ x, Γ.global x = S.consts x
  vars : ∀ x, Γ.vars x = (S.var x).map (·.ty)
  regs : ∀ i t, Γ.regs i t
  call : ∀ i f, C.blocks[i]? = some ⟨f, none⟩ → ∀ t u, Γ.call i t u ↔
    ∃ gens ins outs θ, S.nodes f = some (gens, ins, outs) ∧ t = substTy θ (flatTuple ins) ∧
      u = substTy θ (flatTuple outs)

/-- The view and the scope are of the same node. -/
structure Sees (S : Scope) (v : View) : Prop where
  shadow : ∀ x, x ∈ v.shadow ↔ (S.var x).isSome = true
  mode : v.useRegisters = S.universalPre

theorem Sees.bump {S : Scope} {v : View} (h : Sees S v) (n : Nat) : Sees S (v.bump n) :=
  ⟨h.shadow, h.mode⟩

theorem Sees.after {S : Scope} {v : View} (h : Sees S v) (n : Nat) : Sees S (View.after v n) := by
  unfold View.after
  split
  · exact h
  · exact h.bump n

/-- All the literals have a type. -/
def LitsOk (ls : List Syn.Lit) : Prop := ∀ l ∈ ls, (literalType l).isSome = true

theorem litsOk_append {ls ls' : List Syn.Lit} : LitsOk (ls ++ ls') ↔ LitsOk ls ∧ LitsOk ls' := by
  unfold LitsOk
  simp only [List.mem_append]
  grind

theorem lit_type {Γ : TyEnv} {l : Syn.Lit} {y : San.Lit} {t : TyTuple} (h : litValue l = some y)
    (hl : (literalType l).isSome = true) :
    HasType Γ (.lit y) t ↔ ∃ b, literalType l = some b ∧ t = .single b := by
  constructor
  · intro ht
    cases ht
    unfold litValue at h
    unfold literalType at hl ⊢
    split at h <;> simp_all <;> grind [litType]
  · rintro ⟨b, hb, rfl⟩
    have : b = litType y := by
      unfold litValue at h
      unfold literalType at hb
      split at h <;> simp_all <;> grind [litType]
    subst this
    exact .lit

theorem paren_type {Γ : TyEnv} {xs : List Expr} {tr : Bool} {t : TyTuple} :
    HasType Γ (parenthesise xs tr) t ↔ ∃ ts, HasTypes Γ xs ts ∧ t = group ts tr := by
  unfold parenthesise
  split
  · constructor
    · intro h
      cases h with
      | dummyParen h => exact ⟨[t], .cons h .nil, rfl⟩
    · rintro ⟨ts, h, rfl⟩
      cases h with
      | cons h hs => cases hs; exact .dummyParen h
  · rename_i hn
    have key : ∀ ts, HasTypes Γ xs ts → group ts tr = .multiple ts := by
      intro ts h
      unfold group
      split
      · cases h with
        | cons h hs => cases hs; exact absurd rfl (hn _ rfl)
      · rfl
    constructor
    · intro h
      cases h with
      | tuple h => exact ⟨_, h, (key _ h).symm⟩
    · rintro ⟨ts, h, rfl⟩
      rw [key ts h]
      exact .tuple h

theorem compose_type {Γ : TyEnv} {op : LOp} {a b : Expr} {r : TyTuple} :
    HasType Γ (op.compose a b) r ↔ ∃ u w, HasType Γ a u ∧ HasType Γ b w ∧ OpTy op u w r := by
  cases op <;> simp only [LOp.compose, OpTy, OpTy.allowed]
  case when =>
    constructor
    · intro h; cases h with | clock h1 h2 => exact ⟨_, _, h1, h2, rfl, rfl⟩
    · rintro ⟨u, w, h1, h2, rfl, rfl⟩; exact .clock h1 h2
  case whenot =>
    constructor
    · intro h; cases h with | clock h1 h2 => exact ⟨_, _, h1, h2, rfl, rfl⟩
    · rintro ⟨u, w, h1, h2, rfl, rfl⟩; exact .clock h1 h2
  all_goals
    constructor
    · intro h
      cases h with
      | bin h1 h2 h3 => exact ⟨_, _, h1, h2, _, rfl, rfl, rfl, by simpa [binTypes] using h3⟩
    · rintro ⟨u, w, h1, h2, b, rfl, rfl, rfl, h3⟩
      exact .bin h1 h2 (by simpa [binTypes] using h3)

theorem un_type {Γ : TyEnv} {op : UnOp} {a : Expr} {t : TyTuple} :
    HasType Γ (.un op a) t ↔ HasType Γ a t ∧ ∃ b ∈ unTypes op, t = .single b := by
  constructor
  · intro h
    cases h with
    | un h1 h2 => exact ⟨h1, _, h2, rfl⟩
  · rintro ⟨h1, b, h2, rfl⟩; exact .un h1 h2

section
variable {S : Scope} {C : ExprCtx} {Γ : TyEnv}

mutual
theorem comes_type (hF : Fits S C Γ) : (e : Src) → {v : View} → {x : Expr} → {t : TyTuple} →
    Sees S v → LitsOk (literals e) → Comes C v e x → (HasType Γ x t ↔ HasTy S e t)
  | .lit l, v, x, t, hv, hl, h => by
    rw [Comes] at h
    obtain ⟨y, h, rfl⟩ := h
    rw [HasTy]
    exact lit_type h (hl l (by simp [literals]))
  | .var y, v, x, t, hv, hl, h => by
    rw [Comes] at h
    rw [HasTy]
    have hs := hv.shadow y
    cases hy : S.var y with
    | none =>
      rw [hy] at hs
      rw [if_neg (by simp [hs])] at h
      subst h
      constructor
      · intro h; cases h with | global h => exact ⟨_, by rw [← hF.global]; exact h, rfl⟩
      · rintro ⟨b, h, rfl⟩; exact .global (by rw [hF.global]; exact h)
    | some w =>
      rw [hy] at hs
      rw [if_pos (by simp [hs])] at h
      subst h
      constructor
      · intro h
        cases h with
        | var h => rw [hF.vars, hy] at h; simp at h; subst h; rfl
      · rintro rfl; exact .var (by rw [hF.vars, hy]; rfl)
  | .paren es tr, v, x, t, hv, hl, h => by
    rw [Comes] at h
    obtain ⟨xs, h, rfl⟩ := h
    rw [HasTy, paren_type]
    simp only [comes_types hF es hv (by simpa [literals] using hl) h]
  | .left e rest, v, x, t, hv, hl, h => by
    rw [Comes] at h
    obtain ⟨a, h1, h2⟩ := h
    rw [literals, litsOk_append] at hl
    rw [HasTy, left_type hF rest hv hl.2 h2]
    simp only [comes_type hF e hv hl.1 h1]
  | .cmp e rest, v, x, t, hv, hl, h => by
    rw [Comes] at h
    obtain ⟨a, h1, h2⟩ := h
    rw [literals, litsOk_append] at hl
    rw [HasTy, cmp_type hF rest hv hl.2 h2]
    simp only [comes_type hF e hv hl.1 h1]
  | .fby e rest, v, x, t, hv, hl, h => by
    rw [Comes] at h
    obtain ⟨b, h1, h2⟩ := h
    rw [literals, litsOk_append] at hl
    rw [HasTy, fby_type hF rest hv hl.2 h2, comes_type hF e hv hl.1 h1]
  | .arrow e rest, v, x, t, hv, hl, h => by
    rw [Comes] at h
    obtain ⟨b, h1, h2⟩ := h
    rw [literals, litsOk_append] at hl
    rw [HasTy, then_type hF rest hv hl.2 h2, comes_type hF e hv hl.1 h1]
  | .ifx c y n, v, x, t, hv, hl, h => by
    rw [Comes] at h
    obtain ⟨c', y', n', h1, h2, h3, rfl⟩ := h
    rw [literals, litsOk_append, litsOk_append] at hl
    rw [HasTy, ← comes_type hF c hv hl.1 h1, ← comes_type hF y hv hl.2.1 h2,
      ← comes_type hF n hv hl.2.2 h3]
    constructor
    · intro h; cases h with | ifx k1 k2 k3 => exact ⟨k1, k2, k3⟩
    · rintro ⟨k1, k2, k3⟩; exact .ifx k1 k2 k3
  | .merge c y n, v, x, t, hv, hl, h => by
    rw [Comes] at h
    obtain ⟨c', y', n', h1, h2, h3, rfl⟩ := h
    rw [literals, litsOk_append, litsOk_append] at hl
    rw [HasTy, ← comes_type hF c hv hl.1 h1, ← comes_type hF y hv hl.2.1 h2,
      ← comes_type hF n hv hl.2.2 h3]
    constructor
    · intro h; cases h with | merge k1 k2 k3 => exact ⟨k1, k2, k3⟩
    · rintro ⟨k1, k2, k3⟩; exact .merge k1 k2 k3
  | .call f args tr, v, x, t, hv, hl, h => by
    rw [Comes] at h
    obtain ⟨xs, id, h, rfl, hb⟩ := h
    rw [HasTy]
    have ih := fun ts => comes_types hF args (ts := ts) hv (by simpa [literals] using hl) h
    simp only [← ih]
    constructor
    · intro h
      cases h with
      | substep h1 h2 =>
        obtain ⟨ts, h1', rfl⟩ := paren_type.1 h1
        obtain ⟨gens, ins, outs, θ, k1, k2, k3⟩ := (hF.call _ _ hb _ _).1 h2
        exact ⟨ts, gens, ins, outs, θ, h1', k1, k2, k3⟩
    · rintro ⟨ts, gens, ins, outs, θ, h1, k1, k2, k3⟩
      exact .substep (paren_type.2 ⟨ts, h1, rfl⟩) ((hF.call _ _ hb _ _).2 ⟨gens, ins, outs, θ, k1, k2, k3⟩)
  | .pre e, v, x, t, hv, hl, h => by
    rw [Comes] at h
    rw [HasTy]
    split at h
    · obtain ⟨id, y, h, rfl, -, -⟩ := h
      rw [← comes_type hF e hv (by simpa [literals] using hl) h]
      constructor
      · intro h; cases h with | fetchPre h _ => exact h
      · intro h; exact .fetchPre h (hF.regs _ _)
    · obtain ⟨y, h, rfl⟩ := h
      rw [← comes_type hF e (hv.bump 1) (by simpa [literals] using hl) h]
      constructor
      · intro h; cases h with | dummyPre h => exact h
      · intro h; exact .dummyPre h
  | .neg e, v, x, t, hv, hl, h => by
    rw [Comes] at h
    obtain ⟨y, h, rfl⟩ := h
    rw [HasTy, un_type, comes_type hF e hv (by simpa [literals] using hl) h]
    simp [unTypes]
  | .not e, v, x, t, hv, hl, h => by
    rw [Comes] at h
    obtain ⟨y, h, rfl⟩ := h
    rw [HasTy, un_type, comes_type hF e hv (by simpa [literals] using hl) h]
    simp [unTypes]
theorem comes_types (hF : Fits S C Γ) : (es : List Src) → {v : View} → {xs : List Expr} →
    {ts : List TyTuple} → Sees S v → LitsOk (literalsList es) → ComesList C v es xs →
    (HasTypes Γ xs ts ↔ HasTys S es ts)
  | [], v, xs, ts, hv, hl, h => by
    rw [ComesList] at h
    subst h
    rw [HasTys]
    constructor
    · intro h; cases h; rfl
    · rintro rfl; exact .nil
  | e :: es, v, xs, ts, hv, hl, h => by
    rw [ComesList] at h
    obtain ⟨y, ys, h1, h2, rfl⟩ := h
    rw [literalsList, litsOk_append] at hl
    rw [HasTys]
    simp only [← comes_type hF e hv hl.1 h1, ← comes_types hF es hv hl.2 h2]
    constructor
    · intro h; cases h with | cons k1 k2 => exact ⟨_, _, rfl, k1, k2⟩
    · rintro ⟨t, us, rfl, k1, k2⟩; exact .cons k1 k2
theorem left_type (hF : Fits S C Γ) : (es : List (LOp × Src)) → {v : View} → {a x : Expr} →
    {t : TyTuple} → Sees S v → LitsOk (literalsLeft es) → ComesLeft C v a es x →
    (HasType Γ x t ↔ ∃ u, HasType Γ a u ∧ LeftTy S u es t)
  | [], v, a, x, t, hv, hl, h => by
    rw [ComesLeft] at h
    subst h
    simp [LeftTy]
  | (op, e) :: es, v, a, x, t, hv, hl, h => by
    rw [ComesLeft] at h
    obtain ⟨y, h1, h2⟩ := h
    rw [literalsLeft, litsOk_append] at hl
    rw [left_type hF es hv hl.2 h2]
    simp only [compose_type, LeftTy, ← comes_type hF e hv hl.1 h1]
    grind
theorem cmp_type (hF : Fits S C Γ) : (es : List (CmpOp × Src)) → {v : View} → {a x : Expr} →
    {t : TyTuple} → Sees S v → LitsOk (literalsCmp es) → ComesCmp C v a es x →
    (HasType Γ x t ↔ ∃ u, HasType Γ a u ∧ CmpTy S u es t)
  | [], v, a, x, t, hv, hl, h => by
    rw [ComesCmp] at h
    subst h
    simp [CmpTy]
  | (op, e) :: es, v, a, x, t, hv, hl, h => by
    rw [ComesCmp] at h
    obtain ⟨h0, y, h1, rfl⟩ := h
    rw [literalsCmp, litsOk_append] at hl
    simp only [CmpTy, ← comes_type hF e hv hl.1 h1]
    constructor
    · intro h
      cases h with
      | cmp k1 k2 k3 => exact ⟨_, k1, h0, _, k3, rfl, k2, rfl⟩
    · rintro ⟨u, k1, -, b, k3, rfl, k2, rfl⟩
      exact .cmp k1 k2 k3
theorem fby_type (hF : Fits S C Γ) : (es : List Src) → {v : View} → {i : Nat} → {b x : Expr} →
    {t : TyTuple} → Sees S v → LitsOk (literalsList es) → ComesFby C v i b es x →
    (HasType Γ x t ↔ HasType Γ b t ∧ AllTy S es t)
  | [], v, i, b, x, t, hv, hl, h => by
    rw [ComesFby] at h
    subst h
    simp [AllTy]
  | e :: es, v, i, b, x, t, hv, hl, h => by
    rw [ComesFby] at h
    obtain ⟨y, a, h1, h2, h3⟩ := h
    rw [literalsList, litsOk_append] at hl
    rw [AllTy, ← comes_type hF e (hv.after _) hl.1 h1, ← fby_type hF es hv hl.2 h2]
    split at h3
    · obtain ⟨id, rfl, -, -⟩ := h3
      constructor
      · intro h; cases h with | fetchFby k1 k2 _ => exact ⟨k1, k2⟩
      · rintro ⟨k1, k2⟩; exact .fetchFby k1 k2 (hF.regs _ _)
    · subst h3
      constructor
      · intro h; cases h with | later k1 k2 => exact ⟨k1, k2⟩
      · rintro ⟨k1, k2⟩; exact .later k1 k2
theorem then_type (hF : Fits S C Γ) : (es : List Src) → {v : View} → {i : Nat} → {b x : Expr} →
    {t : TyTuple} → Sees S v → LitsOk (literalsList es) → ComesThen C v i b es x →
    (HasType Γ x t ↔ HasType Γ b t ∧ AllTy S es t)
  | [], v, i, b, x, t, hv, hl, h => by
    rw [ComesThen] at h
    subst h
    simp [AllTy]
  | e :: es, v, i, b, x, t, hv, hl, h => by
    rw [ComesThen] at h
    obtain ⟨y, a, h1, h2, h3⟩ := h
    rw [literalsList, litsOk_append] at hl
    rw [AllTy, ← comes_type hF e hv hl.1 h1, ← then_type hF es hv hl.2 h2]
    split at h3
    · obtain ⟨id, rfl⟩ := h3
      constructor
      · intro h; cases h with | flip k1 k2 => exact ⟨k1, k2⟩
      · rintro ⟨k1, k2⟩; exact .flip k1 k2
    · subst h3
      constructor
      · intro h; cases h with | later k1 k2 => exact ⟨k1, k2⟩
      · rintro ⟨k1, k2⟩; exact .later k1 k2
end
end

end Chandeliers.Den
