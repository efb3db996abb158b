import Verif.Lemmas.Clocked

/-! # With registers, translation preserves the clocked semantics -/

set_option autoImplicit false
set_option linter.unusedSectionVars false

namespace Chandeliers.Uni
open Chandeliers.San Chandeliers.Spec Chandeliers.Syn Chandeliers.Den Chandeliers.Pres

section
variable {A : Arith} {glob : Globals} {ms : List Machine} {X : String → Nat → Nillable Scalar}
  {D : String → Clock} {nodes : String → Option Machine}

/-- The surroundings of an expression of a node. -/
abbrev worldX (A : Arith) (glob : Globals) (nodes : String → Option Machine)
    (X : String → Nat → Nillable Scalar) (v : View) : World := ⟨A, v.shadow, X, glob, nodes⟩

theorem onX_paren (xs : List Expr) (b : Bool) (t : Nat) :
    onX X D (parenthesise xs b) t = onXs X D xs t := by
  unfold parenthesise
  split
  · simp [onX, onXs]
  · simp [onX]

theorem valX_paren (xs : List Expr) (b : Bool) (t : Nat) :
    valX A glob ms X D (parenthesise xs b) t =
      (do return tupleValue (← valXs A glob ms X D xs t)) := by
  unfold parenthesise
  split
  · simp only [valX, valXs]
    cases valX A glob ms X D _ t <;> rfl
  · simp only [valX]

theorem openedX_other {X : String → Nat → Nillable Scalar} {b : Bool} {e : Expr} {t : Nat}
    (h : ∀ x d, e ≠ .var x d) : openedX X b e t = false := by
  unfold openedX
  split
  · exact absurd rfl (h _ _)
  · rfl

theorem paren_not_var (xs : List Expr) (b : Bool) (x : String) (d : Nat) :
    parenthesise xs b ≠ .var x d := by
  unfold parenthesise
  split <;> simp

theorem left_not_var : ∀ (rest : List (LOp × Src)) (v : View) (acc : Expr) (c : ExprCtx) (x : Expr)
    (c' : ExprCtx), Src.translateLeft v acc rest c = .ok (x, c') → (∀ y d, acc ≠ .var y d) →
    ∀ y d, x ≠ .var y d
  | [], v, acc, c, x, c', h, ha => by
    unfold Src.translateLeft at h
    cases tr_pure_ok.1 h
    exact ha
  | (op, e) :: rest, v, acc, c, x, c', h, ha => by
    unfold Src.translateLeft at h
    obtain ⟨a, c₁, h1, h⟩ := tr_bind_ok.1 h
    exact left_not_var rest v _ c₁ x c' h (by cases op <;> simp [LOp.compose])

/-- Guards are variables before and after translation. -/
theorem opened_translate {v : View} (hu : v.useRegisters = true) {b : Bool} {t : Nat} :
    (e : Src) → ∀ {c c' : ExprCtx} {x : Expr}, e.translate v c = .ok (x, c') →
    openedX X b x t = opened (worldX A glob nodes X v) b e t
  | .lit l, c, c', x, h => by
    unfold Src.translate Lit.translate at h
    split at h
    · cases tr_pure_ok.1 h; rfl
    · split at h
      · cases tr_pure_ok.1 h; rfl
      · exact (tr_throw.1 h).elim
    · cases tr_pure_ok.1 h; rfl
    · exact (tr_throw.1 h).elim
    · exact (tr_throw.1 h).elim
  | .var y, c, c', x, h => by
    unfold Src.translate at h
    split at h
    · rename_i hy
      cases tr_pure_ok.1 h
      simp [openedX, opened, hy]
    · rename_i hy
      cases tr_pure_ok.1 h
      simp [openedX, opened, hy]
  | .paren es tr, c, c', x, h => by
    unfold Src.translate at h
    obtain ⟨xs, c₁, h1, h⟩ := tr_bind_ok.1 h
    cases tr_pure_ok.1 h
    rw [openedX_other (paren_not_var xs tr)]
    rfl
  | .left first rest, c, c', x, h => by
    unfold Src.translate at h
    obtain ⟨acc, c₁, h1, h⟩ := tr_bind_ok.1 h
    cases rest with
    | nil =>
      unfold Src.translateLeft at h
      cases tr_pure_ok.1 h
      have := opened_translate (b := b) (t := t) hu first h1
      simpa [opened] using this
    | cons p rest =>
      unfold Src.translateLeft at h
      obtain ⟨a, c₂, h2, h⟩ := tr_bind_ok.1 h
      rw [openedX_other (left_not_var rest v _ c₂ x c' h
        (by cases p.1 <;> simp [LOp.compose]))]
      rfl
  | .cmp first rest, c, c', x, h => by
    unfold Src.translate at h
    obtain ⟨acc, c₁, h1, h⟩ := tr_bind_ok.1 h
    match rest, h with
    | [], h =>
      unfold Src.translateCmp at h
      cases tr_pure_ok.1 h
      have := opened_translate (b := b) (t := t) hu first h1
      simpa [opened] using this
    | [p], h =>
      unfold Src.translateCmp at h
      obtain ⟨a, c₂, h2, h⟩ := tr_bind_ok.1 h
      cases tr_pure_ok.1 h
      rfl
    | p :: q :: rest, h =>
      unfold Src.translateCmp at h
      obtain ⟨a, c₂, h2, h⟩ := tr_bind_ok.1 h
      obtain ⟨a, c₃, h3, h⟩ := tr_bind_ok.1 h
      exact (tr_throw.1 h).elim
  | .fby first rest, c, c', x, h => by
    unfold Src.translate at h
    obtain ⟨acc, c₁, h1, h0⟩ := tr_bind_ok.1 h
    obtain ⟨before, c₂, h2, h3⟩ := tr_bind_ok.1 h0
    rw [if_pos hu] at h2
    cases rest with
    | nil =>
      unfold Src.translateFby at h1
      cases tr_pure_ok.1 h1
      cases tr_pure_ok.1 h3
      have := opened_translate (b := b) (t := t) hu first h2
      simpa [opened] using this
    | cons e es =>
      unfold Src.translateFby at h1
      obtain ⟨acc', c₃, h4, h5⟩ := tr_bind_ok.1 h1
      obtain ⟨before', c₄, h6, h7⟩ := tr_bind_ok.1 h5
      cases acc' with
      | none =>
        cases tr_pure_ok.1 h7
        simp only [mkFby, hu, if_true, Except.ok.injEq, Prod.mk.injEq] at h3
        obtain ⟨rfl, rfl⟩ := h3
        rfl
      | some z =>
        obtain ⟨y, c₅, h8, h9⟩ := tr_bind_ok.1 h7
        cases tr_pure_ok.1 h9
        simp only [mkFby, hu, if_true, Except.ok.injEq, Prod.mk.injEq] at h3
        obtain ⟨rfl, rfl⟩ := h3
        rfl
  | .arrow first rest, c, c', x, h => by
    unfold Src.translate at h
    obtain ⟨acc, c₁, h1, h0⟩ := tr_bind_ok.1 h
    obtain ⟨before, c₂, h2, h3⟩ := tr_bind_ok.1 h0
    cases rest with
    | nil =>
      unfold Src.translateThen at h1
      cases tr_pure_ok.1 h1
      cases tr_pure_ok.1 h3
      have := opened_translate (b := b) (t := t) hu first h2
      simpa [opened] using this
    | cons e es =>
      unfold Src.translateThen at h1
      obtain ⟨acc', c₃, h4, h5⟩ := tr_bind_ok.1 h1
      obtain ⟨before', c₄, h6, h7⟩ := tr_bind_ok.1 h5
      cases acc' with
      | none =>
        cases tr_pure_ok.1 h7
        simp only [mkThen, hu, if_true, Except.ok.injEq, Prod.mk.injEq] at h3
        obtain ⟨rfl, rfl⟩ := h3
        rfl
      | some z =>
        obtain ⟨y, c₅, h8, h9⟩ := tr_bind_ok.1 h7
        cases tr_pure_ok.1 h9
        simp only [mkThen, hu, if_true, Except.ok.injEq, Prod.mk.injEq] at h3
        obtain ⟨rfl, rfl⟩ := h3
        rfl
  | .ifx b y n, c, c', x, h => by
    unfold Src.translate at h
    obtain ⟨_, c₁, h1, h⟩ := tr_bind_ok.1 h
    obtain ⟨_, c₂, h2, h⟩ := tr_bind_ok.1 h
    obtain ⟨_, c₃, h3, h⟩ := tr_bind_ok.1 h
    cases tr_pure_ok.1 h
    rfl
  | .merge b y n, c, c', x, h => by
    unfold Src.translate at h
    obtain ⟨_, c₁, h1, h⟩ := tr_bind_ok.1 h
    obtain ⟨_, c₂, h2, h⟩ := tr_bind_ok.1 h
    obtain ⟨_, c₃, h3, h⟩ := tr_bind_ok.1 h
    cases tr_pure_ok.1 h
    rfl
  | .call f es tr, c, c', x, h => by
    unfold Src.translate at h
    obtain ⟨xs, c₁, h1, h⟩ := tr_bind_ok.1 h
    simp only [mkCall, Except.ok.injEq, Prod.mk.injEq] at h
    obtain ⟨rfl, rfl⟩ := h
    rfl
  | .pre e, c, c', x, h => by
    unfold Src.translate at h
    rw [if_pos hu] at h
    obtain ⟨id, c₁, h1, h⟩ := tr_bind_ok.1 h
    obtain ⟨y, c₂, h2, h⟩ := tr_bind_ok.1 h
    simp only [mkPre, Except.ok.injEq, Prod.mk.injEq] at h
    obtain ⟨rfl, rfl⟩ := h
    rfl
  | .neg e, c, c', x, h => by
    unfold Src.translate at h
    obtain ⟨_, c₁, h1, h⟩ := tr_bind_ok.1 h
    cases tr_pure_ok.1 h
    rfl
  | .not e, c, c', x, h => by
    unfold Src.translate at h
    obtain ⟨_, c₁, h1, h⟩ := tr_bind_ok.1 h
    cases tr_pure_ok.1 h
    rfl


mutual
/-- Presence is preserved. -/
theorem translate_on {v : View} (hu : v.useRegisters = true) {t : Nat} :
    (e : Src) → ∀ {c c' : ExprCtx} {x : Expr}, e.translate v c = .ok (x, c') →
    onX X D x t = clockedOn (worldX A glob nodes X v) D e t
  | .lit l, c, c', x, h => by
    unfold Src.translate Lit.translate at h
    split at h
    · cases tr_pure_ok.1 h; rfl
    · split at h
      · cases tr_pure_ok.1 h; rfl
      · exact (tr_throw.1 h).elim
    · cases tr_pure_ok.1 h; rfl
    · exact (tr_throw.1 h).elim
    · exact (tr_throw.1 h).elim
  | .var y, c, c', x, h => by
    unfold Src.translate at h
    split at h
    · rename_i hy
      cases tr_pure_ok.1 h
      simp [onX, clockedOn, hy]
    · rename_i hy
      cases tr_pure_ok.1 h
      simp [onX, clockedOn, hy]
  | .paren es tr, c, c', x, h => by
    unfold Src.translate at h
    obtain ⟨xs, c₁, h1, h2⟩ := tr_bind_ok.1 h
    cases tr_pure_ok.1 h2
    rw [onX_paren, clockedOn]
    exact translate_onList hu es h1
  | .left first rest, c, c', x, h => by
    unfold Src.translate at h
    obtain ⟨acc, c₁, h1, h2⟩ := tr_bind_ok.1 h
    rw [clockedOn, ← translate_on hu first h1]
    exact translate_onLeft hu rest h2
  | .cmp first rest, c, c', x, h => by
    unfold Src.translate at h
    obtain ⟨acc, c₁, h1, h2⟩ := tr_bind_ok.1 h
    rw [clockedOn, ← translate_on hu first h1]
    exact translate_onCmp hu rest h2
  | .fby first rest, c, c', x, h => by
    unfold Src.translate at h
    obtain ⟨acc, c₁, h1, h2⟩ := tr_bind_ok.1 h
    obtain ⟨before, c₂, h3, h4⟩ := tr_bind_ok.1 h2
    rw [if_pos hu] at h3
    have ih := translate_on (t := t) hu first h3
    rw [clockedOn, ← ih]
    cases acc with
    | none => cases tr_pure_ok.1 h4; rfl
    | some after =>
      simp only [mkFby, hu, if_true, Except.ok.injEq, Prod.mk.injEq] at h4
      obtain ⟨rfl, rfl⟩ := h4
      simp only [onX]
  | .arrow first rest, c, c', x, h => by
    unfold Src.translate at h
    obtain ⟨acc, c₁, h1, h2⟩ := tr_bind_ok.1 h
    obtain ⟨before, c₂, h3, h4⟩ := tr_bind_ok.1 h2
    have ih := translate_on (t := t) hu first h3
    rw [clockedOn, ← ih]
    cases acc with
    | none => cases tr_pure_ok.1 h4; rfl
    | some after =>
      simp only [mkThen, hu, if_true, Except.ok.injEq, Prod.mk.injEq] at h4
      obtain ⟨rfl, rfl⟩ := h4
      simp only [onX]
  | .ifx b y n, c, c', x, h => by
    unfold Src.translate at h
    obtain ⟨b', c₁, h1, h2⟩ := tr_bind_ok.1 h
    obtain ⟨y', c₂, h3, h4⟩ := tr_bind_ok.1 h2
    obtain ⟨n', c₃, h5, h6⟩ := tr_bind_ok.1 h4
    cases tr_pure_ok.1 h6
    rw [clockedOn, onX, translate_on hu b h1, translate_on hu y h3, translate_on hu n h5]
  | .merge b y n, c, c', x, h => by
    unfold Src.translate at h
    obtain ⟨b', c₁, h1, h2⟩ := tr_bind_ok.1 h
    obtain ⟨y', c₂, h3, h4⟩ := tr_bind_ok.1 h2
    obtain ⟨n', c₃, h5, h6⟩ := tr_bind_ok.1 h4
    cases tr_pure_ok.1 h6
    rw [clockedOn, onX, translate_on hu b h1]
  | .call f es tr, c, c', x, h => by
    unfold Src.translate at h
    obtain ⟨xs, c₁, h1, h2⟩ := tr_bind_ok.1 h
    simp only [mkCall, Except.ok.injEq, Prod.mk.injEq] at h2
    obtain ⟨rfl, rfl⟩ := h2
    rw [clockedOn, onX, onX_paren]
    exact translate_onList hu es h1
  | .pre e, c, c', x, h => by
    unfold Src.translate at h
    rw [if_pos hu] at h
    obtain ⟨id, c₁, h1, h2⟩ := tr_bind_ok.1 h
    obtain ⟨y, c₂, h3, h4⟩ := tr_bind_ok.1 h2
    simp only [mkPre, Except.ok.injEq, Prod.mk.injEq] at h4
    obtain ⟨rfl, rfl⟩ := h4
    rw [clockedOn, onX, translate_on hu e h3]
  | .neg e, c, c', x, h => by
    unfold Src.translate at h
    obtain ⟨y, c₁, h1, h2⟩ := tr_bind_ok.1 h
    cases tr_pure_ok.1 h2
    rw [clockedOn, onX, translate_on hu e h1]
  | .not e, c, c', x, h => by
    unfold Src.translate at h
    obtain ⟨y, c₁, h1, h2⟩ := tr_bind_ok.1 h
    cases tr_pure_ok.1 h2
    rw [clockedOn, onX, translate_on hu e h1]
theorem translate_onList {v : View} (hu : v.useRegisters = true) {t : Nat} :
    (es : List Src) → ∀ {c c' : ExprCtx} {xs : List Expr}, Src.translateList v es c = .ok (xs, c') →
    onXs X D xs t = clockedOnAll (worldX A glob nodes X v) D es t
  | [], c, c', xs, h => by
    unfold Src.translateList at h
    cases tr_pure_ok.1 h
    rfl
  | e :: es, c, c', xs, h => by
    unfold Src.translateList at h
    obtain ⟨x, c₁, h1, h2⟩ := tr_bind_ok.1 h
    obtain ⟨ys, c₂, h3, h4⟩ := tr_bind_ok.1 h2
    cases tr_pure_ok.1 h4
    rw [clockedOnAll, onXs, translate_on hu e h1, translate_onList hu es h3]
theorem translate_onLeft {v : View} (hu : v.useRegisters = true) {t : Nat} :
    (rest : List (LOp × Src)) → ∀ {c c' : ExprCtx} {acc x : Expr},
    Src.translateLeft v acc rest c = .ok (x, c') →
    onX X D x t = clockedOnLeft (worldX A glob nodes X v) D (onX X D acc t) rest t
  | [], c, c', acc, x, h => by
    unfold Src.translateLeft at h
    cases tr_pure_ok.1 h
    rw [clockedOnLeft]
  | (op, e) :: rest, c, c', acc, x, h => by
    unfold Src.translateLeft at h
    obtain ⟨y, c₁, h1, h2⟩ := tr_bind_ok.1 h
    have ih := translate_on (t := t) hu e h1
    have ih' := fun b => opened_translate (A := A) (glob := glob) (nodes := nodes) (X := X) (b := b)
      (t := t) hu e h1
    rw [translate_onLeft hu rest h2]
    cases op <;> simp [clockedOnLeft, LOp.compose, onX, ih, ih', show (ClockOp.whenot == ClockOp.when) = false from rfl]
theorem translate_onCmp {v : View} (hu : v.useRegisters = true) {t : Nat} :
    (rest : List (CmpOp × Src)) → ∀ {c c' : ExprCtx} {acc x : Expr},
    Src.translateCmp v acc rest c = .ok (x, c') →
    onX X D x t = (onX X D acc t && clockedOnCmp (worldX A glob nodes X v) D rest t)
  | [], c, c', acc, x, h => by
    unfold Src.translateCmp at h
    cases tr_pure_ok.1 h
    simp [clockedOnCmp]
  | [(op, e)], c, c', acc, x, h => by
    unfold Src.translateCmp at h
    obtain ⟨y, c₁, h1, h2⟩ := tr_bind_ok.1 h
    cases tr_pure_ok.1 h2
    simp only [onX, clockedOnCmp, Bool.and_true]
    rw [translate_on hu e h1]
  | (_, _) :: (_, _) :: _, c, c', acc, x, h => by
    unfold Src.translateCmp at h
    obtain ⟨_, c₁, h1, h2⟩ := tr_bind_ok.1 h
    obtain ⟨_, c₂, h3, h4⟩ := tr_bind_ok.1 h2
    exact (tr_throw.1 h4).elim
end

theorem valX_compose {op : LOp} {x y : Expr} {t : Nat} :
    valX A glob ms X D (op.compose x y) t =
      clockedOp A op (openedX X (op == .when) y t) (valX A glob ms X D x t)
        (valX A glob ms X D y t) := by
  cases op <;> rfl

mutual
/-- The reference is preserved. -/
theorem translate_val {v : View} (hu : v.useRegisters = true) : (e : Src) →
    ∀ {c c' : ExprCtx} {x : Expr}, e.translate v c = .ok (x, c') → Linked ms nodes c'.blocks →
    ∀ t, valX A glob ms X D x t = clocked (worldX A glob nodes X v) D e t
  | .lit l, c, c', x, h, hL, t => by
    unfold Src.translate Lit.translate at h
    unfold clocked litValue
    split at h
    · cases tr_pure_ok.1 h; rfl
    · split at h
      · rename_i hn
        cases tr_pure_ok.1 h
        simp only [if_pos hn]
        rfl
      · exact (tr_throw.1 h).elim
    · cases tr_pure_ok.1 h; rfl
    · exact (tr_throw.1 h).elim
    · exact (tr_throw.1 h).elim
  | .var y, c, c', x, h, hL, t => by
    unfold Src.translate at h
    split at h
    · rename_i hy
      cases tr_pure_ok.1 h
      simp [valX, clocked, hy]
    · rename_i hy
      cases tr_pure_ok.1 h
      simp [valX, clocked, hy]
  | .paren es tr, c, c', x, h, hL, t => by
    unfold Src.translate at h
    obtain ⟨xs, c₁, h1, h2⟩ := tr_bind_ok.1 h
    cases tr_pure_ok.1 h2
    rw [valX_paren, clocked, translate_valList hu es h1 hL t]
  | .left first rest, c, c', x, h, hL, t => by
    unfold Src.translate at h
    obtain ⟨acc, c₁, h1, h2⟩ := tr_bind_ok.1 h
    rw [clocked, ← translate_val hu first h1 (linked_of_prefix hL (blocks_translateLeft rest h2)) t]
    exact translate_valLeft hu rest h2 hL t
  | .cmp first rest, c, c', x, h, hL, t => by
    unfold Src.translate at h
    obtain ⟨acc, c₁, h1, h2⟩ := tr_bind_ok.1 h
    rw [clocked, ← translate_val hu first h1 (linked_of_prefix hL (blocks_translateCmp rest h2)) t]
    exact translate_valCmp hu rest h2 hL t
  | .fby first rest, c, c', x, h, hL, t => by
    unfold Src.translate at h
    obtain ⟨acc, c₁, h1, h2⟩ := tr_bind_ok.1 h
    obtain ⟨before, c₂, h3, h4⟩ := tr_bind_ok.1 h2
    rw [if_pos hu] at h3
    obtain ⟨n', hn'⟩ := fresh_translate first _ c₁ before c₂ h3
    have e1 := translate_valFby hu rest h1
    have e2 := translate_val hu first h3
    have e3 : onX X D before = clockedOn (worldX A glob nodes X v) D first :=
      funext fun t => translate_on hu first h3
    rw [clocked]
    cases acc with
    | none =>
      cases tr_pure_ok.1 h4
      rw [if_pos (by simp [e1.1.1 rfl])]
      exact e2 hL t
    | some after =>
      simp only [mkFby, hu, if_true, Except.ok.injEq, Prod.mk.injEq] at h4
      obtain ⟨rfl, rfl⟩ := h4
      have hne : rest ≠ [] := fun hr => by have := e1.1.2 hr; cases this
      rw [if_neg (by simpa using hne), valX, e3]
      have hL1 := linked_of_prefix hL hn'.blocks
      split <;> rename_i he <;> rw [he]
      · exact e2 hL t
      · exact e1.2 hL1 after rfl _
  | .arrow first rest, c, c', x, h, hL, t => by
    unfold Src.translate at h
    obtain ⟨acc, c₁, h1, h2⟩ := tr_bind_ok.1 h
    obtain ⟨before, c₂, h3, h4⟩ := tr_bind_ok.1 h2
    obtain ⟨n', hn'⟩ := fresh_translate first _ c₁ before c₂ h3
    have e1 := translate_valThen hu rest h1
    have e2 := translate_val hu first h3
    have e3 : onX X D before = clockedOn (worldX A glob nodes X v) D first :=
      funext fun t => translate_on hu first h3
    rw [clocked]
    cases acc with
    | none =>
      cases tr_pure_ok.1 h4
      rw [if_pos (by simp [e1.1.1 rfl])]
      exact e2 hL t
    | some after =>
      simp only [mkThen, hu, if_true, Except.ok.injEq, Prod.mk.injEq] at h4
      obtain ⟨rfl, rfl⟩ := h4
      have hne : rest ≠ [] := fun hr => by have := e1.1.2 hr; cases this
      rw [if_neg (by simpa using hne), valX, e3]
      have hL1 := linked_of_prefix hL hn'.blocks
      split <;> rename_i he <;> rw [he]
      · exact e2 hL t
      · exact e1.2 hL1 after rfl _
  | .ifx b y n, c, c', x, h, hL, t => by
    unfold Src.translate at h
    obtain ⟨b', c₁, h1, h2⟩ := tr_bind_ok.1 h
    obtain ⟨y', c₂, h3, h4⟩ := tr_bind_ok.1 h2
    obtain ⟨n', c₃, h5, h6⟩ := tr_bind_ok.1 h4
    cases tr_pure_ok.1 h6
    obtain ⟨n₂, hn₂⟩ := fresh_translate y v c₁ y' c₂ h3
    obtain ⟨n₃, hn₃⟩ := fresh_translate n v c₂ n' c' h5
    have hL₂ := linked_of_prefix hL hn₃.blocks
    rw [clocked, valX, translate_val hu b h1 (linked_of_prefix hL₂ hn₂.blocks) t,
      translate_val hu y h3 hL₂ t, translate_val hu n h5 hL t]
    rfl
  | .merge b y n, c, c', x, h, hL, t => by
    unfold Src.translate at h
    obtain ⟨b', c₁, h1, h2⟩ := tr_bind_ok.1 h
    obtain ⟨y', c₂, h3, h4⟩ := tr_bind_ok.1 h2
    obtain ⟨n', c₃, h5, h6⟩ := tr_bind_ok.1 h4
    cases tr_pure_ok.1 h6
    obtain ⟨n₂, hn₂⟩ := fresh_translate y v c₁ y' c₂ h3
    obtain ⟨n₃, hn₃⟩ := fresh_translate n v c₂ n' c' h5
    have hL₂ := linked_of_prefix hL hn₃.blocks
    rw [clocked, valX, translate_val hu b h1 (linked_of_prefix hL₂ hn₂.blocks) t,
      translate_val hu y h3 hL₂ t, translate_val hu n h5 hL t]
    rfl
  | .call f es tr, c, c', x, h, hL, t => by
    unfold Src.translate at h
    obtain ⟨xs, c₁, h1, h2⟩ := tr_bind_ok.1 h
    simp only [mkCall, Except.ok.injEq, Prod.mk.injEq] at h2
    obtain ⟨rfl, rfl⟩ := h2
    have hm : ms[c₁.blocks.length]? = nodes f := hL _ ⟨f, none⟩ (by simp)
    have e1 : onX X D (parenthesise xs tr) = clockedOnAll (worldX A glob nodes X v) D es :=
      funext fun t => by rw [onX_paren]; exact translate_onList hu es h1
    have e2 : valX A glob ms X D (parenthesise xs tr) = fun u => do
        return tupleValue (← clockedList (worldX A glob nodes X v) D es u) :=
      funext fun t => by
        rw [valX_paren,
          translate_valList hu es h1 (linked_of_prefix hL (List.prefix_append _ _)) t]
    rw [clocked, valX, hm, e1, e2]
    rfl
  | .pre e, c, c', x, h, hL, t => by
    unfold Src.translate at h
    rw [if_pos hu] at h
    obtain ⟨id, c₁, h1, h2⟩ := tr_bind_ok.1 h
    obtain ⟨y, c₂, h3, h4⟩ := tr_bind_ok.1 h2
    simp only [mkPre, Except.ok.injEq, Prod.mk.injEq] at h4
    obtain ⟨rfl, rfl⟩ := h4
    have e3 : onX X D y = clockedOn (worldX A glob nodes X v) D e :=
      funext fun t => translate_on hu e h3
    rw [clocked, valX, e3]
    split <;> rename_i he <;> rw [he]
    exact translate_val hu e h3 hL _
  | .neg e, c, c', x, h, hL, t => by
    unfold Src.translate at h
    obtain ⟨y, c₁, h1, h2⟩ := tr_bind_ok.1 h
    cases tr_pure_ok.1 h2
    rw [clocked, valX, translate_val hu e h1 hL t]
  | .not e, c, c', x, h, hL, t => by
    unfold Src.translate at h
    obtain ⟨y, c₁, h1, h2⟩ := tr_bind_ok.1 h
    cases tr_pure_ok.1 h2
    rw [clocked, valX, translate_val hu e h1 hL t]
theorem translate_valList {v : View} (hu : v.useRegisters = true) : (es : List Src) →
    ∀ {c c' : ExprCtx} {xs : List Expr}, Src.translateList v es c = .ok (xs, c') →
    Linked ms nodes c'.blocks →
    ∀ t, valXs A glob ms X D xs t = clockedList (worldX A glob nodes X v) D es t
  | [], c, c', xs, h, hL, t => by
    unfold Src.translateList at h
    cases tr_pure_ok.1 h
    rfl
  | e :: es, c, c', xs, h, hL, t => by
    unfold Src.translateList at h
    obtain ⟨x, c₁, h1, h2⟩ := tr_bind_ok.1 h
    obtain ⟨ys, c₂, h3, h4⟩ := tr_bind_ok.1 h2
    cases tr_pure_ok.1 h4
    obtain ⟨n₂, hn₂⟩ := fresh_translateList es v c₁ ys c' h3
    rw [clockedList, valXs, translate_val hu e h1 (linked_of_prefix hL hn₂.blocks) t,
      translate_valList hu es h3 hL t]
theorem translate_valLeft {v : View} (hu : v.useRegisters = true) : (rest : List (LOp × Src)) →
    ∀ {c c' : ExprCtx} {acc x : Expr}, Src.translateLeft v acc rest c = .ok (x, c') →
    Linked ms nodes c'.blocks → ∀ t, valX A glob ms X D x t =
      clockedLeft (worldX A glob nodes X v) D (valX A glob ms X D acc t) rest t
  | [], c, c', acc, x, h, hL, t => by
    unfold Src.translateLeft at h
    cases tr_pure_ok.1 h
    rw [clockedLeft]
  | (op, e) :: rest, c, c', acc, x, h, hL, t => by
    unfold Src.translateLeft at h
    obtain ⟨y, c₁, h1, h2⟩ := tr_bind_ok.1 h
    rw [clockedLeft, translate_valLeft hu rest h2 hL t, valX_compose,
      translate_val hu e h1 (linked_of_prefix hL (blocks_translateLeft rest h2)) t,
      opened_translate (A := A) (glob := glob) (nodes := nodes) hu e h1]
theorem translate_valCmp {v : View} (hu : v.useRegisters = true) : (rest : List (CmpOp × Src)) →
    ∀ {c c' : ExprCtx} {acc x : Expr}, Src.translateCmp v acc rest c = .ok (x, c') →
    Linked ms nodes c'.blocks → ∀ t, valX A glob ms X D x t =
      clockedCmp (worldX A glob nodes X v) D (valX A glob ms X D acc t) rest t
  | [], c, c', acc, x, h, hL, t => by
    unfold Src.translateCmp at h
    cases tr_pure_ok.1 h
    rw [clockedCmp]
  | [(op, e)], c, c', acc, x, h, hL, t => by
    unfold Src.translateCmp at h
    obtain ⟨y, c₁, h1, h2⟩ := tr_bind_ok.1 h
    cases tr_pure_ok.1 h2
    rw [valX, clockedCmp, translate_val hu e h1 hL t]
  | (_, _) :: (_, _) :: _, c, c', acc, x, h, hL, t => by
    unfold Src.translateCmp at h
    obtain ⟨_, c₁, h1, h2⟩ := tr_bind_ok.1 h
    obtain ⟨_, c₂, h3, h4⟩ := tr_bind_ok.1 h2
    exact (tr_throw.1 h4).elim
theorem translate_valFby {v : View} (hu : v.useRegisters = true) : (es : List Src) →
    ∀ {i : Nat} {c c' : ExprCtx} {o : Option Expr}, Src.translateFby v i es c = .ok (o, c') →
    (o = none ↔ es = []) ∧ (Linked ms nodes c'.blocks → ∀ x, o = some x → ∀ t,
      valX A glob ms X D x t = clockedFby (worldX A glob nodes X v) D es t)
  | [], i, c, c', o, h => by
    unfold Src.translateFby at h
    cases tr_pure_ok.1 h
    exact ⟨by simp, fun _ x hx => by cases hx⟩
  | e :: es, i, c, c', o, h => by
    unfold Src.translateFby at h
    obtain ⟨acc, c₁, h1, h2⟩ := tr_bind_ok.1 h
    obtain ⟨before, c₂, h3, h4⟩ := tr_bind_ok.1 h2
    rw [if_pos hu] at h3
    obtain ⟨n', hn'⟩ := fresh_translate e _ c₁ before c₂ h3
    have e1 := translate_valFby hu es h1
    have e2 := translate_val hu e h3
    have e3 : onX X D before = clockedOn (worldX A glob nodes X v) D e :=
      funext fun t => translate_on hu e h3
    cases acc with
    | none =>
      cases tr_pure_ok.1 h4
      refine ⟨by simp, fun hL x hx t => ?_⟩
      cases hx
      rw [clockedFby, if_pos (by simp [e1.1.1 rfl])]
      exact e2 hL t
    | some after =>
      obtain ⟨y, c₃, h5, h6⟩ := tr_bind_ok.1 h4
      cases tr_pure_ok.1 h6
      simp only [mkFby, hu, if_true, Except.ok.injEq, Prod.mk.injEq] at h5
      obtain ⟨rfl, rfl⟩ := h5
      refine ⟨by simp, fun hL x hx t => ?_⟩
      cases hx
      have hne : es ≠ [] := fun hr => by have := e1.1.2 hr; cases this
      rw [clockedFby, if_neg (by simpa using hne), valX, e3]
      have hL1 := linked_of_prefix hL hn'.blocks
      split <;> rename_i he <;> rw [he]
      · exact e2 hL t
      · exact e1.2 hL1 after rfl _
theorem translate_valThen {v : View} (hu : v.useRegisters = true) : (es : List Src) →
    ∀ {i : Nat} {c c' : ExprCtx} {o : Option Expr}, Src.translateThen v i es c = .ok (o, c') →
    (o = none ↔ es = []) ∧ (Linked ms nodes c'.blocks → ∀ x, o = some x → ∀ t,
      valX A glob ms X D x t = clockedArrow (worldX A glob nodes X v) D es t)
  | [], i, c, c', o, h => by
    unfold Src.translateThen at h
    cases tr_pure_ok.1 h
    exact ⟨by simp, fun _ x hx => by cases hx⟩
  | e :: es, i, c, c', o, h => by
    unfold Src.translateThen at h
    obtain ⟨acc, c₁, h1, h2⟩ := tr_bind_ok.1 h
    obtain ⟨before, c₂, h3, h4⟩ := tr_bind_ok.1 h2
    obtain ⟨n', hn'⟩ := fresh_translate e _ c₁ before c₂ h3
    have e1 := translate_valThen hu es h1
    have e2 := translate_val hu e h3
    have e3 : onX X D before = clockedOn (worldX A glob nodes X v) D e :=
      funext fun t => translate_on hu e h3
    cases acc with
    | none =>
      cases tr_pure_ok.1 h4
      refine ⟨by simp, fun hL x hx t => ?_⟩
      cases hx
      rw [clockedArrow, if_pos (by simp [e1.1.1 rfl])]
      exact e2 hL t
    | some after =>
      obtain ⟨y, c₃, h5, h6⟩ := tr_bind_ok.1 h4
      cases tr_pure_ok.1 h6
      simp only [mkThen, hu, if_true, Except.ok.injEq, Prod.mk.injEq] at h5
      obtain ⟨rfl, rfl⟩ := h5
      refine ⟨by simp, fun hL x hx t => ?_⟩
      cases hx
      have hne : es ≠ [] := fun hr => by have := e1.1.2 hr; cases this
      rw [clockedArrow, if_neg (by simpa using hne), valX, e3]
      have hL1 := linked_of_prefix hL hn'.blocks
      split <;> rename_i he <;> rw [he]
      · exact e2 hL t
      · exact e1.2 hL1 after rfl _
end

end

end Chandeliers.Uni
