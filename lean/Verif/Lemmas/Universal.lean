import Verif.Spec.Universal
import Verif.Lemmas.ClockedTranslate
import Verif.Lemmas.ClockedNode

/-! # With registers, what compiled expressions compute -/

set_option autoImplicit false
set_option linter.unusedSectionVars false

namespace Chandeliers.Uni
open Chandeliers.San Chandeliers.Spec Chandeliers.Syn Chandeliers.Den Chandeliers.Pres

/-! ## Reference semantics of compiled expressions -/

/-- `uniOpened` of compiled expressions. -/
def openX (X : String → Nat → Nillable Scalar) (b : Bool) : Expr → Nat → Option Bool
  | .var x _, t => isOn b (X x t)
  | _, _ => some false

mutual
/-- `uniOn` of compiled expressions. -/
def tickX (X : String → Nat → Nillable Scalar) (D : String → Clock) : Expr → Nat → Option Bool
  | .lit _, _ => some true
  | .global _, _ => some true
  | .var x _, t => uniDue X (D x) t
  | .tuple es, t => tickXs X D es t
  | .dummyPre e, t => tickX X D e t
  | .dummyParen e, t => tickX X D e t
  | .bin _ l r, t => both (tickX X D l t) (tickX X D r t)
  | .un _ e, t => tickX X D e t
  | .cmp _ l r, t => both (tickX X D l t) (tickX X D r t)
  | .clock op _ b, t => openX X (op == .when) b t
  | .later _ b _, t => tickX X D b t
  | .fetchPre _ f, t => tickX X D f t
  | .fetchFby _ i _, t => tickX X D i t
  | .flip _ i _, t => tickX X D i t
  | .ifx b y n, t => both (tickX X D b t) (both (tickX X D y t) (tickX X D n t))
  | .merge b _ _, t => tickX X D b t
  | .substep _ _ a, t => tickX X D a t
/-- All of them. -/
def tickXs (X : String → Nat → Nillable Scalar) (D : String → Clock) : List Expr → Nat → Option Bool
  | [], _ => some true
  | e :: es, t => both (tickX X D e t) (tickXs X D es t)
end

mutual
/-- `uniShape` of compiled expressions. -/
def shapeX (ms : List Machine) : Expr → Tup Unit
  | .lit _ => .leaf ()
  | .global _ => .leaf ()
  | .var _ _ => .leaf ()
  | .tuple es => shapeTuple (shapeXs ms es)
  | .dummyPre e => shapeX ms e
  | .dummyParen e => shapeX ms e
  | .bin _ _ _ => .leaf ()
  | .un _ _ => .leaf ()
  | .cmp _ _ _ => .leaf ()
  | .clock _ e _ => shapeX ms e
  | .later _ b _ => shapeX ms b
  | .fetchPre _ f => shapeX ms f
  | .fetchFby _ i _ => shapeX ms i
  | .flip _ i _ => shapeX ms i
  | .ifx _ y _ => shapeX ms y
  | .merge _ y _ => shapeX ms y
  | .substep _ i _ => match ms[i]? with
    | some m => m.outTy
    | none => .leaf ()
/-- Of a list. -/
def shapeXs (ms : List Machine) : List Expr → List (Tup Unit)
  | [] => []
  | e :: es => shapeX ms e :: shapeXs ms es
end

section
variable (A : Arith) (glob : Globals) (ms : List Machine) (X : String → Nat → Nillable Scalar)
  (D : String → Clock)

mutual
/-- `uni` of compiled expressions. -/
def valU : Expr → Nat → Option Value
  | .lit l, _ => some (.leaf (.defined l.scalar))
  | .global x, _ => (glob x).map fun v => .leaf (.defined v)
  | .var x d, t => some (.leaf (if t < d then .nil else X x (t - d)))
  | .tuple es, t => do return tupleValue (← valUs es t)
  | .dummyPre e, t => valU e t
  | .dummyParen e, t => valU e t
  | .bin op l r, t => do applyBin A op (← valU l t) (← valU r t)
  | .un op e, t => do applyUn A op (← valU e t)
  | .cmp op l r, t => do applyCmp A op (← valU l t) (← valU r t)
  | .clock .when e b, t => do applyLOp A .when (← valU e t) (← valU b t)
  | .clock .whenot e b, t => do applyLOp A .whenot (← valU e t) (← valU b t)
  | .later _ _ _, _ => none
  | .fetchPre _ f, t => uniPre (tickX X D f t) (Tup.allNil Scalar (shapeX ms f)) (valU f) t
  | .fetchFby _ i f, t => uniBefore (tickX X D i t) (valU i) (valU f) t
  | .flip _ i c, t => uniThen (valU i) (valU c) t
  | .ifx b y n, t => do return Candle.ifx (← condition (← valU b t)) (← valU y t) (← valU n t)
  | .merge b y n, t => do return Candle.merge (← condition (← valU b t)) (← valU y t) (← valU n t)
  | .substep _ i args, t =>
    match ms[i]? with
    | none => none
    | some m => callAt m (valU args) t
/-- Component-wise. -/
def valUs : List Expr → Nat → Option (List Value)
  | [], _ => some []
  | e :: es, t => do return (← valU e t) :: (← valUs es t)
end

end

/-! ## Translation -/

section
variable {A : Arith} {glob : Globals} {ms : List Machine} {X : String → Nat → Nillable Scalar}
  {D : String → Clock} {nodes : String → Option Machine}

theorem both_true (a : Option Bool) : both a (some true) = a := by
  cases a <;> simp [both]

theorem true_both (a : Option Bool) : both (some true) a = a := by
  cases a <;> simp [both]

theorem both_self (a : Option Bool) : both a a = a := by
  cases a <;> simp [both]

theorem both_assoc (a b c : Option Bool) : both (both a b) c = both a (both b c) := by
  cases a <;> cases b <;> cases c <;> simp [both, Bool.and_assoc]

theorem tickX_paren (xs : List Expr) (b : Bool) (t : Nat) :
    tickX X D (parenthesise xs b) t = tickXs X D xs t := by
  unfold parenthesise
  split
  · simp [tickX, tickXs, both_true]
  · simp [tickX]

theorem valU_paren (xs : List Expr) (b : Bool) (t : Nat) :
    valU A glob ms X D (parenthesise xs b) t =
      (do return tupleValue (← valUs A glob ms X D xs t)) := by
  unfold parenthesise
  split
  · simp only [valU, valUs]
    cases valU A glob ms X D _ t <;> rfl
  · simp only [valU]

theorem openX_other {X : String → Nat → Nillable Scalar} {b : Bool} {e : Expr} {t : Nat}
    (h : ∀ x d, e ≠ .var x d) : openX X b e t = some false := by
  unfold openX
  split
  · exact absurd rfl (h _ _)
  · rfl

/-- Guards are variables before and after translation. -/
theorem open_translate {v : View} (hu : v.useRegisters = true) {b : Bool} {t : Nat} :
    (e : Src) → ∀ {c c' : ExprCtx} {x : Expr}, e.translate v c = .ok (x, c') →
    openX X b x t = uniOpened (worldX A glob nodes X v) b e t
  | .lit l, c, c', x, h => by
    unfold Src.translate Lit.translate at h
    split at h
    · cases tr_pure_ok.1 h; rfl
    · split at h
      · cases tr_pure_ok.1 h; rfl
      · exact (tr_throw.1 h).elim
    · cases tr_pure_ok.1 h; rfl
    · exact (tr_throw.1 h).elim
    · exact (tr_throw.1 h).elim
  | .var y, c, c', x, h => by
    unfold Src.translate at h
    split at h
    · rename_i hy
      cases tr_pure_ok.1 h
      simp [openX, uniOpened, hy]
    · rename_i hy
      cases tr_pure_ok.1 h
      simp [openX, uniOpened, hy]
  | .paren es tr, c, c', x, h => by
    unfold Src.translate at h
    obtain ⟨xs, c₁, h1, h⟩ := tr_bind_ok.1 h
    cases tr_pure_ok.1 h
    rw [openX_other (paren_not_var xs tr)]
    rfl
  | .left first rest, c, c', x, h => by
    unfold Src.translate at h
    obtain ⟨acc, c₁, h1, h⟩ := tr_bind_ok.1 h
    cases rest with
    | nil =>
      unfold Src.translateLeft at h
      cases tr_pure_ok.1 h
      have := open_translate (b := b) (t := t) hu first h1
      simpa [uniOpened] using this
    | cons p rest =>
      unfold Src.translateLeft at h
      obtain ⟨a, c₂, h2, h⟩ := tr_bind_ok.1 h
      rw [openX_other (left_not_var rest v _ c₂ x c' h
        (by cases p.1 <;> simp [LOp.compose]))]
      rfl
  | .cmp first rest, c, c', x, h => by
    unfold Src.translate at h
    obtain ⟨acc, c₁, h1, h⟩ := tr_bind_ok.1 h
    match rest, h with
    | [], h =>
      unfold Src.translateCmp at h
      cases tr_pure_ok.1 h
      have := open_translate (b := b) (t := t) hu first h1
      simpa [uniOpened] using this
    | [p], h =>
      unfold Src.translateCmp at h
      obtain ⟨a, c₂, h2, h⟩ := tr_bind_ok.1 h
      cases tr_pure_ok.1 h
      rfl
    | p :: q :: rest, h =>
      unfold Src.translateCmp at h
      obtain ⟨a, c₂, h2, h⟩ := tr_bind_ok.1 h
      obtain ⟨a, c₃, h3, h⟩ := tr_bind_ok.1 h
      exact (tr_throw.1 h).elim
  | .fby first rest, c, c', x, h => by
    unfold Src.translate at h
    obtain ⟨acc, c₁, h1, h0⟩ := tr_bind_ok.1 h
    obtain ⟨before, c₂, h2, h3⟩ := tr_bind_ok.1 h0
    rw [if_pos hu] at h2
    cases rest with
    | nil =>
      unfold Src.translateFby at h1
      cases tr_pure_ok.1 h1
      cases tr_pure_ok.1 h3
      have := open_translate (b := b) (t := t) hu first h2
      simpa [uniOpened] using this
    | cons e es =>
      unfold Src.translateFby at h1
      obtain ⟨acc', c₃, h4, h5⟩ := tr_bind_ok.1 h1
      obtain ⟨before', c₄, h6, h7⟩ := tr_bind_ok.1 h5
      cases acc' with
      | none =>
        cases tr_pure_ok.1 h7
        simp only [mkFby, hu, if_true, Except.ok.injEq, Prod.mk.injEq] at h3
        obtain ⟨rfl, rfl⟩ := h3
        rfl
      | some z =>
        obtain ⟨y, c₅, h8, h9⟩ := tr_bind_ok.1 h7
        cases tr_pure_ok.1 h9
        simp only [mkFby, hu, if_true, Except.ok.injEq, Prod.mk.injEq] at h3
        obtain ⟨rfl, rfl⟩ := h3
        rfl
  | .arrow first rest, c, c', x, h => by
    unfold Src.translate at h
    obtain ⟨acc, c₁, h1, h0⟩ := tr_bind_ok.1 h
    obtain ⟨before, c₂, h2, h3⟩ := tr_bind_ok.1 h0
    cases rest with
    | nil =>
      unfold Src.translateThen at h1
      cases tr_pure_ok.1 h1
      cases tr_pure_ok.1 h3
      have := open_translate (b := b) (t := t) hu first h2
      simpa [uniOpened] using this
    | cons e es =>
      unfold Src.translateThen at h1
      obtain ⟨acc', c₃, h4, h5⟩ := tr_bind_ok.1 h1
      obtain ⟨before', c₄, h6, h7⟩ := tr_bind_ok.1 h5
      cases acc' with
      | none =>
        cases tr_pure_ok.1 h7
        simp only [mkThen, hu, if_true, Except.ok.injEq, Prod.mk.injEq] at h3
        obtain ⟨rfl, rfl⟩ := h3
        rfl
      | some z =>
        obtain ⟨y, c₅, h8, h9⟩ := tr_bind_ok.1 h7
        cases tr_pure_ok.1 h9
        simp only [mkThen, hu, if_true, Except.ok.injEq, Prod.mk.injEq] at h3
        obtain ⟨rfl, rfl⟩ := h3
        rfl
  | .ifx b y n, c, c', x, h => by
    unfold Src.translate at h
    obtain ⟨_, c₁, h1, h⟩ := tr_bind_ok.1 h
    obtain ⟨_, c₂, h2, h⟩ := tr_bind_ok.1 h
    obtain ⟨_, c₃, h3, h⟩ := tr_bind_ok.1 h
    cases tr_pure_ok.1 h
    rfl
  | .merge b y n, c, c', x, h => by
    unfold Src.translate at h
    obtain ⟨_, c₁, h1, h⟩ := tr_bind_ok.1 h
    obtain ⟨_, c₂, h2, h⟩ := tr_bind_ok.1 h
    obtain ⟨_, c₃, h3, h⟩ := tr_bind_ok.1 h
    cases tr_pure_ok.1 h
    rfl
  | .call f es tr, c, c', x, h => by
    unfold Src.translate at h
    obtain ⟨xs, c₁, h1, h⟩ := tr_bind_ok.1 h
    simp only [mkCall, Except.ok.injEq, Prod.mk.injEq] at h
    obtain ⟨rfl, rfl⟩ := h
    rfl
  | .pre e, c, c', x, h => by
    unfold Src.translate at h
    rw [if_pos hu] at h
    obtain ⟨id, c₁, h1, h⟩ := tr_bind_ok.1 h
    obtain ⟨y, c₂, h2, h⟩ := tr_bind_ok.1 h
    simp only [mkPre, Except.ok.injEq, Prod.mk.injEq] at h
    obtain ⟨rfl, rfl⟩ := h
    rfl
  | .neg e, c, c', x, h => by
    unfold Src.translate at h
    obtain ⟨_, c₁, h1, h⟩ := tr_bind_ok.1 h
    cases tr_pure_ok.1 h
    rfl
  | .not e, c, c', x, h => by
    unfold Src.translate at h
    obtain ⟨_, c₁, h1, h⟩ := tr_bind_ok.1 h
    cases tr_pure_ok.1 h
    rfl


mutual
/-- Presence is preserved. -/
theorem translate_tick {v : View} (hu : v.useRegisters = true) {t : Nat} :
    (e : Src) → ∀ {c c' : ExprCtx} {x : Expr}, e.translate v c = .ok (x, c') →
    tickX X D x t = uniOn (worldX A glob nodes X v) D e t
  | .lit l, c, c', x, h => by
    unfold Src.translate Lit.translate at h
    split at h
    · cases tr_pure_ok.1 h; rfl
    · split at h
      · cases tr_pure_ok.1 h; rfl
      · exact (tr_throw.1 h).elim
    · cases tr_pure_ok.1 h; rfl
    · exact (tr_throw.1 h).elim
    · exact (tr_throw.1 h).elim
  | .var y, c, c', x, h => by
    unfold Src.translate at h
    split at h
    · rename_i hy
      cases tr_pure_ok.1 h
      simp [tickX, uniOn, hy]
    · rename_i hy
      cases tr_pure_ok.1 h
      simp [tickX, uniOn, hy]
  | .paren es tr, c, c', x, h => by
    unfold Src.translate at h
    obtain ⟨xs, c₁, h1, h2⟩ := tr_bind_ok.1 h
    cases tr_pure_ok.1 h2
    rw [tickX_paren, uniOn]
    exact translate_tickList hu es h1
  | .left first rest, c, c', x, h => by
    unfold Src.translate at h
    obtain ⟨acc, c₁, h1, h2⟩ := tr_bind_ok.1 h
    rw [uniOn, ← translate_tick hu first h1]
    exact translate_tickLeft hu rest h2
  | .cmp first rest, c, c', x, h => by
    unfold Src.translate at h
    obtain ⟨acc, c₁, h1, h2⟩ := tr_bind_ok.1 h
    rw [uniOn, ← translate_tick hu first h1]
    exact translate_tickCmp hu rest h2
  | .fby first rest, c, c', x, h => by
    unfold Src.translate at h
    obtain ⟨acc, c₁, h1, h2⟩ := tr_bind_ok.1 h
    obtain ⟨before, c₂, h3, h4⟩ := tr_bind_ok.1 h2
    rw [if_pos hu] at h3
    have ih := translate_tick (t := t) hu first h3
    rw [uniOn, ← ih]
    cases acc with
    | none => cases tr_pure_ok.1 h4; rfl
    | some after =>
      simp only [mkFby, hu, if_true, Except.ok.injEq, Prod.mk.injEq] at h4
      obtain ⟨rfl, rfl⟩ := h4
      simp only [tickX]
  | .arrow first rest, c, c', x, h => by
    unfold Src.translate at h
    obtain ⟨acc, c₁, h1, h2⟩ := tr_bind_ok.1 h
    obtain ⟨before, c₂, h3, h4⟩ := tr_bind_ok.1 h2
    have ih := translate_tick (t := t) hu first h3
    rw [uniOn, ← ih]
    cases acc with
    | none => cases tr_pure_ok.1 h4; rfl
    | some after =>
      simp only [mkThen, hu, if_true, Except.ok.injEq, Prod.mk.injEq] at h4
      obtain ⟨rfl, rfl⟩ := h4
      simp only [tickX]
  | .ifx b y n, c, c', x, h => by
    unfold Src.translate at h
    obtain ⟨b', c₁, h1, h2⟩ := tr_bind_ok.1 h
    obtain ⟨y', c₂, h3, h4⟩ := tr_bind_ok.1 h2
    obtain ⟨n', c₃, h5, h6⟩ := tr_bind_ok.1 h4
    cases tr_pure_ok.1 h6
    rw [uniOn, tickX, translate_tick hu b h1, translate_tick hu y h3, translate_tick hu n h5]
  | .merge b y n, c, c', x, h => by
    unfold Src.translate at h
    obtain ⟨b', c₁, h1, h2⟩ := tr_bind_ok.1 h
    obtain ⟨y', c₂, h3, h4⟩ := tr_bind_ok.1 h2
    obtain ⟨n', c₃, h5, h6⟩ := tr_bind_ok.1 h4
    cases tr_pure_ok.1 h6
    rw [uniOn, tickX, translate_tick hu b h1]
  | .call f es tr, c, c', x, h => by
    unfold Src.translate at h
    obtain ⟨xs, c₁, h1, h2⟩ := tr_bind_ok.1 h
    simp only [mkCall, Except.ok.injEq, Prod.mk.injEq] at h2
    obtain ⟨rfl, rfl⟩ := h2
    rw [uniOn, tickX, tickX_paren]
    exact translate_tickList hu es h1
  | .pre e, c, c', x, h => by
    unfold Src.translate at h
    rw [if_pos hu] at h
    obtain ⟨id, c₁, h1, h2⟩ := tr_bind_ok.1 h
    obtain ⟨y, c₂, h3, h4⟩ := tr_bind_ok.1 h2
    simp only [mkPre, Except.ok.injEq, Prod.mk.injEq] at h4
    obtain ⟨rfl, rfl⟩ := h4
    rw [uniOn, tickX, translate_tick hu e h3]
  | .neg e, c, c', x, h => by
    unfold Src.translate at h
    obtain ⟨y, c₁, h1, h2⟩ := tr_bind_ok.1 h
    cases tr_pure_ok.1 h2
    rw [uniOn, tickX, translate_tick hu e h1]
  | .not e, c, c', x, h => by
    unfold Src.translate at h
    obtain ⟨y, c₁, h1, h2⟩ := tr_bind_ok.1 h
    cases tr_pure_ok.1 h2
    rw [uniOn, tickX, translate_tick hu e h1]
theorem translate_tickList {v : View} (hu : v.useRegisters = true) {t : Nat} :
    (es : List Src) → ∀ {c c' : ExprCtx} {xs : List Expr}, Src.translateList v es c = .ok (xs, c') →
    tickXs X D xs t = uniOnAll (worldX A glob nodes X v) D es t
  | [], c, c', xs, h => by
    unfold Src.translateList at h
    cases tr_pure_ok.1 h
    rfl
  | e :: es, c, c', xs, h => by
    unfold Src.translateList at h
    obtain ⟨x, c₁, h1, h2⟩ := tr_bind_ok.1 h
    obtain ⟨ys, c₂, h3, h4⟩ := tr_bind_ok.1 h2
    cases tr_pure_ok.1 h4
    rw [uniOnAll, tickXs, translate_tick hu e h1, translate_tickList hu es h3]
theorem translate_tickLeft {v : View} (hu : v.useRegisters = true) {t : Nat} :
    (rest : List (LOp × Src)) → ∀ {c c' : ExprCtx} {acc x : Expr},
    Src.translateLeft v acc rest c = .ok (x, c') →
    tickX X D x t = uniOnLeft (worldX A glob nodes X v) D (tickX X D acc t) rest t
  | [], c, c', acc, x, h => by
    unfold Src.translateLeft at h
    cases tr_pure_ok.1 h
    rw [uniOnLeft]
  | (op, e) :: rest, c, c', acc, x, h => by
    unfold Src.translateLeft at h
    obtain ⟨y, c₁, h1, h2⟩ := tr_bind_ok.1 h
    have ih := translate_tick (t := t) hu e h1
    have ih' := fun b => open_translate (A := A) (glob := glob) (nodes := nodes) (X := X) (b := b)
      (t := t) hu e h1
    rw [translate_tickLeft hu rest h2]
    cases op <;> simp [uniOnLeft, LOp.compose, tickX, ih, ih', show (ClockOp.whenot == ClockOp.when) = false from rfl]
theorem translate_tickCmp {v : View} (hu : v.useRegisters = true) {t : Nat} :
    (rest : List (CmpOp × Src)) → ∀ {c c' : ExprCtx} {acc x : Expr},
    Src.translateCmp v acc rest c = .ok (x, c') →
    tickX X D x t = both (tickX X D acc t) (uniOnCmp (worldX A glob nodes X v) D rest t)
  | [], c, c', acc, x, h => by
    unfold Src.translateCmp at h
    cases tr_pure_ok.1 h
    simp [uniOnCmp, both_true]
  | [(op, e)], c, c', acc, x, h => by
    unfold Src.translateCmp at h
    obtain ⟨y, c₁, h1, h2⟩ := tr_bind_ok.1 h
    cases tr_pure_ok.1 h2
    simp only [tickX, uniOnCmp, both_true]
    rw [translate_tick hu e h1]
  | (_, _) :: (_, _) :: _, c, c', acc, x, h => by
    unfold Src.translateCmp at h
    obtain ⟨_, c₁, h1, h2⟩ := tr_bind_ok.1 h
    obtain ⟨_, c₂, h3, h4⟩ := tr_bind_ok.1 h2
    exact (tr_throw.1 h4).elim
end


theorem shapeX_paren_one (e : Expr) : shapeX ms (parenthesise [e] false) = shapeX ms e := by
  simp [parenthesise, shapeX]

theorem shapeX_paren (xs : List Expr) (b : Bool) (h : ¬ (∃ x, xs = [x] ∧ b = false)) :
    shapeX ms (parenthesise xs b) = shapeTuple (shapeXs ms xs) := by
  unfold parenthesise
  split
  · exact absurd ⟨_, rfl, rfl⟩ h
  · simp [shapeX]

theorem shapeX_left : ∀ (rest : List (LOp × Src)) {v : View} {c c' : ExprCtx} {acc x : Expr},
    Src.translateLeft v acc rest c = .ok (x, c') → shapeX ms x = shapeLeft (shapeX ms acc) rest
  | [], v, c, c', acc, x, h => by
    unfold Src.translateLeft at h
    cases tr_pure_ok.1 h
    rfl
  | (op, e) :: rest, v, c, c', acc, x, h => by
    unfold Src.translateLeft at h
    obtain ⟨y, c₁, h1, h2⟩ := tr_bind_ok.1 h
    rw [shapeX_left rest h2]
    cases op <;> simp [shapeLeft, LOp.compose, shapeX]

mutual
/-- Shapes are preserved. -/
theorem translate_shape {v : View} (hu : v.useRegisters = true) : (e : Src) →
    ∀ {c c' : ExprCtx} {x : Expr}, e.translate v c = .ok (x, c') → Linked ms nodes c'.blocks →
    shapeX ms x = uniShape (worldX A glob nodes X v) e
  | .lit l, c, c', x, h, hL => by
    unfold Src.translate Lit.translate at h
    split at h
    · cases tr_pure_ok.1 h; rfl
    · split at h
      · cases tr_pure_ok.1 h; rfl
      · exact (tr_throw.1 h).elim
    · cases tr_pure_ok.1 h; rfl
    · exact (tr_throw.1 h).elim
    · exact (tr_throw.1 h).elim
  | .var y, c, c', x, h, hL => by
    unfold Src.translate at h
    split at h <;> cases tr_pure_ok.1 h <;> rfl
  | .paren es tr, c, c', x, h, hL => by
    unfold Src.translate at h
    obtain ⟨xs, c₁, h1, h2⟩ := tr_bind_ok.1 h
    cases tr_pure_ok.1 h2
    have ih := translate_shapes hu es h1 hL
    match es, tr, ih, h1 with
    | [], tr, ih, h1 =>
      unfold Src.translateList at h1
      cases tr_pure_ok.1 h1
      simp [parenthesise, shapeX, shapeXs, uniShape, uniShapes]
    | [e], true, ih, h1 =>
      rw [shapeX_paren _ _ (by simp), ih]
      simp [uniShape]
    | [e], false, ih, h1 =>
      unfold Src.translateList at h1
      obtain ⟨x, c₁, h3, h4⟩ := tr_bind_ok.1 h1
      obtain ⟨ys, c₂, h5, h6⟩ := tr_bind_ok.1 h4
      unfold Src.translateList at h5
      cases tr_pure_ok.1 h5
      cases tr_pure_ok.1 h6
      simp only [shapeXs, uniShapes, List.cons.injEq, and_true] at ih
      rw [shapeX_paren_one, ih]
      simp [uniShape]
    | e :: e' :: es, tr, ih, h1 =>
      rw [shapeX_paren, ih]
      · simp [uniShape]
      · rintro ⟨z, rfl, -⟩
        simp [shapeXs, uniShapes] at ih
  | .left first rest, c, c', x, h, hL => by
    unfold Src.translate at h
    obtain ⟨acc, c₁, h1, h2⟩ := tr_bind_ok.1 h
    rw [uniShape, shapeX_left rest h2,
      translate_shape hu first h1 (linked_of_prefix hL (blocks_translateLeft rest h2))]
  | .cmp first rest, c, c', x, h, hL => by
    unfold Src.translate at h
    obtain ⟨acc, c₁, h1, h2⟩ := tr_bind_ok.1 h
    have ih := translate_shape hu first h1 (linked_of_prefix hL (blocks_translateCmp rest h2))
    match rest, h2 with
    | [], h2 =>
      unfold Src.translateCmp at h2
      cases tr_pure_ok.1 h2
      simpa [uniShape] using ih
    | [p], h2 =>
      unfold Src.translateCmp at h2
      obtain ⟨a, c₂, h3, h4⟩ := tr_bind_ok.1 h2
      cases tr_pure_ok.1 h4
      simp [uniShape, shapeX]
    | p :: q :: rest, h2 =>
      unfold Src.translateCmp at h2
      obtain ⟨a, c₂, h3, h4⟩ := tr_bind_ok.1 h2
      obtain ⟨a, c₃, h5, h6⟩ := tr_bind_ok.1 h4
      exact (tr_throw.1 h6).elim
  | .fby first rest, c, c', x, h, hL => by
    unfold Src.translate at h
    obtain ⟨acc, c₁, h1, h2⟩ := tr_bind_ok.1 h
    obtain ⟨before, c₂, h3, h4⟩ := tr_bind_ok.1 h2
    rw [if_pos hu] at h3
    rw [uniShape]
    cases acc with
    | none =>
      cases tr_pure_ok.1 h4
      exact translate_shape hu first h3 hL
    | some after =>
      simp only [mkFby, hu, if_true, Except.ok.injEq, Prod.mk.injEq] at h4
      obtain ⟨rfl, rfl⟩ := h4
      rw [shapeX]
      exact translate_shape hu first h3 hL
  | .arrow first rest, c, c', x, h, hL => by
    unfold Src.translate at h
    obtain ⟨acc, c₁, h1, h2⟩ := tr_bind_ok.1 h
    obtain ⟨before, c₂, h3, h4⟩ := tr_bind_ok.1 h2
    rw [uniShape]
    cases acc with
    | none =>
      cases tr_pure_ok.1 h4
      exact translate_shape hu first h3 hL
    | some after =>
      simp only [mkThen, hu, if_true, Except.ok.injEq, Prod.mk.injEq] at h4
      obtain ⟨rfl, rfl⟩ := h4
      rw [shapeX]
      exact translate_shape hu first h3 hL
  | .ifx b y n, c, c', x, h, hL => by
    unfold Src.translate at h
    obtain ⟨b', c₁, h1, h2⟩ := tr_bind_ok.1 h
    obtain ⟨y', c₂, h3, h4⟩ := tr_bind_ok.1 h2
    obtain ⟨n', c₃, h5, h6⟩ := tr_bind_ok.1 h4
    cases tr_pure_ok.1 h6
    obtain ⟨n₃, hn₃⟩ := fresh_translate n v c₂ n' c' h5
    rw [uniShape, shapeX, translate_shape hu y h3 (linked_of_prefix hL hn₃.blocks)]
  | .merge b y n, c, c', x, h, hL => by
    unfold Src.translate at h
    obtain ⟨b', c₁, h1, h2⟩ := tr_bind_ok.1 h
    obtain ⟨y', c₂, h3, h4⟩ := tr_bind_ok.1 h2
    obtain ⟨n', c₃, h5, h6⟩ := tr_bind_ok.1 h4
    cases tr_pure_ok.1 h6
    obtain ⟨n₃, hn₃⟩ := fresh_translate n v c₂ n' c' h5
    rw [uniShape, shapeX, translate_shape hu y h3 (linked_of_prefix hL hn₃.blocks)]
  | .call f es tr, c, c', x, h, hL => by
    unfold Src.translate at h
    obtain ⟨xs, c₁, h1, h2⟩ := tr_bind_ok.1 h
    simp only [mkCall, Except.ok.injEq, Prod.mk.injEq] at h2
    obtain ⟨rfl, rfl⟩ := h2
    have hm : ms[c₁.blocks.length]? = nodes f := hL _ ⟨f, none⟩ (by simp)
    rw [uniShape, shapeX, hm]
    cases hnf : nodes f <;> simp [hnf]
  | .pre e, c, c', x, h, hL => by
    unfold Src.translate at h
    rw [if_pos hu] at h
    obtain ⟨id, c₁, h1, h2⟩ := tr_bind_ok.1 h
    obtain ⟨y, c₂, h3, h4⟩ := tr_bind_ok.1 h2
    simp only [mkPre, Except.ok.injEq, Prod.mk.injEq] at h4
    obtain ⟨rfl, rfl⟩ := h4
    rw [uniShape, shapeX]
    exact translate_shape hu e h3 hL
  | .neg e, c, c', x, h, hL => by
    unfold Src.translate at h
    obtain ⟨y, c₁, h1, h2⟩ := tr_bind_ok.1 h
    cases tr_pure_ok.1 h2
    simp [uniShape, shapeX]
  | .not e, c, c', x, h, hL => by
    unfold Src.translate at h
    obtain ⟨y, c₁, h1, h2⟩ := tr_bind_ok.1 h
    cases tr_pure_ok.1 h2
    simp [uniShape, shapeX]
theorem translate_shapes {v : View} (hu : v.useRegisters = true) : (es : List Src) →
    ∀ {c c' : ExprCtx} {xs : List Expr}, Src.translateList v es c = .ok (xs, c') →
    Linked ms nodes c'.blocks → shapeXs ms xs = uniShapes (worldX A glob nodes X v) es
  | [], c, c', xs, h, hL => by
    unfold Src.translateList at h
    cases tr_pure_ok.1 h
    rfl
  | e :: es, c, c', xs, h, hL => by
    unfold Src.translateList at h
    obtain ⟨x, c₁, h1, h2⟩ := tr_bind_ok.1 h
    obtain ⟨ys, c₂, h3, h4⟩ := tr_bind_ok.1 h2
    cases tr_pure_ok.1 h4
    obtain ⟨n₂, hn₂⟩ := fresh_translateList es v c₁ ys c' h3
    rw [uniShapes, shapeXs, translate_shape hu e h1 (linked_of_prefix hL hn₂.blocks),
      translate_shapes hu es h3 hL]
end

theorem valU_compose {op : LOp} {x y : Expr} {t : Nat} :
    valU A glob ms X D (op.compose x y) t =
      (valU A glob ms X D x t).bind fun a => (valU A glob ms X D y t).bind (applyLOp A op a) := by
  cases op <;> rfl

mutual
/-- The reference is preserved. -/
theorem translate_uni {v : View} (hu : v.useRegisters = true) (hd : v.depth = 0) : (e : Src) →
    ∀ {c c' : ExprCtx} {x : Expr}, e.translate v c = .ok (x, c') → Linked ms nodes c'.blocks →
    ∀ t, valU A glob ms X D x t = uni (worldX A glob nodes X v) D e t
  | .lit l, c, c', x, h, hL, t => by
    unfold Src.translate Lit.translate at h
    unfold uni litValue
    split at h
    · cases tr_pure_ok.1 h; rfl
    · split at h
      · rename_i hn
        cases tr_pure_ok.1 h
        simp only [if_pos hn]
        rfl
      · exact (tr_throw.1 h).elim
    · cases tr_pure_ok.1 h; rfl
    · exact (tr_throw.1 h).elim
    · exact (tr_throw.1 h).elim
  | .var y, c, c', x, h, hL, t => by
    unfold Src.translate at h
    split at h
    · rename_i hy
      cases tr_pure_ok.1 h
      simp [valU, uni, hy, hd]
    · rename_i hy
      cases tr_pure_ok.1 h
      simp [valU, uni, hy]
  | .paren es tr, c, c', x, h, hL, t => by
    unfold Src.translate at h
    obtain ⟨xs, c₁, h1, h2⟩ := tr_bind_ok.1 h
    cases tr_pure_ok.1 h2
    rw [valU_paren, uni, translate_uniList hu hd es h1 hL t]
  | .left first rest, c, c', x, h, hL, t => by
    unfold Src.translate at h
    obtain ⟨acc, c₁, h1, h2⟩ := tr_bind_ok.1 h
    rw [uni, ← translate_uni hu hd first h1 (linked_of_prefix hL (blocks_translateLeft rest h2)) t]
    exact translate_uniLeft hu hd rest h2 hL t
  | .cmp first rest, c, c', x, h, hL, t => by
    unfold Src.translate at h
    obtain ⟨acc, c₁, h1, h2⟩ := tr_bind_ok.1 h
    rw [uni, ← translate_uni hu hd first h1 (linked_of_prefix hL (blocks_translateCmp rest h2)) t]
    exact translate_uniCmp hu hd rest h2 hL t
  | .fby first rest, c, c', x, h, hL, t => by
    unfold Src.translate at h
    obtain ⟨acc, c₁, h1, h2⟩ := tr_bind_ok.1 h
    obtain ⟨before, c₂, h3, h4⟩ := tr_bind_ok.1 h2
    rw [if_pos hu] at h3
    obtain ⟨n', hn'⟩ := fresh_translate first _ c₁ before c₂ h3
    have e1 := translate_uniFby hu hd rest h1
    have e2 := translate_uni hu hd first h3
    have e3 : tickX X D before = uniOn (worldX A glob nodes X v) D first :=
      funext fun t => translate_tick hu first h3
    rw [uni]
    cases acc with
    | none =>
      cases tr_pure_ok.1 h4
      rw [if_pos (by simp [e1.1.1 rfl])]
      exact e2 hL t
    | some after =>
      simp only [mkFby, hu, if_true, Except.ok.injEq, Prod.mk.injEq] at h4
      obtain ⟨rfl, rfl⟩ := h4
      have hne : rest ≠ [] := fun hr => by have := e1.1.2 hr; cases this
      rw [if_neg (by simpa using hne), valU, e3]
      have hL1 := linked_of_prefix hL hn'.blocks
      rw [funext (e2 hL), funext (e1.2 hL1 after rfl)]
  | .arrow first rest, c, c', x, h, hL, t => by
    unfold Src.translate at h
    obtain ⟨acc, c₁, h1, h2⟩ := tr_bind_ok.1 h
    obtain ⟨before, c₂, h3, h4⟩ := tr_bind_ok.1 h2
    obtain ⟨n', hn'⟩ := fresh_translate first _ c₁ before c₂ h3
    have e1 := translate_uniThen hu hd rest h1
    have e2 := translate_uni hu hd first h3
    have e3 : tickX X D before = uniOn (worldX A glob nodes X v) D first :=
      funext fun t => translate_tick hu first h3
    rw [uni]
    cases acc with
    | none =>
      cases tr_pure_ok.1 h4
      rw [if_pos (by simp [e1.1.1 rfl])]
      exact e2 hL t
    | some after =>
      simp only [mkThen, hu, if_true, Except.ok.injEq, Prod.mk.injEq] at h4
      obtain ⟨rfl, rfl⟩ := h4
      have hne : rest ≠ [] := fun hr => by have := e1.1.2 hr; cases this
      rw [if_neg (by simpa using hne), valU]
      have hL1 := linked_of_prefix hL hn'.blocks
      rw [funext (e2 hL), funext (e1.2 hL1 after rfl)]
  | .ifx b y n, c, c', x, h, hL, t => by
    unfold Src.translate at h
    obtain ⟨b', c₁, h1, h2⟩ := tr_bind_ok.1 h
    obtain ⟨y', c₂, h3, h4⟩ := tr_bind_ok.1 h2
    obtain ⟨n', c₃, h5, h6⟩ := tr_bind_ok.1 h4
    cases tr_pure_ok.1 h6
    obtain ⟨n₂, hn₂⟩ := fresh_translate y v c₁ y' c₂ h3
    obtain ⟨n₃, hn₃⟩ := fresh_translate n v c₂ n' c' h5
    have hL₂ := linked_of_prefix hL hn₃.blocks
    rw [uni, valU, translate_uni hu hd b h1 (linked_of_prefix hL₂ hn₂.blocks) t,
      translate_uni hu hd y h3 hL₂ t, translate_uni hu hd n h5 hL t]
  | .merge b y n, c, c', x, h, hL, t => by
    unfold Src.translate at h
    obtain ⟨b', c₁, h1, h2⟩ := tr_bind_ok.1 h
    obtain ⟨y', c₂, h3, h4⟩ := tr_bind_ok.1 h2
    obtain ⟨n', c₃, h5, h6⟩ := tr_bind_ok.1 h4
    cases tr_pure_ok.1 h6
    obtain ⟨n₂, hn₂⟩ := fresh_translate y v c₁ y' c₂ h3
    obtain ⟨n₃, hn₃⟩ := fresh_translate n v c₂ n' c' h5
    have hL₂ := linked_of_prefix hL hn₃.blocks
    rw [uni, valU, translate_uni hu hd b h1 (linked_of_prefix hL₂ hn₂.blocks) t,
      translate_uni hu hd y h3 hL₂ t, translate_uni hu hd n h5 hL t]
  | .call f es tr, c, c', x, h, hL, t => by
    unfold Src.translate at h
    obtain ⟨xs, c₁, h1, h2⟩ := tr_bind_ok.1 h
    simp only [mkCall, Except.ok.injEq, Prod.mk.injEq] at h2
    obtain ⟨rfl, rfl⟩ := h2
    have hm : ms[c₁.blocks.length]? = nodes f := hL _ ⟨f, none⟩ (by simp)
    have e2 : valU A glob ms X D (parenthesise xs tr) = fun u => do
        return tupleValue (← uniList (worldX A glob nodes X v) D es u) :=
      funext fun t => by
        rw [valU_paren,
          translate_uniList hu hd es h1 (linked_of_prefix hL (List.prefix_append _ _)) t]
    rw [uni, valU, hm, e2]
    rfl
  | .pre e, c, c', x, h, hL, t => by
    unfold Src.translate at h
    rw [if_pos hu] at h
    obtain ⟨id, c₁, h1, h2⟩ := tr_bind_ok.1 h
    obtain ⟨y, c₂, h3, h4⟩ := tr_bind_ok.1 h2
    simp only [mkPre, Except.ok.injEq, Prod.mk.injEq] at h4
    obtain ⟨rfl, rfl⟩ := h4
    have e3 : tickX X D y = uniOn (worldX A glob nodes X v) D e :=
      funext fun t => translate_tick hu e h3
    rw [uni, valU, e3, funext (translate_uni hu hd e h3 hL),
      translate_shape (A := A) (glob := glob) (X := X) hu e h3 hL]
  | .neg e, c, c', x, h, hL, t => by
    unfold Src.translate at h
    obtain ⟨y, c₁, h1, h2⟩ := tr_bind_ok.1 h
    cases tr_pure_ok.1 h2
    rw [uni, valU, translate_uni hu hd e h1 hL t]
  | .not e, c, c', x, h, hL, t => by
    unfold Src.translate at h
    obtain ⟨y, c₁, h1, h2⟩ := tr_bind_ok.1 h
    cases tr_pure_ok.1 h2
    rw [uni, valU, translate_uni hu hd e h1 hL t]
theorem translate_uniList {v : View} (hu : v.useRegisters = true) (hd : v.depth = 0) : (es : List Src) →
    ∀ {c c' : ExprCtx} {xs : List Expr}, Src.translateList v es c = .ok (xs, c') →
    Linked ms nodes c'.blocks →
    ∀ t, valUs A glob ms X D xs t = uniList (worldX A glob nodes X v) D es t
  | [], c, c', xs, h, hL, t => by
    unfold Src.translateList at h
    cases tr_pure_ok.1 h
    rfl
  | e :: es, c, c', xs, h, hL, t => by
    unfold Src.translateList at h
    obtain ⟨x, c₁, h1, h2⟩ := tr_bind_ok.1 h
    obtain ⟨ys, c₂, h3, h4⟩ := tr_bind_ok.1 h2
    cases tr_pure_ok.1 h4
    obtain ⟨n₂, hn₂⟩ := fresh_translateList es v c₁ ys c' h3
    rw [uniList, valUs, translate_uni hu hd e h1 (linked_of_prefix hL hn₂.blocks) t,
      translate_uniList hu hd es h3 hL t]
theorem translate_uniLeft {v : View} (hu : v.useRegisters = true) (hd : v.depth = 0) : (rest : List (LOp × Src)) →
    ∀ {c c' : ExprCtx} {acc x : Expr}, Src.translateLeft v acc rest c = .ok (x, c') →
    Linked ms nodes c'.blocks → ∀ t, valU A glob ms X D x t =
      (valU A glob ms X D acc t).bind fun a => uniLeft (worldX A glob nodes X v) D a rest t
  | [], c, c', acc, x, h, hL, t => by
    unfold Src.translateLeft at h
    cases tr_pure_ok.1 h
    simp [uniLeft]
  | (op, e) :: rest, c, c', acc, x, h, hL, t => by
    unfold Src.translateLeft at h
    obtain ⟨y, c₁, h1, h2⟩ := tr_bind_ok.1 h
    rw [translate_uniLeft hu hd rest h2 hL t, valU_compose,
      translate_uni hu hd e h1 (linked_of_prefix hL (blocks_translateLeft rest h2)) t]
    simp only [uniLeft, Option.bind_assoc, Option.bind_eq_bind]
theorem translate_uniCmp {v : View} (hu : v.useRegisters = true) (hd : v.depth = 0) : (rest : List (CmpOp × Src)) →
    ∀ {c c' : ExprCtx} {acc x : Expr}, Src.translateCmp v acc rest c = .ok (x, c') →
    Linked ms nodes c'.blocks → ∀ t, valU A glob ms X D x t =
      (valU A glob ms X D acc t).bind fun a => uniCmp (worldX A glob nodes X v) D a rest t
  | [], c, c', acc, x, h, hL, t => by
    unfold Src.translateCmp at h
    cases tr_pure_ok.1 h
    simp [uniCmp]
  | [(op, e)], c, c', acc, x, h, hL, t => by
    unfold Src.translateCmp at h
    obtain ⟨y, c₁, h1, h2⟩ := tr_bind_ok.1 h
    cases tr_pure_ok.1 h2
    simp only [valU, uniCmp, translate_uni hu hd e h1 hL t, Option.bind_eq_bind]
  | (_, _) :: (_, _) :: _, c, c', acc, x, h, hL, t => by
    unfold Src.translateCmp at h
    obtain ⟨_, c₁, h1, h2⟩ := tr_bind_ok.1 h
    obtain ⟨_, c₂, h3, h4⟩ := tr_bind_ok.1 h2
    exact (tr_throw.1 h4).elim
theorem translate_uniFby {v : View} (hu : v.useRegisters = true) (hd : v.depth = 0) : (es : List Src) →
    ∀ {i : Nat} {c c' : ExprCtx} {o : Option Expr}, Src.translateFby v i es c = .ok (o, c') →
    (o = none ↔ es = []) ∧ (Linked ms nodes c'.blocks → ∀ x, o = some x → ∀ t,
      valU A glob ms X D x t = uniFby (worldX A glob nodes X v) D es t)
  | [], i, c, c', o, h => by
    unfold Src.translateFby at h
    cases tr_pure_ok.1 h
    exact ⟨by simp, fun _ x hx => by cases hx⟩
  | e :: es, i, c, c', o, h => by
    unfold Src.translateFby at h
    obtain ⟨acc, c₁, h1, h2⟩ := tr_bind_ok.1 h
    obtain ⟨before, c₂, h3, h4⟩ := tr_bind_ok.1 h2
    rw [if_pos hu] at h3
    obtain ⟨n', hn'⟩ := fresh_translate e _ c₁ before c₂ h3
    have e1 := translate_uniFby hu hd es h1
    have e2 := translate_uni hu hd e h3
    have e3 : tickX X D before = uniOn (worldX A glob nodes X v) D e :=
      funext fun t => translate_tick hu e h3
    cases acc with
    | none =>
      cases tr_pure_ok.1 h4
      refine ⟨by simp, fun hL x hx t => ?_⟩
      cases hx
      rw [uniFby, if_pos (by simp [e1.1.1 rfl])]
      exact e2 hL t
    | some after =>
      obtain ⟨y, c₃, h5, h6⟩ := tr_bind_ok.1 h4
      cases tr_pure_ok.1 h6
      simp only [mkFby, hu, if_true, Except.ok.injEq, Prod.mk.injEq] at h5
      obtain ⟨rfl, rfl⟩ := h5
      refine ⟨by simp, fun hL x hx t => ?_⟩
      cases hx
      have hne : es ≠ [] := fun hr => by have := e1.1.2 hr; cases this
      rw [uniFby, if_neg (by simpa using hne), valU, e3]
      have hL1 := linked_of_prefix hL hn'.blocks
      rw [funext (e2 hL), funext (e1.2 hL1 after rfl)]
theorem translate_uniThen {v : View} (hu : v.useRegisters = true) (hd : v.depth = 0) : (es : List Src) →
    ∀ {i : Nat} {c c' : ExprCtx} {o : Option Expr}, Src.translateThen v i es c = .ok (o, c') →
    (o = none ↔ es = []) ∧ (Linked ms nodes c'.blocks → ∀ x, o = some x → ∀ t,
      valU A glob ms X D x t = uniArrow (worldX A glob nodes X v) D es t)
  | [], i, c, c', o, h => by
    unfold Src.translateThen at h
    cases tr_pure_ok.1 h
    exact ⟨by simp, fun _ x hx => by cases hx⟩
  | e :: es, i, c, c', o, h => by
    unfold Src.translateThen at h
    obtain ⟨acc, c₁, h1, h2⟩ := tr_bind_ok.1 h
    obtain ⟨before, c₂, h3, h4⟩ := tr_bind_ok.1 h2
    obtain ⟨n', hn'⟩ := fresh_translate e _ c₁ before c₂ h3
    have e1 := translate_uniThen hu hd es h1
    have e2 := translate_uni hu hd e h3
    have e3 : tickX X D before = uniOn (worldX A glob nodes X v) D e :=
      funext fun t => translate_tick hu e h3
    cases acc with
    | none =>
      cases tr_pure_ok.1 h4
      refine ⟨by simp, fun hL x hx t => ?_⟩
      cases hx
      rw [uniArrow, if_pos (by simp [e1.1.1 rfl])]
      exact e2 hL t
    | some after =>
      obtain ⟨y, c₃, h5, h6⟩ := tr_bind_ok.1 h4
      cases tr_pure_ok.1 h6
      simp only [mkThen, hu, if_true, Except.ok.injEq, Prod.mk.injEq] at h5
      obtain ⟨rfl, rfl⟩ := h5
      refine ⟨by simp, fun hL x hx t => ?_⟩
      cases hx
      have hne : es ≠ [] := fun hr => by have := e1.1.2 hr; cases this
      rw [uniArrow, if_neg (by simpa using hne), valU]
      have hL1 := linked_of_prefix hL hn'.blocks
      rw [funext (e2 hL), funext (e1.2 hL1 after rfl)]
end

end

end Chandeliers.Uni
