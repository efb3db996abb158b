import Verif.Lemmas.Fresh

/-! What expressions are translated to, without the bookkeeping. -/

set_option autoImplicit false

namespace Chandeliers.Den
open Chandeliers.San Chandeliers.Spec Chandeliers.Syn

/-- The value of a literal. -/
def litValue : Syn.Lit → Option San.Lit
  | .bool b => some (.bool b)
  | .int n => if -2 ^ 63 ≤ n ∧ n < 2 ^ 63 then some (.int (Int64.ofInt n)) else none
  | .float (some f) => some (.float f)
  | .float none => none
  | .other => none

/-- The view under the `i`-th `fby` of a chain. -/
def View.after (v : View) (i : Nat) : View := if v.useRegisters then v else v.bump i

mutual
/-- The expression is a translation of the source, `C` being the context at the end. -/
def Comes (C : ExprCtx) : View → Src → Expr → Prop
  | _, .lit l, x => ∃ y, litValue l = some y ∧ x = .lit y
  | v, .var y, x => x = if y ∈ v.shadow then .var y v.depth else .global y
  | v, .paren es tr, x => ∃ xs, ComesList C v es xs ∧ x = parenthesise xs tr
  | v, .left e rest, x => ∃ a, Comes C v e a ∧ ComesLeft C v a rest x
  | v, .cmp e rest, x => ∃ a, Comes C v e a ∧ ComesCmp C v a rest x
  | v, .fby e rest, x => ∃ b, Comes C v e b ∧ ComesFby C v 0 b rest x
  | v, .arrow e rest, x => ∃ b, Comes C v e b ∧ ComesThen C v 0 b rest x
  | v, .ifx c y n, x => ∃ c' y' n', Comes C v c c' ∧ Comes C v y y' ∧ Comes C v n n' ∧
      x = .ifx c' y' n'
  | v, .merge c y n, x => ∃ c' y' n', Comes C v c c' ∧ Comes C v y y' ∧ Comes C v n n' ∧
      x = .merge c' y' n'
  | v, .call f args tr, x => ∃ xs id, ComesList C v args xs ∧
      x = .substep v.depth id (parenthesise xs tr) ∧ C.blocks[id]? = some ⟨f, none⟩
  | v, .pre e, x =>
    if v.useRegisters then ∃ id y, Comes C v e y ∧ x = .fetchPre id y ∧
      .updateRegister id y ∈ C.stmts ∧ .initRegister id none none ∈ C.stmts
    else ∃ y, Comes C (v.bump 1) e y ∧ x = .dummyPre y
  | v, .neg e, x => ∃ y, Comes C v e y ∧ x = .un .neg y
  | v, .not e, x => ∃ y, Comes C v e y ∧ x = .un .not y
/-- One by one. -/
def ComesList (C : ExprCtx) : View → List Src → List Expr → Prop
  | _, [], xs => xs = []
  | v, e :: es, xs => ∃ y ys, Comes C v e y ∧ ComesList C v es ys ∧ xs = y :: ys
/-- The translation of the beginning of a chain is given. -/
def ComesLeft (C : ExprCtx) : View → Expr → List (LOp × Src) → Expr → Prop
  | _, a, [], x => x = a
  | v, a, (op, e) :: rest, x => ∃ y, Comes C v e y ∧ ComesLeft C v (op.compose a y) rest x
/-- The translation of the first operand is given. -/
def ComesCmp (C : ExprCtx) : View → Expr → List (CmpOp × Src) → Expr → Prop
  | _, a, [], x => x = a
  | v, a, (op, e) :: rest, x => rest = [] ∧ ∃ y, Comes C v e y ∧ x = .cmp op a y
/-- The translation of the `i`-th operand is given. -/
def ComesFby (C : ExprCtx) : View → Nat → Expr → List Src → Expr → Prop
  | _, _, b, [], x => x = b
  | v, i, b, e :: es, x => ∃ y a, Comes C (View.after v (i + 1)) e y ∧ ComesFby C v (i + 1) y es a ∧
      if v.useRegisters then ∃ id, x = .fetchFby id b a ∧ .updateRegister id a ∈ C.stmts ∧
        .initRegister id (some b) none ∈ C.stmts
      else x = .later (v.depth + i) b a
/-- The translation of the `i`-th operand is given. -/
def ComesThen (C : ExprCtx) : View → Nat → Expr → List Src → Expr → Prop
  | _, _, b, [], x => x = b
  | v, i, b, e :: es, x => ∃ y a, Comes C v e y ∧ ComesThen C v (i + 1) y es a ∧
      if v.useRegisters then ∃ id, x = .flip id b a else x = .later (v.depth + i) b a
end

/-- The context has grown. -/
def Grown (c c' : ExprCtx) : Prop := c.blocks <+: c'.blocks ∧ c.stmts <+: c'.stmts

theorem Grown.rfl' {c : ExprCtx} : Grown c c := ⟨List.prefix_rfl, List.prefix_rfl⟩

theorem Grown.trans {c c' c'' : ExprCtx} (h : Grown c c') (h' : Grown c' c'') : Grown c c'' :=
  ⟨h.1.trans h'.1, h.2.trans h'.2⟩

theorem lit_comes {l : Syn.Lit} {c c' : ExprCtx} {x : Expr} :
    l.translate c = .ok (x, c') ↔ c' = c ∧ ∃ y, litValue l = some y ∧ x = .lit y := by
  unfold Lit.translate litValue
  split
  · rw [tr_pure_ok]; simp; grind
  · split
    · rw [tr_pure_ok]; simp; grind
    · simp [tr_throw]; omega
  · rw [tr_pure_ok]; simp; grind
  · simp [tr_throw]
  · simp [tr_throw]

theorem bump_zero (v : View) : v.bump 0 = v := rfl

theorem mkFby_comes {v : View} {i : Nat} {b a x : Expr} {c c' : ExprCtx}
    (h : mkFby v i b a c = .ok (x, c')) : Grown c c' ∧ ∀ C, Grown c' C →
      if v.useRegisters then ∃ id, x = .fetchFby id b a ∧ .updateRegister id a ∈ C.stmts ∧
        .initRegister id (some b) none ∈ C.stmts
      else x = .later (v.depth + i) b a := by
  unfold mkFby at h
  split at h
  · rename_i hu
    simp only [Except.ok.injEq, Prod.mk.injEq] at h
    obtain ⟨rfl, rfl⟩ := h
    refine ⟨⟨List.prefix_rfl, List.prefix_append _ _⟩, fun C hC => ?_⟩
    rw [if_pos hu]
    exact ⟨_, rfl, hC.2.mem (by simp), hC.2.mem (by simp)⟩
  · rename_i hu
    simp only [Except.ok.injEq, Prod.mk.injEq] at h
    obtain ⟨rfl, rfl⟩ := h
    refine ⟨Grown.rfl', fun C hC => ?_⟩
    rw [if_neg hu]

theorem mkThen_comes {v : View} {i : Nat} {b a x : Expr} {c c' : ExprCtx}
    (h : mkThen v i b a c = .ok (x, c')) : Grown c c' ∧
      if v.useRegisters then ∃ id, x = .flip id b a else x = .later (v.depth + i) b a := by
  unfold mkThen at h
  split at h
  · rename_i hu
    simp only [Except.ok.injEq, Prod.mk.injEq] at h
    obtain ⟨rfl, rfl⟩ := h
    refine ⟨⟨List.prefix_rfl, List.prefix_rfl⟩, ?_⟩
    rw [if_pos hu]
    exact ⟨_, rfl⟩
  · rename_i hu
    simp only [Except.ok.injEq, Prod.mk.injEq] at h
    obtain ⟨rfl, rfl⟩ := h
    refine ⟨Grown.rfl', ?_⟩
    rw [if_neg hu]

mutual
/-- The translation is one. -/
theorem comes : (e : Src) → {v : View} → {c c' : ExprCtx} → {x : Expr} →
    e.translate v c = .ok (x, c') → Grown c c' ∧ ∀ C, Grown c' C → Comes C v e x
  | .lit l, v, c, c', x, h => by
    unfold Src.translate at h
    obtain ⟨rfl, y, h1, rfl⟩ := lit_comes.1 h
    exact ⟨Grown.rfl', fun C _ => by rw [Comes]; exact ⟨y, h1, rfl⟩⟩
  | .var y, v, c, c', x, h => by
    unfold Src.translate at h
    split at h <;> rename_i hm
    · cases tr_pure_ok.1 h
      exact ⟨Grown.rfl', fun C _ => by rw [Comes, if_pos hm]⟩
    · cases tr_pure_ok.1 h
      exact ⟨Grown.rfl', fun C _ => by rw [Comes, if_neg hm]⟩
  | .paren es tr, v, c, c', x, h => by
    unfold Src.translate at h
    obtain ⟨xs, c₁, h1, h⟩ := tr_bind_ok.1 h
    cases tr_pure_ok.1 h
    obtain ⟨g, k⟩ := comesList es h1
    exact ⟨g, fun C hC => by rw [Comes]; exact ⟨xs, k C hC, rfl⟩⟩
  | .left e rest, v, c, c', x, h => by
    unfold Src.translate at h
    obtain ⟨a, c₁, h1, h⟩ := tr_bind_ok.1 h
    obtain ⟨g, k⟩ := comes e h1
    obtain ⟨g', k'⟩ := comesLeft rest h
    exact ⟨g.trans g', fun C hC => by rw [Comes]; exact ⟨a, k C (g'.trans hC), k' C hC⟩⟩
  | .cmp e rest, v, c, c', x, h => by
    unfold Src.translate at h
    obtain ⟨a, c₁, h1, h⟩ := tr_bind_ok.1 h
    obtain ⟨g, k⟩ := comes e h1
    obtain ⟨g', k'⟩ := comesCmp rest h
    exact ⟨g.trans g', fun C hC => by rw [Comes]; exact ⟨a, k C (g'.trans hC), k' C hC⟩⟩
  | .fby e rest, v, c, c', x, h => by
    unfold Src.translate at h
    obtain ⟨o, c₁, h1, h⟩ := tr_bind_ok.1 h
    obtain ⟨b, c₂, h2, h⟩ := tr_bind_ok.1 h
    rw [bump_zero, ite_self] at h2
    obtain ⟨g, k⟩ := comesFby rest h1
    obtain ⟨g', k'⟩ := comes e h2
    cases rest with
    | nil =>
      subst k
      cases tr_pure_ok.1 h
      exact ⟨g.trans g', fun C hC => by
        simp only [Comes, ComesFby]; exact ⟨_, k' C hC, rfl⟩⟩
    | cons e' es =>
      obtain ⟨a, y, rfl, k⟩ := k
      obtain ⟨g'', k''⟩ := mkFby_comes h
      refine ⟨(g.trans g').trans g'', fun C hC => ?_⟩
      obtain ⟨k1, k2⟩ := k C ((g'.trans g'').trans hC)
      simp only [Comes, ComesFby]
      exact ⟨_, k' C (g''.trans hC), y, a, k1, k2, k'' C hC⟩
  | .arrow e rest, v, c, c', x, h => by
    unfold Src.translate at h
    obtain ⟨o, c₁, h1, h⟩ := tr_bind_ok.1 h
    obtain ⟨b, c₂, h2, h⟩ := tr_bind_ok.1 h
    obtain ⟨g, k⟩ := comesThen rest h1
    obtain ⟨g', k'⟩ := comes e h2
    cases rest with
    | nil =>
      subst k
      cases tr_pure_ok.1 h
      exact ⟨g.trans g', fun C hC => by
        simp only [Comes, ComesThen]; exact ⟨_, k' C hC, rfl⟩⟩
    | cons e' es =>
      obtain ⟨a, y, rfl, k⟩ := k
      obtain ⟨g'', k''⟩ := mkThen_comes h
      refine ⟨(g.trans g').trans g'', fun C hC => ?_⟩
      obtain ⟨k1, k2⟩ := k C ((g'.trans g'').trans hC)
      simp only [Comes, ComesThen]
      exact ⟨_, k' C (g''.trans hC), y, a, k1, k2, k''⟩
  | .ifx b y n, v, c, c', x, h => by
    unfold Src.translate at h
    obtain ⟨x1, c₁, h1, h⟩ := tr_bind_ok.1 h
    obtain ⟨x2, c₂, h2, h⟩ := tr_bind_ok.1 h
    obtain ⟨x3, c₃, h3, h⟩ := tr_bind_ok.1 h
    cases tr_pure_ok.1 h
    obtain ⟨g1, k1⟩ := comes b h1
    obtain ⟨g2, k2⟩ := comes y h2
    obtain ⟨g3, k3⟩ := comes n h3
    exact ⟨(g1.trans g2).trans g3, fun C hC => by
      rw [Comes]; exact ⟨_, _, _, k1 C ((g2.trans g3).trans hC), k2 C (g3.trans hC), k3 C hC, rfl⟩⟩
  | .merge b y n, v, c, c', x, h => by
    unfold Src.translate at h
    obtain ⟨x1, c₁, h1, h⟩ := tr_bind_ok.1 h
    obtain ⟨x2, c₂, h2, h⟩ := tr_bind_ok.1 h
    obtain ⟨x3, c₃, h3, h⟩ := tr_bind_ok.1 h
    cases tr_pure_ok.1 h
    obtain ⟨g1, k1⟩ := comes b h1
    obtain ⟨g2, k2⟩ := comes y h2
    obtain ⟨g3, k3⟩ := comes n h3
    exact ⟨(g1.trans g2).trans g3, fun C hC => by
      rw [Comes]; exact ⟨_, _, _, k1 C ((g2.trans g3).trans hC), k2 C (g3.trans hC), k3 C hC, rfl⟩⟩
  | .call f args tr, v, c, c', x, h => by
    unfold Src.translate at h
    obtain ⟨xs, c₁, h1, h⟩ := tr_bind_ok.1 h
    obtain ⟨g, k⟩ := comesList args h1
    simp only [mkCall, Except.ok.injEq, Prod.mk.injEq] at h
    obtain ⟨rfl, rfl⟩ := h
    have g' : Grown c₁ { c₁ with blocks := c₁.blocks ++ [⟨f, none⟩] } :=
      ⟨List.prefix_append _ _, List.prefix_rfl⟩
    refine ⟨g.trans g', fun C hC => ?_⟩
    rw [Comes]
    refine ⟨xs, _, k C (g'.trans hC), rfl, ?_⟩
    obtain ⟨l, hl⟩ := hC.1
    rw [← hl]
    simp
  | .pre e, v, c, c', x, h => by
    unfold Src.translate at h
    split at h <;> rename_i hu
    · obtain ⟨id, c₁, h1, h⟩ := tr_bind_ok.1 h
      simp only [newRegister, Except.ok.injEq, Prod.mk.injEq] at h1
      obtain ⟨rfl, rfl⟩ := h1
      obtain ⟨y, c₂, h2, h⟩ := tr_bind_ok.1 h
      obtain ⟨g, k⟩ := comes e h2
      simp only [mkPre, Except.ok.injEq, Prod.mk.injEq] at h
      obtain ⟨rfl, rfl⟩ := h
      have g0 : Grown c { c with registers := c.registers + 1 } := ⟨List.prefix_rfl, List.prefix_rfl⟩
      have g' : Grown c₂ { c₂ with stmts := c₂.stmts ++
          [.updateRegister c.registers y, .initRegister c.registers none none] } :=
        ⟨List.prefix_rfl, List.prefix_append _ _⟩
      refine ⟨(g0.trans g).trans g', fun C hC => ?_⟩
      rw [Comes, if_pos hu]
      exact ⟨_, y, k C (g'.trans hC), rfl, hC.2.mem (by simp), hC.2.mem (by simp)⟩
    · obtain ⟨y, c₁, h1, h⟩ := tr_bind_ok.1 h
      cases tr_pure_ok.1 h
      obtain ⟨g, k⟩ := comes e h1
      exact ⟨g, fun C hC => by rw [Comes, if_neg hu]; exact ⟨y, k C hC, rfl⟩⟩
  | .neg e, v, c, c', x, h => by
    unfold Src.translate at h
    obtain ⟨y, c₁, h1, h⟩ := tr_bind_ok.1 h
    cases tr_pure_ok.1 h
    obtain ⟨g, k⟩ := comes e h1
    exact ⟨g, fun C hC => by rw [Comes]; exact ⟨y, k C hC, rfl⟩⟩
  | .not e, v, c, c', x, h => by
    unfold Src.translate at h
    obtain ⟨y, c₁, h1, h⟩ := tr_bind_ok.1 h
    cases tr_pure_ok.1 h
    obtain ⟨g, k⟩ := comes e h1
    exact ⟨g, fun C hC => by rw [Comes]; exact ⟨y, k C hC, rfl⟩⟩
theorem comesList : (es : List Src) → {v : View} → {c c' : ExprCtx} → {xs : List Expr} →
    Src.translateList v es c = .ok (xs, c') → Grown c c' ∧ ∀ C, Grown c' C → ComesList C v es xs
  | [], v, c, c', xs, h => by
    unfold Src.translateList at h
    cases tr_pure_ok.1 h
    exact ⟨Grown.rfl', fun C _ => by rw [ComesList]⟩
  | e :: es, v, c, c', xs, h => by
    unfold Src.translateList at h
    obtain ⟨y, c₁, h1, h⟩ := tr_bind_ok.1 h
    obtain ⟨ys, c₂, h2, h⟩ := tr_bind_ok.1 h
    cases tr_pure_ok.1 h
    obtain ⟨g, k⟩ := comes e h1
    obtain ⟨g', k'⟩ := comesList es h2
    exact ⟨g.trans g', fun C hC => by
      rw [ComesList]; exact ⟨y, ys, k C (g'.trans hC), k' C hC, rfl⟩⟩
theorem comesLeft : (es : List (LOp × Src)) → {v : View} → {c c' : ExprCtx} → {a x : Expr} →
    Src.translateLeft v a es c = .ok (x, c') → Grown c c' ∧ ∀ C, Grown c' C → ComesLeft C v a es x
  | [], v, c, c', a, x, h => by
    unfold Src.translateLeft at h
    cases tr_pure_ok.1 h
    exact ⟨Grown.rfl', fun C _ => by rw [ComesLeft]⟩
  | (op, e) :: es, v, c, c', a, x, h => by
    unfold Src.translateLeft at h
    obtain ⟨y, c₁, h1, h⟩ := tr_bind_ok.1 h
    obtain ⟨g, k⟩ := comes e h1
    obtain ⟨g', k'⟩ := comesLeft es h
    exact ⟨g.trans g', fun C hC => by rw [ComesLeft]; exact ⟨y, k C (g'.trans hC), k' C hC⟩⟩
theorem comesCmp : (es : List (CmpOp × Src)) → {v : View} → {c c' : ExprCtx} → {a x : Expr} →
    Src.translateCmp v a es c = .ok (x, c') → Grown c c' ∧ ∀ C, Grown c' C → ComesCmp C v a es x
  | [], v, c, c', a, x, h => by
    unfold Src.translateCmp at h
    cases tr_pure_ok.1 h
    exact ⟨Grown.rfl', fun C _ => by rw [ComesCmp]⟩
  | [(op, e)], v, c, c', a, x, h => by
    unfold Src.translateCmp at h
    obtain ⟨y, c₁, h1, h⟩ := tr_bind_ok.1 h
    cases tr_pure_ok.1 h
    obtain ⟨g, k⟩ := comes e h1
    exact ⟨g, fun C hC => by rw [ComesCmp]; exact ⟨rfl, y, k C hC, rfl⟩⟩
  | (op, e) :: (op', e') :: es, v, c, c', a, x, h => by
    unfold Src.translateCmp at h
    obtain ⟨y, c₁, h1, h⟩ := tr_bind_ok.1 h
    obtain ⟨y, c₁, h1, h⟩ := tr_bind_ok.1 h
    simp [tr_throw] at h
theorem comesFby : (es : List Src) → {v : View} → {i : Nat} → {c c' : ExprCtx} → {o : Option Expr} →
    Src.translateFby v i es c = .ok (o, c') → Grown c c' ∧ match es with
      | [] => o = none
      | e :: es => ∃ a y, o = some a ∧ ∀ C, Grown c' C →
          Comes C (View.after v i) e y ∧ ComesFby C v i y es a
  | [], v, i, c, c', o, h => by
    unfold Src.translateFby at h
    cases tr_pure_ok.1 h
    exact ⟨Grown.rfl', rfl⟩
  | e :: es, v, i, c, c', o, h => by
    unfold Src.translateFby at h
    obtain ⟨o', c₁, h1, h⟩ := tr_bind_ok.1 h
    obtain ⟨b, c₂, h2, h⟩ := tr_bind_ok.1 h
    obtain ⟨g, k⟩ := comesFby es h1
    obtain ⟨g', k'⟩ := comes e h2
    cases es with
    | nil =>
      subst k
      cases tr_pure_ok.1 h
      exact ⟨g.trans g', _, _, rfl, fun C hC => ⟨k' C hC, by rw [ComesFby]⟩⟩
    | cons e' es =>
      obtain ⟨a, y, rfl, k⟩ := k
      obtain ⟨x, c₃, h3, h⟩ := tr_bind_ok.1 h
      cases tr_pure_ok.1 h
      obtain ⟨g'', k''⟩ := mkFby_comes h3
      refine ⟨(g.trans g').trans g'', x, b, rfl, fun C hC => ⟨k' C (g''.trans hC), ?_⟩⟩
      obtain ⟨k1, k2⟩ := k C ((g'.trans g'').trans hC)
      rw [ComesFby]
      exact ⟨y, a, k1, k2, k'' C hC⟩
theorem comesThen : (es : List Src) → {v : View} → {i : Nat} → {c c' : ExprCtx} → {o : Option Expr} →
    Src.translateThen v i es c = .ok (o, c') → Grown c c' ∧ match es with
      | [] => o = none
      | e :: es => ∃ a y, o = some a ∧ ∀ C, Grown c' C → Comes C v e y ∧ ComesThen C v i y es a
  | [], v, i, c, c', o, h => by
    unfold Src.translateThen at h
    cases tr_pure_ok.1 h
    exact ⟨Grown.rfl', rfl⟩
  | e :: es, v, i, c, c', o, h => by
    unfold Src.translateThen at h
    obtain ⟨o', c₁, h1, h⟩ := tr_bind_ok.1 h
    obtain ⟨b, c₂, h2, h⟩ := tr_bind_ok.1 h
    obtain ⟨g, k⟩ := comesThen es h1
    obtain ⟨g', k'⟩ := comes e h2
    cases es with
    | nil =>
      subst k
      cases tr_pure_ok.1 h
      exact ⟨g.trans g', _, _, rfl, fun C hC => ⟨k' C hC, by rw [ComesThen]⟩⟩
    | cons e' es =>
      obtain ⟨a, y, rfl, k⟩ := k
      obtain ⟨x, c₃, h3, h⟩ := tr_bind_ok.1 h
      cases tr_pure_ok.1 h
      obtain ⟨g'', k''⟩ := mkThen_comes h3
      refine ⟨(g.trans g').trans g'', x, b, rfl, fun C hC => ⟨k' C (g''.trans hC), ?_⟩⟩
      obtain ⟨k1, k2⟩ := k C ((g'.trans g'').trans hC)
      rw [ComesThen]
      exact ⟨y, a, k1, k2, k''⟩
end

end Chandeliers.Den
