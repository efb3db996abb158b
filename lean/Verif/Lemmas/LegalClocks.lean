import Verif.Lemmas.LegalTypes

/-! Clocks of source expressions are those of their translations. -/

set_option autoImplicit false

namespace Chandeliers.Den
open Chandeliers.San Chandeliers.Spec Chandeliers.Syn Chandeliers.Spec.Static

theorem Scope.var_name {S : Scope} {x : String} {w : Static.Var} (h : S.var x = some w) : w.name = x := by
  unfold Scope.var at h
  simpa using List.find?_some h

theorem compose_ne_var {op : LOp} {a b : Expr} {y : String} {d : Nat} :
    op.compose a b ≠ .var y d := by
  cases op <;> simp [LOp.compose]

theorem left_var {C : ExprCtx} {v : View} {y : String} {d : Nat} : (es : List (LOp × Src)) →
    {a x : Expr} → ComesLeft C v a es x → x = .var y d → es = [] ∨ a = .var y d
  | [], a, x, h, e => .inl rfl
  | (op, e) :: es, a, x, h, he => by
    rw [ComesLeft] at h
    obtain ⟨z, -, h⟩ := h
    rcases left_var es h he with rfl | h'
    · rw [ComesLeft] at h
      subst h
      exact absurd he compose_ne_var
    · exact absurd h' compose_ne_var

theorem left_cons_ne_var {C : ExprCtx} {v : View} {y : String} {d : Nat} {op : LOp} {e : Src}
    (es : List (LOp × Src)) {a x : Expr} (h : ComesLeft C v a ((op, e) :: es) x) : x ≠ .var y d := by
  intro he
  rw [ComesLeft] at h
  obtain ⟨z, -, h⟩ := h
  rcases left_var es h he with rfl | h'
  · rw [ComesLeft] at h
    subst h
    exact absurd he compose_ne_var
  · exact absurd h' compose_ne_var

theorem paren_ne_var {xs : List Expr} {tr : Bool} {y : String} {d : Nat} :
    parenthesise xs tr ≠ .var y d := by
  unfold parenthesise; split <;> simp

theorem comes_var {S : Scope} {C : ExprCtx} : (e : Src) → {v : View} → {x : Expr} →
    {y : String} → {d : Nat} → Sees S v → Comes C v e x → x = .var y d →
      ∃ w, IsVar S w e ∧ w.name = y ∧ S.var y = some w
  | .lit l, v, x, y, d, hv, h, he => by
    rw [Comes] at h
    obtain ⟨z, -, rfl⟩ := h
    cases he
  | .var z, v, x, y, d, hv, h, he => by
    rw [Comes] at h
    subst h
    split at he
    · rename_i hz
      cases he
      rw [hv.shadow] at hz
      obtain ⟨w, hw⟩ := Option.isSome_iff_exists.1 hz
      exact ⟨w, by rw [IsVar]; exact hw, Scope.var_name hw, hw⟩
    · cases he
  | .paren es tr, v, x, y, d, hv, h, he => by
    rw [Comes] at h
    obtain ⟨xs, -, rfl⟩ := h
    exact absurd he paren_ne_var
  | .left e rest, v, x, y, d, hv, h, he => by
    rw [Comes] at h
    obtain ⟨a, h, h'⟩ := h
    cases rest with
    | nil =>
      rw [ComesLeft] at h'
      subst h'
      obtain ⟨w, k1, k2, k3⟩ := comes_var e hv h he
      exact ⟨w, by rw [IsVar]; exact ⟨rfl, k1⟩, k2, k3⟩
    | cons p rest => exact absurd he (left_cons_ne_var rest h')
  | .cmp e rest, v, x, y, d, hv, h, he => by
    rw [Comes] at h
    obtain ⟨a, h, h'⟩ := h
    cases rest with
    | nil =>
      rw [ComesCmp] at h'
      subst h'
      obtain ⟨w, k1, k2, k3⟩ := comes_var e hv h he
      exact ⟨w, by rw [IsVar]; exact ⟨rfl, k1⟩, k2, k3⟩
    | cons p rest =>
      rw [ComesCmp] at h'
      obtain ⟨-, z, -, rfl⟩ := h'
      cases he
  | .fby e rest, v, x, y, d, hv, h, he => by
    rw [Comes] at h
    obtain ⟨a, h, h'⟩ := h
    cases rest with
    | nil =>
      rw [ComesFby] at h'
      subst h'
      obtain ⟨w, k1, k2, k3⟩ := comes_var e hv h he
      exact ⟨w, by rw [IsVar]; exact ⟨rfl, k1⟩, k2, k3⟩
    | cons p rest =>
      rw [ComesFby] at h'
      obtain ⟨z, a', -, -, h'⟩ := h'
      split at h'
      · obtain ⟨id, rfl, -⟩ := h'; cases he
      · subst h'; cases he
  | .arrow e rest, v, x, y, d, hv, h, he => by
    rw [Comes] at h
    obtain ⟨a, h, h'⟩ := h
    cases rest with
    | nil =>
      rw [ComesThen] at h'
      subst h'
      obtain ⟨w, k1, k2, k3⟩ := comes_var e hv h he
      exact ⟨w, by rw [IsVar]; exact ⟨rfl, k1⟩, k2, k3⟩
    | cons p rest =>
      rw [ComesThen] at h'
      obtain ⟨z, a', -, -, h'⟩ := h'
      split at h'
      · obtain ⟨id, rfl⟩ := h'; cases he
      · subst h'; cases he
  | .ifx c z n, v, x, y, d, hv, h, he => by
    rw [Comes] at h
    obtain ⟨c', y', n', h1, h2, h3, rfl⟩ := h
    cases he
  | .merge c z n, v, x, y, d, hv, h, he => by
    rw [Comes] at h
    obtain ⟨c', y', n', h1, h2, h3, rfl⟩ := h
    cases he
  | .call f args tr, v, x, y, d, hv, h, he => by
    rw [Comes] at h
    obtain ⟨xs, id, h, rfl, hb⟩ := h
    cases he
  | .pre e, v, x, y, d, hv, h, he => by
    rw [Comes] at h
    split at h
    · obtain ⟨id, z, h, rfl, -, -⟩ := h
      cases he
    · obtain ⟨z, h, rfl⟩ := h
      cases he
  | .neg e, v, x, y, d, hv, h, he => by
    rw [Comes] at h
    obtain ⟨z, h, rfl⟩ := h
    cases he
  | .not e, v, x, y, d, hv, h, he => by
    rw [Comes] at h
    obtain ⟨z, h, rfl⟩ := h
    cases he

theorem isVar_comes {S : Scope} {C : ExprCtx} {w : Static.Var} : (e : Src) → {v : View} → {x : Expr} →
    Sees S v → Comes C v e x → IsVar S w e → x = .var w.name v.depth ∧ S.var w.name = some w
  | .var z, v, x, hv, h, hw => by
    rw [Comes] at h
    rw [IsVar] at hw
    have := Scope.var_name hw
    subst this
    rw [if_pos (by rw [hv.shadow, hw]; rfl)] at h
    exact ⟨h, hw⟩
  | .left e rest, v, x, hv, h, hw => by
    rw [IsVar] at hw
    obtain ⟨rfl, hw⟩ := hw
    rw [Comes] at h
    obtain ⟨a, h, h'⟩ := h
    rw [ComesLeft] at h'
    subst h'
    exact isVar_comes e hv h hw
  | .cmp e rest, v, x, hv, h, hw => by
    rw [IsVar] at hw
    obtain ⟨rfl, hw⟩ := hw
    rw [Comes] at h
    obtain ⟨a, h, h'⟩ := h
    rw [ComesCmp] at h'
    subst h'
    exact isVar_comes e hv h hw
  | .fby e rest, v, x, hv, h, hw => by
    rw [IsVar] at hw
    obtain ⟨rfl, hw⟩ := hw
    rw [Comes] at h
    obtain ⟨a, h, h'⟩ := h
    rw [ComesFby] at h'
    subst h'
    exact isVar_comes e hv h hw
  | .arrow e rest, v, x, hv, h, hw => by
    rw [IsVar] at hw
    obtain ⟨rfl, hw⟩ := hw
    rw [Comes] at h
    obtain ⟨a, h, h'⟩ := h
    rw [ComesThen] at h'
    subst h'
    exact isVar_comes e hv h hw
  | .lit _, _, _, _, _, hw => by simp [IsVar] at hw
  | .paren _ _, _, _, _, _, hw => by simp [IsVar] at hw
  | .ifx _ _ _, _, _, _, _, hw => by simp [IsVar] at hw
  | .merge _ _ _, _, _, _, _, hw => by simp [IsVar] at hw
  | .call _ _ _, _, _, _, _, hw => by simp [IsVar] at hw
  | .pre _, _, _, _, _, hw => by simp [IsVar] at hw
  | .neg _, _, _, _, _, hw => by simp [IsVar] at hw
  | .not _, _, _, _, _, hw => by simp [IsVar] at hw

section
variable {S : Scope} {C : ExprCtx} {K : String → Option Clk}

mutual
theorem comes_clock (hK : ∀ x, K x = (S.var x).map (·.clk)) : (e : Src) → {v : View} → {x : Expr} →
    {k : Clk} → Sees S v → Comes C v e x → (HasClock false K x k ↔ HasClk S e k)
  | .lit l, v, x, k, hv, h => by
    rw [Comes] at h
    obtain ⟨y, h, rfl⟩ := h
    rw [HasClk]
    exact ⟨fun h => by cases h; rfl, fun h => by subst h; exact .lit⟩
  | .var y, v, x, k, hv, h => by
    rw [Comes] at h
    rw [HasClk]
    have hs := hv.shadow y
    cases hy : S.var y with
    | none =>
      rw [hy] at hs
      rw [if_neg (by simp [hs])] at h
      subst h
      exact ⟨fun h => by cases h; rfl, fun h => by cases h; exact .global⟩
    | some w =>
      rw [hy] at hs
      rw [if_pos (by simp [hs])] at h
      subst h
      constructor
      · intro h; cases h with | var h => rw [hK, hy] at h; simpa using h.symm
      · rintro rfl; exact .var (by rw [hK, hy]; rfl)
  | .paren es tr, v, x, k, hv, h => by
    rw [Comes] at h
    obtain ⟨xs, h, rfl⟩ := h
    rw [HasClk]
    exact tuple_clock hK es tr hv h
  | .left e rest, v, x, k, hv, h => by
    rw [Comes] at h
    obtain ⟨a, h1, h2⟩ := h
    rw [HasClk, left_clock hK rest hv h2]
    simp only [comes_clock hK e hv h1]
  | .cmp e rest, v, x, k, hv, h => by
    rw [Comes] at h
    obtain ⟨a, h1, h2⟩ := h
    rw [HasClk, cmp_clock hK rest hv h2]
    simp only [comes_clock hK e hv h1]
  | .fby e rest, v, x, k, hv, h => by
    rw [Comes] at h
    obtain ⟨a, h1, h2⟩ := h
    rw [HasClk, fby_clock hK rest hv h2]
    simp only [comes_clock hK e hv h1]
  | .arrow e rest, v, x, k, hv, h => by
    rw [Comes] at h
    obtain ⟨a, h1, h2⟩ := h
    rw [HasClk, then_clock hK rest hv h2]
    simp only [comes_clock hK e hv h1]
  | .ifx c y n, v, x, k, hv, h => by
    rw [Comes] at h
    obtain ⟨c', y', n', h1, h2, h3, rfl⟩ := h
    rw [HasClk]
    simp only [← comes_clock hK c hv h1, ← comes_clock hK y hv h2, ← comes_clock hK n hv h3]
    constructor
    · intro h
      cases h with
      | ifx k1 k2 k3 k4 k5 => exact ⟨_, _, _, k1, k2, k3, k4, k5, rfl⟩
    · rintro ⟨_, _, _, k1, k2, k3, k4, k5, rfl⟩; exact .ifx k1 k2 k3 k4 k5
  | .merge c y n, v, x, k, hv, h => by
    rw [Comes] at h
    obtain ⟨c', y', n', h1, h2, h3, rfl⟩ := h
    rw [HasClk]
    simp only [← comes_clock hK y hv h2, ← comes_clock hK n hv h3]
    constructor
    · intro h
      cases h with
      | merge k1 k2 k3 k4 k5 =>
        obtain ⟨w, j1, j2, j3⟩ := comes_var c hv h1 rfl
        rw [hK, j3] at k1
        simp only [Option.map_some, Option.some.injEq] at k1
        subst j2
        exact ⟨w, _, _, j1, k2, k3, k4, k5, k1.symm⟩
    · rintro ⟨w, _, _, k1, k2, k3, k4, k5, rfl⟩
      obtain ⟨rfl, j⟩ := isVar_comes c hv h1 k1
      exact .merge (by rw [hK, j]; rfl) k2 k3 k4 k5
  | .call f args tr, v, x, k, hv, h => by
    rw [Comes] at h
    obtain ⟨xs, id, h, rfl, hb⟩ := h
    rw [HasClk, ← tuple_clock hK args tr hv h]
    exact ⟨fun h => by cases h with | substep h => exact h, fun h => .substep h⟩
  | .pre e, v, x, k, hv, h => by
    rw [Comes] at h
    rw [HasClk]
    split at h <;> rename_i hu
    · obtain ⟨id, y, h, rfl, -, -⟩ := h
      rw [← comes_clock hK e hv h]
      rw [hv.mode] at hu
      simp only [hu, Bool.true_eq_false, false_implies, and_true]
      exact ⟨fun h => by cases h with | fetchPre h => exact h, fun h => .fetchPre h⟩
    · obtain ⟨y, h, rfl⟩ := h
      rw [← comes_clock hK e (hv.bump 1) h]
      rw [hv.mode] at hu
      simp only [hu, forall_const]
      exact ⟨fun h => by cases h with | dummyPre h h' => exact ⟨h, h'⟩, fun h => .dummyPre h.1 h.2⟩
  | .neg e, v, x, k, hv, h => by
    rw [Comes] at h
    obtain ⟨y, h, rfl⟩ := h
    rw [HasClk, ← comes_clock hK e hv h]
    exact ⟨fun h => by cases h with | un h => exact h, fun h => .un h⟩
  | .not e, v, x, k, hv, h => by
    rw [Comes] at h
    obtain ⟨y, h, rfl⟩ := h
    rw [HasClk, ← comes_clock hK e hv h]
    exact ⟨fun h => by cases h with | un h => exact h, fun h => .un h⟩
theorem tuple_clock (hK : ∀ x, K x = (S.var x).map (·.clk)) : (es : List Src) → (tr : Bool) →
    {v : View} → {xs : List Expr} → {k : Clk} → Sees S v → ComesList C v es xs →
    (HasClock false K (parenthesise xs tr) k ↔ TupleClk S es k)
  | [], tr, v, xs, k, hv, h => by
    rw [ComesList] at h
    subst h
    rw [TupleClk]
    have : parenthesise [] tr = .tuple [] := by simp [parenthesise]
    rw [this]
    exact ⟨fun h => by cases h; rfl, fun h => by subst h; exact .empty⟩
  | e :: es, tr, v, xs, k, hv, h => by
    rw [ComesList] at h
    obtain ⟨y, ys, h1, h2, rfl⟩ := h
    rw [TupleClk, ← comes_clock hK e hv h1, ← same_clock hK es hv h2]
    unfold parenthesise
    split
    · rename_i he
      cases he
      constructor
      · intro h; cases h with | dummyParen h => exact ⟨h, .nil⟩
      · rintro ⟨h, -⟩; exact .dummyParen h
    · constructor
      · intro h; cases h with | tuple h h' => exact ⟨h, h'⟩
      · rintro ⟨h, h'⟩; exact .tuple h h'
theorem same_clock (hK : ∀ x, K x = (S.var x).map (·.clk)) : (es : List Src) →
    {v : View} → {xs : List Expr} → {k : Clk} → Sees S v → ComesList C v es xs →
    (HaveClock false K xs k ↔ SameClks S k es)
  | [], v, xs, k, hv, h => by
    rw [ComesList] at h
    subst h
    rw [SameClks]
    exact ⟨fun _ => trivial, fun _ => .nil⟩
  | e :: es, v, xs, k, hv, h => by
    rw [ComesList] at h
    obtain ⟨y, ys, h1, h2, rfl⟩ := h
    rw [SameClks, ← same_clock hK es hv h2]
    simp only [← comes_clock hK e hv h1]
    constructor
    · intro h; cases h with | cons h h' h'' => exact ⟨⟨_, h, h'⟩, h''⟩
    · rintro ⟨⟨_, h, h'⟩, h''⟩; exact .cons h h' h''
theorem left_clock (hK : ∀ x, K x = (S.var x).map (·.clk)) : (es : List (LOp × Src)) → {v : View} →
    {a x : Expr} → {k : Clk} → Sees S v → ComesLeft C v a es x →
    (HasClock false K x k ↔ ∃ k₀, HasClock false K a k₀ ∧ LeftClk S k₀ es k)
  | [], v, a, x, k, hv, h => by
    rw [ComesLeft] at h
    subst h
    simp [LeftClk]
  | (op, e) :: es, v, a, x, k, hv, h => by
    rw [ComesLeft] at h
    obtain ⟨y, h1, h2⟩ := h
    rw [left_clock hK es hv h2]
    simp only [LeftClk]
    cases op <;> simp only [LOp.compose, Static.guard]
    case when =>
      constructor
      · rintro ⟨k₀, h, h'⟩
        cases h with
        | clock j1 j2 j3 =>
          obtain ⟨w, i1, i2, i3⟩ := comes_var e hv h1 rfl
          rw [hK, i3] at j2
          simp only [Option.map_some, Option.some.injEq] at j2
          subst j2 i2
          exact ⟨_, j1, w, i1, j3, h'⟩
      · rintro ⟨k₀, j1, w, i1, j3, h'⟩
        obtain ⟨rfl, i2⟩ := isVar_comes e hv h1 i1
        exact ⟨_, .clock j1 (by rw [hK, i2]; rfl) j3, h'⟩
    case whenot =>
      constructor
      · rintro ⟨k₀, h, h'⟩
        cases h with
        | clock j1 j2 j3 =>
          obtain ⟨w, i1, i2, i3⟩ := comes_var e hv h1 rfl
          rw [hK, i3] at j2
          simp only [Option.map_some, Option.some.injEq] at j2
          subst j2 i2
          exact ⟨_, j1, w, i1, j3, h'⟩
      · rintro ⟨k₀, j1, w, i1, j3, h'⟩
        obtain ⟨rfl, i2⟩ := isVar_comes e hv h1 i1
        exact ⟨_, .clock j1 (by rw [hK, i2]; rfl) j3, h'⟩
    all_goals
      simp only [← comes_clock hK e hv h1]
      constructor
      · rintro ⟨k₀, h, h'⟩
        cases h with
        | bin j1 j2 j3 => exact ⟨_, j1, _, j2, j3, h'⟩
      · rintro ⟨k₀, j1, k₁, j2, j3, h'⟩
        exact ⟨_, .bin j1 j2 j3, h'⟩
theorem cmp_clock (hK : ∀ x, K x = (S.var x).map (·.clk)) : (es : List (CmpOp × Src)) → {v : View} →
    {a x : Expr} → {k : Clk} → Sees S v → ComesCmp C v a es x →
    (HasClock false K x k ↔ ∃ k₀, HasClock false K a k₀ ∧ CmpClk S k₀ es k)
  | [], v, a, x, k, hv, h => by
    rw [ComesCmp] at h
    subst h
    simp [CmpClk]
  | (op, e) :: es, v, a, x, k, hv, h => by
    rw [ComesCmp] at h
    obtain ⟨h0, y, h1, rfl⟩ := h
    simp only [CmpClk, ← comes_clock hK e hv h1]
    constructor
    · intro h
      cases h with
      | cmp j1 j2 j3 => exact ⟨_, j1, _, j2, j3, rfl⟩
    · rintro ⟨k₀, j1, k₁, j2, j3, rfl⟩
      exact .cmp j1 j2 j3
theorem fby_clock (hK : ∀ x, K x = (S.var x).map (·.clk)) : (es : List Src) → {v : View} → {i : Nat} →
    {b x : Expr} → {k : Clk} → Sees S v → ComesFby C v i b es x →
    (HasClock false K x k ↔ ∃ k₀, HasClock false K b k₀ ∧ ChainClk S k₀ es k)
  | [], v, i, b, x, k, hv, h => by
    rw [ComesFby] at h
    subst h
    simp [ChainClk]
  | e :: es, v, i, b, x, k, hv, h => by
    rw [ComesFby] at h
    obtain ⟨y, a, h1, h2, h3⟩ := h
    have ih := fun k => fby_clock hK es (k := k) hv h2
    simp only [ChainClk, ← comes_clock hK e (hv.after _) h1]
    rw [hv.mode] at h3
    split at h3 <;> rename_i hu <;> simp only [hu, if_true, if_false, Bool.false_eq_true]
    · obtain ⟨id, rfl, -, -⟩ := h3
      constructor
      · intro h
        cases h with
        | fetchFby j1 j2 j3 =>
          obtain ⟨k₁, i1, i2⟩ := (ih _).1 j1
          exact ⟨_, j2, k₁, _, i1, i2, j3, rfl⟩
      · rintro ⟨k₀, j2, k₁, k₂, i1, i2, j3, rfl⟩
        exact .fetchFby ((ih _).2 ⟨k₁, i1, i2⟩) j2 j3
    · subst h3
      constructor
      · intro h
        cases h with
        | later j1 j2 j3 =>
          obtain ⟨k₁, i1, i2⟩ := (ih _).1 j2
          exact ⟨_, j1, k₁, _, i1, i2, rfl⟩
      · rintro ⟨k₀, j2, k₁, k₂, i1, i2, rfl⟩
        exact .later j2 ((ih _).2 ⟨k₁, i1, i2⟩) (by simp)
theorem then_clock (hK : ∀ x, K x = (S.var x).map (·.clk)) : (es : List Src) → {v : View} → {i : Nat} →
    {b x : Expr} → {k : Clk} → Sees S v → ComesThen C v i b es x →
    (HasClock false K x k ↔ ∃ k₀, HasClock false K b k₀ ∧ ChainClk S k₀ es k)
  | [], v, i, b, x, k, hv, h => by
    rw [ComesThen] at h
    subst h
    simp [ChainClk]
  | e :: es, v, i, b, x, k, hv, h => by
    rw [ComesThen] at h
    obtain ⟨y, a, h1, h2, h3⟩ := h
    have ih := fun k => then_clock hK es (k := k) hv h2
    simp only [ChainClk, ← comes_clock hK e hv h1]
    rw [hv.mode] at h3
    split at h3 <;> rename_i hu <;> simp only [hu, if_true, if_false, Bool.false_eq_true]
    · obtain ⟨id, rfl⟩ := h3
      constructor
      · intro h
        cases h with
        | flip j1 j2 j3 =>
          obtain ⟨k₁, i1, i2⟩ := (ih _).1 j2
          exact ⟨_, j1, k₁, _, i1, i2, j3, rfl⟩
      · rintro ⟨k₀, j2, k₁, k₂, i1, i2, j3, rfl⟩
        exact .flip j2 ((ih _).2 ⟨k₁, i1, i2⟩) j3
    · subst h3
      constructor
      · intro h
        cases h with
        | later j1 j2 j3 =>
          obtain ⟨k₁, i1, i2⟩ := (ih _).1 j2
          exact ⟨_, j1, k₁, _, i1, i2, rfl⟩
      · rintro ⟨k₀, j2, k₁, k₂, i1, i2, rfl⟩
        exact .later j2 ((ih _).2 ⟨k₁, i1, i2⟩) (by simp)
end
end

end Chandeliers.Den
