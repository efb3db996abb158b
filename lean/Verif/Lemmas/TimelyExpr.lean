import Verif.Spec.Timely
import Verif.Lemmas.LegalReady
import Verif.Lemmas.LegalClocks
import Verif.Lemmas.Parts

/-! What the translation of a timely expression satisfies. -/

set_option autoImplicit false

namespace Chandeliers.Std
open Chandeliers.San Chandeliers.Spec Chandeliers.Syn Chandeliers.Den
open Chandeliers.Spec.Static

mutual
theorem clock_lax {K : String → Option Clk} : {e : Expr} → {k : Clk} → HasClock true K e k →
    HasClock false K e k
  | _, _, .lit => .lit
  | _, _, .global => .global
  | _, _, .var h => .var h
  | _, _, .dummyParen h => .dummyParen (clock_lax h)
  | _, _, .dummyPre h hk => .dummyPre (clock_lax h) hk
  | _, _, .bin h h' hk => .bin (clock_lax h) (clock_lax h') hk
  | _, _, .cmp h h' hk => .cmp (clock_lax h) (clock_lax h') hk
  | _, _, .un h => .un (clock_lax h)
  | _, _, .later h h' _ => .later (clock_lax h) (clock_lax h') (fun h => by cases h)
  | _, _, .flip h h' hk => .flip (clock_lax h) (clock_lax h') hk
  | _, _, .clock h h' hk => .clock (clock_lax h) h' hk
  | _, _, .substep h => .substep (clock_lax h)
  | _, _, .empty => .empty
  | _, _, .tuple h h' => .tuple (clock_lax h) (clocks_lax h')
  | _, _, .ifx h h' h'' hk hk' => .ifx (clock_lax h) (clock_lax h') (clock_lax h'') hk hk'
  | _, _, .merge h h' h'' hk hk' => .merge h (clock_lax h') (clock_lax h'') hk hk'
  | _, _, .fetchPre h => .fetchPre (clock_lax h)
  | _, _, .fetchFby h h' hk => .fetchFby (clock_lax h) (clock_lax h') hk
theorem clocks_lax {K : String → Option Clk} : {es : List Expr} → {k : Clk} → HaveClock true K es k →
    HaveClock false K es k
  | _, _, .nil => .nil
  | _, _, .cons h hk h' => .cons (clock_lax h) hk (clocks_lax h')
end

/-- What `Sober` asks of an expression; `Q` is what it asks of the operands of comparisons. -/
structure Fine (K : String → Option Clk) (Q : Expr → Expr → Prop) (c : Nat) (x : Expr) : Prop where
  calls : CallsReady c x
  clocks : ∀ k, HasClock false K x k → HasClock true K x k
  comparisons : ∀ op a b, .cmp op a b ∈ parts x → Q a b
  conditions : ∀ b y z, .ifx b y z ∈ parts x → ∀ k k', HasClock false K b .adaptative →
    HasClock false K y k → HasClock false K z k' → SameClk k k'

/-- The same of a list. -/
structure FineList (K : String → Option Clk) (Q : Expr → Expr → Prop) (c : Nat)
    (xs : List Expr) : Prop where
  calls : CallReady c xs
  clocks : ∀ k, HaveClock false K xs k → HaveClock true K xs k
  head : ∀ x r, xs = x :: r → ∀ k, HasClock false K x k → HasClock true K x k
  tail : ∀ x r, xs = x :: r → ∀ k, HaveClock false K r k → HaveClock true K r k
  comparisons : ∀ op a b, .cmp op a b ∈ partsList xs → Q a b
  conditions : ∀ b y z, .ifx b y z ∈ partsList xs → ∀ k k', HasClock false K b .adaptative →
    HasClock false K y k → HasClock false K z k' → SameClk k k'

section
variable {K : String → Option Clk} {Q : Expr → Expr → Prop} {c : Nat}

theorem Fine.cons {x : Expr} {xs : List Expr} (h : Fine K Q c x) (h' : FineList K Q c xs) :
    FineList K Q c (x :: xs) where
  calls := ⟨h.calls, h'.calls⟩
  clocks k hk := by
    cases hk with
    | cons j1 j2 j3 => exact .cons (h.clocks _ j1) j2 (h'.clocks _ j3)
  head y r e k hk := by cases e; exact h.clocks k hk
  tail y r e k hk := by cases e; exact h'.clocks k hk
  comparisons op a b hp := by
    simp only [partsList, List.mem_append] at hp
    exact hp.elim (h.comparisons op a b) (h'.comparisons op a b)
  conditions a y z hp := by
    simp only [partsList, List.mem_append] at hp
    exact hp.elim (h.conditions a y z) (h'.conditions a y z)

theorem FineList.nil : FineList K Q c [] where
  calls := trivial
  clocks k hk := .nil
  head y r e := by cases e
  tail y r e := by cases e
  comparisons op a b hp := by simp [partsList] at hp
  conditions a y z hp := by simp [partsList] at hp

theorem FineList.paren {xs : List Expr} {tr : Bool} (h : FineList K Q c xs) :
    Fine K Q c (parenthesise xs tr) := by
  unfold parenthesise
  split
  · rename_i x
    refine ⟨h.calls.1, fun k hk => ?_, fun op a b hp => ?_, fun a y z hp => ?_⟩
    · cases hk with
      | dummyParen j => exact .dummyParen (h.head _ _ rfl _ j)
    · exact h.comparisons op a b (by simpa [parts, partsList] using hp)
    · exact h.conditions a y z (by simpa [parts, partsList] using hp)
  · refine ⟨h.calls, fun k hk => ?_, fun op a b hp => ?_, fun a y z hp => ?_⟩
    · cases hk with
      | empty => exact .empty
      | tuple j1 j2 => exact .tuple (h.head _ _ rfl _ j1) (h.tail _ _ rfl _ j2)
    · exact h.comparisons op a b (by simpa [parts] using hp)
    · exact h.conditions a y z (by simpa [parts] using hp)

theorem Fine.lit {l : San.Lit} : Fine K Q c (.lit l) where
  calls := trivial
  clocks k hk := by cases hk; exact .lit
  comparisons op a b hp := by simp [parts] at hp
  conditions a y z hp := by simp [parts] at hp

theorem Fine.var {y : String} {d : Nat} : Fine K Q c (.var y d) where
  calls := trivial
  clocks k hk := by cases hk with | var h => exact .var h
  comparisons op a b hp := by simp [parts] at hp
  conditions a y z hp := by simp [parts] at hp

theorem Fine.global {y : String} : Fine K Q c (.global y) where
  calls := trivial
  clocks k hk := by cases hk; exact .global
  comparisons op a b hp := by simp [parts] at hp
  conditions a y z hp := by simp [parts] at hp

theorem Fine.un {op : UnOp} {x : Expr} (h : Fine K Q c x) : Fine K Q c (.un op x) where
  calls := h.calls
  clocks k hk := by cases hk with | un j => exact .un (h.clocks _ j)
  comparisons op a b hp := h.comparisons op a b (by simpa [parts] using hp)
  conditions a y z hp := h.conditions a y z (by simpa [parts] using hp)

theorem Fine.dummyPre {x : Expr} (h : Fine K Q c x) : Fine K Q c (.dummyPre x) where
  calls := h.calls
  clocks k hk := by cases hk with | dummyPre j j' => exact .dummyPre (h.clocks _ j) j'
  comparisons op a b hp := h.comparisons op a b (by simpa [parts] using hp)
  conditions a y z hp := h.conditions a y z (by simpa [parts] using hp)

theorem Fine.compose {op : LOp} {x y : Expr} (h : Fine K Q c x) (h' : Fine K Q c y) :
    Fine K Q c (op.compose x y) := by
  cases op <;> simp only [LOp.compose]
  case when =>
    refine ⟨⟨h'.calls, h.calls⟩, fun k hk => ?_, fun op a b hp => ?_, fun a y z hp => ?_⟩
    · cases hk with | clock j1 j2 j3 => exact .clock (h.clocks _ j1) j2 j3
    · simp only [parts, List.mem_cons, List.mem_append, reduceCtorEq, false_or] at hp
      exact hp.elim (h.comparisons op a b) (h'.comparisons op a b)
    · simp only [parts, List.mem_cons, List.mem_append, reduceCtorEq, false_or] at hp
      exact hp.elim (h.conditions a y z) (h'.conditions a y z)
  case whenot =>
    refine ⟨⟨h'.calls, h.calls⟩, fun k hk => ?_, fun op a b hp => ?_, fun a y z hp => ?_⟩
    · cases hk with | clock j1 j2 j3 => exact .clock (h.clocks _ j1) j2 j3
    · simp only [parts, List.mem_cons, List.mem_append, reduceCtorEq, false_or] at hp
      exact hp.elim (h.comparisons op a b) (h'.comparisons op a b)
    · simp only [parts, List.mem_cons, List.mem_append, reduceCtorEq, false_or] at hp
      exact hp.elim (h.conditions a y z) (h'.conditions a y z)
  all_goals
    refine ⟨⟨h.calls, h'.calls⟩, fun k hk => ?_, fun op a b hp => ?_, fun a y z hp => ?_⟩
    · cases hk with | bin j1 j2 j3 => exact .bin (h.clocks _ j1) (h'.clocks _ j2) j3
    · simp only [parts, List.mem_cons, List.mem_append, reduceCtorEq, false_or] at hp
      exact hp.elim (h.comparisons op a b) (h'.comparisons op a b)
    · simp only [parts, List.mem_cons, List.mem_append, reduceCtorEq, false_or] at hp
      exact hp.elim (h.conditions a y z) (h'.conditions a y z)

theorem Fine.cmp {op : CmpOp} {x y : Expr} (h : Fine K Q c x) (h' : Fine K Q c y) (hq : Q x y) :
    Fine K Q c (.cmp op x y) where
  calls := ⟨h.calls, h'.calls⟩
  clocks k hk := by cases hk with | cmp j1 j2 j3 => exact .cmp (h.clocks _ j1) (h'.clocks _ j2) j3
  comparisons op a b hp := by
    simp only [parts, List.mem_cons, List.mem_append, Expr.cmp.injEq] at hp
    rcases hp with ⟨-, rfl, rfl⟩ | hp | hp
    · exact hq
    · exact h.comparisons op a b hp
    · exact h'.comparisons op a b hp
  conditions a y z hp := by
    simp only [parts, List.mem_cons, List.mem_append, reduceCtorEq, false_or] at hp
    exact hp.elim (h.conditions a y z) (h'.conditions a y z)

theorem Fine.ifx {b x y : Expr} (h : Fine K Q c b) (h' : Fine K Q c x) (h'' : Fine K Q c y)
    (hq : ∀ k k', HasClock false K b .adaptative → HasClock false K x k → HasClock false K y k' →
      SameClk k k') : Fine K Q c (.ifx b x y) where
  calls := ⟨h.calls, h'.calls, h''.calls⟩
  clocks k hk := by
    cases hk with
    | ifx j1 j2 j3 j4 j5 => exact .ifx (h.clocks _ j1) (h'.clocks _ j2) (h''.clocks _ j3) j4 j5
  comparisons op a b hp := by
    simp only [parts, List.mem_cons, List.mem_append, reduceCtorEq, false_or] at hp
    exact hp.elim (h.comparisons op a b) fun hp =>
      hp.elim (h'.comparisons op a b) (h''.comparisons op a b)
  conditions a y z hp := by
    simp only [parts, List.mem_cons, List.mem_append, Expr.ifx.injEq] at hp
    rcases hp with ⟨rfl, rfl, rfl⟩ | hp | hp | hp
    · exact hq
    · exact h.conditions a y z hp
    · exact h'.conditions a y z hp
    · exact h''.conditions a y z hp

theorem Fine.merge {b x y : Expr} (h : Fine K Q c b) (h' : Fine K Q c x) (h'' : Fine K Q c y) :
    Fine K Q c (.merge b x y) where
  calls := ⟨h.calls, h'.calls, h''.calls⟩
  clocks k hk := by
    cases hk with
    | merge j1 j2 j3 j4 j5 => exact .merge j1 (h'.clocks _ j2) (h''.clocks _ j3) j4 j5
  comparisons op a b hp := by
    simp only [parts, List.mem_cons, List.mem_append, reduceCtorEq, false_or] at hp
    exact hp.elim (h.comparisons op a b) fun hp =>
      hp.elim (h'.comparisons op a b) (h''.comparisons op a b)
  conditions a y z hp := by
    simp only [parts, List.mem_cons, List.mem_append, reduceCtorEq, false_or] at hp
    exact hp.elim (h.conditions a y z) fun hp => hp.elim (h'.conditions a y z) (h''.conditions a y z)

theorem Fine.substep {d id r : Nat} {x : Expr} (h : Fine K Q r x) (hd : d ≤ c) (hr : r ≤ c)
    (hw : ReadsWithin r x) (hn : r ≤ d ∨ NilBefore r x) : Fine K Q c (.substep d id x) where
  calls := ⟨hd, r, hr, hw, h.calls, hn⟩
  clocks k hk := by cases hk with | substep j => exact .substep (h.clocks _ j)
  comparisons op a b hp := h.comparisons op a b (by simpa [parts] using hp)
  conditions a y z hp := h.conditions a y z (by simpa [parts] using hp)

theorem Fine.later {d : Nat} {x y : Expr} (h : Fine K Q c x) (h' : Fine K Q (d + 1) y)
    (hx : ∀ k, HasClock false K x k → Always k) (hy : ∀ k, HasClock false K y k → Always k) :
    Fine K Q c (.later d x y) where
  calls := ⟨h.calls, h'.calls⟩
  clocks k hk := by
    cases hk with
    | later j1 j2 j3 => exact .later (h.clocks _ j1) (h'.clocks _ j2) fun _ => ⟨hx _ j1, hy _ j2⟩
  comparisons op a b hp := by
    simp only [parts, List.mem_cons, List.mem_append, reduceCtorEq, false_or] at hp
    exact hp.elim (h.comparisons op a b) (h'.comparisons op a b)
  conditions a y z hp := by
    simp only [parts, List.mem_cons, List.mem_append, reduceCtorEq, false_or] at hp
    exact hp.elim (h.conditions a y z) (h'.conditions a y z)

end

/-! ## Late expressions -/

section
variable {S : Scope} {C : ExprCtx} {r : Nat}

theorem compose_late {op : LOp} {a b : Expr} :
    NilBefore r (op.compose a b) ↔ NilBefore r a ∨ NilBefore r b := by
  cases op <;> simp only [LOp.compose, NilBefore] <;> exact or_comm

mutual
theorem comes_late (hu : S.universalPre ≠ true) : (e : Src) → {v : View} → {x : Expr} → Sees S v →
    Comes C v e x → Late S r v.depth e → NilBefore r x
  | .lit l, v, x, hv, h, hl => by rw [Late] at hl; exact hl.elim
  | .var y, v, x, hv, h, hl => by
    rw [Comes] at h
    rw [Late, ← hv.shadow] at hl
    rw [if_pos hl.1] at h
    subst h
    rw [NilBefore]
    exact hl.2
  | .paren es tr, v, x, hv, h, hl => by
    rw [Comes] at h
    obtain ⟨xs, h, rfl⟩ := h
    rw [Late] at hl
    exact first_late hu es tr hv h hl
  | .left e rest, v, x, hv, h, hl => by
    rw [Comes] at h
    obtain ⟨a, h1, h2⟩ := h
    rw [Late] at hl
    exact left_late hu rest hv h2 (hl.imp (comes_late hu e hv h1) id)
  | .cmp e rest, v, x, hv, h, hl => by
    rw [Comes] at h
    obtain ⟨a, h1, h2⟩ := h
    rw [Late] at hl
    exact cmp_late hu rest hv h2 (hl.imp (comes_late hu e hv h1) id)
  | .fby e rest, v, x, hv, h, hl => by
    rw [Comes] at h
    obtain ⟨a, h1, h2⟩ := h
    rw [Late] at hl
    exact fby_late hu rest hv h2 (comes_late hu e hv h1 hl.1) hl.2
  | .arrow e rest, v, x, hv, h, hl => by
    rw [Comes] at h
    obtain ⟨a, h1, h2⟩ := h
    rw [Late] at hl
    exact then_late hu rest hv h2 (comes_late hu e hv h1 hl.1) hl.2
  | .ifx c y z, v, x, hv, h, hl => by
    rw [Comes] at h
    obtain ⟨c', y', n', h1, h2, h3, rfl⟩ := h
    rw [Late] at hl
    rw [NilBefore]
    exact comes_late hu c hv h1 hl
  | .merge c y z, v, x, hv, h, hl => by
    rw [Comes] at h
    obtain ⟨c', y', n', h1, h2, h3, rfl⟩ := h
    rw [Late] at hl
    rw [NilBefore]
    exact comes_late hu c hv h1 hl
  | .call f args tr, v, x, hv, h, hl => by
    rw [Comes] at h
    obtain ⟨xs, id, h, rfl, hb⟩ := h
    rw [Late] at hl
    rw [NilBefore]
    exact hl.imp (fun h => h) (first_late hu args tr hv h)
  | .pre e, v, x, hv, h, hl => by
    rw [Comes, hv.mode, if_neg hu] at h
    obtain ⟨y, h, rfl⟩ := h
    rw [Late] at hl
    rw [NilBefore]
    exact comes_late hu e (hv.bump 1) h hl
  | .neg e, v, x, hv, h, hl => by
    rw [Comes] at h
    obtain ⟨y, h, rfl⟩ := h
    rw [Late] at hl
    rw [NilBefore]
    exact comes_late hu e hv h hl
  | .not e, v, x, hv, h, hl => by
    rw [Comes] at h
    obtain ⟨y, h, rfl⟩ := h
    rw [Late] at hl
    rw [NilBefore]
    exact comes_late hu e hv h hl
theorem first_late (hu : S.universalPre ≠ true) : (es : List Src) → (tr : Bool) → {v : View} →
    {xs : List Expr} → Sees S v → ComesList C v es xs → FirstLate S r v.depth es →
    NilBefore r (parenthesise xs tr)
  | [], tr, v, xs, hv, h, hl => by rw [FirstLate] at hl; exact hl.elim
  | e :: es, tr, v, xs, hv, h, hl => by
    rw [ComesList] at h
    obtain ⟨y, ys, h1, h2, rfl⟩ := h
    rw [FirstLate] at hl
    have := comes_late hu e hv h1 hl
    unfold parenthesise
    split
    · rename_i he
      cases he
      rw [NilBefore]
      exact this
    · rw [NilBefore]
      exact this
theorem left_late (hu : S.universalPre ≠ true) : (es : List (LOp × Src)) → {v : View} →
    {a x : Expr} → Sees S v → ComesLeft C v a es x → NilBefore r a ∨ LeftLate S r v.depth es →
    NilBefore r x
  | [], v, a, x, hv, h, hl => by
    rw [ComesLeft] at h
    subst h
    rw [LeftLate] at hl
    exact hl.elim id False.elim
  | (op, e) :: es, v, a, x, hv, h, hl => by
    rw [ComesLeft] at h
    obtain ⟨y, h1, h2⟩ := h
    rw [LeftLate] at hl
    refine left_late hu es hv h2 ?_
    rw [compose_late]
    rcases hl with hl | hl | hl
    · exact .inl (.inl hl)
    · exact .inl (.inr (comes_late hu e hv h1 hl))
    · exact .inr hl
theorem cmp_late (hu : S.universalPre ≠ true) : (es : List (CmpOp × Src)) → {v : View} →
    {a x : Expr} → Sees S v → ComesCmp C v a es x → NilBefore r a ∨ CmpLate S r v.depth es →
    NilBefore r x
  | [], v, a, x, hv, h, hl => by
    rw [ComesCmp] at h
    subst h
    rw [CmpLate] at hl
    exact hl.elim id False.elim
  | (op, e) :: es, v, a, x, hv, h, hl => by
    rw [ComesCmp] at h
    obtain ⟨-, y, h1, rfl⟩ := h
    rw [CmpLate] at hl
    rw [NilBefore]
    exact hl.imp id (comes_late hu e hv h1)
theorem fby_late (hu : S.universalPre ≠ true) : (es : List Src) → {v : View} → {i : Nat} →
    {b x : Expr} → Sees S v → ComesFby C v i b es x → NilBefore r b →
    FbyLate S r v.depth (i + 1) es → NilBefore r x
  | [], v, i, b, x, hv, h, hb, hl => by
    rw [ComesFby] at h
    subst h
    exact hb
  | e :: es, v, i, b, x, hv, h, hb, hl => by
    rw [ComesFby, hv.mode] at h
    simp only [if_neg hu] at h
    obtain ⟨y, a, h1, h2, rfl⟩ := h
    rw [FbyLate] at hl
    rw [NilBefore]
    have h3 := comes_late hu e (hv.after (i + 1)) h1
    rw [after_depth hv hu] at h3
    exact ⟨hb, fby_late hu es hv h2 (h3 hl.1) hl.2⟩
theorem then_late (hu : S.universalPre ≠ true) : (es : List Src) → {v : View} → {i : Nat} →
    {b x : Expr} → Sees S v → ComesThen C v i b es x → NilBefore r b →
    ArrowLate S r v.depth es → NilBefore r x
  | [], v, i, b, x, hv, h, hb, hl => by
    rw [ComesThen] at h
    subst h
    exact hb
  | e :: es, v, i, b, x, hv, h, hb, hl => by
    rw [ComesThen, hv.mode] at h
    simp only [if_neg hu] at h
    obtain ⟨y, a, h1, h2, rfl⟩ := h
    rw [ArrowLate] at hl
    rw [NilBefore]
    exact ⟨hb, then_late hu es hv h2 (comes_late hu e hv h1 hl.1) hl.2⟩
end

/-! ## Timely expressions -/

variable {K : String → Option Clk} {Q : Expr → Expr → Prop}

/-- What is known of the operands of a comparison. -/
def Discrete (S : Scope) (C : ExprCtx) (Q : Expr → Expr → Prop) : Prop :=
  ∀ a e v x y, Sees S v → LitsOk (literals a) → LitsOk (literals e) → Comes C v a x → Comes C v e y →
    (∀ S' : Scope, S'.vars = S.vars →
      ¬(HasTy S' a (.single .float) ∧ HasTy S' e (.single .float))) → Q x y

mutual
theorem comes_fine (hu : S.universalPre ≠ true) (hK : ∀ x, K x = (S.var x).map (·.clk))
    (hQ : Discrete S C Q) : (e : Src) → {v : View} → {x : Expr} → {c : Nat} → Sees S v →
    LitsOk (literals e) → Comes C v e x → Timely S v.depth c e → Fine K Q c x
  | .lit l, v, x, c, hv, hl, h, ht => by
    rw [Comes] at h
    obtain ⟨y, h, rfl⟩ := h
    exact .lit
  | .var y, v, x, c, hv, hl, h, ht => by
    rw [Comes] at h
    subst h
    split
    · exact .var
    · exact .global
  | .paren es tr, v, x, c, hv, hl, h, ht => by
    rw [Comes] at h
    obtain ⟨xs, h, rfl⟩ := h
    rw [Timely] at ht
    rw [literals] at hl
    exact (comes_fines hu hK hQ es hv hl h ht).paren
  | .left e rest, v, x, c, hv, hl, h, ht => by
    rw [Comes] at h
    obtain ⟨a, h1, h2⟩ := h
    rw [Timely] at ht
    rw [literals, litsOk_append] at hl
    exact left_fine hu hK hQ rest hv hl.2 h2 (comes_fine hu hK hQ e hv hl.1 h1 ht.1) ht.2
  | .cmp e rest, v, x, c, hv, hl, h, ht => by
    rw [Comes] at h
    obtain ⟨a, h1, h2⟩ := h
    rw [Timely] at ht
    rw [literals, litsOk_append] at hl
    have hf := comes_fine hu hK hQ e hv hl.1 h1 ht.1
    match rest, hl, h2, ht with
    | [], _, h2, _ =>
      rw [ComesCmp] at h2
      subst h2
      exact hf
    | (op, e') :: es, hl, h2, ht =>
      rw [ComesCmp] at h2
      obtain ⟨rfl, y, h3, rfl⟩ := h2
      rw [CmpTimely] at ht
      rw [literalsCmp, litsOk_append] at hl
      exact hf.cmp (comes_fine hu hK hQ e' hv hl.2.1 h3 ht.2.1)
        (hQ e e' v a y hv hl.1 hl.2.1 h1 h3 ht.2.2)
  | .fby e rest, v, x, c, hv, hl, h, ht => by
    rw [Comes] at h
    obtain ⟨a, h1, h2⟩ := h
    rw [Timely] at ht
    rw [literals, litsOk_append] at hl
    exact (fby_fine hu hK hQ rest hv hl.2 h2 (comes_fine hu hK hQ e hv hl.1 h1 ht.1)
      (ht.2.1.imp id fun h k hk => h k ((comes_clock hK e hv h1).1 hk)) ht.2.2).1
  | .arrow e rest, v, x, c, hv, hl, h, ht => by
    rw [Comes] at h
    obtain ⟨a, h1, h2⟩ := h
    rw [Timely] at ht
    rw [literals, litsOk_append] at hl
    exact (then_fine hu hK hQ rest hv hl.2 h2 (comes_fine hu hK hQ e hv hl.1 h1 ht.1)
      (ht.2.1.imp id fun h k hk => h k ((comes_clock hK e hv h1).1 hk)) ht.2.2).1
  | .ifx b y z, v, x, c, hv, hl, h, ht => by
    rw [Comes] at h
    obtain ⟨c', y', n', h1, h2, h3, rfl⟩ := h
    rw [Timely] at ht
    rw [literals, litsOk_append, litsOk_append] at hl
    refine (comes_fine hu hK hQ b hv hl.1 h1 ht.1).ifx (comes_fine hu hK hQ y hv hl.2.1 h2 ht.2.1)
      (comes_fine hu hK hQ z hv hl.2.2 h3 ht.2.2.1) fun k k' j1 j2 j3 => ?_
    exact ht.2.2.2 ((comes_clock hK b hv h1).1 j1) k k' ((comes_clock hK y hv h2).1 j2)
      ((comes_clock hK z hv h3).1 j3)
  | .merge b y z, v, x, c, hv, hl, h, ht => by
    rw [Comes] at h
    obtain ⟨c', y', n', h1, h2, h3, rfl⟩ := h
    rw [Timely] at ht
    rw [literals, litsOk_append, litsOk_append] at hl
    exact (comes_fine hu hK hQ b hv hl.1 h1 ht.1).merge (comes_fine hu hK hQ y hv hl.2.1 h2 ht.2.1)
      (comes_fine hu hK hQ z hv hl.2.2 h3 ht.2.2)
  | .call f args tr, v, x, c, hv, hl, h, ht => by
    rw [Comes] at h
    obtain ⟨xs, id, h, rfl, hb⟩ := h
    rw [Timely] at ht
    rw [literals] at hl
    obtain ⟨hd, r, hr, hw, hf, hn⟩ := ht
    refine (comes_fines hu hK hQ args hv hl h hf).paren.substep hd hr ?_ ?_
    · rw [paren_within]
      exact (comes_readys args hv h).2 hw
    · exact hn.imp (fun h => h) (first_late hu args tr hv h)
  | .pre e, v, x, c, hv, hl, h, ht => by
    rw [Comes, hv.mode, if_neg hu] at h
    obtain ⟨y, h, rfl⟩ := h
    rw [Timely] at ht
    rw [literals] at hl
    exact (comes_fine hu hK hQ e (hv.bump 1) hl h ht).dummyPre
  | .neg e, v, x, c, hv, hl, h, ht => by
    rw [Comes] at h
    obtain ⟨y, h, rfl⟩ := h
    rw [Timely] at ht
    rw [literals] at hl
    exact (comes_fine hu hK hQ e hv hl h ht).un
  | .not e, v, x, c, hv, hl, h, ht => by
    rw [Comes] at h
    obtain ⟨y, h, rfl⟩ := h
    rw [Timely] at ht
    rw [literals] at hl
    exact (comes_fine hu hK hQ e hv hl h ht).un
theorem comes_fines (hu : S.universalPre ≠ true) (hK : ∀ x, K x = (S.var x).map (·.clk))
    (hQ : Discrete S C Q) : (es : List Src) → {v : View} → {xs : List Expr} → {c : Nat} → Sees S v →
    LitsOk (literalsList es) → ComesList C v es xs → AllTimely S v.depth c es → FineList K Q c xs
  | [], v, xs, c, hv, hl, h, ht => by
    rw [ComesList] at h
    subst h
    exact .nil
  | e :: es, v, xs, c, hv, hl, h, ht => by
    rw [ComesList] at h
    obtain ⟨y, ys, h1, h2, rfl⟩ := h
    rw [AllTimely] at ht
    rw [literalsList, litsOk_append] at hl
    exact (comes_fine hu hK hQ e hv hl.1 h1 ht.1).cons (comes_fines hu hK hQ es hv hl.2 h2 ht.2)
theorem left_fine (hu : S.universalPre ≠ true) (hK : ∀ x, K x = (S.var x).map (·.clk))
    (hQ : Discrete S C Q) : (es : List (LOp × Src)) → {v : View} → {a x : Expr} → {c : Nat} →
    Sees S v → LitsOk (literalsLeft es) → ComesLeft C v a es x → Fine K Q c a →
    LeftTimely S v.depth c es → Fine K Q c x
  | [], v, a, x, c, hv, hl, h, ha, ht => by
    rw [ComesLeft] at h
    subst h
    exact ha
  | (op, e) :: es, v, a, x, c, hv, hl, h, ha, ht => by
    rw [ComesLeft] at h
    obtain ⟨y, h1, h2⟩ := h
    rw [LeftTimely] at ht
    rw [literalsLeft, litsOk_append] at hl
    exact left_fine hu hK hQ es hv hl.2 h2 (ha.compose (comes_fine hu hK hQ e hv hl.1 h1 ht.1)) ht.2
theorem fby_fine (hu : S.universalPre ≠ true) (hK : ∀ x, K x = (S.var x).map (·.clk))
    (hQ : Discrete S C Q) : (es : List Src) → {v : View} → {i : Nat} → {b x : Expr} → {c : Nat} →
    Sees S v → LitsOk (literalsList es) → ComesFby C v i b es x → Fine K Q c b →
    (es = [] ∨ ∀ k, HasClock false K b k → Always k) → FbyTimely S v.depth (i + 1) es →
    Fine K Q c x ∧ ∀ k, HasClock false K x k → HasClock false K b k
  | [], v, i, b, x, c, hv, hl, h, hb, hk, ht => by
    rw [ComesFby] at h
    subst h
    exact ⟨hb, fun _ h => h⟩
  | e :: es, v, i, b, x, c, hv, hl, h, hb, hk, ht => by
    rw [ComesFby, hv.mode] at h
    simp only [if_neg hu] at h
    obtain ⟨y, a, h1, h2, rfl⟩ := h
    rw [FbyTimely] at ht
    rw [literalsList, litsOk_append] at hl
    have h3 := comes_fine (c := v.depth + (i + 1)) hu hK hQ e (hv.after (i + 1)) hl.1 h1
    rw [after_depth hv hu] at h3
    have hy : ∀ k, HasClock false K y k → Always k := fun k hk =>
      ht.2.1 k ((comes_clock hK e (hv.after (i + 1)) h1).1 hk)
    obtain ⟨h4, h5⟩ := fby_fine hu hK hQ es hv hl.2 h2 (h3 ht.1) (.inr hy) ht.2.2
    refine ⟨hb.later h4 (hk.resolve_left (by simp)) fun k hk => hy k (h5 k hk), fun k hk => ?_⟩
    cases hk with | later j1 j2 j3 => exact j1
theorem then_fine (hu : S.universalPre ≠ true) (hK : ∀ x, K x = (S.var x).map (·.clk))
    (hQ : Discrete S C Q) : (es : List Src) → {v : View} → {i : Nat} → {b x : Expr} → {c : Nat} →
    Sees S v → LitsOk (literalsList es) → ComesThen C v i b es x → Fine K Q c b →
    (es = [] ∨ ∀ k, HasClock false K b k → Always k) → ArrowTimely S v.depth (i + 1) es →
    Fine K Q c x ∧ ∀ k, HasClock false K x k → HasClock false K b k
  | [], v, i, b, x, c, hv, hl, h, hb, hk, ht => by
    rw [ComesThen] at h
    subst h
    exact ⟨hb, fun _ h => h⟩
  | e :: es, v, i, b, x, c, hv, hl, h, hb, hk, ht => by
    rw [ComesThen, hv.mode] at h
    simp only [if_neg hu] at h
    obtain ⟨y, a, h1, h2, rfl⟩ := h
    rw [ArrowTimely] at ht
    rw [literalsList, litsOk_append] at hl
    have h3 := comes_fine (c := v.depth + (i + 1)) hu hK hQ e hv hl.1 h1 ht.1
    have hy : ∀ k, HasClock false K y k → Always k := fun k hk =>
      ht.2.1 k ((comes_clock hK e hv h1).1 hk)
    obtain ⟨h4, h5⟩ := then_fine hu hK hQ es hv hl.2 h2 h3 (.inr hy) ht.2.2
    refine ⟨hb.later h4 (hk.resolve_left (by simp)) fun k hk => hy k (h5 k hk), fun k hk => ?_⟩
    cases hk with | later j1 j2 j3 => exact j1
end

end

end Chandeliers.Std
