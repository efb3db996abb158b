import Verif.Lemmas.LegalTypes
import Verif.Spec.Presence

/-! Source expressions read no further into the past than their translations. -/

set_option autoImplicit false

namespace Chandeliers.Den
open Chandeliers.San Chandeliers.Spec Chandeliers.Syn Chandeliers.Spec.Static

theorem paren_within {xs : List Expr} {tr : Bool} {n : Nat} :
    ReadsWithin n (parenthesise xs tr) ↔ ReadWithin n xs := by
  unfold parenthesise
  split
  · simp [ReadsWithin, ReadWithin]
  · rw [ReadsWithin]

theorem compose_within {op : LOp} {a b : Expr} {n : Nat} :
    ReadsWithin n (op.compose a b) ↔ ReadsWithin n a ∧ ReadsWithin n b := by
  cases op <;> simp only [LOp.compose, ReadsWithin] <;> exact and_comm

theorem after_depth {S : Scope} {v : View} (hv : Sees S v) (h : S.universalPre ≠ true) (i : Nat) :
    (View.after v i).depth = v.depth + i := by
  unfold View.after
  rw [hv.mode, if_neg h]
  rfl

theorem after_same {S : Scope} {v : View} (hv : Sees S v) (h : S.universalPre = true) (i : Nat) :
    View.after v i = v := by
  unfold View.after
  rw [hv.mode, if_pos h]

section
variable {S : Scope} {C : ExprCtx}

mutual
theorem comes_ready : (e : Src) → {v : View} → {x : Expr} → {n : Nat} → Sees S v → Comes C v e x →
    (ReadsWithin n x ↔ Static.Ready S v.depth n e)
  | .lit l, v, x, n, hv, h => by
    rw [Comes] at h
    obtain ⟨y, h, rfl⟩ := h
    rw [ReadsWithin, Static.Ready]
  | .var y, v, x, n, hv, h => by
    rw [Comes] at h
    rw [Static.Ready, ← hv.shadow]
    subst h
    split <;> rename_i hy <;> simp only [ReadsWithin, hy, true_implies, false_implies]
  | .paren es tr, v, x, n, hv, h => by
    rw [Comes] at h
    obtain ⟨xs, h, rfl⟩ := h
    rw [Static.Ready, paren_within, comes_readys es hv h]
  | .left e rest, v, x, n, hv, h => by
    rw [Comes] at h
    obtain ⟨a, h1, h2⟩ := h
    rw [Static.Ready, left_ready rest hv h2, comes_ready e hv h1]
  | .cmp e rest, v, x, n, hv, h => by
    rw [Comes] at h
    obtain ⟨a, h1, h2⟩ := h
    rw [Static.Ready, cmp_ready rest hv h2, comes_ready e hv h1]
  | .fby e rest, v, x, n, hv, h => by
    rw [Comes] at h
    obtain ⟨a, h1, h2⟩ := h
    rw [Static.Ready, fby_ready rest hv h2 n n (fun _ => rfl), comes_ready e hv h1]
  | .arrow e rest, v, x, n, hv, h => by
    rw [Comes] at h
    obtain ⟨a, h1, h2⟩ := h
    rw [Static.Ready, then_ready rest hv h2 n n (fun _ => rfl), comes_ready e hv h1]
  | .ifx c y z, v, x, n, hv, h => by
    rw [Comes] at h
    obtain ⟨c', y', n', h1, h2, h3, rfl⟩ := h
    rw [Static.Ready, ReadsWithin, comes_ready c hv h1, comes_ready y hv h2, comes_ready z hv h3]
  | .merge c y z, v, x, n, hv, h => by
    rw [Comes] at h
    obtain ⟨c', y', n', h1, h2, h3, rfl⟩ := h
    rw [Static.Ready, ReadsWithin, comes_ready c hv h1, comes_ready y hv h2, comes_ready z hv h3]
  | .call f args tr, v, x, n, hv, h => by
    rw [Comes] at h
    obtain ⟨xs, id, h, rfl, hb⟩ := h
    rw [Static.Ready, ReadsWithin, paren_within, comes_readys args hv h]
  | .pre e, v, x, n, hv, h => by
    rw [Comes, hv.mode] at h
    rw [Static.Ready]
    split at h <;> rename_i hu
    · obtain ⟨id, y, h, rfl, -, -⟩ := h
      rw [if_pos hu, ReadsWithin, comes_ready e hv h]
    · obtain ⟨y, h, rfl⟩ := h
      rw [if_neg hu, ReadsWithin, comes_ready e (hv.bump 1) h]
      rfl
  | .neg e, v, x, n, hv, h => by
    rw [Comes] at h
    obtain ⟨y, h, rfl⟩ := h
    rw [Static.Ready, ReadsWithin, comes_ready e hv h]
  | .not e, v, x, n, hv, h => by
    rw [Comes] at h
    obtain ⟨y, h, rfl⟩ := h
    rw [Static.Ready, ReadsWithin, comes_ready e hv h]
theorem comes_readys : (es : List Src) → {v : View} → {xs : List Expr} → {n : Nat} → Sees S v →
    ComesList C v es xs → (ReadWithin n xs ↔ AllReady S v.depth n es)
  | [], v, xs, n, hv, h => by
    rw [ComesList] at h
    subst h
    rw [ReadWithin, AllReady]
  | e :: es, v, xs, n, hv, h => by
    rw [ComesList] at h
    obtain ⟨y, ys, h1, h2, rfl⟩ := h
    rw [ReadWithin, AllReady, comes_ready e hv h1, comes_readys es hv h2]
theorem left_ready : (es : List (LOp × Src)) → {v : View} → {a x : Expr} → {n : Nat} → Sees S v →
    ComesLeft C v a es x → (ReadsWithin n x ↔ ReadsWithin n a ∧ LeftReady S v.depth n es)
  | [], v, a, x, n, hv, h => by
    rw [ComesLeft] at h
    subst h
    simp [LeftReady]
  | (op, e) :: es, v, a, x, n, hv, h => by
    rw [ComesLeft] at h
    obtain ⟨y, h1, h2⟩ := h
    rw [left_ready es hv h2, compose_within, LeftReady, comes_ready e hv h1, and_assoc]
theorem cmp_ready : (es : List (CmpOp × Src)) → {v : View} → {a x : Expr} → {n : Nat} → Sees S v →
    ComesCmp C v a es x → (ReadsWithin n x ↔ ReadsWithin n a ∧ CmpReady S v.depth n es)
  | [], v, a, x, n, hv, h => by
    rw [ComesCmp] at h
    subst h
    simp [CmpReady]
  | (op, e) :: es, v, a, x, n, hv, h => by
    rw [ComesCmp] at h
    obtain ⟨rfl, y, h1, rfl⟩ := h
    rw [ReadsWithin, CmpReady, CmpReady, comes_ready e hv h1, and_true]
theorem fby_ready : (es : List Src) → {v : View} → {i : Nat} → {b x : Expr} → Sees S v →
    ComesFby C v i b es x → (m n : Nat) → (S.universalPre = true → m = n) →
    (ReadsWithin m x ↔ ReadsWithin m b ∧ FbyReady S v.depth n (i + 1) es)
  | [], v, i, b, x, hv, h, m, n, hm => by
    rw [ComesFby] at h
    subst h
    simp [FbyReady]
  | e :: es, v, i, b, x, hv, h, m, n, hm => by
    rw [ComesFby, hv.mode] at h
    obtain ⟨y, a, h1, h2, h3⟩ := h
    rw [FbyReady]
    split at h3 <;> rename_i hu
    · obtain ⟨id, rfl, -, -⟩ := h3
      have := hm hu
      subst this
      rw [after_same hv hu] at h1
      rw [if_pos hu, ReadsWithin, fby_ready es hv h2 m m (fun _ => rfl), comes_ready e hv h1]
    · subst h3
      rw [if_neg hu, ReadsWithin, fby_ready es hv h2 (v.depth + i + 1) n (fun h => absurd h hu),
        comes_ready e (hv.after _) h1, after_depth hv hu]
      rfl
theorem then_ready : (es : List Src) → {v : View} → {i : Nat} → {b x : Expr} → Sees S v →
    ComesThen C v i b es x → (m n : Nat) → (S.universalPre = true → m = n + i) →
    (ReadsWithin m x ↔ ReadsWithin m b ∧ ArrowReady S v.depth n (i + 1) es)
  | [], v, i, b, x, hv, h, m, n, hm => by
    rw [ComesThen] at h
    subst h
    simp [ArrowReady]
  | e :: es, v, i, b, x, hv, h, m, n, hm => by
    rw [ComesThen, hv.mode] at h
    obtain ⟨y, a, h1, h2, h3⟩ := h
    rw [ArrowReady]
    split at h3 <;> rename_i hu
    · obtain ⟨id, rfl⟩ := h3
      have := hm hu
      subst this
      rw [if_pos hu, ReadsWithin, then_ready es hv h2 (n + i + 1) n (fun _ => rfl), comes_ready e hv h1]
      rfl
    · subst h3
      rw [if_neg hu, ReadsWithin, then_ready es hv h2 (v.depth + i + 1) n (fun h => absurd h hu),
        comes_ready e hv h1]
      rfl
end
end

end Chandeliers.Den
