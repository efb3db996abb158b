import Verif.Spec.Guards
import Verif.Lemmas.UniversalNode

/-! # Nodes whose clocks are inputs -/

set_option autoImplicit false
set_option linter.unusedSectionVars false

namespace Chandeliers.Uni
open Chandeliers.San Chandeliers.Spec Chandeliers.Syn Chandeliers.Den Chandeliers.Pres
open Chandeliers.Err

/-- A part of an expression uses one of these variables as a clock, if any, and it is not a tuple of
one element if these are refused. -/
def Fine (S : List String) (one : Bool) : Expr → Prop
  | .clock _ _ (.var y _) => y ∈ S
  | .tuple [_] => one = false
  | _ => True

/-- All the parts. -/
def AllFine (S : List String) (one : Bool) (x : Expr) : Prop := ∀ p ∈ inside x, Fine S one p

section
variable {S : List String} {one : Bool}

theorem fine_paren {xs : List Expr} {tr : Bool} (h : ∀ p ∈ insideList xs, Fine S one p)
    (h1 : one = true → ¬ (tr = true ∧ xs.length = 1)) : AllFine S one (parenthesise xs tr) := by
  unfold parenthesise
  split
  · rename_i x
    intro p hp
    simp only [inside, List.mem_cons] at hp
    rcases hp with rfl | hp
    · trivial
    · exact h p (by simpa [insideList] using hp)
  · rename_i hn
    intro p hp
    simp only [inside, List.mem_cons] at hp
    rcases hp with rfl | hp
    · match xs, h1 with
      | [], _ => trivial
      | [x], h1 =>
        cases tr with
        | false => exact (hn x rfl rfl).elim
        | true =>
          cases one with
          | false => rfl
          | true => exact (h1 rfl ⟨rfl, rfl⟩).elim
      | _ :: _ :: _, _ => trivial
    · exact h p hp

theorem length_translateList : (es : List Src) → ∀ {v : View} {c c' : ExprCtx} {xs : List Expr},
    Src.translateList v es c = .ok (xs, c') → xs.length = es.length
  | [], v, c, c', xs, h => by
    unfold Src.translateList at h
    cases tr_pure_ok.1 h
    rfl
  | e :: es, v, c, c', xs, h => by
    unfold Src.translateList at h
    obtain ⟨x, c₁, h1, h2⟩ := tr_bind_ok.1 h
    obtain ⟨ys, c₂, h3, h4⟩ := tr_bind_ok.1 h2
    cases tr_pure_ok.1 h4
    simp [length_translateList es h3]

theorem none_translateFby : (es : List Src) → ∀ {v : View} {i : Nat} {c c' : ExprCtx}
    {o : Option Expr}, Src.translateFby v i es c = .ok (o, c') → (o = none ↔ es = [])
  | [], v, i, c, c', o, h => by
    unfold Src.translateFby at h
    cases tr_pure_ok.1 h
    simp
  | e :: es, v, i, c, c', o, h => by
    unfold Src.translateFby at h
    obtain ⟨acc, c₁, h1, h2⟩ := tr_bind_ok.1 h
    obtain ⟨before, c₂, h3, h4⟩ := tr_bind_ok.1 h2
    cases acc with
    | none => cases tr_pure_ok.1 h4; simp
    | some after =>
      obtain ⟨y, c₃, h5, h6⟩ := tr_bind_ok.1 h4
      cases tr_pure_ok.1 h6
      simp

theorem none_translateThen : (es : List Src) → ∀ {v : View} {i : Nat} {c c' : ExprCtx}
    {o : Option Expr}, Src.translateThen v i es c = .ok (o, c') → (o = none ↔ es = [])
  | [], v, i, c, c', o, h => by
    unfold Src.translateThen at h
    cases tr_pure_ok.1 h
    simp
  | e :: es, v, i, c, c', o, h => by
    unfold Src.translateThen at h
    obtain ⟨acc, c₁, h1, h2⟩ := tr_bind_ok.1 h
    obtain ⟨before, c₂, h3, h4⟩ := tr_bind_ok.1 h2
    cases acc with
    | none => cases tr_pure_ok.1 h4; simp
    | some after =>
      obtain ⟨y, c₃, h5, h6⟩ := tr_bind_ok.1 h4
      cases tr_pure_ok.1 h6
      simp

theorem chain_not_var : (rest : List (LOp × Src)) → ∀ {v : View} {c c' : ExprCtx} {acc x : Expr},
    Src.translateLeft v acc rest c = .ok (x, c') → (∀ y d, acc ≠ .var y d) → ∀ y d, x ≠ .var y d
  | [], v, c, c', acc, x, h, ha => by
    unfold Src.translateLeft at h
    cases tr_pure_ok.1 h
    exact ha
  | (op, e) :: rest, v, c, c', acc, x, h, ha => by
    unfold Src.translateLeft at h
    obtain ⟨z, c₁, h1, h2⟩ := tr_bind_ok.1 h
    exact chain_not_var rest h2 (by cases op <;> simp [LOp.compose])

/-- A variable comes from a variable. -/
theorem just_var : (e : Src) → ∀ {v : View} {c c' : ExprCtx} {y : String} {d : Nat},
    e.translate v c = .ok (.var y d, c') → justVar e = some y
  | .lit l, v, c, c', y, d, h => by
    unfold Src.translate Lit.translate at h
    split at h
    · cases tr_pure_ok.1 h
    · split at h
      · cases tr_pure_ok.1 h
      · exact (tr_throw.1 h).elim
    · cases tr_pure_ok.1 h
    · exact (tr_throw.1 h).elim
    · exact (tr_throw.1 h).elim
  | .var z, v, c, c', y, d, h => by
    unfold Src.translate at h
    split at h
    · cases tr_pure_ok.1 h
      rfl
    · cases tr_pure_ok.1 h
  | .paren es tr, v, c, c', y, d, h => by
    unfold Src.translate at h
    obtain ⟨xs, c₁, h1, h2⟩ := tr_bind_ok.1 h
    have := (tr_pure_ok.1 h2)
    unfold parenthesise at this
    split at this <;> cases this
  | .left first rest, v, c, c', y, d, h => by
    unfold Src.translate at h
    obtain ⟨acc, c₁, h1, h2⟩ := tr_bind_ok.1 h
    cases rest with
    | nil =>
      unfold Src.translateLeft at h2
      cases tr_pure_ok.1 h2
      rw [justVar]
      exact just_var first h1
    | cons r rest =>
      obtain ⟨op, e⟩ := r
      unfold Src.translateLeft at h2
      obtain ⟨z, c₁, h3, h4⟩ := tr_bind_ok.1 h2
      exact absurd rfl (chain_not_var rest h4 (by cases op <;> simp [LOp.compose]) y d)
  | .cmp first rest, v, c, c', y, d, h => by
    unfold Src.translate at h
    obtain ⟨acc, c₁, h1, h2⟩ := tr_bind_ok.1 h
    match rest, h2 with
    | [], h2 =>
      unfold Src.translateCmp at h2
      cases tr_pure_ok.1 h2
      rw [justVar]
      exact just_var first h1
    | [(op, e)], h2 =>
      unfold Src.translateCmp at h2
      obtain ⟨z, c₁, h3, h4⟩ := tr_bind_ok.1 h2
      cases tr_pure_ok.1 h4
    | (_, _) :: (_, _) :: _, h2 =>
      unfold Src.translateCmp at h2
      obtain ⟨_, c₁, h1, h2⟩ := tr_bind_ok.1 h2
      obtain ⟨_, c₂, h3, h4⟩ := tr_bind_ok.1 h2
      exact (tr_throw.1 h4).elim
  | .fby first rest, v, c, c', y, d, h => by
    unfold Src.translate at h
    obtain ⟨acc, c₁, h1, h2⟩ := tr_bind_ok.1 h
    obtain ⟨before, c₂, h3, h4⟩ := tr_bind_ok.1 h2
    cases acc with
    | none =>
      cases tr_pure_ok.1 h4
      rw [(none_translateFby rest h1).1 rfl, justVar]
      exact just_var first h3
    | some after =>
      simp only [mkFby] at h4
      split at h4 <;> simp at h4
  | .arrow first rest, v, c, c', y, d, h => by
    unfold Src.translate at h
    obtain ⟨acc, c₁, h1, h2⟩ := tr_bind_ok.1 h
    obtain ⟨before, c₂, h3, h4⟩ := tr_bind_ok.1 h2
    cases acc with
    | none =>
      cases tr_pure_ok.1 h4
      rw [(none_translateThen rest h1).1 rfl, justVar]
      exact just_var first h3
    | some after =>
      simp only [mkThen] at h4
      split at h4 <;> simp at h4
  | .ifx b y' n, v, c, c', y, d, h => by
    unfold Src.translate at h
    obtain ⟨_, c₁, h1, h2⟩ := tr_bind_ok.1 h
    obtain ⟨_, c₂, h3, h4⟩ := tr_bind_ok.1 h2
    obtain ⟨_, c₃, h5, h6⟩ := tr_bind_ok.1 h4
    cases tr_pure_ok.1 h6
  | .merge b y' n, v, c, c', y, d, h => by
    unfold Src.translate at h
    obtain ⟨_, c₁, h1, h2⟩ := tr_bind_ok.1 h
    obtain ⟨_, c₂, h3, h4⟩ := tr_bind_ok.1 h2
    obtain ⟨_, c₃, h5, h6⟩ := tr_bind_ok.1 h4
    cases tr_pure_ok.1 h6
  | .call f es tr, v, c, c', y, d, h => by
    unfold Src.translate at h
    obtain ⟨xs, c₁, h1, h2⟩ := tr_bind_ok.1 h
    simp [mkCall] at h2
  | .pre e, v, c, c', y, d, h => by
    unfold Src.translate at h
    split at h
    · obtain ⟨id, c₁, h1, h2⟩ := tr_bind_ok.1 h
      obtain ⟨y, c₂, h3, h4⟩ := tr_bind_ok.1 h2
      simp [mkPre] at h4
    · obtain ⟨z, c₁, h1, h2⟩ := tr_bind_ok.1 h
      cases tr_pure_ok.1 h2
  | .neg e, v, c, c', y, d, h => by
    unfold Src.translate at h
    obtain ⟨z, c₁, h1, h2⟩ := tr_bind_ok.1 h
    cases tr_pure_ok.1 h2
  | .not e, v, c, c', y, d, h => by
    unfold Src.translate at h
    obtain ⟨z, c₁, h1, h2⟩ := tr_bind_ok.1 h
    cases tr_pure_ok.1 h2

theorem fine_one {x y : Expr} (h : inside x = x :: inside y) (hx : Fine S one x)
    (hy : AllFine S one y) : AllFine S one x := by
  intro p hp
  rw [h] at hp
  rcases List.mem_cons.1 hp with rfl | hp
  · exact hx
  · exact hy p hp

theorem fine_two {x y z : Expr} (h : inside x = x :: (inside y ++ inside z)) (hx : Fine S one x)
    (hy : AllFine S one y) (hz : AllFine S one z) : AllFine S one x := by
  intro p hp
  rw [h] at hp
  rcases List.mem_cons.1 hp with rfl | hp
  · exact hx
  · rcases List.mem_append.1 hp with hp | hp
    · exact hy p hp
    · exact hz p hp

theorem fine_three {x y z w : Expr} (h : inside x = x :: (inside y ++ (inside z ++ inside w)))
    (hx : Fine S one x) (hy : AllFine S one y) (hz : AllFine S one z) (hw : AllFine S one w) :
    AllFine S one x := by
  intro p hp
  rw [h] at hp
  simp only [List.mem_cons, List.mem_append] at hp
  rcases hp with rfl | hp | hp | hp
  · exact hx
  · exact hy p hp
  · exact hz p hp
  · exact hw p hp

mutual
theorem fine_translate : (e : Src) → ∀ {v : View} {c c' : ExprCtx} {x : Expr},
    e.translate v c = .ok (x, c') → (∀ y ∈ guards e, y ∈ S) → (one = true → noOneTuple e = true) →
    AllFine S one x
  | .lit l, v, c, c', x, h, hg, ho => by
    unfold Src.translate Lit.translate at h
    have : ∀ l, AllFine S one (.lit l) := fun l p hp => by
      simp only [inside, List.mem_singleton] at hp
      subst hp
      trivial
    split at h
    · cases tr_pure_ok.1 h; exact this _
    · split at h
      · cases tr_pure_ok.1 h; exact this _
      · exact (tr_throw.1 h).elim
    · cases tr_pure_ok.1 h; exact this _
    · exact (tr_throw.1 h).elim
    · exact (tr_throw.1 h).elim
  | .var z, v, c, c', x, h, hg, ho => by
    unfold Src.translate at h
    split at h <;> cases tr_pure_ok.1 h <;> intro p hp <;>
      simp only [inside, List.mem_singleton] at hp <;> subst hp <;> trivial
  | .paren es tr, v, c, c', x, h, hg, ho => by
    unfold Src.translate at h
    obtain ⟨xs, c₁, h1, h2⟩ := tr_bind_ok.1 h
    cases tr_pure_ok.1 h2
    have hl := length_translateList es h1
    simp only [guards] at hg
    simp only [noOneTuple, Bool.and_eq_true, Bool.not_eq_true', Bool.and_eq_false_iff, beq_eq_false_iff_ne] at ho
    refine fine_paren (fine_translateList es h1 hg fun h => (ho h).2) fun h0 => ?_
    rintro ⟨rfl, k⟩
    rcases (ho h0).1 with k' | k'
    · cases k'
    · omega
  | .left first rest, v, c, c', x, h, hg, ho => by
    unfold Src.translate at h
    obtain ⟨acc, c₁, h1, h2⟩ := tr_bind_ok.1 h
    simp only [guards, List.mem_append, or_imp, forall_and] at hg
    simp only [noOneTuple, Bool.and_eq_true] at ho
    exact fine_translateLeft rest h2 hg.2 (fun h => (ho h).2)
      (fine_translate first h1 hg.1 fun h => (ho h).1)
  | .cmp first rest, v, c, c', x, h, hg, ho => by
    unfold Src.translate at h
    obtain ⟨acc, c₁, h1, h2⟩ := tr_bind_ok.1 h
    simp only [guards, List.mem_append, or_imp, forall_and] at hg
    simp only [noOneTuple, Bool.and_eq_true] at ho
    exact fine_translateCmp rest h2 hg.2 (fun h => (ho h).2)
      (fine_translate first h1 hg.1 fun h => (ho h).1)
  | .fby first rest, v, c, c', x, h, hg, ho => by
    unfold Src.translate at h
    obtain ⟨acc, c₁, h1, h2⟩ := tr_bind_ok.1 h
    obtain ⟨before, c₂, h3, h4⟩ := tr_bind_ok.1 h2
    simp only [guards, List.mem_append, or_imp, forall_and] at hg
    simp only [noOneTuple, Bool.and_eq_true] at ho
    have e1 := fine_translateFby rest h1 hg.2 (fun h => (ho h).2)
    have e2 := fine_translate first h3 hg.1 fun h => (ho h).1
    cases acc with
    | none =>
      cases tr_pure_ok.1 h4
      exact e2
    | some after =>
      simp only [mkFby] at h4
      split at h4
      · simp only [Except.ok.injEq, Prod.mk.injEq] at h4
        obtain ⟨rfl, -⟩ := h4
        exact fine_two (by simp [inside]) trivial e2 (e1 _ rfl)
      · simp only [Except.ok.injEq, Prod.mk.injEq] at h4
        obtain ⟨rfl, -⟩ := h4
        exact fine_two (by simp [inside]) trivial e2 (e1 _ rfl)
  | .arrow first rest, v, c, c', x, h, hg, ho => by
    unfold Src.translate at h
    obtain ⟨acc, c₁, h1, h2⟩ := tr_bind_ok.1 h
    obtain ⟨before, c₂, h3, h4⟩ := tr_bind_ok.1 h2
    simp only [guards, List.mem_append, or_imp, forall_and] at hg
    simp only [noOneTuple, Bool.and_eq_true] at ho
    have e1 := fine_translateThen rest h1 hg.2 (fun h => (ho h).2)
    have e2 := fine_translate first h3 hg.1 fun h => (ho h).1
    cases acc with
    | none =>
      cases tr_pure_ok.1 h4
      exact e2
    | some after =>
      simp only [mkThen] at h4
      split at h4
      · simp only [Except.ok.injEq, Prod.mk.injEq] at h4
        obtain ⟨rfl, -⟩ := h4
        exact fine_two (by simp [inside]) trivial e2 (e1 _ rfl)
      · simp only [Except.ok.injEq, Prod.mk.injEq] at h4
        obtain ⟨rfl, -⟩ := h4
        exact fine_two (by simp [inside]) trivial e2 (e1 _ rfl)
  | .ifx b y n, v, c, c', x, h, hg, ho => by
    unfold Src.translate at h
    obtain ⟨_, c₁, h1, h2⟩ := tr_bind_ok.1 h
    obtain ⟨_, c₂, h3, h4⟩ := tr_bind_ok.1 h2
    obtain ⟨_, c₃, h5, h6⟩ := tr_bind_ok.1 h4
    cases tr_pure_ok.1 h6
    simp only [guards, List.mem_append, or_imp, forall_and] at hg
    simp only [noOneTuple, Bool.and_eq_true] at ho
    exact fine_three (by simp [inside]) trivial (fine_translate b h1 hg.1 fun h => (ho h).1.1)
      (fine_translate y h3 hg.2.1 fun h => (ho h).1.2) (fine_translate n h5 hg.2.2 fun h => (ho h).2)
  | .merge b y n, v, c, c', x, h, hg, ho => by
    unfold Src.translate at h
    obtain ⟨_, c₁, h1, h2⟩ := tr_bind_ok.1 h
    obtain ⟨_, c₂, h3, h4⟩ := tr_bind_ok.1 h2
    obtain ⟨_, c₃, h5, h6⟩ := tr_bind_ok.1 h4
    cases tr_pure_ok.1 h6
    simp only [guards, List.mem_append, or_imp, forall_and] at hg
    simp only [noOneTuple, Bool.and_eq_true] at ho
    exact fine_three (by simp [inside]) trivial (fine_translate b h1 hg.1 fun h => (ho h).1.1)
      (fine_translate y h3 hg.2.1 fun h => (ho h).1.2) (fine_translate n h5 hg.2.2 fun h => (ho h).2)
  | .call f es tr, v, c, c', x, h, hg, ho => by
    unfold Src.translate at h
    obtain ⟨xs, c₁, h1, h2⟩ := tr_bind_ok.1 h
    simp only [mkCall, Except.ok.injEq, Prod.mk.injEq] at h2
    obtain ⟨rfl, rfl⟩ := h2
    have hl := length_translateList es h1
    simp only [guards] at hg
    simp only [noOneTuple, Bool.and_eq_true, Bool.not_eq_true', Bool.and_eq_false_iff, beq_eq_false_iff_ne] at ho
    have hp := fine_paren (tr := tr) (fine_translateList es h1 hg fun h => (ho h).2) fun h0 => by
      rintro ⟨rfl, k⟩
      rcases (ho h0).1 with k' | k'
      · cases k'
      · omega
    exact fine_one (y := parenthesise xs tr) (by simp [inside]) trivial hp
  | .pre e, v, c, c', x, h, hg, ho => by
    unfold Src.translate at h
    simp only [guards] at hg
    simp only [noOneTuple] at ho
    split at h
    · obtain ⟨id, c₁, h1, h2⟩ := tr_bind_ok.1 h
      obtain ⟨y, c₂, h3, h4⟩ := tr_bind_ok.1 h2
      simp only [mkPre, Except.ok.injEq, Prod.mk.injEq] at h4
      obtain ⟨rfl, rfl⟩ := h4
      exact fine_one (by simp [inside]) trivial (fine_translate e h3 hg ho)
    · obtain ⟨z, c₁, h1, h2⟩ := tr_bind_ok.1 h
      cases tr_pure_ok.1 h2
      exact fine_one (by simp [inside]) trivial (fine_translate e h1 hg ho)
  | .neg e, v, c, c', x, h, hg, ho => by
    unfold Src.translate at h
    obtain ⟨z, c₁, h1, h2⟩ := tr_bind_ok.1 h
    cases tr_pure_ok.1 h2
    simp only [guards] at hg
    simp only [noOneTuple] at ho
    exact fine_one (by simp [inside]) trivial (fine_translate e h1 hg ho)
  | .not e, v, c, c', x, h, hg, ho => by
    unfold Src.translate at h
    obtain ⟨z, c₁, h1, h2⟩ := tr_bind_ok.1 h
    cases tr_pure_ok.1 h2
    simp only [guards] at hg
    simp only [noOneTuple] at ho
    exact fine_one (by simp [inside]) trivial (fine_translate e h1 hg ho)
theorem fine_translateList : (es : List Src) → ∀ {v : View} {c c' : ExprCtx} {xs : List Expr},
    Src.translateList v es c = .ok (xs, c') → (∀ y ∈ guardsList es, y ∈ S) →
    (one = true → noOneTuples es = true) → ∀ p ∈ insideList xs, Fine S one p
  | [], v, c, c', xs, h, hg, ho => by
    unfold Src.translateList at h
    cases tr_pure_ok.1 h
    simp [insideList]
  | e :: es, v, c, c', xs, h, hg, ho => by
    unfold Src.translateList at h
    obtain ⟨x, c₁, h1, h2⟩ := tr_bind_ok.1 h
    obtain ⟨ys, c₂, h3, h4⟩ := tr_bind_ok.1 h2
    cases tr_pure_ok.1 h4
    simp only [guardsList, List.mem_append, or_imp, forall_and] at hg
    simp only [noOneTuples, Bool.and_eq_true] at ho
    intro p hp
    rcases List.mem_append.1 (by simpa only [insideList] using hp) with hp | hp
    · exact fine_translate e h1 hg.1 (fun h => (ho h).1) p hp
    · exact fine_translateList es h3 hg.2 (fun h => (ho h).2) p hp
theorem fine_translateLeft : (rest : List (LOp × Src)) → ∀ {v : View} {c c' : ExprCtx} {acc x : Expr},
    Src.translateLeft v acc rest c = .ok (x, c') → (∀ y ∈ guardsLeft rest, y ∈ S) →
    (one = true → noOneTupleLeft rest = true) → AllFine S one acc → AllFine S one x
  | [], v, c, c', acc, x, h, hg, ho, ha => by
    unfold Src.translateLeft at h
    cases tr_pure_ok.1 h
    exact ha
  | (op, e) :: rest, v, c, c', acc, x, h, hg, ho, ha => by
    unfold Src.translateLeft at h
    obtain ⟨y, c₁, h1, h2⟩ := tr_bind_ok.1 h
    simp only [guardsLeft, List.mem_append, or_imp, forall_and] at hg
    simp only [noOneTupleLeft, Bool.and_eq_true] at ho
    have he := fine_translate e h1 hg.2.1 fun h => (ho h).1
    have hv : op = .when ∨ op = .whenot → ∀ z d, y = .var z d → z ∈ S := by
      rintro hop z d rfl
      refine hg.1 z ?_
      rw [if_pos hop, just_var e h1]
      simp
    refine fine_translateLeft rest h2 hg.2.2 (fun h => (ho h).2) ?_
    have hfine : Fine S one (op.compose acc y) := by
      cases op with
      | when =>
        cases y with
        | var z d => exact hv (.inl rfl) z d rfl
        | _ => trivial
      | whenot =>
        cases y with
        | var z d => exact hv (.inr rfl) z d rfl
        | _ => trivial
      | _ => trivial
    exact fine_two (by cases op <;> simp [LOp.compose, inside]) hfine ha he
theorem fine_translateCmp : (rest : List (CmpOp × Src)) → ∀ {v : View} {c c' : ExprCtx} {acc x : Expr},
    Src.translateCmp v acc rest c = .ok (x, c') → (∀ y ∈ guardsCmp rest, y ∈ S) →
    (one = true → noOneTupleCmp rest = true) → AllFine S one acc → AllFine S one x
  | [], v, c, c', acc, x, h, hg, ho, ha => by
    unfold Src.translateCmp at h
    cases tr_pure_ok.1 h
    exact ha
  | [(op, e)], v, c, c', acc, x, h, hg, ho, ha => by
    unfold Src.translateCmp at h
    obtain ⟨y, c₁, h1, h2⟩ := tr_bind_ok.1 h
    cases tr_pure_ok.1 h2
    simp only [guardsCmp, List.append_nil] at hg
    simp only [noOneTupleCmp, Bool.and_true] at ho
    exact fine_two (by simp [inside]) trivial ha (fine_translate e h1 hg ho)
  | (_, _) :: (_, _) :: _, v, c, c', acc, x, h, hg, ho, ha => by
    unfold Src.translateCmp at h
    obtain ⟨_, c₁, h1, h2⟩ := tr_bind_ok.1 h
    obtain ⟨_, c₂, h3, h4⟩ := tr_bind_ok.1 h2
    exact (tr_throw.1 h4).elim
theorem fine_translateFby : (es : List Src) → ∀ {v : View} {i : Nat} {c c' : ExprCtx}
    {o : Option Expr}, Src.translateFby v i es c = .ok (o, c') → (∀ y ∈ guardsList es, y ∈ S) →
    (one = true → noOneTuples es = true) → ∀ x, o = some x → AllFine S one x
  | [], v, i, c, c', o, h, hg, ho => by
    unfold Src.translateFby at h
    cases tr_pure_ok.1 h
    intro x hx
    cases hx
  | e :: es, v, i, c, c', o, h, hg, ho => by
    unfold Src.translateFby at h
    obtain ⟨acc, c₁, h1, h2⟩ := tr_bind_ok.1 h
    obtain ⟨before, c₂, h3, h4⟩ := tr_bind_ok.1 h2
    simp only [guardsList, List.mem_append, or_imp, forall_and] at hg
    simp only [noOneTuples, Bool.and_eq_true] at ho
    have e1 := fine_translateFby es h1 hg.2 (fun h => (ho h).2)
    have e2 := fine_translate e h3 hg.1 fun h => (ho h).1
    cases acc with
    | none =>
      cases tr_pure_ok.1 h4
      intro x hx
      cases hx
      exact e2
    | some after =>
      obtain ⟨y, c₃, h5, h6⟩ := tr_bind_ok.1 h4
      cases tr_pure_ok.1 h6
      intro x hx
      cases hx
      simp only [mkFby] at h5
      split at h5
      · simp only [Except.ok.injEq, Prod.mk.injEq] at h5
        obtain ⟨rfl, -⟩ := h5
        exact fine_two (by simp [inside]) trivial e2 (e1 _ rfl)
      · simp only [Except.ok.injEq, Prod.mk.injEq] at h5
        obtain ⟨rfl, -⟩ := h5
        exact fine_two (by simp [inside]) trivial e2 (e1 _ rfl)
theorem fine_translateThen : (es : List Src) → ∀ {v : View} {i : Nat} {c c' : ExprCtx}
    {o : Option Expr}, Src.translateThen v i es c = .ok (o, c') → (∀ y ∈ guardsList es, y ∈ S) →
    (one = true → noOneTuples es = true) → ∀ x, o = some x → AllFine S one x
  | [], v, i, c, c', o, h, hg, ho => by
    unfold Src.translateThen at h
    cases tr_pure_ok.1 h
    intro x hx
    cases hx
  | e :: es, v, i, c, c', o, h, hg, ho => by
    unfold Src.translateThen at h
    obtain ⟨acc, c₁, h1, h2⟩ := tr_bind_ok.1 h
    obtain ⟨before, c₂, h3, h4⟩ := tr_bind_ok.1 h2
    simp only [guardsList, List.mem_append, or_imp, forall_and] at hg
    simp only [noOneTuples, Bool.and_eq_true] at ho
    have e1 := fine_translateThen es h1 hg.2 (fun h => (ho h).2)
    have e2 := fine_translate e h3 hg.1 fun h => (ho h).1
    cases acc with
    | none =>
      cases tr_pure_ok.1 h4
      intro x hx
      cases hx
      exact e2
    | some after =>
      obtain ⟨y, c₃, h5, h6⟩ := tr_bind_ok.1 h4
      cases tr_pure_ok.1 h6
      intro x hx
      cases hx
      simp only [mkThen] at h5
      split at h5
      · simp only [Except.ok.injEq, Prod.mk.injEq] at h5
        obtain ⟨rfl, -⟩ := h5
        exact fine_two (by simp [inside]) trivial e2 (e1 _ rfl)
      · simp only [Except.ok.injEq, Prod.mk.injEq] at h5
        obtain ⟨rfl, -⟩ := h5
        exact fine_two (by simp [inside]) trivial e2 (e1 _ rfl)
end

/-! ## Clocks -/

/-- A clock uses one of these variables, if any. -/
def ClkIn (S : List String) : Clk → Prop
  | .on x => x ∈ S
  | .off x => x ∈ S
  | _ => True

theorem clkIn_meet {k k' : Clk} (h : ClkIn S k) (h' : ClkIn S k') : ClkIn S (Clk.meet k k') := by
  cases k <;> cases k' <;> simp_all [Clk.meet, ClkIn]

/-- The clock of an expression is one that appears there or that of a variable. -/
theorem clkIn_hasClock {strict : Bool} {K : String → Option Clk}
    (hK : ∀ x k, K x = some k → ClkIn S k) : (e : Expr) → ∀ {k : Clk}, HasClock strict K e k →
    AllFine S one e → ClkIn S k
  | .lit _, k, h, hf => by cases h; trivial
  | .global _, k, h, hf => by cases h; trivial
  | .var _ _, k, h, hf => by cases h with | var h => exact hK _ _ h
  | .tuple [], k, h, hf => by cases h; trivial
  | .tuple (e :: es), k, h, hf => by
    cases h with
    | tuple h _ => exact clkIn_hasClock hK e h fun p hp => hf p (by simp [inside, insideList, hp])
  | .dummyPre e, k, h, hf => by
    cases h with
    | dummyPre h _ => exact clkIn_hasClock hK e h fun p hp => hf p (by simp [inside, hp])
  | .dummyParen e, k, h, hf => by
    cases h with
    | dummyParen h => exact clkIn_hasClock hK e h fun p hp => hf p (by simp [inside, hp])
  | .un _ e, k, h, hf => by
    cases h with
    | un h => exact clkIn_hasClock hK e h fun p hp => hf p (by simp [inside, hp])
  | .substep _ _ e, k, h, hf => by
    cases h with
    | substep h => exact clkIn_hasClock hK e h fun p hp => hf p (by simp [inside, hp])
  | .fetchPre _ e, k, h, hf => by
    cases h with
    | fetchPre h => exact clkIn_hasClock hK e h fun p hp => hf p (by simp [inside, hp])
  | .fetchFby _ i f, k, h, hf => by
    cases h with
    | fetchFby h _ _ => exact clkIn_hasClock hK f h fun p hp => hf p (by simp [inside, hp])
  | .bin _ l r, k, h, hf => by
    cases h with
    | bin h h' _ =>
      exact clkIn_meet (clkIn_hasClock hK l h fun p hp => hf p (by simp [inside, hp]))
        (clkIn_hasClock hK r h' fun p hp => hf p (by simp [inside, hp]))
  | .cmp _ l r, k, h, hf => by
    cases h with
    | cmp h h' _ =>
      exact clkIn_meet (clkIn_hasClock hK l h fun p hp => hf p (by simp [inside, hp]))
        (clkIn_hasClock hK r h' fun p hp => hf p (by simp [inside, hp]))
  | .later _ l r, k, h, hf => by
    cases h with
    | later h _ _ => exact clkIn_hasClock hK l h fun p hp => hf p (by simp [inside, hp])
  | .flip _ l r, k, h, hf => by
    cases h with
    | flip _ h _ => exact clkIn_hasClock hK r h fun p hp => hf p (by simp [inside, hp])
  | .clock op l r, k, h, hf => by
    cases h with
    | @clock _ _ x d =>
      have := hf (.clock op l (.var x d)) (by simp [inside])
      cases op <;> exact this
  | .ifx b l r, k, h, hf => by
    cases h with
    | ifx h h' h'' _ _ =>
      exact clkIn_meet (clkIn_meet (clkIn_hasClock hK b h fun p hp => hf p (by simp [inside, hp]))
        (clkIn_hasClock hK l h' fun p hp => hf p (by simp [inside, hp])))
        (clkIn_hasClock hK r h'' fun p hp => hf p (by simp [inside, hp]))
  | .merge b l r, k, h, hf => by
    cases h with
    | merge h _ _ _ _ => exact hK _ _ h

theorem noSingleton_flat (θ : Subst) (ts : List TyBase) : NoSingleton (substTy θ (flatTuple ts)) := by
  have : ∀ ts : List TyBase, NoSingletons (substTys θ (ts.map .single)) := by
    intro ts
    induction ts with
    | nil => trivial
    | cons t ts ih => exact ⟨trivial, ih⟩
  match ts with
  | [] => simp [flatTuple, substTy, substTys, NoSingleton, NoSingletons]
  | [t] => simp [flatTuple, substTy, NoSingleton]
  | t :: t' :: ts =>
    have := this (t :: t' :: ts)
    simpa [flatTuple, substTy, substTys, NoSingleton] using this

mutual
/-- Without tuples of one element in an expression there are none in its type. -/
theorem flat_typed {Γ : TyEnv} (hc : ∀ i t u, Γ.call i t u → NoSingleton u) : {e : Expr} →
    {t : TyTuple} → HasType Γ e t → AllFine S true e → NoSingleton t
  | _, _, .lit, _ => trivial
  | _, _, .global _, _ => trivial
  | _, _, .var _, _ => trivial
  | _, _, .dummyPre h, hf => flat_typed hc h fun p hp => hf p (by simp [inside, hp])
  | _, _, .dummyParen h, hf => flat_typed hc h fun p hp => hf p (by simp [inside, hp])
  | _, _, .tuple (es := es) (ts := ts) h, hf => by
    have h1 := flats_typed hc h fun p hp => hf p (by simp [inside, hp])
    match es, ts, h, h1, hf with
    | _, [], _, _, _ => simp [NoSingleton, NoSingletons]
    | _, [t], .cons _ .nil, _, hf => cases hf _ (inside_self _)
    | _, _ :: _ :: _, _, h1, _ => simpa [NoSingleton] using h1
  | _, _, .bin _ _ _, _ => trivial
  | _, _, .un _ _, _ => trivial
  | _, _, .cmp _ _ _, _ => trivial
  | _, _, .clock h _, hf => flat_typed hc h fun p hp => hf p (by simp [inside, hp])
  | _, _, .later h _, hf => flat_typed hc h fun p hp => hf p (by simp [inside, hp])
  | _, _, .flip h _, hf => flat_typed hc h fun p hp => hf p (by simp [inside, hp])
  | _, _, .ifx _ h _, hf => flat_typed hc h fun p hp => hf p (by simp [inside, hp])
  | _, _, .merge _ h _, hf => flat_typed hc h fun p hp => hf p (by simp [inside, hp])
  | _, _, .substep _ h, _ => hc _ _ _ h
  | _, _, .fetchPre h _, hf => flat_typed hc h fun p hp => hf p (by simp [inside, hp])
  | _, _, .fetchFby h _ _, hf => flat_typed hc h fun p hp => hf p (by simp [inside, hp])
theorem flats_typed {Γ : TyEnv} (hc : ∀ i t u, Γ.call i t u → NoSingleton u) : {es : List Expr} →
    {ts : List TyTuple} → HasTypes Γ es ts → (∀ p ∈ insideList es, Fine S true p) → NoSingletons ts
  | _, _, .nil, _ => trivial
  | _, _, .cons h hs, hf => ⟨flat_typed hc h fun p hp => hf p (by simp [insideList, hp]),
      flats_typed hc hs fun p hp => hf p (by simp [insideList, hp])⟩
end

end

mutual
theorem inside_trans {p q : Expr} : (e : Expr) → p ∈ inside e → q ∈ inside p → q ∈ inside e
  | .lit _, h, hq => by simp only [inside, List.mem_singleton] at h; subst h; exact hq
  | .global _, h, hq => by simp only [inside, List.mem_singleton] at h; subst h; exact hq
  | .var _ _, h, hq => by simp only [inside, List.mem_singleton] at h; subst h; exact hq
  | .tuple es, h, hq => by
    have h1 := inside_transList (p := p) (q := q) es
    simp only [inside, List.mem_cons] at h ⊢
    rcases h with rfl | h
    · simpa [inside] using hq
    · exact .inr (h1 h hq)
  | .dummyPre e, h, hq => by
    have h1 := inside_trans (p := p) (q := q) e
    simp only [inside, List.mem_cons] at h ⊢
    rcases h with rfl | h
    · simpa [inside] using hq
    · exact .inr (h1 h hq)
  | .dummyParen e, h, hq => by
    have h1 := inside_trans (p := p) (q := q) e
    simp only [inside, List.mem_cons] at h ⊢
    rcases h with rfl | h
    · simpa [inside] using hq
    · exact .inr (h1 h hq)
  | .un _ e, h, hq => by
    have h1 := inside_trans (p := p) (q := q) e
    simp only [inside, List.mem_cons] at h ⊢
    rcases h with rfl | h
    · simpa [inside] using hq
    · exact .inr (h1 h hq)
  | .substep _ _ e, h, hq => by
    have h1 := inside_trans (p := p) (q := q) e
    simp only [inside, List.mem_cons] at h ⊢
    rcases h with rfl | h
    · simpa [inside] using hq
    · exact .inr (h1 h hq)
  | .fetchPre _ e, h, hq => by
    have h1 := inside_trans (p := p) (q := q) e
    simp only [inside, List.mem_cons] at h ⊢
    rcases h with rfl | h
    · simpa [inside] using hq
    · exact .inr (h1 h hq)
  | .fetchFby _ l r, h, hq => by
    have h1 := inside_trans (p := p) (q := q) l
    have h2 := inside_trans (p := p) (q := q) r
    simp only [inside, List.mem_cons, List.mem_append] at h ⊢
    rcases h with rfl | h | h
    · simpa [inside] using hq
    · exact .inr (.inl (h1 h hq))
    · exact .inr (.inr (h2 h hq))
  | .bin _ l r, h, hq => by
    have h1 := inside_trans (p := p) (q := q) l
    have h2 := inside_trans (p := p) (q := q) r
    simp only [inside, List.mem_cons, List.mem_append] at h ⊢
    rcases h with rfl | h | h
    · simpa [inside] using hq
    · exact .inr (.inl (h1 h hq))
    · exact .inr (.inr (h2 h hq))
  | .cmp _ l r, h, hq => by
    have h1 := inside_trans (p := p) (q := q) l
    have h2 := inside_trans (p := p) (q := q) r
    simp only [inside, List.mem_cons, List.mem_append] at h ⊢
    rcases h with rfl | h | h
    · simpa [inside] using hq
    · exact .inr (.inl (h1 h hq))
    · exact .inr (.inr (h2 h hq))
  | .later _ l r, h, hq => by
    have h1 := inside_trans (p := p) (q := q) l
    have h2 := inside_trans (p := p) (q := q) r
    simp only [inside, List.mem_cons, List.mem_append] at h ⊢
    rcases h with rfl | h | h
    · simpa [inside] using hq
    · exact .inr (.inl (h1 h hq))
    · exact .inr (.inr (h2 h hq))
  | .flip _ l r, h, hq => by
    have h1 := inside_trans (p := p) (q := q) l
    have h2 := inside_trans (p := p) (q := q) r
    simp only [inside, List.mem_cons, List.mem_append] at h ⊢
    rcases h with rfl | h | h
    · simpa [inside] using hq
    · exact .inr (.inl (h1 h hq))
    · exact .inr (.inr (h2 h hq))
  | .clock _ l r, h, hq => by
    have h1 := inside_trans (p := p) (q := q) l
    have h2 := inside_trans (p := p) (q := q) r
    simp only [inside, List.mem_cons, List.mem_append] at h ⊢
    rcases h with rfl | h | h
    · simpa [inside] using hq
    · exact .inr (.inl (h1 h hq))
    · exact .inr (.inr (h2 h hq))
  | .ifx b l r, h, hq => by
    have h0 := inside_trans (p := p) (q := q) b
    have h1 := inside_trans (p := p) (q := q) l
    have h2 := inside_trans (p := p) (q := q) r
    simp only [inside, List.mem_cons, List.mem_append] at h ⊢
    rcases h with rfl | h | h | h
    · simpa [inside] using hq
    · exact .inr (.inl (h0 h hq))
    · exact .inr (.inr (.inl (h1 h hq)))
    · exact .inr (.inr (.inr (h2 h hq)))
  | .merge b l r, h, hq => by
    have h0 := inside_trans (p := p) (q := q) b
    have h1 := inside_trans (p := p) (q := q) l
    have h2 := inside_trans (p := p) (q := q) r
    simp only [inside, List.mem_cons, List.mem_append] at h ⊢
    rcases h with rfl | h | h | h
    · simpa [inside] using hq
    · exact .inr (.inl (h0 h hq))
    · exact .inr (.inr (.inl (h1 h hq)))
    · exact .inr (.inr (.inr (h2 h hq)))
theorem inside_transList {p q : Expr} : (es : List Expr) → p ∈ insideList es → q ∈ inside p →
    q ∈ insideList es
  | [], h, hq => by cases h
  | e :: es, h, hq => by
    have h1 := inside_trans (p := p) (q := q) e
    have h2 := inside_transList (p := p) (q := q) es
    simp only [insideList, List.mem_append] at h ⊢
    rcases h with h | h
    · exact .inl (h1 h hq)
    · exact .inr (h2 h hq)
end

section
variable {o : TyOpts} {sigs : String → Option Sig} {consts : String → Option TyBase}
  {src : SrcNode} {n n₁ n₂ : Node} {c : ExprCtx} {ctx : TyCtx} {clk : Nat → Expr} {m : Depths}
  {K : String → Option Clk}

/-- What feeds the registers of a node is found in its equations. -/
theorem final_feeds (hf : Final true o sigs consts src n n₁ n₂ c ctx clk m K) {S : List String}
    {one : Bool} (hg : ∀ st ∈ src.defs, ∀ x ∈ guards (SrcStmt.expr st), x ∈ S)
    (ho : one = true → ∀ st ∈ src.defs, noOneTuple (SrcStmt.expr st) = true) {id : Nat} {f : Expr}
    (hu : .updateRegister id f ∈ n.stmts) : AllFine S one f := by
  obtain ⟨new, e1, -, e3⟩ := stmts_come hf.stmts
  simp only [List.nil_append] at e1
  subst e1
  obtain ⟨st, h2, h3⟩ := List.mem_flatMap.1 ((hf.built.fetched id f).2 (hf.update_mem.1 hu))
  have key : ∀ e, Stmt.source st = [e] → (id, f) ∈ Spec.fetches e → AllFine S one f := by
    intro e hs he
    obtain ⟨s, h4, h5⟩ := e3 st h2 (by rw [hs]; simp)
    have hfine : AllFine S one e := by
      cases s with
      | def_ p x =>
        obtain ⟨c₀, c₁, y, g1, -, rfl⟩ := h5
        simp only [Stmt.source, List.cons.injEq, and_true] at hs
        subst hs
        exact fine_translate x g1 (hg _ h4) fun h => ho h _ h4
      | assert x =>
        obtain ⟨c₀, c₁, y, g1, -, rfl⟩ := h5
        simp only [Stmt.source, List.cons.injEq, and_true] at hs
        subst hs
        exact fine_translate x g1 (hg _ h4) fun h => ho h _ h4
    intro q hq
    rcases fetches_inside e he with h6 | ⟨i, h6⟩
    · exact hfine q (inside_trans e h6 (by simp [inside, hq]))
    · exact hfine q (inside_trans e h6 (by simp [inside, hq]))
  cases st with
  | let_ p e => exact key e rfl h3
  | assert e => exact key e rfl h3
  | _ => cases h3

/-- When all its clocks are inputs, the code of a node is in order. -/
theorem input_clocks (h : Passes true o sigs consts src n) (hg : InputGuards src) :
    InputClocks n := by
  obtain ⟨n₁, n₂, c, ctx, clk, m, K, hf⟩ := passes_final h
  have e5 : n.inputs.map (·.name) = argNames src.inputs := by
    rw [hf.final, hf.same, hf.start, ← args_names]
    simp [Node.withDepths, setDepths, Node.withClocks, Node.fill, Function.comp_def]
  intro id i cl hi x hx
  rw [e5]
  obtain ⟨f, hu⟩ := mem_updated.1 ((hf.wired.paired id).1 (mem_initialised'.2 ⟨_, _, hi⟩))
  obtain ⟨k, hk, hc⟩ := final_regs hf id f hu _ _ hi
  cases hc
  have hK : ∀ x k, K x = some k → ClkIn (argNames src.inputs) k := by
    intro x k hx
    have := final_known hf x k hx
    subst this
    unfold SrcNode.clocks
    split
    · rename_i a ha
      have hm := List.mem_of_find?_eq_some ha
      cases hcl : a.clk with
      | explicit b y =>
        have := hg.declared a hm b y hcl
        cases b <;> exact this
      | _ => trivial
    · trivial
  have := clkIn_hasClock hK f hk
    (final_feeds hf (one := false) hg.used (fun h => by cases h) hu)
  have hx' := mem_parts_of_part hx
  cases k <;> simp [clockExpr, parts] at hx'
  · subst hx'; exact this
  · subst hx'; exact this

/-- Without tuples of one element in the source, there are none in registers. -/
theorem flat_registers (h : Passes true o sigs consts src n) (hw : ∀ f s, sigs f = some s → s.Wf)
    (ho : ∀ st ∈ src.defs, noOneTuple (SrcStmt.expr st) = true) : FlatRegisters n := by
  obtain ⟨n₁, n₂, c, ctx, clk, m, K, hf⟩ := passes_final h
  intro t ht
  obtain ⟨id, hid, he⟩ := List.getElem_of_mem ht
  have e : n.registers.length = c.registers := by
    rw [hf.final, hf.same, hf.start]; simp [Node.withDepths, Node.withClocks, Node.fill]
  have hup : id ∈ updated n.stmts := by
    rw [hf.final_stmts, updated_withClocks, (updated_perm hf.perm).mem_iff,
      hf.built.updates.mem_iff]
    simp [regsBetween]
    omega
  obtain ⟨f, hu⟩ := mem_updated.1 hup
  have := hf.runTyped hw _ hu
  cases this with
  | @update _ _ t' hty hr =>
    change n.registers[id]? = some (some t') at hr
    rw [List.getElem?_eq_getElem hid, he] at hr
    cases hr
    refine flat_typed (S := src.defs.flatMap fun st => guards (SrcStmt.expr st))
      (Γ := runEnv sigs consts n) ?_ hty (final_feeds hf (fun st hst x hx => ?_) (fun _ => ho) hu)
    · rintro i t u ⟨b, gens, ins, outs, θ, -, -, -, -, rfl⟩
      exact noSingleton_flat θ outs
    · exact List.mem_flatMap.2 ⟨st, hst, hx⟩

end

end Chandeliers.Uni
