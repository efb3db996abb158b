import Verif.Lemmas.Machine
import Verif.Lemmas.Positivity
import Verif.Lemmas.TimeTravel

/-! Reads that stay within the histories do not panic. -/

set_option autoImplicit false
set_option linter.unusedSectionVars false

namespace Chandeliers.San
open Chandeliers.Spec

theorem err_bind {α β : Type} {m : R α} {f : α → R β} {p : Panic} :
    (m >>= f) = .error p ↔ m = .error p ∨ ∃ a, m = .ok a ∧ f a = .error p := by
  cases m with
  | ok a =>
    constructor
    · intro h; exact .inr ⟨a, rfl, h⟩
    · rintro (h | ⟨a', h1, h2⟩)
      · cases h
      · cases h1; exact h2
  | error q =>
    constructor
    · intro h; cases h; exact .inl rfl
    · rintro (h | ⟨a', h1, h2⟩)
      · cases h; rfl
      · cases h1

/-- The two panics of `Ago::ago`. -/
def _root_.Chandeliers.Panic.isAgo (p : Panic) : Prop := p = .agoZero ∨ p = .agoTooFar

theorem asLeaf_err {v : Value} {p : Panic} (h : asLeaf v = .error p) : p = .rejected := by
  unfold asLeaf at h; split at h <;> cases h; rfl

theorem asBool_err {v : Value} {p : Panic} (h : asBool v = .error p) : p = .rejected := by
  unfold asBool at h; split at h <;> cases h; rfl

theorem checked_err {A : Arith} {r : Int} {p : Panic} (h : checked A r = .error p) : p = .arith := by
  unfold checked at h
  split at h
  · cases h
  · split at h <;> cases h; rfl

theorem intBin_err {A : Arith} {op : BinOp} {x y : Int64} {p : Panic}
    (h : intBin A op x y = .error p) : p = .arith := by
  cases op <;> simp only [intBin] at h
  case add | sub | mul => exact checked_err h
  case div | rem =>
    split at h
    · cases h; rfl
    · split at h <;> cases h; rfl
  all_goals cases h

theorem scalarBin_err {A : Arith} {op : BinOp} {x y : Scalar} {p : Panic}
    (h : scalarBin A op x y = .error p) : p = .arith ∨ p = .rejected := by
  unfold scalarBin at h
  split at h
  · left
    rename_i a b
    cases h1 : intBin A op a b with
    | error q => rw [h1] at h; cases h; exact intBin_err h1
    | ok q => rw [h1] at h; cases h
  all_goals first | (cases h; exact .inr rfl) | cases h

theorem scalarUn_err {A : Arith} {op : UnOp} {x : Scalar} {p : Panic}
    (h : scalarUn A op x = .error p) : p = .arith ∨ p = .rejected := by
  unfold scalarUn at h
  split at h
  · left
    rename_i a
    cases h1 : checked A (-a.toInt) with
    | error q => rw [h1] at h; cases h; exact checked_err h1
    | ok q => rw [h1] at h; cases h
  all_goals first | (cases h; exact .inr rfl) | cases h

theorem binop_err {f : Scalar → Scalar → R Scalar} {x y : Nillable Scalar} {p : Panic}
    (h : x.binop f y = .error p) : ∃ a b, x = .defined a ∧ y = .defined b ∧ f a b = .error p := by
  cases x with
  | nil => cases y <;> (unfold Nillable.binop at h; cases h)
  | defined a =>
    cases y with
    | nil => unfold Nillable.binop at h; cases h
    | defined b =>
      refine ⟨a, b, rfl, rfl, ?_⟩
      unfold Nillable.binop at h
      cases h1 : f a b with
      | error q => simp only [h1] at h; cases h; rfl
      | ok q => simp only [h1] at h; cases h

theorem unop_err {f : Scalar → R Scalar} {x : Nillable Scalar} {p : Panic}
    (h : x.unop f = .error p) : ∃ a, x = .defined a ∧ f a = .error p := by
  cases x with
  | nil => unfold Nillable.unop at h; cases h
  | defined a =>
    refine ⟨a, rfl, ?_⟩
    unfold Nillable.unop at h
    cases h1 : f a with
    | error q => simp only [h1] at h; cases h; rfl
    | ok q => simp only [h1] at h; cases h

theorem scalarCmp_err {A : Arith} {op : CmpOp} {x y : Nillable Scalar} {p : Panic}
    (h : scalarCmp A op x y = .error p) : p = .rejected := by
  unfold scalarCmp at h
  split at h <;> cases h
  rfl

theorem not_ago_rejected {p : Panic} (h : p = .rejected) : ¬ p.isAgo := by
  subst h; simp [Panic.isAgo]

theorem not_ago_arith {p : Panic} (h : p = .arith ∨ p = .rejected) : ¬ p.isAgo := by
  rcases h with rfl | rfl <;> simp [Panic.isAgo]

variable (A : Arith) (glob : Globals) (ms : List Machine)

/-- Every listed read of the past is within the capacity of an existing field. -/
def Within (hist : String → Option AnyHist) (l : List (String × Nat)) : Prop :=
  ∀ x d, (x, d + 1) ∈ l → ∃ h, hist x = some h ∧ d ≤ h.1

theorem Within.left {hist : String → Option AnyHist} {l l' : List (String × Nat)}
    (h : Within hist (l ++ l')) : Within hist l :=
  fun x d hx => h x d (List.mem_append_left _ hx)

theorem Within.right {hist : String → Option AnyHist} {l l' : List (String × Nat)}
    (h : Within hist (l ++ l')) : Within hist l' :=
  fun x d hx => h x d (List.mem_append_right _ hx)

theorem readVar_within {env : Env} {s : NodeState ms} {x : String} {d : Nat}
    (h : Within s.hist [(x, d + 1)]) : ∃ v, readVar ms env s x (d + 1) = .ok v := by
  obtain ⟨hh, h1, h2⟩ := h x d (by simp)
  unfold readVar
  rw [h1]
  simp only
  rw [Hist.ago_eq]
  have hlt : d < hh.2.toList.length := by rw [Hist.length_toList]; omega
  rw [List.getElem?_eq_getElem hlt]
  exact ⟨_, rfl⟩

/-- No step of a subnode panics by looking too far back. -/
def SubsNoAgo : Prop := ∀ m ∈ ms, ∀ is p, Panic.isAgo p → m.run is ≠ .error p

mutual
theorem eval_reach (env : Env) : (e : Expr) → {s s' : NodeState ms} → {v : Value} →
    States.All Reach ms s.nodes → eval A glob ms env e s = .ok (v, s') →
    States.All Reach ms s'.nodes
  | .lit _, s, s', v, hr, h => by simp only [eval] at h; cases h; exact hr
  | .global x, s, s', v, hr, h => by
    simp only [eval] at h
    split at h <;> cases h
    exact hr
  | .var x d, s, s', v, hr, h => by
    simp only [eval] at h
    obtain ⟨v', h1, h2⟩ := ok_bind.1 h
    cases h2; exact hr
  | .tuple es, s, s', v, hr, h => by
    simp only [eval] at h
    obtain ⟨⟨vs, s1⟩, h1, h2⟩ := ok_bind.1 h
    cases h2; exact evalList_reach env es hr h1
  | .dummyPre e, s, s', v, hr, h => by simp only [eval] at h; exact eval_reach env e hr h
  | .dummyParen e, s, s', v, hr, h => by simp only [eval] at h; exact eval_reach env e hr h
  | .bin op l r, s, s', v, hr, h => by
    simp only [eval] at h
    obtain ⟨⟨v1, s1⟩, h1, h⟩ := ok_bind.1 h
    obtain ⟨⟨v2, s2⟩, h2, h⟩ := ok_bind.1 h
    obtain ⟨_, _, h⟩ := ok_bind.1 h
    obtain ⟨_, _, h⟩ := ok_bind.1 h
    obtain ⟨_, _, h⟩ := ok_bind.1 h
    cases h
    exact eval_reach env r (eval_reach env l hr h1) h2
  | .un op e, s, s', v, hr, h => by
    simp only [eval] at h
    obtain ⟨⟨v1, s1⟩, h1, h⟩ := ok_bind.1 h
    obtain ⟨_, _, h⟩ := ok_bind.1 h
    obtain ⟨_, _, h⟩ := ok_bind.1 h
    cases h
    exact eval_reach env e hr h1
  | .cmp op l r, s, s', v, hr, h => by
    simp only [eval] at h
    obtain ⟨⟨v1, s1⟩, h1, h⟩ := ok_bind.1 h
    obtain ⟨⟨v2, s2⟩, h2, h⟩ := ok_bind.1 h
    obtain ⟨_, _, h⟩ := ok_bind.1 h
    obtain ⟨_, _, h⟩ := ok_bind.1 h
    obtain ⟨_, _, h⟩ := ok_bind.1 h
    cases h
    exact eval_reach env r (eval_reach env l hr h1) h2
  | .clock op e a, s, s', v, hr, h => by
    simp only [eval] at h
    obtain ⟨⟨v1, s1⟩, h1, h⟩ := ok_bind.1 h
    obtain ⟨_, _, h⟩ := ok_bind.1 h
    obtain ⟨⟨v2, s2⟩, h2, h⟩ := ok_bind.1 h
    have : States.All Reach ms s2.nodes := eval_reach env e (eval_reach env a hr h1) h2
    cases op <;> (cases h; exact this)
  | .later d b a, s, s', v, hr, h => by
    simp only [eval] at h
    obtain ⟨⟨v1, s1⟩, h1, h⟩ := ok_bind.1 h
    have := eval_reach env a hr h1
    simp only at h
    split at h
    · cases h; exact this
    · exact eval_reach env b this h
  | .fetchPre id _, s, s', v, hr, h => by
    simp only [eval] at h
    split at h <;> cases h
    exact hr
  | .fetchFby id _ _, s, s', v, hr, h => by
    simp only [eval] at h
    split at h <;> cases h
    exact hr
  | .flip id i c, s, s', v, hr, h => by
    simp only [eval] at h
    obtain ⟨⟨v1, s1⟩, h1, h⟩ := ok_bind.1 h
    obtain ⟨⟨v2, s2⟩, h2, h⟩ := ok_bind.1 h
    have := eval_reach env c (eval_reach env i hr h1) h2
    simp only at h
    split at h
    · cases h; exact this
    · split at h
      · cases h; exact this
      · cases h
  | .ifx c y n, s, s', v, hr, h => by
    simp only [eval] at h
    obtain ⟨⟨v1, s1⟩, h1, h⟩ := ok_bind.1 h
    obtain ⟨⟨v2, s2⟩, h2, h⟩ := ok_bind.1 h
    obtain ⟨⟨v3, s3⟩, h3, h⟩ := ok_bind.1 h
    obtain ⟨_, _, h⟩ := ok_bind.1 h
    cases h
    exact eval_reach env c (eval_reach env n (eval_reach env y hr h1) h2) h3
  | .merge c y n, s, s', v, hr, h => by
    simp only [eval] at h
    obtain ⟨⟨v1, s1⟩, h1, h⟩ := ok_bind.1 h
    obtain ⟨_, _, h⟩ := ok_bind.1 h
    obtain ⟨⟨v2, s2⟩, h2, h⟩ := ok_bind.1 h
    obtain ⟨⟨v3, s3⟩, h3, h⟩ := ok_bind.1 h
    cases h
    exact eval_reach env n (eval_reach env y (eval_reach env c hr h1) h2) h3
  | .substep d id a, s, s', v, hr, h => by
    simp only [eval] at h
    split at h
    · obtain ⟨⟨v1, s1⟩, h1, h⟩ := ok_bind.1 h
      obtain ⟨⟨_, _⟩, h2, h⟩ := ok_bind.1 h
      have := States.all_stepAt (P := Reach) (fun m s v o s' => reach_step) ms s1.nodes id v1 _ _
        (eval_reach env a hr h1) h2
      cases h
      exact this
    · split at h <;> cases h
      exact hr
theorem evalList_reach (env : Env) : (es : List Expr) → {s s' : NodeState ms} → {vs : List Value} →
    States.All Reach ms s.nodes → evalList A glob ms env es s = .ok (vs, s') →
    States.All Reach ms s'.nodes
  | [], s, s', vs, hr, h => by simp only [evalList] at h; cases h; exact hr
  | e :: es, s, s', vs, hr, h => by
    simp only [evalList] at h
    obtain ⟨⟨v1, s1⟩, h1, h⟩ := ok_bind.1 h
    obtain ⟨⟨v2, s2⟩, h2, h⟩ := ok_bind.1 h
    cases h
    exact evalList_reach env es (eval_reach env e hr h1) h2
end

variable {A glob ms}

/-- What an expression needs not to read too far. -/
structure Ready (s : NodeState ms) (l : List (String × Nat)) : Prop where
  within : Within s.hist l
  reach : States.All Reach ms s.nodes

theorem Ready.left {s : NodeState ms} {l l' : List (String × Nat)} (h : Ready s (l ++ l')) :
    Ready s l := ⟨h.within.left, h.reach⟩

theorem Ready.next {env : Env} {e : Expr} {s s' : NodeState ms} {v : Value}
    {l l' : List (String × Nat)} (h : Ready s (l ++ l'))
    (he : eval A glob ms env e s = .ok (v, s')) : Ready s' l' :=
  ⟨by rw [(eval_frame A glob ms env e he).2.1]; exact h.within.right,
   eval_reach A glob ms env e h.reach he⟩

theorem Ready.prev {env : Env} {e : Expr} {s s' : NodeState ms} {v : Value}
    {l l' : List (String × Nat)} (h : Ready s (l ++ l'))
    (he : eval A glob ms env e s = .ok (v, s')) : Ready s' l :=
  ⟨by rw [(eval_frame A glob ms env e he).2.1]; exact h.within.left,
   eval_reach A glob ms env e h.reach he⟩

theorem Ready.same {env : Env} {e : Expr} {s s' : NodeState ms} {v : Value}
    {l : List (String × Nat)} (h : Ready s l)
    (he : eval A glob ms env e s = .ok (v, s')) : Ready s' l :=
  ⟨by rw [(eval_frame A glob ms env e he).2.1]; exact h.within,
   eval_reach A glob ms env e h.reach he⟩

theorem Ready.right {s : NodeState ms} {l l' : List (String × Nat)} (h : Ready s (l ++ l')) :
    Ready s l' := ⟨h.within.right, h.reach⟩

variable (hsub : SubsNoAgo ms)
include hsub

mutual
theorem eval_noAgo (env : Env) : (e : Expr) → {s : NodeState ms} → {p : Panic} →
    Ready s (occurrences e) → eval A glob ms env e s = .error p → ¬ p.isAgo
  | .lit _, s, p, hr, h => by simp only [eval] at h; cases h
  | .global x, s, p, hr, h => by
    simp only [eval] at h
    split at h <;> cases h
    exact not_ago_rejected rfl
  | .var x 0, s, p, hr, h => by
    simp only [eval] at h
    rcases err_bind.1 h with h | ⟨_, _, h⟩
    · unfold readVar at h
      simp only at h
      split at h <;> cases h
      exact not_ago_rejected rfl
    · cases h
  | .var x (d + 1), s, p, hr, h => by
    simp only [eval] at h
    obtain ⟨v, hv⟩ := readVar_within ms (env := env) hr.within
    rw [hv] at h
    cases h
  | .tuple es, s, p, hr, h => by
    simp only [eval] at h
    rcases err_bind.1 h with h | ⟨_, _, h⟩
    · exact evalList_noAgo env es hr h
    · cases h
  | .dummyPre e, s, p, hr, h => by simp only [eval] at h; exact eval_noAgo env e hr h
  | .dummyParen e, s, p, hr, h => by simp only [eval] at h; exact eval_noAgo env e hr h
  | .bin op l r, s, p, hr, h => by
    simp only [eval] at h
    rcases err_bind.1 h with h | ⟨⟨v1, s1⟩, h1, h⟩
    · exact eval_noAgo env l hr.left h
    rcases err_bind.1 h with h | ⟨⟨v2, s2⟩, h2, h⟩
    · exact eval_noAgo env r (Ready.next hr h1) h
    rcases err_bind.1 h with h | ⟨_, _, h⟩
    · exact not_ago_rejected (asLeaf_err h)
    rcases err_bind.1 h with h | ⟨_, _, h⟩
    · exact not_ago_rejected (asLeaf_err h)
    rcases err_bind.1 h with h | ⟨_, _, h⟩
    · obtain ⟨_, _, _, _, h⟩ := binop_err h
      exact not_ago_arith (scalarBin_err h)
    · cases h
  | .un op e, s, p, hr, h => by
    simp only [eval] at h
    rcases err_bind.1 h with h | ⟨⟨v1, s1⟩, h1, h⟩
    · exact eval_noAgo env e hr h
    rcases err_bind.1 h with h | ⟨_, _, h⟩
    · exact not_ago_rejected (asLeaf_err h)
    rcases err_bind.1 h with h | ⟨_, _, h⟩
    · obtain ⟨_, _, h⟩ := unop_err h
      exact not_ago_arith (scalarUn_err h)
    · cases h
  | .cmp op l r, s, p, hr, h => by
    simp only [eval] at h
    rcases err_bind.1 h with h | ⟨⟨v1, s1⟩, h1, h⟩
    · exact eval_noAgo env l hr.left h
    rcases err_bind.1 h with h | ⟨⟨v2, s2⟩, h2, h⟩
    · exact eval_noAgo env r (Ready.next hr h1) h
    rcases err_bind.1 h with h | ⟨_, _, h⟩
    · exact not_ago_rejected (asLeaf_err h)
    rcases err_bind.1 h with h | ⟨_, _, h⟩
    · exact not_ago_rejected (asLeaf_err h)
    rcases err_bind.1 h with h | ⟨_, _, h⟩
    · exact not_ago_rejected (scalarCmp_err h)
    · cases h
  | .clock op e a, s, p, hr, h => by
    simp only [eval] at h
    rcases err_bind.1 h with h | ⟨⟨v1, s1⟩, h1, h⟩
    · exact eval_noAgo env a hr.left h
    rcases err_bind.1 h with h | ⟨_, _, h⟩
    · exact not_ago_rejected (asBool_err h)
    rcases err_bind.1 h with h | ⟨_, _, h⟩
    · exact eval_noAgo env e (Ready.next hr h1) h
    · cases op <;> cases h
  | .later d b a, s, p, hr, h => by
    simp only [eval] at h
    rcases err_bind.1 h with h | ⟨⟨v1, s1⟩, h1, h⟩
    · exact eval_noAgo env a hr.right h
    simp only at h
    split at h
    · cases h
    · exact eval_noAgo env b (Ready.prev hr h1) h
  | .fetchPre id _, s, p, hr, h => by
    simp only [eval] at h
    split at h <;> cases h
    exact not_ago_rejected rfl
  | .fetchFby id _ _, s, p, hr, h => by
    simp only [eval] at h
    split at h <;> cases h
    exact not_ago_rejected rfl
  | .flip id i c, s, p, hr, h => by
    simp only [eval] at h
    rcases err_bind.1 h with h | ⟨⟨v1, s1⟩, h1, h⟩
    · exact eval_noAgo env i hr.left h
    rcases err_bind.1 h with h | ⟨⟨v2, s2⟩, h2, h⟩
    · exact eval_noAgo env c (Ready.next hr h1) h
    simp only at h
    split at h
    · cases h
    · split at h <;> cases h
      exact not_ago_rejected rfl
  | .ifx c y n, s, p, hr, h => by
    simp only [eval] at h
    rcases err_bind.1 h with h | ⟨⟨v1, s1⟩, h1, h⟩
    · exact eval_noAgo env y hr.right.left h
    rcases err_bind.1 h with h | ⟨⟨v2, s2⟩, h2, h⟩
    · exact eval_noAgo env n (hr.same h1).right.right h
    rcases err_bind.1 h with h | ⟨⟨v3, s3⟩, h3, h⟩
    · exact eval_noAgo env c ((hr.same h1).same h2).left h
    rcases err_bind.1 h with h | ⟨_, _, h⟩
    · exact not_ago_rejected (asBool_err h)
    · cases h
  | .merge c y n, s, p, hr, h => by
    simp only [eval] at h
    rcases err_bind.1 h with h | ⟨⟨v1, s1⟩, h1, h⟩
    · exact eval_noAgo env c hr.left h
    rcases err_bind.1 h with h | ⟨_, _, h⟩
    · exact not_ago_rejected (asBool_err h)
    rcases err_bind.1 h with h | ⟨⟨v2, s2⟩, h2, h⟩
    · exact eval_noAgo env y (hr.same h1).right.left h
    rcases err_bind.1 h with h | ⟨⟨v3, s3⟩, h3, h⟩
    · exact eval_noAgo env n ((hr.same h1).same h2).right.right h
    · cases h
  | .substep d id a, s, p, hr, h => by
    simp only [eval] at h
    split at h
    · rcases err_bind.1 h with h | ⟨⟨v1, s1⟩, h1, h⟩
      · exact eval_noAgo env a hr h
      rcases err_bind.1 h with h | ⟨⟨_, _⟩, h2, h⟩
      · rcases States.stepAt_panic (P := Reach) ms s1.nodes id v1 (hr.same h1).reach h with
          ⟨m, hm, s2, hs2, h2⟩ | ⟨h2, _⟩
        · obtain ⟨is, his⟩ := reach_panic hs2 h2
          exact fun hp => hsub m hm is p hp his
        · exact not_ago_rejected h2
      · cases h
    · split at h <;> cases h
      exact not_ago_rejected rfl
theorem evalList_noAgo (env : Env) : (es : List Expr) → {s : NodeState ms} → {p : Panic} →
    Ready s (occurrencesList es) → evalList A glob ms env es s = .error p → ¬ p.isAgo
  | [], s, p, hr, h => by simp only [evalList] at h; cases h
  | e :: es, s, p, hr, h => by
    simp only [evalList] at h
    rcases err_bind.1 h with h | ⟨⟨v1, s1⟩, h1, h⟩
    · exact eval_noAgo env e hr.left h
    rcases err_bind.1 h with h | ⟨⟨v2, s2⟩, h2, h⟩
    · exact evalList_noAgo env es (Ready.next hr h1) h
    · cases h
end

end Chandeliers.San
