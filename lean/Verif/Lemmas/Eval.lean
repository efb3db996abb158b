import Verif.San.Eval

/-! What evaluation leaves unchanged. -/

set_option autoImplicit false
set_option linter.unusedSectionVars false

namespace Chandeliers.San

theorem ok_bind {α β : Type} {m : R α} {f : α → R β} {b : β} :
    (m >>= f) = .ok b ↔ ∃ a, m = .ok a ∧ f a = .ok b := by
  cases m with
  | ok a =>
    constructor
    · intro h; exact ⟨a, rfl, h⟩
    · rintro ⟨a', h1, h2⟩; cases h1; exact h2
  | error p =>
    constructor
    · intro h; cases h
    · rintro ⟨a', h1, _⟩; cases h1

variable (A : Arith) (glob : Globals) (ms : List Machine)

/-- Evaluation may change the subnodes and the flips only. -/
def Frame (s s' : NodeState ms) : Prop :=
  s'.clock = s.clock ∧ s'.hist = s.hist ∧ s'.regs = s.regs

theorem Frame.refl (s : NodeState ms) : Frame ms s s := ⟨rfl, rfl, rfl⟩

theorem Frame.trans {s s' s'' : NodeState ms} (h : Frame ms s s') (h' : Frame ms s' s'') :
    Frame ms s s'' :=
  ⟨h'.1.trans h.1, h'.2.1.trans h.2.1, h'.2.2.trans h.2.2⟩

mutual
theorem eval_frame (env : Env) : (e : Expr) → {s s' : NodeState ms} → {v : Value} →
    eval A glob ms env e s = .ok (v, s') → Frame ms s s'
  | .lit _, s, s', v, h => by simp only [eval] at h; cases h; exact Frame.refl ms s
  | .global x, s, s', v, h => by
    simp only [eval] at h
    split at h <;> cases h
    exact Frame.refl ms s
  | .var x d, s, s', v, h => by
    simp only [eval] at h
    obtain ⟨v', h1, h2⟩ := ok_bind.1 h
    cases h2; exact Frame.refl ms s
  | .tuple es, s, s', v, h => by
    simp only [eval] at h
    obtain ⟨⟨vs, s1⟩, h1, h2⟩ := ok_bind.1 h
    cases h2; exact evalList_frame env es h1
  | .dummyPre e, s, s', v, h => by simp only [eval] at h; exact eval_frame env e h
  | .dummyParen e, s, s', v, h => by simp only [eval] at h; exact eval_frame env e h
  | .bin op l r, s, s', v, h => by
    simp only [eval] at h
    obtain ⟨⟨v1, s1⟩, h1, h⟩ := ok_bind.1 h
    obtain ⟨⟨v2, s2⟩, h2, h⟩ := ok_bind.1 h
    obtain ⟨_, _, h⟩ := ok_bind.1 h
    obtain ⟨_, _, h⟩ := ok_bind.1 h
    obtain ⟨_, _, h⟩ := ok_bind.1 h
    cases h
    exact (eval_frame env l h1).trans ms (eval_frame env r h2)
  | .un op e, s, s', v, h => by
    simp only [eval] at h
    obtain ⟨⟨v1, s1⟩, h1, h⟩ := ok_bind.1 h
    obtain ⟨_, _, h⟩ := ok_bind.1 h
    obtain ⟨_, _, h⟩ := ok_bind.1 h
    cases h
    exact eval_frame env e h1
  | .cmp op l r, s, s', v, h => by
    simp only [eval] at h
    obtain ⟨⟨v1, s1⟩, h1, h⟩ := ok_bind.1 h
    obtain ⟨⟨v2, s2⟩, h2, h⟩ := ok_bind.1 h
    obtain ⟨_, _, h⟩ := ok_bind.1 h
    obtain ⟨_, _, h⟩ := ok_bind.1 h
    obtain ⟨_, _, h⟩ := ok_bind.1 h
    cases h
    exact (eval_frame env l h1).trans ms (eval_frame env r h2)
  | .clock op e a, s, s', v, h => by
    simp only [eval] at h
    obtain ⟨⟨v1, s1⟩, h1, h⟩ := ok_bind.1 h
    obtain ⟨_, _, h⟩ := ok_bind.1 h
    obtain ⟨⟨v2, s2⟩, h2, h⟩ := ok_bind.1 h
    have : Frame ms s s2 := (eval_frame env a h1).trans ms (eval_frame env e h2)
    cases op <;> (cases h; exact this)
  | .later d b a, s, s', v, h => by
    simp only [eval] at h
    obtain ⟨⟨v1, s1⟩, h1, h⟩ := ok_bind.1 h
    have := eval_frame env a h1
    simp only at h
    split at h
    · cases h; exact this
    · exact this.trans ms (eval_frame env b h)
  | .fetchPre id _, s, s', v, h => by
    simp only [eval] at h
    split at h <;> cases h
    exact Frame.refl ms s
  | .fetchFby id _ _, s, s', v, h => by
    simp only [eval] at h
    split at h <;> cases h
    exact Frame.refl ms s
  | .flip id i c, s, s', v, h => by
    simp only [eval] at h
    obtain ⟨⟨v1, s1⟩, h1, h⟩ := ok_bind.1 h
    obtain ⟨⟨v2, s2⟩, h2, h⟩ := ok_bind.1 h
    have := (eval_frame env i h1).trans ms (eval_frame env c h2)
    simp only at h
    split at h
    · cases h; exact this
    · split at h
      · cases h; exact this
      · cases h
  | .ifx c y n, s, s', v, h => by
    simp only [eval] at h
    obtain ⟨⟨v1, s1⟩, h1, h⟩ := ok_bind.1 h
    obtain ⟨⟨v2, s2⟩, h2, h⟩ := ok_bind.1 h
    obtain ⟨⟨v3, s3⟩, h3, h⟩ := ok_bind.1 h
    obtain ⟨_, _, h⟩ := ok_bind.1 h
    cases h
    exact ((eval_frame env y h1).trans ms (eval_frame env n h2)).trans ms (eval_frame env c h3)
  | .merge c y n, s, s', v, h => by
    simp only [eval] at h
    obtain ⟨⟨v1, s1⟩, h1, h⟩ := ok_bind.1 h
    obtain ⟨_, _, h⟩ := ok_bind.1 h
    obtain ⟨⟨v2, s2⟩, h2, h⟩ := ok_bind.1 h
    obtain ⟨⟨v3, s3⟩, h3, h⟩ := ok_bind.1 h
    cases h
    exact ((eval_frame env c h1).trans ms (eval_frame env y h2)).trans ms (eval_frame env n h3)
  | .substep d id a, s, s', v, h => by
    simp only [eval] at h
    split at h
    · obtain ⟨⟨v1, s1⟩, h1, h⟩ := ok_bind.1 h
      obtain ⟨⟨_, _⟩, _, h⟩ := ok_bind.1 h
      have := eval_frame env a h1
      cases h
      exact ⟨this.1, this.2.1, this.2.2⟩
    · split at h <;> cases h
      exact Frame.refl ms s
theorem evalList_frame (env : Env) : (es : List Expr) → {s s' : NodeState ms} → {vs : List Value} →
    evalList A glob ms env es s = .ok (vs, s') → Frame ms s s'
  | [], s, s', vs, h => by simp only [evalList] at h; cases h; exact Frame.refl ms s
  | e :: es, s, s', vs, h => by
    simp only [evalList] at h
    obtain ⟨⟨v1, s1⟩, h1, h⟩ := ok_bind.1 h
    obtain ⟨⟨v2, s2⟩, h2, h⟩ := ok_bind.1 h
    cases h
    exact (eval_frame env e h1).trans ms (evalList_frame env es h2)
end

theorem updReg_frame {s s' : NodeState ms} {id : Nat} {f : Register Scalar → Register Scalar}
    (h : updReg ms s id f = .ok s') : s'.clock = s.clock ∧ s'.hist = s.hist := by
  unfold updReg at h
  split at h <;> cases h
  exact ⟨rfl, rfl⟩

/-- Statements change neither the clock nor the histories. -/
theorem exec_frame (st : Stmt) {env env' : Env} {s s' : NodeState ms}
    (h : exec A glob ms st (env, s) = .ok (env', s')) : s'.clock = s.clock ∧ s'.hist = s.hist := by
  cases st with
  | let_ t e =>
    simp only [exec] at h
    obtain ⟨⟨v1, s1⟩, h1, h⟩ := ok_bind.1 h
    obtain ⟨_, _, h⟩ := ok_bind.1 h
    cases h
    have := eval_frame A glob ms env e h1
    exact ⟨this.1, this.2.1⟩
  | assert e =>
    simp only [exec] at h
    obtain ⟨⟨v1, s1⟩, h1, h⟩ := ok_bind.1 h
    obtain ⟨_, _, h⟩ := ok_bind.1 h
    obtain ⟨_, _, h⟩ := ok_bind.1 h
    cases h
    have := eval_frame A glob ms env e h1
    exact ⟨this.1, this.2.1⟩
  | updateRegister id e =>
    simp only [exec] at h
    obtain ⟨⟨v1, s1⟩, h1, h⟩ := ok_bind.1 h
    obtain ⟨s2, h2, h⟩ := ok_bind.1 h
    cases h
    have h1 := eval_frame A glob ms env e h1
    have h2 := updReg_frame ms h2
    exact ⟨h2.1.trans h1.1, h2.2.trans h1.2.1⟩
  | initRegister id val clk =>
    cases clk with
    | none => simp only [exec] at h; cases h
    | some clk =>
      simp only [exec] at h
      obtain ⟨⟨v1, s1⟩, h1, h⟩ := ok_bind.1 h
      obtain ⟨_, _, h⟩ := ok_bind.1 h
      obtain ⟨s2, h2, h⟩ := ok_bind.1 h
      have h1 := eval_frame A glob ms env clk h1
      have h2 := updReg_frame ms h2
      have h12 : s2.clock = s.clock ∧ s2.hist = s.hist := ⟨h2.1.trans h1.1, h2.2.trans h1.2.1⟩
      cases val with
      | none => simp only at h; cases h; exact h12
      | some val =>
        simp only at h
        obtain ⟨⟨v3, s3⟩, h3, h⟩ := ok_bind.1 h
        obtain ⟨s4, h4, h⟩ := ok_bind.1 h
        cases h
        have h3 := eval_frame A glob ms env val h3
        have h4 := updReg_frame ms h4
        exact ⟨h4.1.trans (h3.1.trans h12.1), h4.2.trans (h3.2.1.trans h12.2)⟩

theorem execAll_frame : ∀ (sts : List Stmt) {env env' : Env} {s s' : NodeState ms},
    execAll A glob ms sts (env, s) = .ok (env', s') → s'.clock = s.clock ∧ s'.hist = s.hist
  | [], env, env', s, s', h => by simp only [execAll] at h; cases h; exact ⟨rfl, rfl⟩
  | st :: sts, env, env', s, s', h => by
    simp only [execAll] at h
    obtain ⟨⟨env1, s1⟩, h1, h⟩ := ok_bind.1 h
    have h1 := exec_frame A glob ms st h1
    have h2 := execAll_frame sts h
    exact ⟨h2.1.trans h1.1, h2.2.trans h1.2⟩

end Chandeliers.San
