import Verif.San.Twice
import Verif.Lemmas.Passes

/-! Evaluating the switches of `merge` twice. -/

set_option autoImplicit false

namespace Chandeliers.San
open Chandeliers.Spec

mutual
/-- The switches of `merge` are variables, also in what registers keep. -/
def PlainSwitches : Expr → Prop
  | .lit _ => True
  | .global _ => True
  | .var _ _ => True
  | .tuple es => PlainSwitchesList es
  | .dummyPre e => PlainSwitches e
  | .dummyParen e => PlainSwitches e
  | .bin _ l r => PlainSwitches l ∧ PlainSwitches r
  | .un _ e => PlainSwitches e
  | .cmp _ l r => PlainSwitches l ∧ PlainSwitches r
  | .clock _ e b => PlainSwitches e ∧ PlainSwitches b
  | .later _ e e' => PlainSwitches e ∧ PlainSwitches e'
  | .fetchPre _ f => PlainSwitches f
  | .fetchFby _ i f => PlainSwitches i ∧ PlainSwitches f
  | .flip _ e e' => PlainSwitches e ∧ PlainSwitches e'
  | .ifx b y n => PlainSwitches b ∧ PlainSwitches y ∧ PlainSwitches n
  | .merge b y n => (∃ x d, b = .var x d) ∧ PlainSwitches y ∧ PlainSwitches n
  | .substep _ _ e => PlainSwitches e
/-- Of a list. -/
def PlainSwitchesList : List Expr → Prop
  | [] => True
  | e :: es => PlainSwitches e ∧ PlainSwitchesList es
end

mutual
theorem clocked_plain {strict : Bool} {K : String → Option Clk} : (e : Expr) → {k : Clk} →
    HasClock strict K e k → PlainSwitches e
  | .lit _, _, _ => trivial
  | .global _, _, _ => trivial
  | .var _ _, _, _ => trivial
  | .tuple _, _, .empty => trivial
  | .tuple _, _, .tuple h h' => ⟨clocked_plain _ h, clockedList_plain _ h'⟩
  | .dummyPre e, _, .dummyPre h _ => clocked_plain e h
  | .dummyParen e, _, .dummyParen h => clocked_plain e h
  | .bin _ _ _, _, .bin h h' _ => ⟨clocked_plain _ h, clocked_plain _ h'⟩
  | .un _ e, _, .un h => clocked_plain e h
  | .cmp _ _ _, _, .cmp h h' _ => ⟨clocked_plain _ h, clocked_plain _ h'⟩
  | .clock _ _ _, _, .clock h _ _ => ⟨clocked_plain _ h, trivial⟩
  | .later _ _ _, _, .later h h' _ => ⟨clocked_plain _ h, clocked_plain _ h'⟩
  | .fetchPre _ e, _, .fetchPre h => clocked_plain e h
  | .fetchFby _ _ _, _, .fetchFby h h' _ => ⟨clocked_plain _ h', clocked_plain _ h⟩
  | .flip _ _ _, _, .flip h h' _ => ⟨clocked_plain _ h, clocked_plain _ h'⟩
  | .ifx _ _ _, _, .ifx h h' h'' _ _ =>
    ⟨clocked_plain _ h, clocked_plain _ h', clocked_plain _ h''⟩
  | .merge _ _ _, _, .merge _ h' h'' _ _ => ⟨⟨_, _, rfl⟩, clocked_plain _ h', clocked_plain _ h''⟩
  | .substep _ _ e, _, .substep h => clocked_plain e h
theorem clockedList_plain {strict : Bool} {K : String → Option Clk} : (es : List Expr) → {k : Clk} →
    HaveClock strict K es k → PlainSwitchesList es
  | [], _, _ => trivial
  | _ :: _, _, .cons h _ h' => ⟨clocked_plain _ h, clockedList_plain _ h'⟩
end

mutual
theorem plain_fetches {id : Nat} {f : Expr} : (e : Expr) → PlainSwitches e → (id, f) ∈ Spec.fetches e →
    PlainSwitches f
  | .lit _, _, h => by simp [Spec.fetches] at h
  | .global _, _, h => by simp [Spec.fetches] at h
  | .var _ _, _, h => by simp [Spec.fetches] at h
  | .tuple es, hp, h => plain_fetchesList es hp h
  | .dummyPre e, hp, h => plain_fetches e hp h
  | .dummyParen e, hp, h => plain_fetches e hp h
  | .bin _ l r, hp, h => by
    simp only [Spec.fetches, List.mem_append] at h
    exact h.elim (plain_fetches l hp.1) (plain_fetches r hp.2)
  | .un _ e, hp, h => plain_fetches e hp h
  | .cmp _ l r, hp, h => by
    simp only [Spec.fetches, List.mem_append] at h
    exact h.elim (plain_fetches l hp.1) (plain_fetches r hp.2)
  | .clock _ l r, hp, h => by
    simp only [Spec.fetches, List.mem_append] at h
    exact h.elim (plain_fetches l hp.1) (plain_fetches r hp.2)
  | .later _ l r, hp, h => by
    simp only [Spec.fetches, List.mem_append] at h
    exact h.elim (plain_fetches l hp.1) (plain_fetches r hp.2)
  | .fetchPre _ g, hp, h => by
    simp only [Spec.fetches, List.mem_append, List.mem_singleton, Prod.mk.injEq] at h
    rcases h with h | ⟨rfl, rfl⟩
    · exact plain_fetches g hp h
    · exact hp
  | .fetchFby _ i g, hp, h => by
    simp only [Spec.fetches, List.mem_append, List.mem_singleton, Prod.mk.injEq] at h
    rcases h with h | h | ⟨rfl, rfl⟩
    · exact plain_fetches g hp.2 h
    · exact plain_fetches i hp.1 h
    · exact hp.2
  | .flip _ l r, hp, h => by
    simp only [Spec.fetches, List.mem_append] at h
    exact h.elim (plain_fetches l hp.1) (plain_fetches r hp.2)
  | .ifx b y n, hp, h => by
    simp only [Spec.fetches, List.mem_append] at h
    exact h.elim (plain_fetches b hp.1) (Or.rec (plain_fetches y hp.2.1) (plain_fetches n hp.2.2))
  | .merge b y n, hp, h => by
    simp only [Spec.fetches, List.mem_append] at h
    obtain ⟨x, d, rfl⟩ := hp.1
    rcases h with h | h | h
    · simp [Spec.fetches] at h
    · exact plain_fetches y hp.2.1 h
    · exact plain_fetches n hp.2.2 h
  | .substep _ _ e, hp, h => plain_fetches e hp h
theorem plain_fetchesList {id : Nat} {f : Expr} : (es : List Expr) → PlainSwitchesList es →
    (id, f) ∈ fetchesList es → PlainSwitches f
  | [], _, h => by simp [fetchesList] at h
  | e :: es, hp, h => by
    simp only [fetchesList, List.mem_append] at h
    exact h.elim (plain_fetches e hp.1) (plain_fetchesList es hp.2)
end

open Chandeliers.Den in
mutual
theorem plain_starts {id : Nat} {f : Expr} : (e : Expr) → PlainSwitches e →
    (id, some f) ∈ starts e → PlainSwitches f
  | .lit _, _, h => by simp [starts] at h
  | .global _, _, h => by simp [starts] at h
  | .var _ _, _, h => by simp [starts] at h
  | .tuple es, hp, h => plain_startsList es hp h
  | .dummyPre e, hp, h => plain_starts e hp h
  | .dummyParen e, hp, h => plain_starts e hp h
  | .bin _ l r, hp, h => by
    simp only [starts, List.mem_append] at h
    exact h.elim (plain_starts l hp.1) (plain_starts r hp.2)
  | .un _ e, hp, h => plain_starts e hp h
  | .cmp _ l r, hp, h => by
    simp only [starts, List.mem_append] at h
    exact h.elim (plain_starts l hp.1) (plain_starts r hp.2)
  | .clock _ l r, hp, h => by
    simp only [starts, List.mem_append] at h
    exact h.elim (plain_starts l hp.1) (plain_starts r hp.2)
  | .later _ l r, hp, h => by
    simp only [starts, List.mem_append] at h
    exact h.elim (plain_starts l hp.1) (plain_starts r hp.2)
  | .fetchPre _ g, hp, h => by
    simp only [starts, List.mem_append, List.mem_singleton, Prod.mk.injEq, reduceCtorEq, and_false,
      or_false] at h
    exact plain_starts g hp h
  | .fetchFby _ i g, hp, h => by
    simp only [starts, List.mem_append, List.mem_singleton, Prod.mk.injEq, Option.some.injEq] at h
    rcases h with h | h | ⟨rfl, rfl⟩
    · exact plain_starts g hp.2 h
    · exact plain_starts i hp.1 h
    · exact hp.1
  | .flip _ l r, hp, h => by
    simp only [starts, List.mem_append] at h
    exact h.elim (plain_starts l hp.1) (plain_starts r hp.2)
  | .ifx b y n, hp, h => by
    simp only [starts, List.mem_append] at h
    exact h.elim (plain_starts b hp.1) (Or.rec (plain_starts y hp.2.1) (plain_starts n hp.2.2))
  | .merge b y n, hp, h => by
    simp only [starts, List.mem_append] at h
    obtain ⟨x, d, rfl⟩ := hp.1
    rcases h with h | h | h
    · simp [starts] at h
    · exact plain_starts y hp.2.1 h
    · exact plain_starts n hp.2.2 h
  | .substep _ _ e, hp, h => plain_starts e hp h
theorem plain_startsList {id : Nat} {f : Expr} : (es : List Expr) → PlainSwitchesList es →
    (id, some f) ∈ startsList es → PlainSwitches f
  | [], _, h => by simp [startsList] at h
  | e :: es, hp, h => by
    simp only [startsList, List.mem_append] at h
    exact h.elim (plain_starts e hp.1) (plain_startsList es hp.2)
end

section
variable (A : Arith) (glob : Globals) (ms : List Machine)

theorem readVar_frame {ms : List Machine} {env : Env} {s s' : NodeState ms} (h : s'.hist = s.hist)
    (x : String) (d : Nat) : readVar ms env s' x d = readVar ms env s x d := by
  cases d <;> simp [readVar, h]

mutual
theorem evalTwice_eq (env : Env) : (e : Expr) → PlainSwitches e → (s : NodeState ms) →
    evalTwice A glob ms env e s = eval A glob ms env e s
  | .lit _, _, s => by simp only [evalTwice, eval]
  | .global _, _, s => by simp only [evalTwice, eval]; rfl
  | .var _ _, _, s => by simp only [evalTwice, eval]
  | .tuple es, h, s => by simp only [evalTwice, eval, evalListTwice_eq env es h]
  | .dummyPre e, h, s => by simp only [evalTwice, eval]; exact evalTwice_eq env e h s
  | .dummyParen e, h, s => by simp only [evalTwice, eval]; exact evalTwice_eq env e h s
  | .bin _ l r, h, s => by
    simp only [evalTwice, eval, evalTwice_eq env l h.1, evalTwice_eq env r h.2]
  | .un _ e, h, s => by simp only [evalTwice, eval, evalTwice_eq env e h]
  | .cmp _ l r, h, s => by
    simp only [evalTwice, eval, evalTwice_eq env l h.1, evalTwice_eq env r h.2]
  | .clock _ l r, h, s => by
    simp only [evalTwice, eval, evalTwice_eq env l h.1, evalTwice_eq env r h.2]
    rfl
  | .later _ l r, h, s => by
    simp only [evalTwice, eval, evalTwice_eq env l h.1, evalTwice_eq env r h.2]
  | .fetchPre _ _, _, s => by simp only [evalTwice, eval]; rfl
  | .fetchFby _ _ _, _, s => by simp only [evalTwice, eval]; rfl
  | .flip _ l r, h, s => by
    simp only [evalTwice, eval, evalTwice_eq env l h.1, evalTwice_eq env r h.2]
    rfl
  | .ifx b y n, h, s => by
    simp only [evalTwice, eval, evalTwice_eq env b h.1, evalTwice_eq env y h.2.1,
      evalTwice_eq env n h.2.2]
  | .merge b y n, h, s => by
    obtain ⟨x, d, rfl⟩ := h.1
    simp only [evalTwice, eval, evalTwice_eq env y h.2.1, evalTwice_eq env n h.2.2, bind_assoc]
    cases hb : readVar ms env s x d with
    | error p => rfl
    | ok v =>
      simp only [bind, Except.bind]
      cases hv : asBool v with
      | error p => rfl
      | ok b =>
        simp only
        cases hy : eval A glob ms env y s with
        | error p => rfl
        | ok z =>
          obtain ⟨on, s₁⟩ := z
          simp only
          cases hn : eval A glob ms env n s₁ with
          | error p => rfl
          | ok z =>
            obtain ⟨off, s₂⟩ := z
            simp only
            have hf := (eval_frame A glob ms env y hy).trans ms (eval_frame A glob ms env n hn)
            rw [readVar_frame hf.2.1, hb]
            simp only [hv]
  | .substep _ _ e, h, s => by simp only [evalTwice, eval, evalTwice_eq env e h]; rfl
theorem evalListTwice_eq (env : Env) : (es : List Expr) → PlainSwitchesList es →
    (s : NodeState ms) → evalListTwice A glob ms env es s = evalList A glob ms env es s
  | [], _, s => by simp only [evalListTwice, evalList]
  | e :: es, h, s => by
    simp only [evalListTwice, evalList, evalTwice_eq env e h.1, evalListTwice_eq env es h.2]
end

theorem execTwice_eq (st : Stmt) (h : ∀ e ∈ evaluated st, PlainSwitches e) (x : Env × NodeState ms) :
    execTwice A glob ms st x = exec A glob ms st x := by
  obtain ⟨env, s⟩ := x
  cases st with
  | let_ p e => simp only [execTwice, exec, evalTwice_eq A glob ms env e (h e (by simp [evaluated]))]
  | assert e => simp only [execTwice, exec, evalTwice_eq A glob ms env e (h e (by simp [evaluated]))]
  | updateRegister id e =>
    simp only [execTwice, exec, evalTwice_eq A glob ms env e (h e (by simp [evaluated]))]
  | initRegister id i c =>
    cases c with
    | none => rfl
    | some c =>
      simp only [execTwice, exec, evalTwice_eq A glob ms env c (h c (by simp [evaluated]))]
      cases i with
      | none => rfl
      | some i => simp only [evalTwice_eq A glob ms env i (h i (by simp [evaluated]))]

theorem execAllTwice_eq : (sts : List Stmt) → (∀ st ∈ sts, ∀ e ∈ evaluated st, PlainSwitches e) →
    (x : Env × NodeState ms) → execAllTwice A glob ms sts x = execAll A glob ms sts x
  | [], _, x => rfl
  | st :: sts, h, x => by
    simp only [execAllTwice, execAll, execTwice_eq A glob ms st (h st (List.mem_cons_self ..)),
      execAllTwice_eq sts (fun st hm => h st (List.mem_cons_of_mem _ hm))]

theorem machineTwice_eq (n : Node) (h : ∀ st ∈ n.stmts, ∀ e ∈ evaluated st, PlainSwitches e) :
    n.machineTwice A glob ms = n.machine A glob ms := by
  have : n.stepTwice A glob ms = n.step A glob ms := by
    funext s i
    unfold Node.stepTwice Node.step Node.bodyTwice Node.body
    simp only [execAllTwice_eq A glob ms n.stmts h]
  unfold Node.machineTwice Node.machine
  rw [this]
end

open Chandeliers.Den in
/-- The switches of a node that passes the checks. -/
theorem Final.plain {b : Bool} {o : TyOpts} {sigs : String → Option Sig}
    {consts : String → Option TyBase} {src : Syn.SrcNode} {n n₁ n₂ : Node} {c : Syn.ExprCtx}
    {ctx : TyCtx} {clk : Nat → Expr} {m : Depths} {K : String → Option Clk}
    (h : Final b o sigs consts src n n₁ n₂ c ctx clk m K) :
    ∀ st ∈ n.stmts, ∀ e ∈ evaluated st, PlainSwitches e := by
  have hsrc : ∀ st ∈ c.stmts, ∀ e, (∃ p, st = .let_ p e) ∨ st = .assert e → PlainSwitches e := by
    intro st hst e he
    have := h.clocked.stmts st (h.perm.mem_iff.2 hst)
    rcases he with ⟨p, rfl⟩ | rfl
    · cases this with | let_ _ h _ => exact clocked_plain _ h
    · cases this with | assert h _ => exact clocked_plain _ h
  intro st hst e he
  rcases h.evaluated hst he with ⟨st', h1, h2⟩ | ⟨id, -, k, rfl, h1⟩
  · cases st' with
    | let_ p e' =>
      obtain rfl : e = e' := by simpa [evaluated] using h2
      exact hsrc _ h1 _ (.inl ⟨_, rfl⟩)
    | assert e' =>
      obtain rfl : e = e' := by simpa [evaluated] using h2
      exact hsrc _ h1 _ (.inr rfl)
    | updateRegister id e' =>
      obtain rfl : e = e' := by simpa [evaluated] using h2
      obtain ⟨st, h3, h4⟩ := List.mem_flatMap.1 ((h.built.fetched id e).2 h1)
      cases st with
      | let_ p e' => exact plain_fetches e' (hsrc _ h3 _ (.inl ⟨_, rfl⟩)) h4
      | assert e' => exact plain_fetches e' (hsrc _ h3 _ (.inr rfl)) h4
      | _ => cases h4
    | initRegister id i k =>
      obtain rfl := h.built.clocks _ _ _ h1
      have h5 := (h.built.started id i).2 h1
      cases i with
      | none => simp [evaluated] at h2
      | some i =>
        obtain rfl : e = i := by simpa [evaluated] using h2
        obtain ⟨st, h3, h4⟩ := List.mem_flatMap.1 h5
        cases st with
        | let_ p e' => exact plain_starts e' (hsrc _ h3 _ (.inl ⟨_, rfl⟩)) h4
        | assert e' => exact plain_starts e' (hsrc _ h3 _ (.inr rfl)) h4
        | _ => cases h4
  · rw [h1]
    cases k <;> trivial

end Chandeliers.San
