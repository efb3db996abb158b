import Verif.Lemmas.Denote
import Verif.Lemmas.ConstExpr
import Verif.Lemmas.Machine
import Verif.Spec.Solutions

/-! Running a node solves its equations. -/

set_option autoImplicit false
set_option linter.unusedSectionVars false

namespace Chandeliers.Den
open Chandeliers.San Chandeliers.Spec

/-! ## Patterns -/

mutual
theorem bindTarget_of_assigns {X : String → Nillable Scalar} : (p : VarTuple) → {v : Value} →
    {env : Env} → Assigns X p v → ∃ env', bindTarget p v env = .ok env' ∧
      ∀ x, env' x = if x ∈ p.vars then some (X x) else env x
  | .single x, .leaf v, env, h => by
    refine ⟨_, rfl, fun y => ?_⟩
    simp only [Assigns] at h
    simp only [Env.set, VarTuple.vars, List.mem_singleton]
    by_cases hy : y = x
    · subst hy; simp [h]
    · simp [hy]
  | .single x, .tup _ _, env, h => by simp [Assigns] at h
  | .multiple [], v, env, h => ⟨env, rfl, fun y => by simp [VarTuple.vars, VarTuple.varsList]⟩
  | .multiple [p], v, env, h => by
    simp only [Assigns] at h
    obtain ⟨env', h1, h2⟩ := bindTarget_of_assigns p (env := env) h
    refine ⟨env', by simpa only [bindTarget] using h1, fun y => ?_⟩
    rw [h2]; simp [VarTuple.vars, VarTuple.varsList]
  | .multiple (p :: p' :: ps), .tup a t, env, h => by
    simp only [Assigns] at h
    obtain ⟨env1, h1, h2⟩ := bindTarget_of_assigns p (env := env) h.1
    obtain ⟨env2, h3, h4⟩ := bindTargets_of_assigns (p' :: ps) (env := env1) h.2
    refine ⟨env2, by simp only [bindTarget, h1]; exact h3, fun y => ?_⟩
    rw [h4, h2]
    simp only [VarTuple.vars, VarTuple.varsList, List.mem_append]
    by_cases c1 : y ∈ p.vars <;> by_cases c2 : y ∈ p'.vars ∨ y ∈ VarTuple.varsList ps <;>
      simp [c1, c2]
  | .multiple (_ :: _ :: _), .leaf _, _, h => by simp [Assigns] at h
theorem bindTargets_of_assigns {X : String → Nillable Scalar} : (ps : List VarTuple) →
    {vs : List Value} → {env : Env} → AssignsList X ps vs → ∃ env', bindTargets ps vs env = .ok env' ∧
      ∀ x, env' x = if x ∈ VarTuple.varsList ps then some (X x) else env x
  | [], [], env, _ => ⟨env, rfl, fun y => by simp [VarTuple.varsList]⟩
  | [], _ :: _, _, h => by simp [AssignsList] at h
  | p :: ps, [], _, h => by simp [AssignsList] at h
  | p :: ps, v :: vs, env, h => by
    simp only [AssignsList] at h
    obtain ⟨env1, h1, h2⟩ := bindTarget_of_assigns p (env := env) h.1
    obtain ⟨env2, h3, h4⟩ := bindTargets_of_assigns ps (env := env1) h.2
    refine ⟨env2, by simp only [bindTargets, h1]; exact h3, fun y => ?_⟩
    rw [h4, h2]
    simp only [VarTuple.varsList, List.mem_append]
    by_cases c1 : y ∈ p.vars <;> by_cases c2 : y ∈ VarTuple.varsList ps <;> simp [c1, c2]
end

mutual
theorem bindTarget_inv : (p : VarTuple) → {v : Value} → {env env' : Env} →
    bindTarget p v env = .ok env' → (∀ x, x ∉ p.vars → env' x = env x) ∧
      (∀ x ∈ p.vars, ∃ w, env' x = some w) ∧
      ∀ X : String → Nillable Scalar, p.vars.Nodup → (∀ x ∈ p.vars, env' x = some (X x)) → Assigns X p v
  | .single x, .leaf v, env, _, h => by
    cases h
    simp only [VarTuple.vars, List.mem_singleton, Env.set]
    refine ⟨fun y hy => by simp [hy], fun y hy => by simp [hy], fun X _ hX => ?_⟩
    have := hX x rfl
    simp only [if_true, Option.some.injEq] at this
    simp only [Assigns, this]
  | .single x, .tup _ _, env, _, h => by simp [bindTarget] at h
  | .multiple [], v, env, _, h => by
    cases h
    exact ⟨fun _ _ => rfl, by simp [VarTuple.vars, VarTuple.varsList], by simp [Assigns]⟩
  | .multiple [p], v, env, env', h => by
    simp only [bindTarget] at h
    obtain ⟨h1, h2, h3⟩ := bindTarget_inv p h
    simp only [VarTuple.vars, VarTuple.varsList, List.append_nil, Assigns]
    exact ⟨h1, h2, h3⟩
  | .multiple (p :: p' :: ps), .tup a t, env, env', h => by
    simp only [bindTarget] at h
    obtain ⟨env1, g1, g2⟩ := ok_bind.1 h
    obtain ⟨h1, h2, h3⟩ := bindTarget_inv p g1
    obtain ⟨h4, h5, h6⟩ := bindTargets_inv (p' :: ps) g2
    simp only [VarTuple.vars, Assigns]
    rw [VarTuple.varsList]
    refine ⟨fun x hx => ?_, fun x hx => ?_, fun X hn hX => ?_⟩
    · rw [List.mem_append, not_or] at hx
      rw [h4 x hx.2, h1 x hx.1]
    · by_cases c : x ∈ VarTuple.varsList (p' :: ps)
      · exact h5 x c
      · rw [h4 x c]; exact h2 x ((List.mem_append.1 hx).resolve_right c)
    · rw [List.nodup_append] at hn
      refine ⟨h3 X hn.1 fun x hx => ?_, h6 X hn.2.1 fun x hx => hX x (List.mem_append_right _ hx)⟩
      rw [← h4 x fun hc => hn.2.2 x hx x hc rfl]
      exact hX x (List.mem_append_left _ hx)
  | .multiple (_ :: _ :: _), .leaf _, _, _, h => by simp [bindTarget] at h
theorem bindTargets_inv : (ps : List VarTuple) → {vs : List Value} → {env env' : Env} →
    bindTargets ps vs env = .ok env' → (∀ x, x ∉ VarTuple.varsList ps → env' x = env x) ∧
      (∀ x ∈ VarTuple.varsList ps, ∃ w, env' x = some w) ∧
      ∀ X : String → Nillable Scalar, (VarTuple.varsList ps).Nodup →
        (∀ x ∈ VarTuple.varsList ps, env' x = some (X x)) → AssignsList X ps vs
  | [], [], _, _, h => by
    cases h
    exact ⟨fun _ _ => rfl, by simp [VarTuple.varsList], by simp [AssignsList]⟩
  | [], _ :: _, _, _, h => by simp [bindTargets] at h
  | p :: ps, [], _, _, h => by simp [bindTargets] at h
  | p :: ps, v :: vs, env, env', h => by
    simp only [bindTargets] at h
    obtain ⟨env1, g1, g2⟩ := ok_bind.1 h
    obtain ⟨h1, h2, h3⟩ := bindTarget_inv p g1
    obtain ⟨h4, h5, h6⟩ := bindTargets_inv ps g2
    simp only [VarTuple.varsList, AssignsList]
    refine ⟨fun x hx => ?_, fun x hx => ?_, fun X hn hX => ?_⟩
    · rw [List.mem_append, not_or] at hx
      rw [h4 x hx.2, h1 x hx.1]
    · by_cases c : x ∈ VarTuple.varsList ps
      · exact h5 x c
      · rw [h4 x c]; exact h2 x ((List.mem_append.1 hx).resolve_right c)
    · rw [List.nodup_append] at hn
      refine ⟨h3 X hn.1 fun x hx => ?_, h6 X hn.2.1 fun x hx => hX x (List.mem_append_right _ hx)⟩
      rw [← h4 x fun hc => hn.2.2 x hx x hc rfl]
      exact hX x (List.mem_append_left _ hx)
end

theorem vars_inputPattern (vs : List TyVar) : (inputPattern vs).vars = vs.map (·.name) := by
  have : ∀ vs : List TyVar,
      VarTuple.varsList (vs.map fun v => VarTuple.single v.name) = vs.map (·.name) := by
    intro vs
    induction vs with
    | nil => rfl
    | cons v vs ih => simp [VarTuple.varsList, VarTuple.vars, ih]
  simp [inputPattern, VarTuple.vars, this]

/-! ## Clocks -/

theorem isClock_iff {v : Value} {c : Bool} : IsClock v c ↔
    ∃ b, asBool v = .ok b ∧ b.is (· == ·) (.defined true) = c := by
  constructor
  · rintro (_ | _ | _)
    · exact ⟨_, rfl, rfl⟩
    · exact ⟨_, rfl, rfl⟩
    · exact ⟨_, rfl, rfl⟩
  · rintro ⟨b, h, rfl⟩
    unfold asBool at h
    split at h
    · cases h; exact .absent
    · cases h; rename_i b; cases b
      · exact .off
      · exact .on
    · simp at h

theorem truth_iff {v : Value} : v = .leaf (.defined (.bool true)) ↔
    ∃ b, asBool v = .ok b ∧ Candle.truth b = .ok () := by
  constructor
  · rintro rfl; exact ⟨_, rfl, rfl⟩
  · rintro ⟨b, h, hb⟩
    unfold asBool at h
    split at h
    · cases h; simp [Candle.truth] at hb
    · cases h; rename_i b; cases b
      · simp [Candle.truth] at hb
      · rfl
    · simp at h

section
variable {A : Arith} {glob : Globals} {ms : List Machine} {F : Flow}

/-! ## Registers -/

variable (A glob ms F) in
/-- The register at the beginning of an instant. -/
def regAt (id : Nat) (i : Option Expr) (f : Expr) (t : Nat) : R (Register Scalar) :=
  match i with
  | none => preReg F id (den A glob ms F 0 f) t
  | some i => fbyReg F id (den A glob ms F 0 i) (den A glob ms F 0 f) t

theorem regAt_zero (id : Nat) (i : Option Expr) (f : Expr) :
    regAt A glob ms F id i f 0 = .ok (Register.default Scalar (F.shape id)) := by
  cases i <;> rfl

variable (A glob ms F) in
/-- In the course of an instant, what a register holds given what it held at the beginning. -/
structure RegMid (t id : Nat) (i : Option Expr) (f : Expr) (ini upd : Prop) (r₀ r : Register Scalar) :
    Prop where
  clock : ini → r.onClock = F.C id t
  inner : ini → (i = none ∧ r.inner = r₀.inner) ∨ ∃ e v, i = some e ∧ den A glob ms F 0 e t = .ok v ∧
    r.inner = (r₀.tryInitialize v).inner
  inner' : ¬ ini → r.inner = r₀.inner
  next : upd → ∃ w, den A glob ms F 0 f t = .ok w ∧ r.next = (r₀.schedule w).next
  next' : ¬ upd → r.next = r₀.next

theorem regMid_start {t id : Nat} {i : Option Expr} {f : Expr} {r₀ : Register Scalar} :
    RegMid A glob ms F t id i f False False r₀ r₀ :=
  ⟨False.elim, False.elim, fun _ => rfl, False.elim, fun _ => rfl⟩

/-- At the end of the instant the register is committed. -/
theorem regMid_commit {t id : Nat} {i : Option Expr} {f : Expr} {ini upd : Prop}
    {r₀ r : Register Scalar} (h : RegMid A glob ms F t id i f ini upd r₀ r) (hi : ini) (hu : upd)
    (h0 : regAt A glob ms F id i f t = .ok r₀) :
    regAt A glob ms F id i f (t + 1) = .ok r.commit := by
  obtain ⟨w, hw, hn⟩ := h.next hu
  have hc := h.clock hi
  obtain ⟨rfl, hin⟩ | ⟨e, v, rfl, hv, hin⟩ := h.inner hi
  · unfold regAt preReg at h0 ⊢
    dsimp only at h0 ⊢
    rw [iter_succ (Nat.zero_le _), h0]
    show (den A glob ms F 0 f t >>= _) = _
    rw [hw]
    show Except.ok _ = _
    congr 1
    unfold Register.preStep
    cases r; cases r₀
    simp only [Register.clocked, Register.schedule, Register.commit] at *
    subst hc hin
    split <;> simp_all
  · unfold regAt fbyReg at h0 ⊢
    dsimp only at h0 ⊢
    rw [iter_succ (Nat.zero_le _), h0]
    show (den A glob ms F 0 e t >>= _) = _
    rw [hv]
    show (den A glob ms F 0 f t >>= _) = _
    rw [hw]
    show Except.ok _ = _
    congr 1
    unfold Register.fbyStep
    obtain ⟨rin, rnx, rc⟩ := r
    obtain ⟨oin, onx, oc⟩ := r₀
    simp only [Register.clocked, Register.tryInitialize, Register.schedule, Register.commit] at *
    subst hc
    by_cases c1 : w.firstIsNil = true <;> by_cases c2 : oin.firstIsNil = true <;> simp_all

/-- Once set up, the register reads as the stream semantics says. -/
theorem regMid_get {t id : Nat} {i : Option Expr} {f : Expr} {ini upd : Prop}
    {r₀ r : Register Scalar} (h : RegMid A glob ms F t id i f ini upd r₀ r) (hi : ini)
    (h0 : regAt A glob ms F id i f t = .ok r₀) :
    den A glob ms F 0 (match i with | none => .fetchPre id f | some i => .fetchFby id i f) t =
      .ok r.get := by
  have hc := h.clock hi
  obtain ⟨rfl, hin⟩ | ⟨e, v, rfl, hv, hin⟩ := h.inner hi
  · unfold regAt at h0
    dsimp only at h0 ⊢
    simp only [den, h0]
    show Except.ok _ = _
    congr 1
    simp only [Register.get, Register.clocked, hc, hin]
    rfl
  · unfold regAt at h0
    dsimp only at h0 ⊢
    simp only [den, h0]
    show (den A glob ms F 0 e t >>= _) = _
    rw [hv]
    show Except.ok _ = _
    congr 1
    simp only [Register.get, Register.clocked, Register.tryInitialize] at *
    rw [hc, hin]
    by_cases c : r₀.inner.firstIsNil = true <;> simp [c]

/-! ## One statement -/

theorem eval_ok {env : Env} {t hi : Nat} (hhi : t ≤ hi) {e : Expr} {s : NodeState ms} {v : Value}
    (hn : (live e).Nodup) (hr : Reading A glob F t env s e) (hy : Ready A glob F s t 0 hi e)
    (hv : den A glob ms F 0 e t = .ok v) :
    ∃ s', eval A glob ms env e s = .ok (v, s') ∧ Confined (live e) s s' ∧
      Ready A glob F s' (t + 1) 0 hi e := by
  have h := eval_den (Nat.zero_le _) hhi e hn hr hy
  rw [hv] at h
  unfold Sim at h
  cases hx : eval A glob ms env e s with
  | error p => rw [hx] at h; exact h.elim
  | ok w =>
    rw [hx] at h
    obtain ⟨w, s'⟩ := w
    obtain ⟨rfl, h⟩ := h
    exact ⟨s', rfl, h⟩

theorem den_ok {env : Env} {t hi : Nat} (hhi : t ≤ hi) {e : Expr} {s s' : NodeState ms} {v : Value}
    (hn : (live e).Nodup) (hr : Reading A glob F t env s e) (hy : Ready A glob F s t 0 hi e)
    (hv : eval A glob ms env e s = .ok (v, s')) :
    den A glob ms F 0 e t = .ok v ∧ Confined (live e) s s' ∧ Ready A glob F s' (t + 1) 0 hi e := by
  have h := eval_den (Nat.zero_le _) hhi e hn hr hy
  rw [hv] at h
  unfold Sim at h
  cases hx : den A glob ms F 0 e t with
  | error p => rw [hx] at h; exact h.elim
  | ok w =>
    rw [hx] at h
    obtain ⟨rfl, h⟩ := h
    exact ⟨rfl, h⟩

variable (A glob ms F) in
/-- What a statement does to a register. -/
structure RegStep (t : Nat) (st : Stmt) (id : Nat) (r r' : Register Scalar) : Prop where
  clock : id ∈ initialised [st] → r'.onClock = F.C id t
  inner : ∀ i c, st = .initRegister id i c → (i = none ∧ r'.inner = r.inner) ∨
    ∃ e v, i = some e ∧ den A glob ms F 0 e t = .ok v ∧ r'.inner = (r.tryInitialize v).inner
  clock' : id ∉ initialised [st] → r'.onClock = r.onClock
  inner' : id ∉ initialised [st] → r'.inner = r.inner
  next : ∀ f, st = .updateRegister id f →
    ∃ w, den A glob ms F 0 f t = .ok w ∧ r'.next = (r.schedule w).next
  next' : id ∉ updated [st] → r'.next = r.next

variable (A glob F) in
/-- What a statement does. -/
structure Stepped (t hi : Nat) (st : Stmt) (env : Env) (s : NodeState ms) (env' : Env)
    (s' : NodeState ms) : Prop where
  clock : s'.clock = s.clock
  hist : s'.hist = s.hist
  slots : SlotsConfined (liveIn st) s s'
  ready : ∀ e ∈ evaluated st, Ready A glob F s' (t + 1) 0 hi e
  bound : ∀ x ∈ binds st, env' x = some (F.X x t)
  unbound : ∀ x, x ∉ binds st → env' x = env x
  regs : ∀ id r, s.regs[id]? = some r → ∃ r', s'.regs[id]? = some r' ∧ RegStep A glob ms F t st id r r'

theorem regStep_none {t : Nat} {st : Stmt} {id : Nat} {r : Register Scalar}
    (h1 : id ∉ initialised [st]) (h2 : id ∉ updated [st]) : RegStep A glob ms F t st id r r :=
  ⟨fun h => absurd h h1, fun i c h => absurd (by subst h; simp [initialised]) h1, fun _ => rfl,
    fun _ => rfl, fun f h => absurd (by subst h; simp [updated]) h2, fun _ => rfl⟩

theorem Confined.regs_step {S : List Slot} {s s' : NodeState ms} {t : Nat} {st : Stmt}
    (h : Confined S s s') (h1 : initialised [st] = []) (h2 : updated [st] = []) (id : Nat)
    (r : Register Scalar) (hr : s.regs[id]? = some r) :
    ∃ r', s'.regs[id]? = some r' ∧ RegStep A glob ms F t st id r r' :=
  ⟨r, by rw [h.regs, hr], regStep_none (by simp [h1]) (by simp [h2])⟩

theorem Ready.congr {s s' : NodeState ms} {t lo hi : Nat} (h1 : s'.flips = s.flips)
    (h2 : s'.nodes = s.nodes) {e : Expr} (h : Ready A glob F s t lo hi e) :
    Ready A glob F s' t lo hi e :=
  Ready.slotFrame (S := []) ⟨fun i _ => by rw [h1], fun i _ => by rw [h2]⟩ e (by simp) h

theorem Ready.setRegs {s : NodeState ms} {t lo hi : Nat} (rs : List (Register Scalar)) {e : Expr}
    (h : Ready A glob F s t lo hi e) : Ready A glob F { s with regs := rs } t lo hi e :=
  Ready.congr (s := s) (s' := { s with regs := rs }) rfl rfl h

theorem updReg_ok {s : NodeState ms} {id : Nat} {f : Register Scalar → Register Scalar}
    {r : Register Scalar} (h : s.regs[id]? = some r) :
    updReg ms s id f = .ok { s with regs := s.regs.set id (f r) } := by
  simp [updReg, h]

theorem set_get {l : List (Register Scalar)} {id j : Nat} {r r' x : Register Scalar}
    (h : l[id]? = some r) (hj : l[j]? = some x) :
    (l.set id r')[j]? = some (if j = id then r' else x) := by
  by_cases c : j = id
  · subst c
    have : j < l.length := by rw [List.getElem?_eq_some_iff] at h; exact h.1
    simp [this]
  · rw [List.getElem?_set_ne (fun h => c h.symm), hj, if_neg c]

/-- A statement that the streams satisfy is executed without panic. -/
theorem exec_of_holds {env : Env} {t hi : Nat} (hhi : t ≤ hi) {st : Stmt} {s : NodeState ms}
    (hn : (liveIn st).Nodup) (hread : ∀ e ∈ evaluated st, Reading A glob F t env s e)
    (hy : ∀ e ∈ evaluated st, Ready A glob F s t 0 hi e)
    (hreg : ∀ id ∈ initialised [st] ++ updated [st], ∃ r, s.regs[id]? = some r)
    (hloop : ∀ id e c, st = .initRegister id (some e) c →
      (∀ f, ¬ Part (.fetchPre id f) e) ∧ ∀ i f, ¬ Part (.fetchFby id i f) e)
    (hh : Holds A glob ms F t st) :
    ∃ env' s', exec A glob ms st (env, s) = .ok (env', s') ∧
      Stepped A glob F t hi st env s env' s' := by
  cases st with
  | let_ p e =>
    obtain ⟨v, hv, ha⟩ := hh
    simp only [liveIn, evaluated, List.flatMap_cons, List.flatMap_nil, List.append_nil,
      List.mem_singleton, forall_eq] at *
    obtain ⟨s', h1, h2, h3⟩ := eval_ok hhi hn hread hy hv
    obtain ⟨env', h4, h5⟩ := bindTarget_of_assigns p (env := env) ha
    refine ⟨env', s', ?_, h2.clock, h2.hist, ?_, ?_, ?_, ?_, h2.regs_step rfl rfl⟩
    · simp only [exec, h1, bind_ok, h4]
    · simpa [liveIn, evaluated] using h2.slots
    · simpa [evaluated] using h3
    · intro x hx; rw [h5]; exact if_pos hx
    · intro x hx; rw [h5]; exact if_neg hx
  | assert e =>
    simp only [Holds] at hh
    simp only [liveIn, evaluated, List.flatMap_cons, List.flatMap_nil, List.append_nil,
      List.mem_singleton, forall_eq] at *
    obtain ⟨s', h1, h2, h3⟩ := eval_ok hhi hn hread hy hh
    refine ⟨env, s', ?_, h2.clock, h2.hist, ?_, ?_, ?_, fun _ _ => rfl, h2.regs_step rfl rfl⟩
    · simp only [exec, h1, bind_ok]; rfl
    · simpa [liveIn, evaluated] using h2.slots
    · simpa [evaluated] using h3
    · simp [binds]
  | updateRegister id e =>
    obtain ⟨v, hv⟩ := hh
    simp only [liveIn, evaluated, List.flatMap_cons, List.flatMap_nil, List.append_nil,
      List.mem_singleton, forall_eq] at hn hread hy
    obtain ⟨s', h1, h2, h3⟩ := eval_ok hhi hn hread hy hv
    obtain ⟨r, hr⟩ := hreg id (by simp [initialised, updated])
    have hr' : s'.regs[id]? = some r := by rw [h2.regs, hr]
    refine ⟨env, { s' with regs := s'.regs.set id (r.schedule v) }, ?_, h2.clock, h2.hist, ?_, ?_,
      by simp [binds], fun _ _ => rfl, ?_⟩
    · simp only [exec, h1, bind_ok, updReg_ok hr']
    · have : SlotsConfined (liveIn (.updateRegister id e)) s s' := by
        simpa [liveIn, evaluated] using h2.slots
      exact ⟨this.flips, this.nodes⟩
    · simp only [evaluated, List.mem_singleton, forall_eq]
      exact h3.setRegs _
    · intro j x hj
      have hj' : s'.regs[j]? = some x := by rw [h2.regs, hj]
      refine ⟨_, set_get hr' hj', ?_⟩
      by_cases c : j = id
      · subst c
        rw [hr] at hj; cases hj
        rw [if_pos rfl]
        refine ⟨by simp [initialised], by simp, fun _ => ?_, fun _ => ?_, ?_, by simp [updated]⟩
        · unfold Register.schedule; split <;> rfl
        · unfold Register.schedule; split <;> rfl
        · rintro f hf; cases hf; exact ⟨v, hv, rfl⟩
      · rw [if_neg c]
        exact regStep_none (by simp [initialised]) (by simpa [updated] using c)
  | initRegister id i c =>
    obtain ⟨⟨ce, cv, rfl, hcv, hclk⟩, hi'⟩ := hh
    obtain ⟨b, hb1, hb2⟩ := isClock_iff.1 hclk
    obtain ⟨r, hr⟩ := hreg id (by simp [initialised])
    have hrc : ce ∈ evaluated (.initRegister id i (some ce)) := by simp [evaluated]
    cases i with
    | none =>
      simp only [liveIn, evaluated, Option.toList_some, Option.toList_none, List.append_nil,
        List.flatMap_cons, List.flatMap_nil, List.mem_singleton, forall_eq] at hn hread hy
      obtain ⟨s', h1, h2, h3⟩ := eval_ok hhi hn hread hy hcv
      have hr' : s'.regs[id]? = some r := by rw [h2.regs, hr]
      refine ⟨env, { s' with regs := s'.regs.set id (r.withClock b) }, ?_, h2.clock, h2.hist, ?_, ?_,
        by simp [binds], fun _ _ => rfl, ?_⟩
      · simp only [exec, h1, bind_ok, hb1, updReg_ok hr']
      · have : SlotsConfined (liveIn (.initRegister id none (some ce))) s s' := by
          simpa [liveIn, evaluated] using h2.slots
        exact ⟨this.flips, this.nodes⟩
      · simp only [evaluated, Option.toList_some, Option.toList_none, List.append_nil,
          List.mem_singleton, forall_eq]
        exact h3.setRegs _
      · intro j x hj
        have hj' : s'.regs[j]? = some x := by rw [h2.regs, hj]
        refine ⟨_, set_get hr' hj', ?_⟩
        by_cases c : j = id
        · subst c
          rw [hr] at hj; cases hj
          rw [if_pos rfl]
          refine ⟨fun _ => hb2, ?_, by simp [initialised], by simp [initialised], by simp,
            fun _ => rfl⟩
          rintro i c hc; cases hc; exact .inl ⟨rfl, rfl⟩
        · rw [if_neg c]
          exact regStep_none (by simpa [initialised] using c) (by simp [updated])
    | some e =>
      obtain ⟨v, hv⟩ := hi' e rfl
      have hn' : (live ce ++ live e).Nodup := by
        simpa only [liveIn, evaluated, Option.toList_some, List.cons_append, List.nil_append,
          List.flatMap_cons, List.flatMap_nil, List.append_nil] using hn
      obtain ⟨n1, n2, d1, d2⟩ := nodup_split hn'
      obtain ⟨s1, h1, h2, h3⟩ := eval_ok hhi n1 (hread ce (by simp [evaluated]))
        (hy ce (by simp [evaluated])) hcv
      have hr1 : s1.regs[id]? = some r := by rw [h2.regs, hr]
      obtain ⟨l1, l2⟩ := hloop id e _ rfl
      let s2 : NodeState ms := { s1 with regs := s1.regs.set id (r.withClock b) }
      have hread2 : Reading A glob F t env s2 e := by
        have h0 := (hread e (by simp [evaluated])).frame h2
        refine ⟨h0.clock, h0.now, h0.past, fun j f hf => ?_, fun j i f hf => ?_⟩
        · obtain ⟨x, hx, hx'⟩ := h0.pre j f hf
          refine ⟨_, set_get hr1 hx, ?_⟩
          rw [if_neg (by rintro rfl; exact l1 _ hf)]; exact hx'
        · obtain ⟨x, hx, hx'⟩ := h0.fby j i f hf
          refine ⟨_, set_get hr1 hx, ?_⟩
          rw [if_neg (by rintro rfl; exact l2 _ _ hf)]; exact hx'
      have hy2 : Ready A glob F s2 t 0 hi e :=
        ((hy e (by simp [evaluated])).frame h2 _ d2).setRegs _
      obtain ⟨s3, h4, h5, h6⟩ := eval_ok hhi n2 hread2 hy2 hv
      have hr2 : s2.regs[id]? = some (r.withClock b) := by
        have := set_get hr1 (r' := r.withClock b) hr1; rw [if_pos rfl] at this; exact this
      have hr3 : s3.regs[id]? = some (r.withClock b) := by rw [h5.regs, hr2]
      refine ⟨env, { s3 with regs := s3.regs.set id ((r.withClock b).tryInitialize v) }, ?_, ?_, ?_,
        ?_, ?_, by simp [binds], fun _ _ => rfl, ?_⟩
      · simp only [exec, h1, bind_ok, hb1, updReg_ok hr1]
        simp only [s2] at h4
        simp only [h4, bind_ok, updReg_ok hr3]
      · exact h5.clock.trans h2.clock
      · exact h5.hist.trans h2.hist
      · refine ⟨fun j hj => ?_, fun j hj => ?_⟩
        · simp only [liveIn, evaluated, Option.toList_some, List.cons_append, List.nil_append,
            List.flatMap_cons, List.flatMap_nil, List.append_nil, List.mem_append, not_or] at hj
          exact (h5.flips j hj.2).trans (h2.flips j hj.1)
        · simp only [liveIn, evaluated, Option.toList_some, List.cons_append, List.nil_append,
            List.flatMap_cons, List.flatMap_nil, List.append_nil, List.mem_append, not_or] at hj
          exact (h5.nodes j hj.2).trans (h2.nodes j hj.1)
      · intro e' he'
        simp only [evaluated, Option.toList_some, List.cons_append, List.nil_append,
          List.mem_cons, List.not_mem_nil, or_false] at he'
        rcases he' with rfl | rfl
        · exact ((h3.setRegs _ : Ready A glob F s2 _ _ _ _).frame h5 _ d1).setRegs _
        · exact h6.setRegs _
      · intro j x hj
        have hj1 : s1.regs[j]? = some x := by rw [h2.regs, hj]
        have hj2 : s2.regs[j]? = _ := set_get hr1 hj1
        have hj3 : s3.regs[j]? = _ := (congrArg (·[j]?) h5.regs).trans hj2
        refine ⟨_, set_get hr3 hj3, ?_⟩
        by_cases c : j = id
        · subst c
          rw [hr] at hj; cases hj
          rw [if_pos rfl]
          refine ⟨fun _ => ?_, ?_, by simp [initialised], by simp [initialised], by simp,
            fun _ => ?_⟩
          · unfold Register.tryInitialize; split <;> exact hb2
          · rintro i c hc; cases hc
            refine .inr ⟨e, v, rfl, hv, ?_⟩
            simp only [Register.tryInitialize, Register.withClock]
            by_cases c : r.inner.firstIsNil = true <;> simp [c]
          · unfold Register.tryInitialize; split <;> rfl
        · rw [if_neg c, if_neg c]
          exact regStep_none (by simpa [initialised] using c) (by simp [updated])

/-- Whether a register is on clock. -/
def clockOf (s : NodeState ms) (id : Nat) : Option Bool := (s.regs[id]?).map (·.onClock)

theorem updReg_inv {s s' : NodeState ms} {id : Nat} {f : Register Scalar → Register Scalar}
    (h : updReg ms s id f = .ok s') :
    ∃ r, s.regs[id]? = some r ∧ s' = { s with regs := s.regs.set id (f r) } := by
  unfold updReg at h
  cases hr : s.regs[id]? with
  | none => rw [hr] at h; cases h
  | some r => rw [hr] at h; cases h; exact ⟨r, rfl, rfl⟩

theorem clockOf_set {s : NodeState ms} {id : Nat} {r r' : Register Scalar}
    (hr : s.regs[id]? = some r) (j : Nat) :
    clockOf { s with regs := s.regs.set id r' } j = if j = id then some r'.onClock else clockOf s j := by
  unfold clockOf
  by_cases c : j = id
  · subst c
    have : j < s.regs.length := by rw [List.getElem?_eq_some_iff] at hr; exact hr.1
    simp [this]
  · simp [List.getElem?_set_ne (fun h : id = j => c h.symm), c]

/-- A statement changes the variables that it binds and the clock of the register that it sets
up, and no other. -/
theorem exec_keeps {st : Stmt} {env env' : Env} {s s' : NodeState ms}
    (h : exec A glob ms st (env, s) = .ok (env', s')) :
    (∀ x, x ∉ binds st → env' x = env x) ∧
    (∀ x ∈ binds st, ∃ v, env' x = some v) ∧
    (∀ id, id ∉ initialised [st] → clockOf s' id = clockOf s id) ∧
    (∀ id ∈ initialised [st], ∃ b, clockOf s' id = some b) := by
  cases st with
  | let_ p e =>
    simp only [exec] at h
    obtain ⟨⟨v, s1⟩, h1, h⟩ := ok_bind.1 h
    obtain ⟨env1, h2, h⟩ := ok_bind.1 h
    cases h
    obtain ⟨g1, g2, _⟩ := bindTarget_inv p h2
    refine ⟨g1, g2, fun id _ => ?_, by simp [initialised]⟩
    unfold clockOf; rw [(eval_frame A glob ms env e h1).2.2]
  | assert e =>
    simp only [exec] at h
    obtain ⟨⟨v, s1⟩, h1, h⟩ := ok_bind.1 h
    obtain ⟨b, h2, h⟩ := ok_bind.1 h
    obtain ⟨u, h3, h⟩ := ok_bind.1 h
    cases h
    refine ⟨fun _ _ => rfl, by simp [binds], fun id _ => ?_, by simp [initialised]⟩
    unfold clockOf; rw [(eval_frame A glob ms env e h1).2.2]
  | updateRegister id e =>
    simp only [exec] at h
    obtain ⟨⟨v, s1⟩, h1, h⟩ := ok_bind.1 h
    obtain ⟨s2, h2, h⟩ := ok_bind.1 h
    cases h
    obtain ⟨r, hr, rfl⟩ := updReg_inv h2
    refine ⟨fun _ _ => rfl, by simp [binds], fun j _ => ?_, by simp [initialised]⟩
    rw [clockOf_set hr]
    have hf := (eval_frame A glob ms env e h1).2.2
    have : clockOf s1 j = clockOf s j := by unfold clockOf; rw [hf]
    split
    · rename_i c; subst c
      rw [← this]; unfold clockOf; rw [hr]
      simp only [Option.map_some]
      unfold Register.schedule; split <;> rfl
    · exact this
  | initRegister id i c =>
    cases c with
    | none => simp [exec] at h
    | some c =>
      simp only [exec] at h
      obtain ⟨⟨v, s1⟩, h1, h⟩ := ok_bind.1 h
      obtain ⟨b, h2, h⟩ := ok_bind.1 h
      obtain ⟨s2, h3, h⟩ := ok_bind.1 h
      obtain ⟨r, hr, rfl⟩ := updReg_inv h3
      have hf := (eval_frame A glob ms env c h1).2.2
      have hc1 : ∀ j, clockOf s1 j = clockOf s j := fun j => by unfold clockOf; rw [hf]
      cases i with
      | none =>
        cases h
        refine ⟨fun _ _ => rfl, by simp [binds], fun j hj => ?_, fun j hj => ?_⟩
        · rw [clockOf_set hr, if_neg (by simpa [initialised] using hj), hc1]
        · rw [clockOf_set hr, if_pos (by simpa [initialised] using hj)]; exact ⟨_, rfl⟩
      | some e =>
        obtain ⟨⟨w, s3⟩, h4, h⟩ := ok_bind.1 h
        obtain ⟨s4, h5, h⟩ := ok_bind.1 h
        cases h
        obtain ⟨r2, hr2, rfl⟩ := updReg_inv h5
        have hf2 := (eval_frame A glob ms env e h4).2.2
        refine ⟨fun _ _ => rfl, by simp [binds], fun j hj => ?_, fun j hj => ?_⟩
        · rw [clockOf_set hr2, if_neg (by simpa [initialised] using hj), ← hc1]
          unfold clockOf
          rw [hf2, List.getElem?_set_ne (by rintro rfl; simp [initialised] at hj)]
        · rw [clockOf_set hr2, if_pos (by simpa [initialised] using hj)]; exact ⟨_, rfl⟩

theorem initialised_cons (st : Stmt) (sts : List Stmt) :
    initialised (st :: sts) = initialised [st] ++ initialised sts := by
  cases st <;> simp [initialised]

theorem initialised_append (sts sts' : List Stmt) :
    initialised (sts ++ sts') = initialised sts ++ initialised sts' := by
  induction sts with
  | nil => rfl
  | cons st sts ih => rw [List.cons_append, initialised_cons, ih, initialised_cons st sts,
      List.append_assoc]

theorem updated_cons (st : Stmt) (sts : List Stmt) :
    updated (st :: sts) = updated [st] ++ updated sts := by
  cases st <;> simp [updated]

theorem updated_append (sts sts' : List Stmt) :
    updated (sts ++ sts') = updated sts ++ updated sts' := by
  induction sts with
  | nil => rfl
  | cons st sts ih => rw [List.cons_append, updated_cons, ih, updated_cons st sts,
      List.append_assoc]

theorem execAll_keeps : ∀ {sts : List Stmt} {env env' : Env} {s s' : NodeState ms},
    execAll A glob ms sts (env, s) = .ok (env', s') →
    (∀ x, x ∉ sts.flatMap binds → env' x = env x) ∧
    (∀ x ∈ sts.flatMap binds, ∃ v, env' x = some v) ∧
    (∀ id, id ∉ initialised sts → clockOf s' id = clockOf s id) ∧
    (∀ id ∈ initialised sts, ∃ b, clockOf s' id = some b)
  | [], _, _, _, _, h => by
    cases h
    exact ⟨fun _ _ => rfl, by simp, fun _ _ => rfl, by simp [initialised]⟩
  | st :: sts, env, env', s, s', h => by
    simp only [execAll] at h
    obtain ⟨⟨env1, s1⟩, h1, h⟩ := ok_bind.1 h
    obtain ⟨a1, a2, a3, a4⟩ := exec_keeps h1
    obtain ⟨b1, b2, b3, b4⟩ := execAll_keeps h
    rw [initialised_cons]
    simp only [List.flatMap_cons, List.mem_append, not_or]
    refine ⟨fun x hx => (b1 x hx.2).trans (a1 x hx.1), fun x hx => ?_,
      fun j hj => (b3 j hj.2).trans (a3 j hj.1), fun j hj => ?_⟩
    · by_cases c : x ∈ sts.flatMap binds
      · exact b2 x c
      · rw [b1 x c]; exact a2 x (hx.resolve_right c)
    · by_cases c : j ∈ initialised sts
      · exact b4 j c
      · rw [b3 j c]; exact a4 j (hj.resolve_right c)

/-- A statement that is executed without panic is satisfied by the streams it computes. -/
theorem holds_of_exec {env env' : Env} {t hi : Nat} (hhi : t ≤ hi) {st : Stmt}
    {s s' : NodeState ms} (hn : (liveIn st).Nodup)
    (hread : ∀ e ∈ evaluated st, Reading A glob F t env s e)
    (hy : ∀ e ∈ evaluated st, Ready A glob F s t 0 hi e)
    (hloop : ∀ id e c, st = .initRegister id (some e) c →
      (∀ f, ¬ Part (.fetchPre id f) e) ∧ ∀ i f, ¬ Part (.fetchFby id i f) e)
    (hb : (binds st).Nodup) (h : exec A glob ms st (env, s) = .ok (env', s'))
    (hX : ∀ x ∈ binds st, env' x = some (F.X x t))
    (hC : ∀ id ∈ initialised [st], clockOf s' id = some (F.C id t)) :
    Holds A glob ms F t st := by
  cases st with
  | let_ p e =>
    simp only [liveIn, evaluated, List.flatMap_cons, List.flatMap_nil, List.append_nil,
      List.mem_singleton, forall_eq] at hn hread hy
    simp only [exec] at h
    obtain ⟨⟨v, s1⟩, h1, h⟩ := ok_bind.1 h
    obtain ⟨env1, h2, h⟩ := ok_bind.1 h
    cases h
    exact ⟨v, (den_ok hhi hn hread hy h1).1, (bindTarget_inv p h2).2.2 _ hb hX⟩
  | assert e =>
    simp only [liveIn, evaluated, List.flatMap_cons, List.flatMap_nil, List.append_nil,
      List.mem_singleton, forall_eq] at hn hread hy
    simp only [exec] at h
    obtain ⟨⟨v, s1⟩, h1, h⟩ := ok_bind.1 h
    obtain ⟨b, h2, h⟩ := ok_bind.1 h
    obtain ⟨u, h3, h⟩ := ok_bind.1 h
    simp only [Holds]
    have ht := truth_iff.2 ⟨b, h2, h3⟩
    dsimp only at ht
    rw [(den_ok hhi hn hread hy h1).1, ht]
  | updateRegister id e =>
    simp only [liveIn, evaluated, List.flatMap_cons, List.flatMap_nil, List.append_nil,
      List.mem_singleton, forall_eq] at hn hread hy
    simp only [exec] at h
    obtain ⟨⟨v, s1⟩, h1, h⟩ := ok_bind.1 h
    exact ⟨v, (den_ok hhi hn hread hy h1).1⟩
  | initRegister id i c =>
    cases c with
    | none => simp [exec] at h
    | some c =>
      simp only [exec] at h
      obtain ⟨⟨v, s1⟩, h1, h⟩ := ok_bind.1 h
      obtain ⟨b, h2, h⟩ := ok_bind.1 h
      obtain ⟨s2, h3, h⟩ := ok_bind.1 h
      obtain ⟨r, hr, rfl⟩ := updReg_inv h3
      have hc := hC id (by simp [initialised])
      cases i with
      | none =>
        cases h
        rw [clockOf_set hr, if_pos rfl] at hc
        simp only [liveIn, evaluated, Option.toList_some, Option.toList_none, List.append_nil,
          List.flatMap_cons, List.flatMap_nil, List.mem_singleton, forall_eq] at hn hread hy
        refine ⟨⟨c, v, rfl, (den_ok hhi hn hread hy h1).1, isClock_iff.2 ⟨b, h2, ?_⟩⟩, by simp⟩
        simpa [Register.withClock] using hc
      | some e =>
        obtain ⟨⟨w, s3⟩, h4, h⟩ := ok_bind.1 h
        obtain ⟨s4, h5, h⟩ := ok_bind.1 h
        cases h
        obtain ⟨r2, hr2, rfl⟩ := updReg_inv h5
        rw [clockOf_set hr2, if_pos rfl] at hc
        have hn' : (live c ++ live e).Nodup := by
          simpa only [liveIn, evaluated, Option.toList_some, List.cons_append, List.nil_append,
            List.flatMap_cons, List.flatMap_nil, List.append_nil] using hn
        obtain ⟨n1, n2, d1, d2⟩ := nodup_split hn'
        obtain ⟨g1, g2, g3⟩ := den_ok hhi n1 (hread c (by simp [evaluated]))
          (hy c (by simp [evaluated])) h1
        obtain ⟨l1, l2⟩ := hloop id e _ rfl
        have hread2 : Reading A glob F t env
            { s1 with regs := s1.regs.set id (r.withClock b) } e := by
          have h0 := (hread e (by simp [evaluated])).frame g2
          refine ⟨h0.clock, h0.now, h0.past, fun j f hf => ?_, fun j i f hf => ?_⟩
          · obtain ⟨x, hx, hx'⟩ := h0.pre j f hf
            refine ⟨_, set_get hr hx, ?_⟩
            rw [if_neg (by rintro rfl; exact l1 _ hf)]; exact hx'
          · obtain ⟨x, hx, hx'⟩ := h0.fby j i f hf
            refine ⟨_, set_get hr hx, ?_⟩
            rw [if_neg (by rintro rfl; exact l2 _ _ hf)]; exact hx'
        have hy2 := ((hy e (by simp [evaluated])).frame g2 _ d2).setRegs
          (s1.regs.set id (r.withClock b))
        obtain ⟨k1, k2, k3⟩ := den_ok hhi n2 hread2 hy2 h4
        refine ⟨⟨c, v, rfl, g1, isClock_iff.2 ⟨b, h2, ?_⟩⟩, ?_⟩
        · have : s3.regs[id]? = some (r.withClock b) := by
            rw [k2.regs]
            have := set_get hr (r' := r.withClock b) hr; rw [if_pos rfl] at this; exact this
          rw [this] at hr2; cases hr2
          have e1 : ((r.withClock b).tryInitialize w).onClock = (r.withClock b).onClock := by
            unfold Register.tryInitialize; split <;> rfl
          rw [e1] at hc
          simpa [Register.withClock] using hc
        · rintro e' he'; cases he'; exact ⟨w, k1⟩

end

end Chandeliers.Den
