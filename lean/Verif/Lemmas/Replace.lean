import Verif.Spec.Replace
import Verif.Lemmas.Link

/-!
# Replacing nodes by nodes that behave the same

Machines that cannot be told apart by running them are bisimilar, and bisimilarity goes through the
evaluation of nodes.
-/

set_option autoImplicit false

namespace Chandeliers.Rep
open Chandeliers.San Chandeliers.Spec

section
variable {S : Panic → Prop} {E : Panic → Panic → Prop} (hE : ∀ p, E p p)

theorem both_bind {α β γ δ : Type} {Q : α → β → Prop} {Q' : γ → δ → Prop} {x : R α} {y : R β}
    {f : α → R γ} {g : β → R δ} (h : Upto S E Q x y) (hf : ∀ a b, Q a b → Upto S E Q' (f a) (g b)) :
    Upto S E Q' (x >>= f) (y >>= g) := by
  cases x with
  | ok a =>
    cases y with
    | ok b => exact hf _ _ h
    | error q => exact h.elim
  | error p =>
    cases y with
    | ok b =>
      show Upto S E Q' (.error p) (g b)
      cases g b
      · exact .inl h
      · exact h
    | error q => exact h

theorem clock_same {σ σ' : Type} {i : Value} {ty ty' : Tup Unit} {s : σ} {s' : σ'}
    {x : R (Value × σ)} {y : R (Value × σ')} {Q : Value × σ → Value × σ' → Prop}
    (h : Q (Tup.allNil Scalar ty, s) (Tup.allNil Scalar ty', s')) (hxy : Upto S E Q x y) :
    Upto S E Q (Candle.implicitClock i ty s x) (Candle.implicitClock i ty' s' y) := by
  unfold Candle.implicitClock
  by_cases hi : i.firstIsNil = true
  · rw [if_pos hi, if_pos hi]; exact h
  · rw [if_neg hi, if_neg hi]; exact hxy

include hE in
theorem both_refl {α : Type} (x : R α) : Upto S E (· = ·) x x := by
  cases x
  · exact .inr (hE _)
  · rfl

include hE in
theorem both_same {α γ δ : Type} {Q : γ → δ → Prop} (x : R α) {f : α → R γ} {g : α → R δ}
    (h : ∀ a, Upto S E Q (f a) (g a)) : Upto S E Q (x >>= f) (x >>= g) :=
  both_bind (both_refl hE x) (by rintro a b rfl; exact h a)

theorem both_mono {α β : Type} {Q Q' : α → β → Prop} {x : R α} {y : R β} (h : Upto S E Q x y)
    (hq : ∀ a b, Q a b → Q' a b) : Upto S E Q' x y := by
  cases x <;> cases y <;> first | exact h.elim | exact h | exact hq _ _ h

/-- The states cannot be told apart by running the machines from them. -/
def SameState (S : Panic → Prop) (E : Panic → Panic → Prop) (m m' : Machine) (s : m.σ) (s' : m'.σ) : Prop :=
  ∀ is, Upto S E (fun a b => a.1 = b.1) (m.runFrom s is) (m'.runFrom s' is)

theorem alike_init {m m' : Machine} : (∀ is, Upto S E (· = ·) (m.run is) (m'.run is)) ↔
    SameState S E m m' m.init m'.init := by
  refine forall_congr' fun is => ?_
  unfold Machine.run
  cases m.runFrom m.init is <;> cases m'.runFrom m'.init is <;> rfl

theorem same_step {m m' : Machine} {s : m.σ} {s' : m'.σ} (h : SameState S E m m' s s') (i : Value) :
    Upto S E (fun a b => a.1 = b.1 ∧ SameState S E m m' a.2 b.2) (m.step s i) (m'.step s' i) := by
  have h1 := h [i]
  simp only [Machine.runFrom] at h1
  cases hs : m.step s i with
  | error p =>
    cases hs' : m'.step s' i with
    | error q => rw [hs, hs'] at h1; exact h1
    | ok b => rw [hs, hs'] at h1; exact h1
  | ok a =>
    cases hs' : m'.step s' i with
    | error q => rw [hs, hs'] at h1; exact h1.elim
    | ok b =>
      rw [hs, hs'] at h1
      have ho : a.1 = b.1 := by
        have : [a.1] = [b.1] := h1
        simpa using this
      refine ⟨ho, fun is => ?_⟩
      have h2 := h (i :: is)
      simp only [Machine.runFrom, hs, hs', bind, Except.bind] at h2
      cases hr : m.runFrom a.2 is <;> cases hr' : m'.runFrom b.2 is <;>
        rw [hr, hr'] at h2
      · exact h2
      · exact h2
      · exact h2.elim
      · exact (List.cons.inj h2).2

theorem same_of_bisim {m m' : Machine} (B : m.σ → m'.σ → Prop)
    (hB : ∀ s s' i, B s s' → Upto S E (fun a b => a.1 = b.1 ∧ B a.2 b.2) (m.step s i) (m'.step s' i)) :
    ∀ s s', B s s' → SameState S E m m' s s' := by
  intro s s' h is
  induction is generalizing s s' with
  | nil => rfl
  | cons i is ih =>
    simp only [Machine.runFrom]
    refine both_bind (hB s s' i h) fun a b hab => ?_
    refine both_bind (ih a.2 b.2 hab.2) fun c d hcd => ?_
    show _ :: _ = _ :: _
    rw [hab.1, hcd]

/-- The same, position by position. -/
def SameStates (S : Panic → Prop) (E : Panic → Panic → Prop) :
    (ms ms' : List Machine) → States ms → States ms' → Prop
  | [], [], _, _ => True
  | m :: ms, m' :: ms', (s, ss), (s', ss') =>
    m.outTy = m'.outTy ∧ SameState S E m m' s s' ∧ SameStates S E ms ms' ss ss'
  | [], _ :: _, _, _ => False
  | _ :: _, [], _, _ => False

/-- The machines are alike position by position. -/
abbrev AllAlike (S : Panic → Prop) (E : Panic → Panic → Prop) (ms ms' : List Machine) : Prop :=
  List.Forall₂ (Milder S E) ms ms'

theorem states_init : ∀ {ms ms' : List Machine}, AllAlike S E ms ms' →
    SameStates S E ms ms' (States.init ms) (States.init ms')
  | [], [], _ => trivial
  | m :: ms, m' :: ms', h => by
    cases h with
    | cons h hs => exact ⟨h.type, alike_init.1 h.runs, states_init hs⟩

include hE in
theorem states_step : ∀ {ms ms' : List Machine} {ss : States ms} {ss' : States ms'}
    (_ : SameStates S E ms ms' ss ss') (i : Nat) (v : Value),
    Upto S E (fun a b => a.1 = b.1 ∧ SameStates S E ms ms' a.2 b.2) (States.stepAt ms ss i v)
      (States.stepAt ms' ss' i v)
  | [], [], _, _, _, _, _ => .inr (hE _)
  | m :: ms, m' :: ms', (s, ss), (s', ss'), h, 0, v => by
    obtain ⟨h1, h2, h3⟩ := h
    have := same_step h2 v
    simp only [States.stepAt]
    cases hs : m.step s v <;> cases hs' : m'.step s' v <;> rw [hs, hs'] at this
    · exact this
    · exact this
    · exact this.elim
    · exact ⟨this.1, h1, this.2, h3⟩
  | m :: ms, m' :: ms', (s, ss), (s', ss'), h, i + 1, v => by
    obtain ⟨h1, h2, h3⟩ := h
    have := states_step h3 i v
    simp only [States.stepAt]
    cases hs : States.stepAt ms ss i v <;> cases hs' : States.stepAt ms' ss' i v <;>
      rw [hs, hs'] at this
    · exact this
    · exact this
    · exact this.elim
    · exact ⟨this.1, h1, h2, this.2⟩

theorem states_type : ∀ {ms ms' : List Machine} {ss : States ms} {ss' : States ms'}
    (_ : SameStates S E ms ms' ss ss') (i : Nat),
    ms[i]?.map (·.outTy) = ms'[i]?.map (·.outTy)
  | [], [], _, _, _, _ => rfl
  | m :: ms, m' :: ms', (s, ss), (s', ss'), h, 0 => by simp [h.1]
  | m :: ms, m' :: ms', (s, ss), (s', ss'), h, i + 1 => by
    simpa using states_type h.2.2 i

/-- The states of two nodes that differ by their subnodes. -/
structure Sim (S : Panic → Prop) (E : Panic → Panic → Prop) (ms ms' : List Machine) (s : NodeState ms)
    (s' : NodeState ms') : Prop where
  clock : s.clock = s'.clock
  hist : s.hist = s'.hist
  nodes : SameStates S E ms ms' s.nodes s'.nodes
  flips : s.flips = s'.flips
  regs : s.regs = s'.regs

/-- Same result, states that correspond. -/
abbrev Same (S : Panic → Prop) (E : Panic → Panic → Prop) (ms ms' : List Machine) {α : Type}
    (a : α × NodeState ms) (b : α × NodeState ms') : Prop := a.1 = b.1 ∧ Sim S E ms ms' a.2 b.2

/-- The same comparisons, and operators that end the same way up to panics in `S`. -/
structure SameOps (S : Panic → Prop) (E : Panic → Panic → Prop) (A A' : Arith) : Prop where
  bin : ∀ op x y, Upto S E (· = ·) (scalarBin A op x y) (scalarBin A' op x y)
  un : ∀ op x, Upto S E (· = ·) (scalarUn A op x) (scalarUn A' op x)
  cmp : ∀ op x y, scalarCmp A op x y = scalarCmp A' op x y

include hE in
theorem SameOps.refl (A : Arith) : SameOps S E A A :=
  ⟨fun _ _ _ => both_refl hE _, fun _ _ => both_refl hE _, fun _ _ _ => rfl⟩

variable {ms ms' : List Machine} {A A' : Arith} {glob : Globals} (hA : SameOps S E A A')

theorem readVar_same {env : Env} {s : NodeState ms} {s' : NodeState ms'} (h : Sim S E ms ms' s s')
    (x : String) (d : Nat) : readVar ms env s x d = readVar ms' env s' x d := by
  cases d with
  | zero => rfl
  | succ d => simp only [readVar, h.hist]

include hA in
theorem binop_same (op : BinOp) (x y : Nillable Scalar) :
    Upto S E (· = ·) (x.binop (scalarBin A op) y) (x.binop (scalarBin A' op) y) := by
  cases x with
  | nil => cases y <;> rfl
  | defined x =>
    cases y with
    | nil => rfl
    | defined y =>
      have := hA.bin op x y
      simp only [Nillable.binop]
      cases hx : scalarBin A op x y <;> cases hy : scalarBin A' op x y <;> rw [hx, hy] at this <;>
        first | exact this | exact congrArg _ this

include hA in
theorem unop_same (op : UnOp) (x : Nillable Scalar) :
    Upto S E (· = ·) (x.unop (scalarUn A op)) (x.unop (scalarUn A' op)) := by
  cases x with
  | nil => rfl
  | defined x =>
    have := hA.un op x
    simp only [Nillable.unop]
    cases hx : scalarUn A op x <;> cases hy : scalarUn A' op x <;> rw [hx, hy] at this <;>
      first | exact this | exact congrArg _ this

include hE hA in
mutual
theorem eval_same (env : Env) : ∀ (e : Expr) {s : NodeState ms} {s' : NodeState ms'},
    Sim S E ms ms' s s' → Upto S E (Same S E ms ms') (eval A glob ms env e s) (eval A' glob ms' env e s')
  | .lit l, s, s', h => ⟨rfl, h⟩
  | .global x, s, s', h => by
    simp only [eval]
    cases glob x with
    | some v => exact ⟨rfl, h⟩
    | none => exact .inr (hE _)
  | .var x dt, s, s', h => by
    simp only [eval, readVar_same h]
    exact both_same hE _ fun v => ⟨rfl, h⟩
  | .tuple es, s, s', h => by
    simp only [eval]
    refine both_bind (evalList_same env es h) fun a b hab => ?_
    exact ⟨by rw [hab.1], hab.2⟩
  | .dummyPre e, s, s', h => by
    simp only [eval]; exact eval_same env e h
  | .dummyParen e, s, s', h => by
    simp only [eval]; exact eval_same env e h
  | .bin op l r, s, s', h => by
    simp only [eval]
    refine both_bind (eval_same env l h) fun a b hab => ?_
    refine both_bind (eval_same env r hab.2) fun c d hcd => ?_
    rw [hab.1, hcd.1]
    refine both_same hE _ fun x => both_same hE _ fun y => both_bind (binop_same hA op x y) ?_
    rintro v _ rfl
    exact ⟨rfl, hcd.2⟩
  | .un op e, s, s', h => by
    simp only [eval]
    refine both_bind (eval_same env e h) fun a b hab => ?_
    rw [hab.1]
    refine both_same hE _ fun x => both_bind (unop_same hA op x) ?_
    rintro v _ rfl
    exact ⟨rfl, hab.2⟩
  | .cmp op l r, s, s', h => by
    simp only [eval, hA.cmp]
    refine both_bind (eval_same env l h) fun a b hab => ?_
    refine both_bind (eval_same env r hab.2) fun c d hcd => ?_
    rw [hab.1, hcd.1]
    refine both_same hE _ fun _ => both_same hE _ fun _ => both_same hE _ fun _ => ⟨rfl, hcd.2⟩
  | .clock op inner act, s, s', h => by
    simp only [eval]
    refine both_bind (eval_same env act h) fun a b hab => ?_
    rw [hab.1]
    refine both_same hE _ fun _ => both_bind (eval_same env inner hab.2) fun c d hcd => ?_
    cases op <;> exact ⟨by rw [hcd.1], hcd.2⟩
  | .later dt before after, s, s', h => by
    simp only [eval]
    refine both_bind (eval_same env after h) fun a b hab => ?_
    rw [← hab.2.clock]
    split
    · exact hab
    · exact eval_same env before hab.2
  | .fetchPre id _, s, s', h => by
    simp only [eval, h.regs]
    cases s'.regs[id]? with
    | some r => exact ⟨rfl, h⟩
    | none => exact .inr (hE _)
  | .fetchFby id _ _, s, s', h => by
    simp only [eval, h.regs]
    cases s'.regs[id]? with
    | some r => exact ⟨rfl, h⟩
    | none => exact .inr (hE _)
  | .flip id i c, s, s', h => by
    simp only [eval]
    refine both_bind (eval_same env i h) fun a b hab => ?_
    refine both_bind (eval_same env c hab.2) fun c d hcd => ?_
    rw [hab.1, hcd.1, hcd.2.flips]
    split
    · exact ⟨rfl, hcd.2⟩
    · cases d.2.flips[id]? with
      | some f => exact ⟨rfl, ⟨hcd.2.clock, hcd.2.hist, hcd.2.nodes, rfl, hcd.2.regs⟩⟩
      | none => exact .inr (hE _)
  | .ifx c y n, s, s', h => by
    simp only [eval]
    refine both_bind (eval_same env y h) fun a b hab => ?_
    refine both_bind (eval_same env n hab.2) fun c' d hcd => ?_
    refine both_bind (eval_same env c hcd.2) fun e f hef => ?_
    rw [hab.1, hcd.1, hef.1]
    exact both_same hE _ fun _ => ⟨rfl, hef.2⟩
  | .merge c y n, s, s', h => by
    simp only [eval]
    refine both_bind (eval_same env c h) fun a b hab => ?_
    rw [hab.1]
    refine both_same hE _ fun _ => ?_
    refine both_bind (eval_same env y hab.2) fun c' d hcd => ?_
    refine both_bind (eval_same env n hcd.2) fun e f hef => ?_
    exact ⟨by rw [hcd.1, hef.1], hef.2⟩
  | .substep dt id args, s, s', h => by
    simp only [eval, h.clock]
    split
    · refine both_bind (eval_same env args h) fun a b hab => ?_
      rw [hab.1]
      refine both_bind (states_step hE hab.2.nodes id b.1) fun c d hcd => ?_
      exact ⟨hcd.1, ⟨hab.2.clock, hab.2.hist, hcd.2, hab.2.flips, hab.2.regs⟩⟩
    · have := states_type h.nodes id
      cases hm : ms[id]? <;> cases hm' : ms'[id]? <;> rw [hm, hm'] at this
      · exact .inr (hE _)
      · cases this
      · cases this
      · simp only [Option.map_some, Option.some.injEq] at this
        exact ⟨by rw [this], h⟩
theorem evalList_same (env : Env) : ∀ (es : List Expr) {s : NodeState ms} {s' : NodeState ms'},
    Sim S E ms ms' s s' →
    Upto S E (Same S E ms ms') (evalList A glob ms env es s) (evalList A' glob ms' env es s')
  | [], s, s', h => ⟨rfl, h⟩
  | e :: es, s, s', h => by
    simp only [evalList]
    refine both_bind (eval_same env e h) fun a b hab => ?_
    refine both_bind (evalList_same env es hab.2) fun c d hcd => ?_
    exact ⟨by rw [hab.1, hcd.1], hcd.2⟩
end

include hE in
theorem updReg_same {s : NodeState ms} {s' : NodeState ms'} (h : Sim S E ms ms' s s') (id : Nat)
    (f : Register Scalar → Register Scalar) :
    Upto S E (Sim S E ms ms') (updReg ms s id f) (updReg ms' s' id f) := by
  simp only [updReg, h.regs]
  cases s'.regs[id]? with
  | some r => exact ⟨h.clock, h.hist, h.nodes, h.flips, rfl⟩
  | none => exact .inr (hE _)

include hE hA in
theorem exec_same (st : Stmt) {x : Env × NodeState ms} {y : Env × NodeState ms'}
    (h : Same S E ms ms' x y) : Upto S E (Same S E ms ms') (exec A glob ms st x) (exec A' glob ms' st y) := by
  obtain ⟨env, s⟩ := x
  obtain ⟨env', s'⟩ := y
  obtain ⟨rfl, h⟩ := h
  cases st with
  | let_ p e =>
    simp only [exec]
    refine both_bind (eval_same hE hA env e h) fun a b hab => ?_
    rw [hab.1]
    exact both_same hE _ fun _ => ⟨rfl, hab.2⟩
  | assert e =>
    simp only [exec]
    refine both_bind (eval_same hE hA env e h) fun a b hab => ?_
    rw [hab.1]
    exact both_same hE _ fun _ => both_same hE _ fun _ => ⟨rfl, hab.2⟩
  | updateRegister id e =>
    simp only [exec]
    refine both_bind (eval_same hE hA env e h) fun a b hab => ?_
    rw [hab.1]
    exact both_bind (updReg_same hE hab.2 id _) fun _ _ hs => ⟨rfl, hs⟩
  | initRegister id val clk =>
    cases clk with
    | none => exact .inr (hE _)
    | some clk =>
      simp only [exec]
      refine both_bind (eval_same hE hA env clk h) fun a b hab => ?_
      rw [hab.1]
      refine both_same hE _ fun _ => ?_
      refine both_bind (updReg_same hE hab.2 id _) fun c d hcd => ?_
      cases val with
      | none => exact ⟨rfl, hcd⟩
      | some val =>
        refine both_bind (eval_same hE hA env val hcd) fun e f hef => ?_
        rw [hef.1]
        exact both_bind (updReg_same hE hef.2 id _) fun _ _ hs => ⟨rfl, hs⟩

include hE hA in
theorem execAll_same : ∀ (sts : List Stmt) {x : Env × NodeState ms} {y : Env × NodeState ms'},
    Same S E ms ms' x y → Upto S E (Same S E ms ms') (execAll A glob ms sts x) (execAll A' glob ms' sts y)
  | [], x, y, h => h
  | st :: sts, x, y, h => by
    simp only [execAll]
    exact both_bind (exec_same hE hA st h) fun a b hab => execAll_same sts hab

include hE in
theorem updHists_same (env : Env) : ∀ (xs : List String) {s : NodeState ms} {s' : NodeState ms'},
    Sim S E ms ms' s s' → Upto S E (Sim S E ms ms') (updHists ms env xs s) (updHists ms' env xs s')
  | [], s, s', h => h
  | x :: xs, s, s', h => by
    simp only [updHists]
    refine both_bind (Q := Sim S E ms ms') ?_ fun a b hab => updHists_same env xs hab
    simp only [updHist, h.hist]
    cases s'.hist x with
    | none => exact .inr (hE _)
    | some hh =>
      cases env x with
      | none => exact .inr (hE _)
      | some v => exact ⟨h.clock, rfl, h.nodes, h.flips, h.regs⟩

include hE hA in
theorem body_same (n : Node) {s : NodeState ms} {s' : NodeState ms'} (h : Sim S E ms ms' s s')
    (i : Value) : Upto S E (Same S E ms ms') (n.body A glob ms s i) (n.body A' glob ms' s' i) := by
  simp only [Node.body]
  refine both_same hE _ fun env => ?_
  refine both_bind (execAll_same hE hA n.stmts (x := (env, s)) (y := (env, s')) ⟨rfl, h⟩)
    fun a b hab => ?_
  obtain ⟨env₁, s₁⟩ := a
  obtain ⟨env₂, s₂⟩ := b
  obtain ⟨he, hs⟩ := hab
  cases (he : env₁ = env₂)
  refine both_bind (updHists_same hE env₁ _
    (⟨congrArg (· + 1) hs.clock, hs.hist, hs.nodes, hs.flips, hs.regs⟩ :
      Sim S E ms ms' { s₁ with clock := s₁.clock + 1 } { s₂ with clock := s₂.clock + 1 }))
    fun a b hab => ?_
  refine both_bind (updHists_same hE env₁ _ hab) fun c d hcd => ?_
  refine both_bind (updHists_same hE env₁ _ hcd) fun e f hef => ?_
  exact both_same hE _ fun outs =>
    ⟨rfl, ⟨hef.clock, hef.hist, hef.nodes, hef.flips, by simp only [hef.regs]⟩⟩

include hE hA in
theorem machine_alike (n : Node) (h : AllAlike S E ms ms') :
    Milder S E (n.machine A glob ms) (n.machine A' glob ms') where
  type := rfl
  runs := by
    refine alike_init.2 (same_of_bisim (Sim S E ms ms') ?_ _ _
      ⟨rfl, rfl, states_init h, rfl, rfl⟩)
    intro s s' i hs
    exact clock_same (s := s) (s' := s') ⟨rfl, hs⟩ (body_same hE hA n hs i)

theorem wrapExtern_alike {m m' : Machine} (h : Milder S E m m') :
    Milder S E (wrapExtern m) (wrapExtern m') where
  type := h.type
  runs := by
    refine alike_init.2 (same_of_bisim (m := wrapExtern m) (m' := wrapExtern m')
      (fun s s' => SameState S E m m' s.1 s'.1) ?_ _ _ (alike_init.1 h.runs))
    intro s s' i hs
    refine clock_same (s := s) (s' := s') ⟨by rw [h.type], hs⟩ ?_
    have := same_step hs i
    cases hm : m.step s.1 i <;> cases hm' : m'.step s'.1 i <;> rw [hm, hm'] at this
    · exact this
    · exact this
    · exact this.elim
    · exact this

theorem wrapExport_alike {m m' : Machine} (h : Milder S E m m') :
    Milder S E (wrapExport m) (wrapExport m') where
  type := h.type
  runs := by
    refine alike_init.2 (same_of_bisim (m := wrapExport m) (m' := wrapExport m')
      (SameState S E m m') ?_ _ _ (alike_init.1 h.runs))
    intro s s' i hs
    exact clock_same (s := s) (s' := s') ⟨by rw [h.type], hs⟩ (same_step hs i)

/-- Two tables of nodes that are alike. -/
structure AlikeTable (S : Panic → Prop) (E : Panic → Panic → Prop) (N N' : String → Option Machine) : Prop where
  none : ∀ f, N f = none ↔ N' f = none
  some : ∀ f m m', N f = some m → N' f = some m' → Milder S E m m'

theorem subnodes_alike {N N' : String → Option Machine} (h : AlikeTable S E N N') :
    ∀ (bs : List NodeInstance), (subnodes N bs = none ∧ subnodes N' bs = none) ∨
      ∃ ms ms', subnodes N bs = some ms ∧ subnodes N' bs = some ms' ∧ AllAlike S E ms ms'
  | [] => .inr ⟨[], [], rfl, rfl, .nil⟩
  | b :: bs => by
    have ih := subnodes_alike h bs
    simp only [subnodes]
    cases hm : N b.name with
    | none => rw [(h.none _).1 hm]; exact .inl ⟨rfl, rfl⟩
    | some m =>
      cases hm' : N' b.name with
      | none => rw [(h.none _).2 hm'] at hm; cases hm
      | some m' =>
        rcases ih with ⟨h1, h2⟩ | ⟨ms, ms', h1, h2, h3⟩
        · rw [h1, h2]; exact .inl ⟨rfl, rfl⟩
        · rw [h1, h2]
          exact .inr ⟨_, _, rfl, rfl, .cons (h.some _ _ _ hm hm') h3⟩

theorem alikeTable_set {N N' : String → Option Machine} (h : AlikeTable S E N N') (f : String)
    {m m' : Machine} (hm : Milder S E m m') :
    AlikeTable S E (fun g => if g = f then some m else N g) (fun g => if g = f then some m' else N' g) where
  none := by
    intro g
    split
    · simp
    · exact h.none g
  some := by
    intro g a b
    split
    · rintro ⟨⟩ ⟨⟩; exact hm
    · exact h.some g a b

include hE in
theorem linkNodes_alike {X X' : Extern} (hX : AlikeTable S E X.nodes X'.nodes) {A A' : Arith} (hA : SameOps S E A A')
    (g : Globals) : ∀ (ds : List Decl) {N N' : String → Option Machine}, AlikeTable S E N N' →
      Both Eq (AlikeTable S E) (linkNodes A X g N ds) (linkNodes A' X' g N' ds)
  | [], N, N', h => h
  | .node n :: ds, N, N', h => by
    simp only [linkNodes]
    rcases subnodes_alike h n.blocks with ⟨h1, h2⟩ | ⟨ms, ms', h1, h2, h3⟩
    · rw [h1, h2]; rfl
    · rw [h1, h2]
      exact linkNodes_alike hX hA g ds (alikeTable_set h n.name (machine_alike hE hA n h3))
  | .extNode n :: ds, N, N', h => by
    simp only [linkNodes]
    cases hm : X.nodes n.name with
    | none => rw [(hX.none _).1 hm]; rfl
    | some m =>
      cases hm' : X'.nodes n.name with
      | none => rw [(hX.none _).2 hm'] at hm; cases hm
      | some m' =>
        exact linkNodes_alike hX hA g ds
          (alikeTable_set h n.name (wrapExtern_alike (hX.some _ _ _ hm hm')))
  | .const _ :: ds, N, N', h => by simp only [linkNodes]; exact linkNodes_alike hX hA g ds h
  | .extConst _ :: ds, N, N', h => by simp only [linkNodes]; exact linkNodes_alike hX hA g ds h

theorem linkConsts_alike {X X' : Extern} (hX : X.consts = X'.consts) (A : Arith) :
    ∀ (ds : List Decl) (g : Globals), linkConsts A X g ds = linkConsts A X' g ds
  | [], g => rfl
  | .const c :: ds, g => by
    simp only [linkConsts]
    cases c.eval A g with
    | ok v => exact linkConsts_alike hX A ds _
    | error p => rfl
  | .extConst c :: ds, g => by
    simp only [linkConsts, hX]
    cases X'.consts c.name with
    | some v => exact linkConsts_alike hX A ds _
    | none => rfl
  | .node _ :: ds, g => by simp only [linkConsts]; exact linkConsts_alike hX A ds g
  | .extNode _ :: ds, g => by simp only [linkConsts]; exact linkConsts_alike hX A ds g

/-! ## No difference at all -/

/-- No panic is forgiven. -/
abbrev None : Panic → Prop := fun _ => False

theorem upto_none {α β : Type} {Q : α → β → Prop} {x : R α} {y : R β} :
    Upto None E Q x y ↔ Both E Q x y := by
  cases x <;> cases y <;> simp [Upto, Both]

theorem alike_milder {m m' : Machine} : Alike E m m' ↔ Milder None E m m' :=
  ⟨fun h => ⟨h.type, fun is => upto_none.2 (h.runs is)⟩,
    fun h => ⟨h.type, fun is => upto_none.1 (h.runs is)⟩⟩

theorem forall_alike {ms ms' : List Machine} (h : List.Forall₂ (Alike E) ms ms') :
    AllAlike None E ms ms' := h.imp fun _ _ => alike_milder.1

include hE in
theorem machine_same (A : Arith) (glob : Globals) (n : Node) {ms ms' : List Machine}
    (h : List.Forall₂ (Alike E) ms ms') : Alike E (n.machine A glob ms) (n.machine A glob ms') :=
  alike_milder.2 (machine_alike hE (SameOps.refl hE A) n (forall_alike h))

end

end Chandeliers.Rep
