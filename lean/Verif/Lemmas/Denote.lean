import Verif.Spec.Streams
import Verif.Spec.Reads

/-! Evaluation in a node state follows the stream semantics. -/

set_option autoImplicit false
set_option linter.unusedSectionVars false

namespace Chandeliers.Den
open Chandeliers.San Chandeliers.Spec

/-! ## Outcomes -/

/-- Same panic, or same value with a state that has the property. -/
def Sim {α σ : Type} (r : R α) (r' : R (α × σ)) (P : σ → Prop) : Prop :=
  match r, r' with
  | .ok v, .ok (w, s) => w = v ∧ P s
  | .error p, .error q => q = p
  | _, _ => False

theorem Sim.bind {α β σ τ : Type} {r : R α} {r' : R (α × σ)} {P : σ → Prop} {Q : τ → Prop}
    {f : α → R β} {g : α × σ → R (β × τ)} (h : Sim r r' P)
    (hf : ∀ v s, r = .ok v → P s → Sim (f v) (g (v, s)) Q) : Sim (r >>= f) (r' >>= g) Q := by
  unfold Sim at h
  cases r with
  | error p =>
    cases r' with
    | error q => exact h
    | ok w => exact h.elim
  | ok v =>
    cases r' with
    | error q => exact h.elim
    | ok w =>
      obtain ⟨w, s⟩ := w
      obtain ⟨rfl, hs⟩ := h
      exact hf _ _ rfl hs

theorem Sim.same {α β τ : Type} {m : R α} {Q : τ → Prop} {f : α → R β} {g : α → R (β × τ)}
    (hf : ∀ a, m = .ok a → Sim (f a) (g a) Q) : Sim (m >>= f) (m >>= g) Q := by
  cases m with
  | error p => exact rfl
  | ok a => exact hf a rfl

theorem Sim.mono {α σ : Type} {r : R α} {r' : R (α × σ)} {P Q : σ → Prop} (h : Sim r r' P)
    (hPQ : ∀ s, P s → Q s) : Sim r r' Q := by
  unfold Sim at h ⊢
  cases r <;> cases r' <;> try exact h
  rename_i v w
  obtain ⟨w, s⟩ := w
  exact ⟨h.1, hPQ _ h.2⟩

theorem Sim.ok {α σ : Type} {v : α} {s : σ} {P : σ → Prop} (h : P s) :
    Sim (.ok v) (.ok (v, s)) P := ⟨rfl, h⟩

theorem Sim.err {α σ : Type} {p : Panic} {P : σ → Prop} :
    Sim (.error p : R α) (.error p : R (α × σ)) P := rfl

/-! ## Iteration -/

theorem iter_le {σ : Type} {f : Nat → σ → R σ} {s : σ} {lo : Nat} : ∀ {t : Nat}, t ≤ lo →
    iter f s lo t = .ok s
  | 0, _ => rfl
  | t + 1, h => by simp only [iter]; rw [if_pos (by omega)]

theorem iter_succ {σ : Type} {f : Nat → σ → R σ} {s : σ} {lo t : Nat} (h : lo ≤ t) :
    iter f s lo (t + 1) = (iter f s lo t >>= f t) := by
  rw [iter]; rw [if_neg (by omega)]

/-! ## Subnodes -/

/-- The machine at a position and its state. -/
def States.get? : (ms : List Machine) → States ms → Nat → Option (Σ m : Machine, m.σ)
  | [], _, _ => none
  | m :: _, (s, _), 0 => some ⟨m, s⟩
  | _ :: ms, (_, ss), i + 1 => States.get? ms ss i

theorem States.stepAt_get : ∀ {ms : List Machine} {ss : States ms} {i : Nat} {m : Machine}
    {s : m.σ} {v : Value}, States.get? ms ss i = some ⟨m, s⟩ →
    (∀ p, m.step s v = .error p → States.stepAt ms ss i v = .error p) ∧
    ∀ o s', m.step s v = .ok (o, s') → ∃ ss', States.stepAt ms ss i v = .ok (o, ss') ∧
      States.get? ms ss' i = some ⟨m, s'⟩ ∧
      ∀ j, j ≠ i → States.get? ms ss' j = States.get? ms ss j
  | [], _, _, _, _, _, h => by simp [States.get?] at h
  | m :: ms, (s, ss), 0, m', s', v, h => by
    simp only [States.get?, Option.some.injEq, Sigma.mk.injEq] at h
    obtain ⟨rfl, h⟩ := h
    cases h
    refine ⟨fun p hp => by simp [States.stepAt, hp], fun o s' hs => ?_⟩
    refine ⟨(s', ss), by simp [States.stepAt, hs], rfl, fun j hj => ?_⟩
    cases j with
    | zero => exact absurd rfl hj
    | succ j => rfl
  | m :: ms, (s, ss), i + 1, m', s', v, h => by
    have ih := States.stepAt_get (ms := ms) (ss := ss) (i := i) (v := v) (s := s') h
    refine ⟨fun p hp => by simp [States.stepAt, ih.1 p hp], fun o s'' hs => ?_⟩
    obtain ⟨ss', h1, h2, h3⟩ := ih.2 o s'' hs
    refine ⟨(s, ss'), by simp [States.stepAt, h1], h2, fun j hj => ?_⟩
    cases j with
    | zero => rfl
    | succ j => exact h3 j (by omega)

theorem States.stepAt_none : ∀ {ms : List Machine} {ss : States ms} {i : Nat} {v : Value},
    ms[i]? = none → States.stepAt ms ss i v = .error .rejected
  | [], _, _, _, _ => rfl
  | m :: ms, (s, ss), 0, v, h => by simp at h
  | m :: ms, (s, ss), i + 1, v, h => by
    simp only [States.stepAt]
    rw [States.stepAt_none (by simpa using h)]

theorem States.get?_init : ∀ {ms : List Machine} {i : Nat} {m : Machine}, ms[i]? = some m →
    States.get? ms (States.init ms) i = some ⟨m, m.init⟩
  | [], _, _, h => by simp at h
  | m :: ms, 0, m', h => by
    simp only [List.getElem?_cons_zero, Option.some.injEq] at h
    subst h; rfl
  | m :: ms, i + 1, m', h => States.get?_init (ms := ms) (by simpa using h)

section
variable {A : Arith} {glob : Globals} {ms : List Machine} {F : Flow}

/-! ## What evaluation may touch -/

/-- Nothing changed except at the given slots. -/
structure Confined (S : List Slot) (s s' : NodeState ms) : Prop where
  clock : s'.clock = s.clock
  hist : s'.hist = s.hist
  regs : s'.regs = s.regs
  flips : ∀ i, Slot.flip i ∉ S → s'.flips[i]? = s.flips[i]?
  nodes : ∀ i, Slot.sub i ∉ S → States.get? ms s'.nodes i = States.get? ms s.nodes i

/-- No flip and no subnode changed except at the given slots. -/
structure SlotsConfined (S : List Slot) (s s' : NodeState ms) : Prop where
  flips : ∀ i, Slot.flip i ∉ S → s'.flips[i]? = s.flips[i]?
  nodes : ∀ i, Slot.sub i ∉ S → States.get? ms s'.nodes i = States.get? ms s.nodes i

theorem Confined.slots {S : List Slot} {s s' : NodeState ms} (h : Confined S s s') : SlotsConfined S s s' :=
  ⟨h.flips, h.nodes⟩

theorem Confined.refl {S : List Slot} {s : NodeState ms} : Confined S s s :=
  ⟨rfl, rfl, rfl, fun _ _ => rfl, fun _ _ => rfl⟩

theorem Confined.trans {S : List Slot} {s s' s'' : NodeState ms} (h : Confined S s s')
    (h' : Confined S s' s'') : Confined S s s'' :=
  ⟨h'.clock.trans h.clock, h'.hist.trans h.hist, h'.regs.trans h.regs,
    fun i hi => (h'.flips i hi).trans (h.flips i hi),
    fun i hi => (h'.nodes i hi).trans (h.nodes i hi)⟩

theorem Confined.mono {S S' : List Slot} {s s' : NodeState ms} (h : Confined S s s')
    (hS : ∀ x ∈ S, x ∈ S') : Confined S' s s' :=
  ⟨h.clock, h.hist, h.regs, fun i hi => h.flips i fun hc => hi (hS _ hc),
    fun i hi => h.nodes i fun hc => hi (hS _ hc)⟩

/-! ## Slots at the beginning of an instant -/

variable (A glob F)

mutual
/-- At the beginning of instant `t`, the slots of the expression, in use from instant `lo` to
instant `hi`, hold what the stream semantics says. -/
def Ready (s : NodeState ms) (t : Nat) (lo hi : Nat) : Expr → Prop
  | .lit _ => True
  | .global _ => True
  | .var _ _ => True
  | .tuple es => ReadyList s t lo hi es
  | .dummyPre e => Ready s t lo hi e
  | .dummyParen e => Ready s t lo hi e
  | .bin _ l r => Ready s t lo hi l ∧ Ready s t lo hi r
  | .un _ e => Ready s t lo hi e
  | .cmp _ l r => Ready s t lo hi l ∧ Ready s t lo hi r
  | .clock _ e b => Ready s t lo hi e ∧ Ready s t lo hi b
  | .later d b a => Ready s t lo (min hi d) b ∧ Ready s t lo hi a
  | .fetchPre _ _ => True
  | .fetchFby _ _ _ => True
  | .flip id i c => Ready s t lo hi i ∧ Ready s t lo hi c ∧
    (t ≤ hi → ∃ b, s.flips[id]? = some ⟨b⟩ ∧ flipFresh (den A glob ms F lo i) lo t = .ok b)
  | .ifx b y n => Ready s t lo hi b ∧ Ready s t lo hi y ∧ Ready s t lo hi n
  | .merge b y n => Ready s t lo hi b ∧ Ready s t lo hi y ∧ Ready s t lo hi n
  | .substep d i a => Ready s t (max lo d) hi a ∧ (t ≤ hi → ∀ m, ms[i]? = some m →
    ∃ st, States.get? ms s.nodes i = some ⟨m, st⟩ ∧
      subState m (den A glob ms F (max lo d) a) (max lo d) t = .ok st)
/-- Component-wise. -/
def ReadyList (s : NodeState ms) (t : Nat) (lo hi : Nat) : List Expr → Prop
  | [] => True
  | e :: es => Ready s t lo hi e ∧ ReadyList s t lo hi es
end

variable {A glob F}

mutual
theorem Ready.dead {s : NodeState ms} {t lo hi : Nat} (h : hi < t) :
    (e : Expr) → Ready A glob F s t lo hi e
  | .lit _ => by simp [Ready]
  | .global _ => by simp [Ready]
  | .var _ _ => by simp [Ready]
  | .tuple es => by simp only [Ready]; exact ReadyList.dead h es
  | .dummyPre e => by simp only [Ready]; exact Ready.dead h e
  | .dummyParen e => by simp only [Ready]; exact Ready.dead h e
  | .bin _ l r => by simp only [Ready]; exact ⟨Ready.dead h l, Ready.dead h r⟩
  | .un _ e => by simp only [Ready]; exact Ready.dead h e
  | .cmp _ l r => by simp only [Ready]; exact ⟨Ready.dead h l, Ready.dead h r⟩
  | .clock _ e b => by simp only [Ready]; exact ⟨Ready.dead h e, Ready.dead h b⟩
  | .later d b a => by
    simp only [Ready]; exact ⟨Ready.dead (by omega) b, Ready.dead h a⟩
  | .fetchPre _ _ => by simp [Ready]
  | .fetchFby _ _ _ => by simp [Ready]
  | .flip id i c => by
    simp only [Ready]; exact ⟨Ready.dead h i, Ready.dead h c, fun h' => absurd h' (by omega)⟩
  | .ifx b y n => by simp only [Ready]; exact ⟨Ready.dead h b, Ready.dead h y, Ready.dead h n⟩
  | .merge b y n => by simp only [Ready]; exact ⟨Ready.dead h b, Ready.dead h y, Ready.dead h n⟩
  | .substep d i a => by
    simp only [Ready]; exact ⟨Ready.dead h a, fun h' => absurd h' (by omega)⟩
theorem ReadyList.dead {s : NodeState ms} {t lo hi : Nat} (h : hi < t) :
    (es : List Expr) → ReadyList A glob F s t lo hi es
  | [] => by simp [ReadyList]
  | e :: es => by simp only [ReadyList]; exact ⟨Ready.dead h e, ReadyList.dead h es⟩
end

mutual
/-- Before its first instant nothing happens. -/
theorem Ready.skip {s : NodeState ms} {t lo hi : Nat} (h : t < lo) :
    (e : Expr) → Ready A glob F s t lo hi e → Ready A glob F s (t + 1) lo hi e
  | .lit _, _ => by simp [Ready]
  | .global _, _ => by simp [Ready]
  | .var _ _, _ => by simp [Ready]
  | .tuple es, hr => by simp only [Ready] at hr ⊢; exact ReadyList.skip h es hr
  | .dummyPre e, hr => by simp only [Ready] at hr ⊢; exact Ready.skip h e hr
  | .dummyParen e, hr => by simp only [Ready] at hr ⊢; exact Ready.skip h e hr
  | .bin _ l r, hr => by
    simp only [Ready] at hr ⊢; exact ⟨Ready.skip h l hr.1, Ready.skip h r hr.2⟩
  | .un _ e, hr => by simp only [Ready] at hr ⊢; exact Ready.skip h e hr
  | .cmp _ l r, hr => by
    simp only [Ready] at hr ⊢; exact ⟨Ready.skip h l hr.1, Ready.skip h r hr.2⟩
  | .clock _ e b, hr => by
    simp only [Ready] at hr ⊢; exact ⟨Ready.skip h e hr.1, Ready.skip h b hr.2⟩
  | .later d b a, hr => by
    simp only [Ready] at hr ⊢; exact ⟨Ready.skip h b hr.1, Ready.skip h a hr.2⟩
  | .fetchPre _ _, _ => by simp [Ready]
  | .fetchFby _ _ _, _ => by simp [Ready]
  | .flip id i c, hr => by
    simp only [Ready] at hr ⊢
    refine ⟨Ready.skip h i hr.1, Ready.skip h c hr.2.1, fun h' => ?_⟩
    obtain ⟨b, h1, h2⟩ := hr.2.2 (by omega)
    refine ⟨b, h1, ?_⟩
    unfold flipFresh at h2 ⊢
    rw [iter_le (by omega)] at h2 ⊢
    exact h2
  | .ifx b y n, hr => by
    simp only [Ready] at hr ⊢
    exact ⟨Ready.skip h b hr.1, Ready.skip h y hr.2.1, Ready.skip h n hr.2.2⟩
  | .merge b y n, hr => by
    simp only [Ready] at hr ⊢
    exact ⟨Ready.skip h b hr.1, Ready.skip h y hr.2.1, Ready.skip h n hr.2.2⟩
  | .substep d i a, hr => by
    simp only [Ready] at hr ⊢
    refine ⟨Ready.skip (by omega) a hr.1, fun h' m hm => ?_⟩
    obtain ⟨st, h1, h2⟩ := hr.2 (by omega) m hm
    refine ⟨st, h1, ?_⟩
    unfold subState at h2 ⊢
    rw [iter_le (by omega)] at h2 ⊢
    exact h2
theorem ReadyList.skip {s : NodeState ms} {t lo hi : Nat} (h : t < lo) :
    (es : List Expr) → ReadyList A glob F s t lo hi es → ReadyList A glob F s (t + 1) lo hi es
  | [], _ => by simp [ReadyList]
  | e :: es, hr => by
    simp only [ReadyList] at hr ⊢; exact ⟨Ready.skip h e hr.1, ReadyList.skip h es hr.2⟩
end

mutual
/-- It depends on the slots of the expression only. -/
theorem Ready.slotFrame {S : List Slot} {s s' : NodeState ms} {t lo hi : Nat} (h : SlotsConfined S s s') :
    (e : Expr) → (∀ x ∈ live e, x ∉ S) → Ready A glob F s t lo hi e → Ready A glob F s' t lo hi e
  | .lit _, _, _ => by simp [Ready]
  | .global _, _, _ => by simp [Ready]
  | .var _ _, _, _ => by simp [Ready]
  | .tuple es, hd, hr => by
    simp only [Ready, live] at hd hr ⊢; exact ReadyList.slotFrame h es hd hr
  | .dummyPre e, hd, hr => by simp only [Ready, live] at hd hr ⊢; exact Ready.slotFrame h e hd hr
  | .dummyParen e, hd, hr => by simp only [Ready, live] at hd hr ⊢; exact Ready.slotFrame h e hd hr
  | .bin _ l r, hd, hr => by
    simp only [Ready, live, List.mem_append] at hd hr ⊢
    exact ⟨Ready.slotFrame h l (fun x hx => hd x (.inl hx)) hr.1,
      Ready.slotFrame h r (fun x hx => hd x (.inr hx)) hr.2⟩
  | .un _ e, hd, hr => by simp only [Ready, live] at hd hr ⊢; exact Ready.slotFrame h e hd hr
  | .cmp _ l r, hd, hr => by
    simp only [Ready, live, List.mem_append] at hd hr ⊢
    exact ⟨Ready.slotFrame h l (fun x hx => hd x (.inl hx)) hr.1,
      Ready.slotFrame h r (fun x hx => hd x (.inr hx)) hr.2⟩
  | .clock _ l r, hd, hr => by
    simp only [Ready, live, List.mem_append] at hd hr ⊢
    exact ⟨Ready.slotFrame h l (fun x hx => hd x (.inl hx)) hr.1,
      Ready.slotFrame h r (fun x hx => hd x (.inr hx)) hr.2⟩
  | .later _ l r, hd, hr => by
    simp only [Ready, live, List.mem_append] at hd hr ⊢
    exact ⟨Ready.slotFrame h l (fun x hx => hd x (.inl hx)) hr.1,
      Ready.slotFrame h r (fun x hx => hd x (.inr hx)) hr.2⟩
  | .fetchPre _ _, _, _ => by simp [Ready]
  | .fetchFby _ _ _, _, _ => by simp [Ready]
  | .flip id l r, hd, hr => by
    simp only [Ready, live, List.mem_append, List.mem_cons] at hd hr ⊢
    refine ⟨Ready.slotFrame h l (fun x hx => hd x (.inr (.inl hx))) hr.1,
      Ready.slotFrame h r (fun x hx => hd x (.inr (.inr hx))) hr.2.1, fun h' => ?_⟩
    obtain ⟨b, h1, h2⟩ := hr.2.2 h'
    exact ⟨b, (h.flips id (hd _ (.inl rfl))).trans h1, h2⟩
  | .ifx b y n, hd, hr => by
    simp only [Ready, live, List.mem_append] at hd hr ⊢
    exact ⟨Ready.slotFrame h b (fun x hx => hd x (.inl hx)) hr.1,
      Ready.slotFrame h y (fun x hx => hd x (.inr (.inl hx))) hr.2.1,
      Ready.slotFrame h n (fun x hx => hd x (.inr (.inr hx))) hr.2.2⟩
  | .merge b y n, hd, hr => by
    simp only [Ready, live, List.mem_append] at hd hr ⊢
    exact ⟨Ready.slotFrame h b (fun x hx => hd x (.inl hx)) hr.1,
      Ready.slotFrame h y (fun x hx => hd x (.inr (.inl hx))) hr.2.1,
      Ready.slotFrame h n (fun x hx => hd x (.inr (.inr hx))) hr.2.2⟩
  | .substep d i a, hd, hr => by
    simp only [Ready, live, List.mem_cons] at hd hr ⊢
    refine ⟨Ready.slotFrame h a (fun x hx => hd x (.inr hx)) hr.1, fun h' m hm => ?_⟩
    obtain ⟨st, h1, h2⟩ := hr.2 h' m hm
    exact ⟨st, (h.nodes i (hd _ (.inl rfl))).trans h1, h2⟩
theorem ReadyList.slotFrame {S : List Slot} {s s' : NodeState ms} {t lo hi : Nat} (h : SlotsConfined S s s') :
    (es : List Expr) → (∀ x ∈ liveList es, x ∉ S) → ReadyList A glob F s t lo hi es →
    ReadyList A glob F s' t lo hi es
  | [], _, _ => by simp [ReadyList]
  | e :: es, hd, hr => by
    simp only [ReadyList, liveList, List.mem_append] at hd hr ⊢
    exact ⟨Ready.slotFrame h e (fun x hx => hd x (.inl hx)) hr.1,
      ReadyList.slotFrame h es (fun x hx => hd x (.inr hx)) hr.2⟩
end

theorem Ready.frame {S : List Slot} {s s' : NodeState ms} {t lo hi : Nat} (h : Confined S s s')
    (e : Expr) (hd : ∀ x ∈ live e, x ∉ S) (hr : Ready A glob F s t lo hi e) :
    Ready A glob F s' t lo hi e := Ready.slotFrame h.slots e hd hr

theorem ReadyList.frame {S : List Slot} {s s' : NodeState ms} {t lo hi : Nat} (h : Confined S s s')
    (es : List Expr) (hd : ∀ x ∈ liveList es, x ∉ S) (hr : ReadyList A glob F s t lo hi es) :
    ReadyList A glob F s' t lo hi es := ReadyList.slotFrame h.slots es hd hr

/-! ## Evaluation -/

/-- What an expression reads at instant `t` is what the streams say. -/
structure Reading (A : Arith) (glob : Globals) (F : Flow) (t : Nat) (env : Env) (s : NodeState ms)
    (e : Expr) : Prop where
  clock : s.clock = t
  now : ∀ x, Part (.var x 0) e → env x = some (F.X x t)
  past : ∀ x d, Part (.var x (d + 1)) e → ∃ h, s.hist x = some h ∧
    h.2.ago (d + 1) = .ok (if t < d + 1 then .nil else F.X x (t - (d + 1)))
  pre : ∀ id f, Part (.fetchPre id f) e → ∃ r, s.regs[id]? = some r ∧
    den A glob ms F 0 (.fetchPre id f) t = .ok r.get
  fby : ∀ id i f, Part (.fetchFby id i f) e → ∃ r, s.regs[id]? = some r ∧
    den A glob ms F 0 (.fetchFby id i f) t = .ok r.get

theorem Reading.operand {t : Nat} {env : Env} {s : NodeState ms} {c e : Expr}
    (h : Reading A glob F t env s e) (ho : Operand c e) : Reading A glob F t env s c :=
  ⟨h.clock, fun x hx => h.now x (hx.tail ho), fun x d hx => h.past x d (hx.tail ho),
    fun id f hx => h.pre id f (hx.tail ho), fun id i f hx => h.fby id i f (hx.tail ho)⟩

theorem Reading.frame {t : Nat} {env : Env} {S : List Slot} {s s' : NodeState ms} {e : Expr}
    (h : Reading A glob F t env s e) (hf : Confined S s s') : Reading A glob F t env s' e :=
  ⟨hf.clock.trans h.clock, h.now, by rw [hf.hist]; exact h.past, by rw [hf.regs]; exact h.pre,
    by rw [hf.regs]; exact h.fby⟩

theorem den_fetchPre (lo id : Nat) (f : Expr) (t : Nat) :
    den A glob ms F lo (.fetchPre id f) t = den A glob ms F 0 (.fetchPre id f) t := by
  simp only [den]

theorem den_fetchFby (lo id : Nat) (i f : Expr) (t : Nat) :
    den A glob ms F lo (.fetchFby id i f) t = den A glob ms F 0 (.fetchFby id i f) t := by
  simp only [den]

theorem nodup_split {l r : List Slot} (h : (l ++ r).Nodup) :
    l.Nodup ∧ r.Nodup ∧ (∀ x ∈ l, x ∉ r) ∧ ∀ x ∈ r, x ∉ l := by
  rw [List.nodup_append] at h
  exact ⟨h.1, h.2.1, fun x hx hr => h.2.2 x hx x hr rfl, fun x hx hl => h.2.2 x hl x hx rfl⟩

mutual
/-- At instant `t`, evaluation in a state that is ready follows the stream semantics, touches only
the slots of the expression, and leaves them ready for instant `t + 1`. -/
theorem eval_den {env : Env} {t lo hi : Nat} (hlo : lo ≤ t) (hhi : t ≤ hi) :
    (e : Expr) → {s : NodeState ms} → (live e).Nodup → Reading A glob F t env s e →
    Ready A glob F s t lo hi e →
    Sim (den A glob ms F lo e t) (eval A glob ms env e s)
      (fun s' => Confined (live e) s s' ∧ Ready A glob F s' (t + 1) lo hi e)
  | .lit l, s, _, _, _ => by
    simp only [den, eval]; exact .ok ⟨.refl, by simp [Ready]⟩
  | .global x, s, _, _, _ => by
    simp only [den, eval]
    cases glob x with
    | none => exact .err
    | some v => exact .ok ⟨.refl, by simp [Ready]⟩
  | .var x 0, s, _, hr, _ => by
    have := hr.now x .refl
    simp only [den, eval, readVar, this, Nat.not_lt_zero, if_false, Nat.sub_zero]
    exact .ok ⟨.refl, by simp [Ready]⟩
  | .var x (d + 1), s, _, hr, _ => by
    obtain ⟨h, h1, h2⟩ := hr.past x d .refl
    simp only [den, eval, readVar, h1, h2]
    exact .ok ⟨.refl, by simp [Ready]⟩
  | .tuple es, s, hn, hr, hy => by
    simp only [den, eval, live, Ready] at *
    refine (evalList_den hlo hhi es hn (fun e he => hr.operand (.tuple he)) hy).bind ?_
    intro vs s1 _ h1
    exact .ok h1
  | .dummyPre e, s, hn, hr, hy => by
    simp only [den, eval, live, Ready] at *
    exact eval_den hlo hhi e hn (hr.operand .dummyPre) hy
  | .dummyParen e, s, hn, hr, hy => by
    simp only [den, eval, live, Ready] at *
    exact eval_den hlo hhi e hn (hr.operand .dummyParen) hy
  | .bin op l r, s, hn, hr, hy => by
    simp only [den, eval, live, Ready] at *
    obtain ⟨n1, n2, d1, d2⟩ := nodup_split hn
    refine (eval_den hlo hhi l n1 (hr.operand .binL) hy.1).bind ?_
    intro v1 s1 _ ⟨f1, r1⟩
    refine (eval_den hlo hhi r n2 ((hr.operand .binR).frame f1) (hy.2.frame f1 _ d2)).bind ?_
    intro v2 s2 _ ⟨f2, r2⟩
    refine .same fun a _ => .same fun b _ => .same fun v _ => .ok ⟨?_, r1.frame f2 _ d1, r2⟩
    exact (f1.mono (by simp +contextual)).trans (f2.mono (by simp +contextual))
  | .un op e, s, hn, hr, hy => by
    simp only [den, eval, live, Ready] at *
    refine (eval_den hlo hhi e hn (hr.operand .un) hy).bind ?_
    intro v1 s1 _ h1
    exact .same fun a _ => .same fun v _ => .ok h1
  | .cmp op l r, s, hn, hr, hy => by
    simp only [den, eval, live, Ready] at *
    obtain ⟨n1, n2, d1, d2⟩ := nodup_split hn
    refine (eval_den hlo hhi l n1 (hr.operand .cmpL) hy.1).bind ?_
    intro v1 s1 _ ⟨f1, r1⟩
    refine (eval_den hlo hhi r n2 ((hr.operand .cmpR).frame f1) (hy.2.frame f1 _ d2)).bind ?_
    intro v2 s2 _ ⟨f2, r2⟩
    refine .same fun a _ => .same fun b _ => .same fun v _ => .ok ⟨?_, r1.frame f2 _ d1, r2⟩
    exact (f1.mono (by simp +contextual)).trans (f2.mono (by simp +contextual))
  | .clock op e b, s, hn, hr, hy => by
    simp only [den, eval, live, Ready] at *
    obtain ⟨n1, n2, d1, d2⟩ := nodup_split hn
    refine (eval_den hlo hhi b n2 (hr.operand .clockGuard) hy.2).bind ?_
    intro v1 s1 _ ⟨f1, r1⟩
    refine .same fun a _ => ?_
    refine (eval_den hlo hhi e n1 ((hr.operand .clockInner).frame f1) (hy.1.frame f1 _ d1)).bind ?_
    intro v2 s2 _ ⟨f2, r2⟩
    have hf : Confined (live e ++ live b) s s2 :=
      (f1.mono (by simp +contextual)).trans (f2.mono (by simp +contextual))
    cases op with
    | when => exact .ok ⟨hf, r2, r1.frame f2 _ d2⟩
    | whenot => exact .ok ⟨hf, r2, r1.frame f2 _ d2⟩
  | .later d b a, s, hn, hr, hy => by
    simp only [den, eval, live, Ready] at *
    obtain ⟨n1, n2, d1, d2⟩ := nodup_split hn
    refine (eval_den hlo hhi a n2 (hr.operand .laterAfter) hy.2).bind ?_
    intro v1 s1 _ ⟨f1, r1⟩
    have hc : s1.clock = t := f1.clock.trans hr.clock
    by_cases hd : d < t
    · simp only [hd, hc, if_true, gt_iff_lt]
      refine .ok ⟨f1.mono (by simp +contextual), Ready.dead (by omega) b, r1⟩
    · simp only [hd, hc, if_false, gt_iff_lt]
      refine (eval_den (hi := min hi d) hlo (by omega) b n1 ((hr.operand .laterBefore).frame f1)
        (hy.1.frame f1 _ d1)).mono ?_
      rintro s2 ⟨f2, r2⟩
      exact ⟨(f1.mono (by simp +contextual)).trans (f2.mono (by simp +contextual)), r2,
        r1.frame f2 _ d2⟩
  | .fetchPre id f, s, hn, hr, _ => by
    obtain ⟨r, h1, h2⟩ := hr.pre id f .refl
    rw [den_fetchPre, h2]
    simp only [eval, h1]
    exact .ok ⟨.refl, by simp [Ready]⟩
  | .fetchFby id i f, s, hn, hr, _ => by
    obtain ⟨r, h1, h2⟩ := hr.fby id i f .refl
    rw [den_fetchFby, h2]
    simp only [eval, h1]
    exact .ok ⟨.refl, by simp [Ready]⟩
  | .flip id i c, s, hn, hr, hy => by
    simp only [den, eval, live, Ready] at *
    obtain ⟨n0, hn⟩ := List.nodup_cons.1 hn
    obtain ⟨n1, n2, d1, d2⟩ := nodup_split hn
    obtain ⟨b, hb1, hb2⟩ := hy.2.2 hhi
    refine (eval_den hlo hhi i n1 (hr.operand .flipInitial) hy.1).bind ?_
    intro v1 s1 hv1 ⟨f1, r1⟩
    refine (eval_den hlo hhi c n2 ((hr.operand .flipContinued).frame f1) (hy.2.1.frame f1 _ d2)).bind ?_
    intro v2 s2 _ ⟨f2, r2⟩
    have hf : Confined (live i ++ live c) s s2 :=
      (f1.mono (by simp +contextual)).trans (f2.mono (by simp +contextual))
    have hb : s2.flips[id]? = some ⟨b⟩ := (hf.flips id n0).trans hb1
    have hnext : flipFresh (den A glob ms F lo i) lo (t + 1) = .ok (b && v1.firstIsNil) := by
      unfold flipFresh at hb2 ⊢
      rw [iter_succ hlo, hb2]
      show (do let v ← den A glob ms F lo i t; pure (b && v.firstIsNil)) = _
      rw [hv1]; rfl
    by_cases hnil : v1.firstIsNil = true
    · simp only [hnil, if_true]
      refine .ok ⟨hf.mono (by simp +contextual), r1.frame f2 _ d1, r2, fun _ => ⟨b, hb, ?_⟩⟩
      rw [hnext, hnil, Bool.and_true]
    · have hnil : v1.firstIsNil = false := by simpa using hnil
      simp only [hnil, hb, hb2, Bool.false_eq_true, if_false]
      rw [hnil, Bool.and_false] at hnext
      have hlen : id < s2.flips.length := by
        rw [List.getElem?_eq_some_iff] at hb; exact hb.1
      have hg : Confined [Slot.flip id] s2 { s2 with flips := s2.flips.set id ⟨false⟩ } :=
        ⟨rfl, rfl, rfl, fun j hj => by
          have : id ≠ j := by rintro rfl; simp at hj
          simp [List.getElem?_set_ne this], fun _ _ => rfl⟩
      have m1 : ∀ x ∈ live i, x ∉ [Slot.flip id] := by
        rintro x hx h; simp only [List.mem_singleton] at h; subst h
        exact n0 (List.mem_append_left _ hx)
      have m2 : ∀ x ∈ live c, x ∉ [Slot.flip id] := by
        rintro x hx h; simp only [List.mem_singleton] at h; subst h
        exact n0 (List.mem_append_right _ hx)
      have hfin : Sim (Except.ok (if b = true then v1 else v2) : R Value)
          (.ok (if b = true then v1 else v2, { s2 with flips := s2.flips.set id ⟨false⟩ }))
          (fun s' : NodeState ms => Confined (Slot.flip id :: (live i ++ live c)) s s' ∧
            Ready A glob F s' (t + 1) lo hi i ∧ Ready A glob F s' (t + 1) lo hi c ∧
            (t + 1 ≤ hi → ∃ b, s'.flips[id]? = some ⟨b⟩ ∧
              flipFresh (den A glob ms F lo i) lo (t + 1) = .ok b)) := by
        refine .ok ⟨(hf.mono (by simp +contextual)).trans (hg.mono (by simp)),
          (r1.frame f2 _ d1).frame hg _ m1, r2.frame hg _ m2, fun _ => ⟨false, ?_, hnext⟩⟩
        simp [hlen]
      exact hfin
  | .ifx b y n, s, hn, hr, hy => by
    simp only [den, eval, live, Ready] at *
    obtain ⟨n1, n2, d1, d2⟩ := nodup_split hn
    obtain ⟨n3, n4, d3, d4⟩ := nodup_split n2
    refine (eval_den hlo hhi y n3 (hr.operand .ifYes) hy.2.1).bind ?_
    intro v1 s1 _ ⟨f1, r1⟩
    refine (eval_den hlo hhi n n4 ((hr.operand .ifNo).frame f1) (hy.2.2.frame f1 _ d4)).bind ?_
    intro v2 s2 _ ⟨f2, r2⟩
    refine (eval_den hlo hhi b n1 (((hr.operand .ifCond).frame f1).frame f2)
      ((hy.1.frame f1 _ fun x hx h => d1 x hx (List.mem_append_left _ h)).frame f2 _
        fun x hx h => d1 x hx (List.mem_append_right _ h))).bind ?_
    intro v3 s3 _ ⟨f3, r3⟩
    refine .same fun a _ => .ok ⟨?_, r3, (r1.frame f2 _ d3).frame f3 _
      (fun x hx => d2 x (List.mem_append_left _ hx)), r2.frame f3 _
      (fun x hx => d2 x (List.mem_append_right _ hx))⟩
    exact ((f1.mono (by simp +contextual)).trans (f2.mono (by simp +contextual))).trans
      (f3.mono (by simp +contextual))
  | .merge b y n, s, hn, hr, hy => by
    simp only [den, eval, live, Ready] at *
    obtain ⟨n1, n2, d1, d2⟩ := nodup_split hn
    obtain ⟨n3, n4, d3, d4⟩ := nodup_split n2
    refine (eval_den hlo hhi b n1 (hr.operand .mergeSwitch) hy.1).bind ?_
    intro v1 s1 _ ⟨f1, r1⟩
    refine .same fun a _ => ?_
    refine (eval_den hlo hhi y n3 ((hr.operand .mergeOn).frame f1) (hy.2.1.frame f1 _
      fun x hx => d2 x (List.mem_append_left _ hx))).bind ?_
    intro v2 s2 _ ⟨f2, r2⟩
    refine (eval_den hlo hhi n n4 (((hr.operand .mergeOff).frame f1).frame f2)
      ((hy.2.2.frame f1 _ fun x hx => d2 x (List.mem_append_right _ hx)).frame f2 _ d4)).bind ?_
    intro v3 s3 _ ⟨f3, r3⟩
    refine .ok ⟨?_, (r1.frame f2 _ fun x hx h => d1 x hx (List.mem_append_left _ h)).frame f3 _
        fun x hx h => d1 x hx (List.mem_append_right _ h), r2.frame f3 _ d3, r3⟩
    exact ((f1.mono (by simp +contextual)).trans (f2.mono (by simp +contextual))).trans
      (f3.mono (by simp +contextual))
  | .substep d i a, s, hn, hr, hy => by
    simp only [den, eval, live, Ready] at *
    obtain ⟨n0, n1⟩ := List.nodup_cons.1 hn
    by_cases hd : d ≤ t
    · simp only [hd, hr.clock, if_true, ge_iff_le]
      refine (eval_den (lo := max lo d) (by omega) hhi a n1 (hr.operand .arg) hy.1).bind ?_
      intro v1 s1 hv1 ⟨f1, r1⟩
      cases hm : ms[i]? with
      | none =>
        rw [States.stepAt_none hm]
        exact .err
      | some m =>
        obtain ⟨st, h1, h2⟩ := hy.2 hhi m hm
        have h1' : States.get? ms s1.nodes i = some ⟨m, st⟩ := (f1.nodes i n0).trans h1
        have hstep := States.stepAt_get (v := v1) h1'
        simp only [h2]
        show Sim (m.step st v1 >>= fun p => pure p.1) _ _
        cases hs : m.step st v1 with
        | error p =>
          rw [hstep.1 p hs]
          exact .err
        | ok p =>
          obtain ⟨o, st'⟩ := p
          obtain ⟨ss', g1, g2, g3⟩ := hstep.2 o st' hs
          rw [g1]
          have hg : Confined [Slot.sub i] s1 { s1 with nodes := ss' } :=
            ⟨rfl, rfl, rfl, fun _ _ => rfl, fun j hj => g3 j (by rintro rfl; simp at hj)⟩
          have m1 : ∀ x ∈ live a, x ∉ [Slot.sub i] := by
            rintro x hx h; simp only [List.mem_singleton] at h; subst h; exact n0 hx
          refine .ok ⟨(f1.mono (by simp +contextual)).trans (hg.mono (by simp)),
            r1.frame hg _ m1, fun _ m' hm' => ?_⟩
          cases hm'
          refine ⟨st', g2, ?_⟩
          unfold subState at h2 ⊢
          rw [iter_succ (by omega), h2]
          show (do let a ← den A glob ms F (max lo d) a t; let p ← m.step st a; pure p.2) = _
          rw [hv1]
          show (m.step st v1 >>= fun p => pure p.2) = _
          rw [hs]; rfl
    · simp only [hd, hr.clock, if_false, ge_iff_le]
      cases hm : ms[i]? with
      | none => exact .err
      | some m =>
        refine .ok ⟨.refl, Ready.skip (by omega) _ hy.1, fun _ m' hm' => ?_⟩
        cases hm'
        obtain ⟨st, h1, h2⟩ := hy.2 hhi m hm
        refine ⟨st, h1, ?_⟩
        unfold subState at h2 ⊢
        rw [iter_le (by omega)] at h2 ⊢
        exact h2
/-- Component-wise. -/
theorem evalList_den {env : Env} {t lo hi : Nat} (hlo : lo ≤ t) (hhi : t ≤ hi) :
    (es : List Expr) → {s : NodeState ms} → (liveList es).Nodup →
    (∀ e ∈ es, Reading A glob F t env s e) → ReadyList A glob F s t lo hi es →
    Sim (denList A glob ms F lo es t) (evalList A glob ms env es s)
      (fun s' => Confined (liveList es) s s' ∧ ReadyList A glob F s' (t + 1) lo hi es)
  | [], s, _, _, _ => by
    simp only [denList, evalList]; exact .ok ⟨.refl, by simp [ReadyList]⟩
  | e :: es, s, hn, hr, hy => by
    simp only [denList, evalList, liveList, ReadyList] at *
    obtain ⟨n1, n2, d1, d2⟩ := nodup_split hn
    refine (eval_den hlo hhi e n1 (hr e (by simp)) hy.1).bind ?_
    intro v1 s1 _ ⟨f1, r1⟩
    refine (evalList_den hlo hhi es n2 (fun e' he => (hr e' (by simp [he])).frame f1)
      (hy.2.frame f1 _ d2)).bind ?_
    intro v2 s2 _ ⟨f2, r2⟩
    refine .ok ⟨?_, r1.frame f2 _ d1, r2⟩
    exact (f1.mono (by simp +contextual)).trans (f2.mono (by simp +contextual))
end

end

end Chandeliers.Den
