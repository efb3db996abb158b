import Verif.Spec.Clocks
import Verif.Lemmas.Typecheck
import Verif.Spec.Solutions

/-! The clock checker follows the clock rules. -/

set_option autoImplicit false

namespace Chandeliers.Clk
open Chandeliers.San Chandeliers.Spec Chandeliers.Err Chandeliers.Err.Chk

/-- The clocks known to the checker. -/
def clks (c : ClkCtx) : String → Option Clk := fun x => (c.local_ x).map Clock.intoClk

theorem forge_eq (k : Clk) : k.forge = clockExpr k := by cases k <;> rfl

/-- What a successful computation does to the state. -/
structure Ran (l : List (Nat × Expr)) (s s' : EAccum Diag × ClkCtx) : Prop where
  grows : s.1.err <+: s'.1.err
  vars : s'.2.local_ = s.2.local_
  regs : ∀ id, (∃ f k, (id, f) ∈ l ∧ HasClock false (clks s.2) f k ∧
      s'.2.clockOfRegister id = some (clockExpr k)) ∨
    ((∀ f, (id, f) ∉ l) ∧ s'.2.clockOfRegister id = s.2.clockOfRegister id)

theorem Ran.clks {l : List (Nat × Expr)} {s s' : EAccum Diag × ClkCtx} (h : Ran l s s') :
    clks s'.2 = clks s.2 := by unfold Clk.clks; rw [h.vars]

theorem Ran.refl (s : EAccum Diag × ClkCtx) : Ran [] s s :=
  ⟨List.prefix_rfl, rfl, fun _ => .inr ⟨fun _ h => by simp at h, rfl⟩⟩

theorem Ran.trans {l l' : List (Nat × Expr)} {s s' s'' : EAccum Diag × ClkCtx} (h : Ran l s s')
    (h' : Ran l' s' s'') : Ran (l ++ l') s s'' := by
  refine ⟨h.grows.trans h'.grows, h'.vars.trans h.vars, fun id => ?_⟩
  rcases h'.regs id with ⟨f, k, h1, h2, h3⟩ | ⟨h1, h2⟩
  · exact .inl ⟨f, k, List.mem_append_right _ h1, h.clks ▸ h2, h3⟩
  · rcases h.regs id with ⟨f, k, h3, h4, h5⟩ | ⟨h3, h4⟩
    · exact .inl ⟨f, k, List.mem_append_left _ h3, h4, h2.trans h5⟩
    · exact .inr ⟨fun f hf => (List.mem_append.1 hf).elim (h3 f) (h1 f), h2.trans h4⟩

theorem Ran.same {l l' : List (Nat × Expr)} {s s' s'' : EAccum Diag × ClkCtx} (h : Ran l s s')
    (h' : Ran l' s' s'') {b : Bool} (hb : b = true → s''.1.err = s.1.err) :
    (b = true → s'.1.err = s.1.err) ∧ (b = true → s''.1.err = s'.1.err) := by
  have key : b = true → s'.1.err = s.1.err := fun hb' => by
    have h1 := h.grows
    have h2 := h'.grows
    rw [hb hb'] at h2
    exact h2.eq_of_length (Nat.le_antisymm h2.length_le h1.length_le)
  exact ⟨key, fun hb' => (hb hb').trans (key hb').symm⟩

/-- A successful computation follows a rule. -/
def Sound {α : Type} (m : Chk Diag ClkCtx α) (l : List (Nat × Expr))
    (J : Bool → (String → Option Clk) → α → Prop) : Prop :=
  ∀ s s' x, m s = (.some x, s') →
    Ran l s s' ∧ ∀ b : Bool, (b = true → s'.1.err = s.1.err) → J b (clks s.2) x

theorem Sound.bind {α β : Type} {m : Chk Diag ClkCtx α} {f : α → Chk Diag ClkCtx β}
    {l l' : List (Nat × Expr)} {J : Bool → (String → Option Clk) → α → Prop}
    {J' : α → Bool → (String → Option Clk) → β → Prop} (hm : Sound m l J)
    (hf : ∀ x, Sound (f x) l' (J' x)) :
    Sound (m >>= f) (l ++ l') (fun b K y => ∃ x, J b K x ∧ J' x b K y) := by
  intro s s' y h
  obtain ⟨x, s1, h1, h2⟩ := bind_some.1 h
  obtain ⟨r1, j1⟩ := hm _ _ _ h1
  obtain ⟨r2, j2⟩ := hf _ _ _ _ h2
  refine ⟨r1.trans r2, fun b hb => ?_⟩
  obtain ⟨hb1, hb2⟩ := r1.same r2 hb
  exact ⟨x, j1 b hb1, r1.clks ▸ j2 b hb2⟩

theorem Sound.pure {α : Type} (x : α) : Sound (Pure.pure x : Chk Diag ClkCtx α) []
    (fun _ _ y => y = x) := by
  intro s s' y h
  cases h
  exact ⟨Ran.refl _, fun _ _ => rfl⟩

theorem Sound.weaken {α : Type} {m : Chk Diag ClkCtx α} {l l' : List (Nat × Expr)}
    {J J' : Bool → (String → Option Clk) → α → Prop} (h : Sound m l J) (hl : l = l')
    (hJ : ∀ b K x, J b K x → J' b K x) : Sound m l' J' := by
  subst hl
  intro s s' x hr
  obtain ⟨r, j⟩ := h _ _ _ hr
  exact ⟨r, fun b hb => hJ _ _ _ (j b hb)⟩

theorem Sound.both {α β : Type} {m : Chk Diag ClkCtx α} {n : Chk Diag ClkCtx β}
    {l l' : List (Nat × Expr)} {J : Bool → (String → Option Clk) → α → Prop}
    {J' : Bool → (String → Option Clk) → β → Prop} (hm : Sound m l J) (hn : Sound n l' J') :
    Sound (Chk.both m n) (l ++ l') (fun b K p => J b K p.1 ∧ J' b K p.2) := by
  intro s s' p h
  obtain ⟨s1, h1, h2⟩ := both_some.1 h
  obtain ⟨r1, j1⟩ := hm _ _ _ h1
  obtain ⟨r2, j2⟩ := hn _ _ _ h2
  refine ⟨r1.trans r2, fun b hb => ?_⟩
  obtain ⟨hb1, hb2⟩ := r1.same r2 hb
  exact ⟨j1 b hb1, r1.clks ▸ j2 b hb2⟩

theorem opt_seq {σ α β : Type} {m : Chk Diag σ α} {f : α → Chk Diag σ β}
    {g : Option α → Chk Diag σ β} {s s' : EAccum Diag × σ} {x : β}
    (h : (Chk.opt m >>= g) s = (.some x, s'))
    (hn : ∀ s s', g none s ≠ (.some x, s'))
    (hg : ∀ a s s', g (some a) s = (.some x, s') → f a s = (.some x, s')) :
    (m >>= f) s = (.some x, s') := by
  rw [opt_bind] at h
  rw [run_bind]
  rcases hm : m s with ⟨r, s1⟩
  rw [hm] at h
  cases r with
  | some a => exact hg _ _ _ h
  | none => exact absurd h (hn _ _)
  | abort => simp at h

theorem isImplicit_some {σ : Type} {k : Clk} {s s' : EAccum Diag × σ} :
    k.isImplicit s = (.some (), s') ↔ Always k ∧ s' = s := by
  cases k <;> simp [Clk.isImplicit, Always, Chk.error, eq_comm]

theorem identical_some {σ : Type} {k l : Clk} {s s' : EAccum Diag × σ} :
    k.identical l s = (.some (), s') ↔ SameClk k l ∧ s' = s := by
  cases k <;> cases l <;> simp [Clk.identical, SameClk, Always, Chk.error, eq_comm]
  · split <;> simp_all [Chk.error, eq_comm]
  · split <;> simp_all [Chk.error, eq_comm]

theorem refine_some {σ : Type} {k l k' : Clk} {s s' : EAccum Diag × σ} :
    k.refine l s = (.some k', s') ↔ Compatible k l ∧ k' = Clk.meet k l ∧ s' = s := by
  cases k <;> cases l <;> simp [Clk.refine, Compatible, Clk.meet, Chk.error, eq_comm]
  · split <;> simp_all [Chk.error, eq_comm]
  · split <;> simp_all [Chk.error, eq_comm]

theorem sound_isImplicit (k : Clk) : Sound k.isImplicit [] (fun _ _ _ => Always k) := by
  intro s s' x h
  obtain ⟨h1, rfl⟩ := isImplicit_some.1 h
  exact ⟨Ran.refl _, fun _ _ => h1⟩

theorem sound_identical (k l : Clk) : Sound (k.identical l) [] (fun _ _ _ => SameClk k l) := by
  intro s s' x h
  obtain ⟨h1, rfl⟩ := identical_some.1 h
  exact ⟨Ran.refl _, fun _ _ => h1⟩

theorem sound_refine (k l : Clk) :
    Sound (k.refine l) [] (fun _ _ x => Compatible k l ∧ x = Clk.meet k l) := by
  intro s s' x h
  obtain ⟨h1, h2, rfl⟩ := refine_some.1 h
  exact ⟨Ran.refl _, fun _ _ => ⟨h1, h2⟩⟩

theorem sound_clockOf (x : String) : Sound (clockOf x) [] (fun _ K k => K x = some k) := by
  intro s s' k h
  obtain ⟨a, c⟩ := s
  unfold clockOf at h
  obtain ⟨c1, s1, h1, h2⟩ := bind_some.1 h
  cases h1
  cases hx : c.local_ x with
  | none => rw [hx] at h2; simp [Chk.abort] at h2
  | some k' =>
    rw [hx] at h2
    cases h2
    exact ⟨Ran.refl _, fun _ _ => by simp [clks, hx]⟩

theorem asClock_some {σ : Type} {op : ClockOp} {e : Expr} {k : Clk} {s s' : EAccum Diag × σ} :
    e.asClock op s = (.some k, s') ↔ (∃ x d, e = .var x d ∧ k = guardClk op x) ∧ s' = s := by
  cases e <;> cases op <;> simp [Expr.asClock, Chk.error, guardClk, eq_comm]

theorem sound_asClock (op : ClockOp) (e : Expr) :
    Sound (e.asClock op) [] (fun _ _ k => ∃ x d, e = .var x d ∧ k = guardClk op x) := by
  intro s s' k h
  obtain ⟨h1, rfl⟩ := asClock_some.1 h
  exact ⟨Ran.refl _, fun _ _ => h1⟩

/-- The error is kept, the failure is not. -/
theorem sound_dropped (k : Clk) :
    Sound (Chk.opt k.isImplicit) [] (fun b _ _ => b = true → Always k) := by
  intro s s' x h
  have : (∃ (hk : Always k), s' = s) ∨ (¬ Always k ∧ s'.2 = s.2 ∧ s'.1.err = s.1.err ++ [.clkTooSlow k]) := by
    cases k <;> simp [Chk.opt, Clk.isImplicit, Chk.error, Always] at h ⊢
    · exact h.2.symm
    · exact h.2.symm
    · rw [← h.2]; exact ⟨rfl, rfl⟩
    · rw [← h.2]; exact ⟨rfl, rfl⟩
  rcases this with ⟨hk, rfl⟩ | ⟨_, h2, h3⟩
  · exact ⟨Ran.refl _, fun _ _ _ => hk⟩
  · refine ⟨⟨by rw [h3]; exact List.prefix_append _ _, by rw [h2], fun id => .inr ⟨by simp, by rw [h2]⟩⟩,
      fun b hb hb' => ?_⟩
    have := hb hb'
    rw [h3] at this
    simp at this

theorem sound_save {id : Nat} {f : Expr} {k : Clk} {s s' : EAccum Diag × ClkCtx}
    (hk : HasClock false (clks s.2) f k) (h : saveClock id k s = (.some (), s')) :
    Ran [(id, f)] s s' ∧ s'.1.err = s.1.err := by
  obtain ⟨a, c⟩ := s
  simp only [saveClock, Chk.modify, Prod.mk.injEq, true_and] at h
  subst h
  refine ⟨⟨List.prefix_rfl, rfl, fun i => ?_⟩, rfl⟩
  by_cases hi : i = id
  · subst hi
    exact .inl ⟨f, k, by simp, hk, by simp [forge_eq]⟩
  · exact .inr ⟨fun g hg => hi (by simp at hg; exact hg.1), by simp [hi]⟩

mutual
theorem clockcheck_sound : (e : Expr) →
    Sound e.clockcheck (fetches e) (fun b K k => HasClock b K e k)
  | .lit l => by
    rw [Expr.clockcheck]
    exact (Sound.pure _).weaken rfl fun b K k h => h ▸ .lit
  | .global x => by
    rw [Expr.clockcheck]
    exact (Sound.pure _).weaken rfl fun b K k h => h ▸ .global
  | .var x d => by
    rw [Expr.clockcheck]
    exact (sound_clockOf x).weaken rfl fun b K k h => .var h
  | .dummyParen e => by
    rw [Expr.clockcheck]
    exact (clockcheck_sound e).weaken (by simp [fetches]) fun b K k h => .dummyParen h
  | .dummyPre e => by
    rw [Expr.clockcheck]
    refine ((clockcheck_sound e).bind fun k => (sound_isImplicit k).bind fun _ => Sound.pure k).weaken
      (by simp [fetches]) ?_
    rintro b K k ⟨_, h1, _, h2, rfl⟩
    exact .dummyPre h1 h2
  | .bin op l r => by
    rw [Expr.clockcheck]
    refine (((clockcheck_sound l).both (clockcheck_sound r)).bind
      fun p => sound_refine p.1 p.2).weaken (by simp [fetches]) ?_
    rintro b K k ⟨p, ⟨h1, h2⟩, h3, rfl⟩
    exact .bin h1 h2 h3
  | .cmp op l r => by
    rw [Expr.clockcheck]
    refine (((clockcheck_sound l).both (clockcheck_sound r)).bind
      fun p => sound_refine p.1 p.2).weaken (by simp [fetches]) ?_
    rintro b K k ⟨p, ⟨h1, h2⟩, h3, rfl⟩
    exact .cmp h1 h2 h3
  | .un op e => by
    rw [Expr.clockcheck]
    exact (clockcheck_sound e).weaken (by simp [fetches]) fun b K k h => .un h
  | .later d l r => by
    rw [Expr.clockcheck]
    refine (((clockcheck_sound l).both (clockcheck_sound r)).bind fun p =>
      (sound_dropped p.1).bind fun _ => (sound_dropped p.2).bind fun _ => Sound.pure p.1).weaken
      (by simp [fetches]) ?_
    rintro b K k ⟨p, ⟨h1, h2⟩, _, h3, _, h4, rfl⟩
    exact .later h1 h2 fun hb => ⟨h3 hb, h4 hb⟩
  | .flip id l r => by
    rw [Expr.clockcheck]
    refine (((clockcheck_sound l).both (clockcheck_sound r)).bind fun p =>
      (sound_identical p.2 p.1).bind fun _ => Sound.pure p.2).weaken (by simp [fetches]) ?_
    rintro b K k ⟨p, ⟨h1, h2⟩, _, h3, rfl⟩
    exact .flip h1 h2 h3
  | .clock op e g => by
    rw [Expr.clockcheck]
    refine ((clockcheck_sound e).bind fun k => (clockcheck_sound g).bind fun kk =>
      (sound_asClock op g).bind fun new => (sound_refine k kk).bind fun _ => Sound.pure new).weaken
      (by simp [fetches]) ?_
    rintro b K k ⟨k1, h1, k2, h2, k3, ⟨x, d, rfl, rfl⟩, _, ⟨h4, rfl⟩, rfl⟩
    cases h2 with
    | var h2 => exact .clock h1 h2 h4
  | .substep d id e => by
    rw [Expr.clockcheck]
    exact (clockcheck_sound e).weaken (by simp [fetches]) fun b K k h => .substep h
  | .tuple [] => by
    rw [Expr.clockcheck]
    exact (Sound.pure _).weaken (by simp [fetches, fetchesList]) fun b K k h => h ▸ .empty
  | .tuple (e :: es) => by
    rw [Expr.clockcheck]
    have key := (clockcheck_sound e).bind fun k => (clockcheck_sound e).bind fun k' =>
      (sound_identical k k').bind fun _ => (clockcheckList_sound k es).bind fun _ => Sound.pure k
    intro s s' k h
    obtain ⟨r, j⟩ := key _ _ _ h
    refine ⟨⟨r.grows, r.vars, fun id => ?_⟩, fun b hb => ?_⟩
    · rcases r.regs id with ⟨f, k, h1, h2, h3⟩ | ⟨h1, h2⟩
      · refine .inl ⟨f, k, ?_, h2, h3⟩
        simp only [fetches, fetchesList, List.mem_append, List.not_mem_nil, or_false, false_or] at h1 ⊢
        grind
      · refine .inr ⟨fun f hf => h1 f ?_, h2⟩
        simp only [fetches, fetchesList, List.mem_append, List.not_mem_nil, or_false, false_or] at hf ⊢
        grind
    · obtain ⟨k1, h1, _, _, _, _, _, h2, rfl⟩ := j b hb
      exact .tuple h1 h2
  | .ifx c y n => by
    intro s s' x h
    rw [Expr.clockcheck] at h
    have h' : (do
        let c ← c.clockcheck
        let y ← y.clockcheck
        let n ← n.clockcheck
        let c ← c.refine y
        c.refine n : Chk Diag ClkCtx Clk) s = (.some x, s') := by
      refine opt_seq h (fun s s' hn => ?_) fun c s s' h => ?_
      · obtain ⟨_, _, _, hn⟩ := bind_some.1 hn
        obtain ⟨_, _, _, hn⟩ := bind_some.1 hn
        obtain ⟨_, _, hn, _⟩ := bind_some.1 hn
        simp [Chk.ofOption] at hn
      refine opt_seq h (fun s s' hn => ?_) fun y s s' h => ?_
      · obtain ⟨_, _, _, hn⟩ := bind_some.1 hn
        obtain ⟨_, _, _, hn⟩ := bind_some.1 hn
        obtain ⟨_, _, hn, _⟩ := bind_some.1 hn
        simp [Chk.ofOption] at hn
      refine opt_seq h (fun s s' hn => ?_) fun n s s' h => h
      obtain ⟨_, _, _, hn⟩ := bind_some.1 hn
      obtain ⟨_, _, _, hn⟩ := bind_some.1 hn
      obtain ⟨_, _, hn, _⟩ := bind_some.1 hn
      simp [Chk.ofOption] at hn
    refine (((clockcheck_sound c).bind fun kc => (clockcheck_sound y).bind fun ky =>
      (clockcheck_sound n).bind fun kn => (sound_refine kc ky).bind fun kc =>
        sound_refine kc kn).weaken (l' := fetches (.ifx c y n))
        (J' := fun b K k => HasClock b K (.ifx c y n) k) (by simp [fetches]) ?_) s s' x h'
    rintro b K k ⟨k1, h1, k2, h2, k3, h3, _, ⟨h4, rfl⟩, h5, rfl⟩
    exact .ifx h1 h2 h3 h4 h5
  | .merge g y n => by
    intro s s' x h
    rw [Expr.clockcheck] at h
    have h' : (do
        let on ← g.asClock .when
        let off ← g.asClock .whenot
        let s ← g.clockcheck
        let y ← y.clockcheck
        let n ← n.clockcheck
        let _ ← y.refine on
        let _ ← n.refine off
        pure s : Chk Diag ClkCtx Clk) s = (.some x, s') := by
      refine opt_seq h (fun s s' hn => ?_) fun on s s' h => ?_
      · obtain ⟨_, _, _, hn⟩ := bind_some.1 hn
        obtain ⟨_, _, _, hn⟩ := bind_some.1 hn
        obtain ⟨_, _, _, hn⟩ := bind_some.1 hn
        obtain ⟨_, _, _, hn⟩ := bind_some.1 hn
        obtain ⟨_, _, _, hn⟩ := bind_some.1 hn
        obtain ⟨_, _, _, hn⟩ := bind_some.1 hn
        obtain ⟨_, _, _, hn⟩ := bind_some.1 hn
        obtain ⟨_, _, hn, _⟩ := bind_some.1 hn
        simp [Chk.ofOption] at hn
      refine opt_seq h (fun s s' hn => ?_) fun off s s' h => ?_
      · obtain ⟨_, _, _, hn⟩ := bind_some.1 hn
        obtain ⟨_, _, _, hn⟩ := bind_some.1 hn
        obtain ⟨_, _, _, hn⟩ := bind_some.1 hn
        obtain ⟨_, _, _, hn⟩ := bind_some.1 hn
        obtain ⟨_, _, _, hn⟩ := bind_some.1 hn
        obtain ⟨_, _, _, hn⟩ := bind_some.1 hn
        obtain ⟨_, _, _, hn⟩ := bind_some.1 hn
        obtain ⟨_, _, _, hn⟩ := bind_some.1 hn
        obtain ⟨_, _, hn, _⟩ := bind_some.1 hn
        simp [Chk.ofOption] at hn
      refine opt_seq h (fun s s' hn => ?_) fun g s s' h => ?_
      · obtain ⟨_, _, _, hn⟩ := bind_some.1 hn
        obtain ⟨_, _, _, hn⟩ := bind_some.1 hn
        obtain ⟨_, _, hn, _⟩ := bind_some.1 hn
        simp [Chk.ofOption] at hn
      refine opt_seq h (fun s s' hn => ?_) fun y s s' h => ?_
      · obtain ⟨_, _, _, hn⟩ := bind_some.1 hn
        obtain ⟨_, _, _, hn⟩ := bind_some.1 hn
        obtain ⟨_, _, hn, _⟩ := bind_some.1 hn
        simp [Chk.ofOption] at hn
      refine opt_seq h (fun s s' hn => ?_) fun n s s' h => h
      obtain ⟨_, _, _, hn⟩ := bind_some.1 hn
      obtain ⟨_, _, _, hn⟩ := bind_some.1 hn
      obtain ⟨_, _, hn, _⟩ := bind_some.1 hn
      simp [Chk.ofOption] at hn
    refine (((sound_asClock .when g).bind fun on => (sound_asClock .whenot g).bind fun off =>
      (clockcheck_sound g).bind fun kg => (clockcheck_sound y).bind fun ky =>
      (clockcheck_sound n).bind fun kn => (sound_refine ky on).bind fun _ =>
        (sound_refine kn off).bind fun _ => Sound.pure kg).weaken (l' := fetches (.merge g y n))
        (J' := fun b K k => HasClock b K (.merge g y n) k) (by simp [fetches]) ?_) s s' x h'
    rintro b K k ⟨_, ⟨x, d, rfl, rfl⟩, _, ⟨_, _, h0, rfl⟩, k1, h1, k2, h2, k3, h3, _, ⟨h4, _⟩, _,
      ⟨h5, _⟩, rfl⟩
    cases h0
    cases h1 with
    | var h1 => exact .merge h1 h2 h3 h4 h5
  | .fetchPre id f => by
    intro s s' x h
    rw [Expr.clockcheck] at h
    obtain ⟨k, s1, h1, h⟩ := bind_some.1 h
    obtain ⟨_, s2, h2, h⟩ := bind_some.1 h
    cases h
    obtain ⟨r1, j1⟩ := clockcheck_sound f _ _ _ h1
    have jf := j1 false (by simp)
    rw [← r1.clks] at jf
    obtain ⟨r2, e2⟩ := sound_save jf h2
    refine ⟨by simpa [fetches] using r1.trans r2, fun b hb => ?_⟩
    exact .fetchPre (j1 b fun hb' => by rw [← e2]; exact hb hb')
  | .fetchFby id i f => by
    intro s s' x h
    rw [Expr.clockcheck] at h
    obtain ⟨k, s1, h1, h⟩ := bind_some.1 h
    obtain ⟨k', s2, h2, h⟩ := bind_some.1 h
    obtain ⟨_, s3, h3, h⟩ := bind_some.1 h
    obtain ⟨_, s4, h4, h⟩ := bind_some.1 h
    cases h
    obtain ⟨r1, j1⟩ := clockcheck_sound f _ _ _ h1
    obtain ⟨r2, j2⟩ := clockcheck_sound i _ _ _ h2
    obtain ⟨hk, rfl⟩ := identical_some.1 h3
    have jf := j1 false (by simp)
    rw [← r1.clks, ← r2.clks] at jf
    obtain ⟨r4, e4⟩ := sound_save jf h4
    refine ⟨by simpa [fetches] using r1.trans (r2.trans r4), fun b hb => ?_⟩
    obtain ⟨hb1, hb2⟩ := r1.same r2 (b := b) fun hb' => by rw [← e4]; exact hb hb'
    exact .fetchFby (j1 b hb1) (r1.clks ▸ j2 b hb2) hk
theorem clockcheckList_sound (k : Clk) : (es : List Expr) →
    Sound (Expr.clockcheckList k es) (fetchesList es) (fun b K _ => HaveClock b K es k)
  | [] => by
    rw [Expr.clockcheckList]
    exact (Sound.pure _).weaken rfl fun b K x h => .nil
  | e :: es => by
    rw [Expr.clockcheckList]
    refine ((clockcheck_sound e).bind fun k' => (sound_identical k k').bind fun _ =>
      clockcheckList_sound k es).weaken (by simp [fetchesList]) ?_
    rintro b K _ ⟨k', h1, _, h2, h3⟩
    exact .cons h1 h2 h3
end

/-! ## Completeness -/

/-- The computation succeeds. -/
def Runs {α : Type} (m : Chk Diag ClkCtx α) (b : Bool) (K : String → Option Clk) (x : α) : Prop :=
  ∀ s : EAccum Diag × ClkCtx, clks s.2 = K →
    ∃ s' : EAccum Diag × ClkCtx, m s = (.some x, s') ∧ clks s'.2 = K ∧
      (b = true → s'.1.err = s.1.err)

theorem Runs.bind {α β : Type} {m : Chk Diag ClkCtx α} {f : α → Chk Diag ClkCtx β} {b : Bool}
    {K : String → Option Clk} {x : α} {y : β} (hm : Runs m b K x) (hf : Runs (f x) b K y) :
    Runs (m >>= f) b K y := by
  intro s hs
  obtain ⟨s1, h1, h2, h3⟩ := hm s hs
  obtain ⟨s2, h4, h5, h6⟩ := hf s1 h2
  exact ⟨s2, bind_some.2 ⟨x, s1, h1, h4⟩, h5, fun hb => (h6 hb).trans (h3 hb)⟩

theorem Runs.pure {α : Type} {b : Bool} {K : String → Option Clk} (x : α) :
    Runs (Pure.pure x : Chk Diag ClkCtx α) b K x := fun s hs => ⟨s, rfl, hs, fun _ => rfl⟩

theorem Runs.opt {α : Type} {m : Chk Diag ClkCtx α} {b : Bool} {K : String → Option Clk} {x : α}
    (hm : Runs m b K x) : Runs (Chk.opt m) b K (some x) := by
  intro s hs
  obtain ⟨s1, h1, h2, h3⟩ := hm s hs
  exact ⟨s1, opt_some_some.2 h1, h2, h3⟩

theorem Runs.ofOption {α : Type} {b : Bool} {K : String → Option Clk} (x : α) :
    Runs (Chk.ofOption (some x) : Chk Diag ClkCtx α) b K x := Runs.pure x

theorem Runs.both {α β : Type} {m : Chk Diag ClkCtx α} {n : Chk Diag ClkCtx β} {b : Bool}
    {K : String → Option Clk} {x : α} {y : β} (hm : Runs m b K x) (hn : Runs n b K y) :
    Runs (Chk.both m n) b K (x, y) :=
  hm.opt.bind (hn.opt.bind ((Runs.ofOption x).bind ((Runs.ofOption y).bind (Runs.pure _))))

theorem runs_clockOf {b : Bool} {K : String → Option Clk} {x : String} {k : Clk} (h : K x = some k) :
    Runs (clockOf x) b K k := by
  rintro ⟨a, c⟩ rfl
  refine ⟨(a, c), ?_, rfl, fun _ => rfl⟩
  simp only [clks, Option.map_eq_some_iff] at h
  obtain ⟨k', h1, rfl⟩ := h
  unfold clockOf
  refine bind_some.2 ⟨c, (a, c), rfl, ?_⟩
  simp only [h1]
  rfl

theorem runs_isImplicit {b : Bool} {K : String → Option Clk} {k : Clk} (h : Always k) :
    Runs k.isImplicit b K () :=
  fun s hs => ⟨s, isImplicit_some.2 ⟨h, rfl⟩, hs, fun _ => rfl⟩

theorem runs_identical {b : Bool} {K : String → Option Clk} {k l : Clk} (h : SameClk k l) :
    Runs (k.identical l) b K () :=
  fun s hs => ⟨s, identical_some.2 ⟨h, rfl⟩, hs, fun _ => rfl⟩

theorem runs_refine {b : Bool} {K : String → Option Clk} {k l : Clk} (h : Compatible k l) :
    Runs (k.refine l) b K (Clk.meet k l) :=
  fun s hs => ⟨s, refine_some.2 ⟨h, rfl, rfl⟩, hs, fun _ => rfl⟩

theorem runs_asClock {b : Bool} {K : String → Option Clk} (op : ClockOp) (x : String) (d : Nat) :
    Runs ((Expr.var x d).asClock op) b K (guardClk op x) :=
  fun s hs => ⟨s, asClock_some.2 ⟨⟨x, d, rfl, rfl⟩, rfl⟩, hs, fun _ => rfl⟩

theorem runs_save {b : Bool} {K : String → Option Clk} (id : Nat) (k : Clk) :
    Runs (saveClock id k) b K () :=
  fun _ hs => ⟨_, rfl, hs, fun _ => rfl⟩

theorem runs_dropped {b : Bool} {K : String → Option Clk} {k : Clk} (h : b = true → Always k)
    {α : Type} {m : Chk Diag ClkCtx α} {x : α} (hm : Runs m b K x) :
    Runs (do let _ ← Chk.opt k.isImplicit; m) b K x := by
  by_cases hk : Always k
  · exact (runs_isImplicit hk).opt.bind hm
  · cases b with
    | true => exact absurd (h rfl) hk
    | false =>
      rintro ⟨a, c⟩ hs
      obtain ⟨s', h1, h2, _⟩ := hm ({ a with err := a.err ++ [.clkTooSlow k] }, c) hs
      refine ⟨s', bind_some.2 ⟨none, ({ a with err := a.err ++ [.clkTooSlow k] }, c), ?_, h1⟩, h2, by simp⟩
      cases k <;> simp [Always] at hk <;> rfl

theorem sameClk_refl (k : Clk) : SameClk k k := .inl rfl

mutual
theorem clockcheck_complete {b : Bool} {K : String → Option Clk} : {e : Expr} → {k : Clk} →
    HasClock b K e k → Runs e.clockcheck b K k
  | _, _, .lit => by rw [Expr.clockcheck]; exact Runs.pure _
  | _, _, .global => by rw [Expr.clockcheck]; exact Runs.pure _
  | _, _, .var h => by rw [Expr.clockcheck]; exact runs_clockOf h
  | _, _, .dummyParen h => by rw [Expr.clockcheck]; exact clockcheck_complete h
  | _, _, .dummyPre h hk => by
    rw [Expr.clockcheck]
    exact (clockcheck_complete h).bind ((runs_isImplicit hk).bind (Runs.pure _))
  | _, _, .bin h h' hk => by
    rw [Expr.clockcheck]
    exact ((clockcheck_complete h).both (clockcheck_complete h')).bind (runs_refine hk)
  | _, _, .cmp h h' hk => by
    rw [Expr.clockcheck]
    exact ((clockcheck_complete h).both (clockcheck_complete h')).bind (runs_refine hk)
  | _, _, .un h => by rw [Expr.clockcheck]; exact clockcheck_complete h
  | _, _, .later h h' hs => by
    rw [Expr.clockcheck]
    exact ((clockcheck_complete h).both (clockcheck_complete h')).bind
      (runs_dropped (fun hb => (hs hb).1) (runs_dropped (fun hb => (hs hb).2) (Runs.pure _)))
  | _, _, .flip h h' hk => by
    rw [Expr.clockcheck]
    exact ((clockcheck_complete h).both (clockcheck_complete h')).bind
      ((runs_identical hk).bind (Runs.pure _))
  | _, _, .clock h h' hk => by
    rw [Expr.clockcheck]
    refine (clockcheck_complete h).bind (Runs.bind ?_ ((runs_asClock _ _ _).bind
      ((runs_refine hk).bind (Runs.pure _))))
    rw [Expr.clockcheck]
    exact runs_clockOf h'
  | _, _, .substep h => by rw [Expr.clockcheck]; exact clockcheck_complete h
  | _, _, .empty => by rw [Expr.clockcheck]; exact Runs.pure _
  | _, _, .tuple h h' => by
    rw [Expr.clockcheck]
    exact (clockcheck_complete h).bind ((clockcheck_complete h).bind
      ((runs_identical (sameClk_refl _)).bind ((clockcheckList_complete h').bind (Runs.pure _))))
  | _, _, .ifx h h' h'' hk hk' => by
    rw [Expr.clockcheck]
    exact (clockcheck_complete h).opt.bind ((clockcheck_complete h').opt.bind
      ((clockcheck_complete h'').opt.bind ((Runs.ofOption _).bind ((Runs.ofOption _).bind
        ((Runs.ofOption _).bind ((runs_refine hk).bind (runs_refine hk')))))))
  | _, _, .merge h h' h'' hk hk' => by
    rw [Expr.clockcheck]
    refine (runs_asClock _ _ _).opt.bind ((runs_asClock _ _ _).opt.bind (Runs.bind (x := some _)
      (Runs.opt ?_) ((clockcheck_complete h').opt.bind ((clockcheck_complete h'').opt.bind
      ((Runs.ofOption _).bind ((Runs.ofOption _).bind ((Runs.ofOption _).bind
      ((Runs.ofOption _).bind ((runs_refine hk).bind ((Runs.ofOption _).bind ((runs_refine hk').bind
      (Runs.pure _)))))))))))) 
    rw [Expr.clockcheck]
    exact runs_clockOf h
  | _, _, .fetchPre h => by
    rw [Expr.clockcheck]
    exact (clockcheck_complete h).bind ((runs_save _ _).bind (Runs.pure _))
  | _, _, .fetchFby h h' hk => by
    rw [Expr.clockcheck]
    exact (clockcheck_complete h).bind ((clockcheck_complete h').bind ((runs_identical hk).bind
      ((runs_save _ _).bind (Runs.pure _))))
theorem clockcheckList_complete {b : Bool} {K : String → Option Clk} : {es : List Expr} → {k : Clk} →
    HaveClock b K es k → Runs (Expr.clockcheckList k es) b K ()
  | _, _, .nil => by rw [Expr.clockcheckList]; exact Runs.pure _
  | _, _, .cons h hk h' => by
    rw [Expr.clockcheckList]
    exact (clockcheck_complete h).bind ((runs_identical hk).bind (clockcheckList_complete h'))
end

/-! ## Statements and nodes -/

mutual
theorem target_sound : (v : VarTuple) → Sound v.clockcheck [] (fun _ K k => TargetClock K v k)
  | .single x => by
    rw [VarTuple.clockcheck]
    exact (sound_clockOf x).weaken rfl fun b K k h => .single h
  | .multiple [] => by
    rw [VarTuple.clockcheck]
    exact (Sound.pure _).weaken rfl fun b K k h => h ▸ .empty
  | .multiple (v :: vs) => by
    rw [VarTuple.clockcheck]
    refine ((target_sound v).bind fun k => (target_sound v).bind fun k' =>
      (sound_identical k k').bind fun _ => (targets_sound k vs).bind fun _ => Sound.pure k).weaken
      rfl ?_
    rintro b K k ⟨k1, h1, _, _, _, _, _, h2, rfl⟩
    exact .tuple h1 h2
theorem targets_sound (k : Clk) : (vs : List VarTuple) →
    Sound (VarTuple.clockcheckList k vs) [] (fun _ K _ => TargetsClock K vs k)
  | [] => by
    rw [VarTuple.clockcheckList]
    exact (Sound.pure _).weaken rfl fun b K x h => .nil
  | v :: vs => by
    rw [VarTuple.clockcheckList]
    refine ((target_sound v).bind fun k' => (sound_identical k k').bind fun _ =>
      targets_sound k vs).weaken rfl ?_
    rintro b K _ ⟨k', h1, _, h2, h3⟩
    exact .cons h1 h2 h3
end

mutual
theorem target_complete {b : Bool} {K : String → Option Clk} : {v : VarTuple} → {k : Clk} →
    TargetClock K v k → Runs v.clockcheck b K k
  | _, _, .single h => by rw [VarTuple.clockcheck]; exact runs_clockOf h
  | _, _, .empty => by rw [VarTuple.clockcheck]; exact Runs.pure _
  | _, _, .tuple h h' => by
    rw [VarTuple.clockcheck]
    exact (target_complete h).bind ((target_complete h).bind
      ((runs_identical (sameClk_refl _)).bind ((targets_complete h').bind (Runs.pure _))))
theorem targets_complete {b : Bool} {K : String → Option Clk} : {vs : List VarTuple} → {k : Clk} →
    TargetsClock K vs k → Runs (VarTuple.clockcheckList k vs) b K ()
  | _, _, .nil => by rw [VarTuple.clockcheckList]; exact Runs.pure _
  | _, _, .cons h hk h' => by
    rw [VarTuple.clockcheckList]
    exact (target_complete h).bind ((runs_identical hk).bind (targets_complete h'))
end

theorem isEmpty_iff (v : VarTuple) : v.isEmpty = true ↔ v = .multiple [] := by
  cases v with
  | single x => simp [VarTuple.isEmpty]
  | multiple vs => cases vs <;> simp [VarTuple.isEmpty]

theorem stmt_clk_sound : (st : Stmt) →
    Sound st.clockcheck (fetchesIn st) (fun b K _ => StmtClocked b K st)
  | .assert e => by
    rw [Stmt.clockcheck]
    refine ((clockcheck_sound e).bind fun k => sound_isImplicit k).weaken (by simp [fetchesIn]) ?_
    rintro b K _ ⟨k, h1, h2⟩
    exact .assert h1 h2
  | .let_ v e => by
    rw [Stmt.clockcheck]
    refine ((target_sound v).bind fun k => (clockcheck_sound e).bind fun k' =>
      (show Sound (if v.isEmpty then pure () else k.identical k') []
        (fun _ _ _ => v ≠ .multiple [] → SameClk k k') from ?_)).weaken (by simp [fetchesIn]) ?_
    · by_cases hv : v.isEmpty = true
      · rw [if_pos hv]
        exact (Sound.pure _).weaken rfl fun b K x _ h => absurd ((isEmpty_iff v).1 hv) h
      · rw [if_neg hv]
        exact (sound_identical k k').weaken rfl fun b K x h _ => h
    · rintro b K _ ⟨k, h1, k', h2, h3⟩
      exact .let_ h1 h2 h3
  | .updateRegister _ _ => by
    rw [Stmt.clockcheck]
    exact (Sound.pure _).weaken rfl fun b K x h => .updateRegister
  | .initRegister _ _ _ => by
    rw [Stmt.clockcheck]
    exact (Sound.pure _).weaken rfl fun b K x h => .initRegister

theorem stmt_clk_complete {b : Bool} {K : String → Option Clk} {st : Stmt}
    (h : StmtClocked b K st) : Runs st.clockcheck b K () := by
  cases h with
  | let_ h h' hk =>
    rw [Stmt.clockcheck]
    refine (target_complete h).bind ((clockcheck_complete h').bind ?_)
    split
    · exact Runs.pure _
    · rename_i hv
      exact runs_identical (hk fun h => hv ((isEmpty_iff _).2 h))
  | assert h hk =>
    rw [Stmt.clockcheck]
    exact (clockcheck_complete h).bind (runs_isImplicit hk)
  | updateRegister => rw [Stmt.clockcheck]; exact Runs.pure _
  | initRegister => rw [Stmt.clockcheck]; exact Runs.pure _

theorem stmts_clk_sound : (sts : List Stmt) →
    Sound (Chk.inScope (sts.map Stmt.clockcheck)) (sts.flatMap fetchesIn)
      (fun b K _ => ∀ st ∈ sts, StmtClocked b K st)
  | [] => by
    intro s s' x h
    obtain rfl := inScope_some_nil.1 h
    exact ⟨Ran.refl _, fun _ _ => by simp⟩
  | st :: sts => by
    intro s s' x h
    obtain ⟨s1, h1, h2⟩ := inScope_some_cons.1 h
    obtain ⟨r1, j1⟩ := stmt_clk_sound st _ _ _ h1
    obtain ⟨r2, j2⟩ := stmts_clk_sound sts _ _ _ h2
    refine ⟨by simpa using r1.trans r2, fun b hb => ?_⟩
    obtain ⟨hb1, hb2⟩ := r1.same r2 hb
    have := j2 b hb2
    rw [r1.clks] at this
    simp only [List.mem_cons, forall_eq_or_imp]
    exact ⟨j1 b hb1, this⟩

theorem stmts_clk_complete {b : Bool} {K : String → Option Clk} : (sts : List Stmt) →
    (∀ st ∈ sts, StmtClocked b K st) → Runs (Chk.inScope (sts.map Stmt.clockcheck)) b K ()
  | [], _ => fun s hs => ⟨s, inScope_some_nil.2 rfl, hs, fun _ => rfl⟩
  | st :: sts, h => by
    intro s hs
    obtain ⟨s1, h1, h2, h3⟩ := stmt_clk_complete (h st (by simp)) s hs
    obtain ⟨s2, h4, h5, h6⟩ := stmts_clk_complete sts (fun st hst => h st (by simp [hst])) s1 h2
    exact ⟨s2, inScope_some_cons.2 ⟨s1, h1, h4⟩, h5, fun hb => (h6 hb).trans (h3 hb)⟩

theorem checkInterface_some {σ : Type} : ∀ {vs : List TyVar} {s s' : EAccum Diag × σ},
    checkInterface vs s = (.some (), s') ↔ (∀ v ∈ vs, Always v.clk.intoClk) ∧ s' = s
  | [], s, s' => by
    rw [checkInterface]
    constructor
    · intro h; cases h; exact ⟨by simp, rfl⟩
    · rintro ⟨_, rfl⟩; rfl
  | v :: vs, s, s' => by
    rw [checkInterface, bind_some]
    constructor
    · rintro ⟨_, s1, h1, h2⟩
      obtain ⟨h3, rfl⟩ := isImplicit_some.1 h1
      obtain ⟨h4, rfl⟩ := checkInterface_some.1 h2
      refine ⟨?_, rfl⟩
      simp only [List.mem_cons, forall_eq_or_imp]
      exact ⟨h3, h4⟩
    · rintro ⟨h, rfl⟩
      simp only [List.mem_cons, forall_eq_or_imp] at h
      exact ⟨(), s', isImplicit_some.2 ⟨h.1, rfl⟩, checkInterface_some.2 ⟨h.2, rfl⟩⟩

theorem fillClocks_some (clk : Nat → Option Expr) : ∀ (sts sts' : List Stmt),
    fillClocks clk sts = some sts' ↔
      (∀ id ∈ initialised sts, (clk id).isSome) ∧
      sts' = sts.map (Stmt.withClocks fun id => (clk id).getD (.lit (.bool true)))
  | [], sts' => by
    simp only [fillClocks, initialised, Option.some.injEq, List.map_nil]
    exact ⟨fun h => ⟨by simp, h.symm⟩, fun h => h.2.symm⟩
  | st :: sts, sts' => by
    have ih := fillClocks_some clk sts
    cases st with
    | initRegister id val k =>
      simp only [fillClocks, Option.bind_eq_bind, Option.bind_eq_some_iff, Option.pure_def,
        Option.some.injEq, initialised, List.mem_cons, forall_eq_or_imp, List.map_cons,
        Stmt.withClocks]
      constructor
      · rintro ⟨k', h1, sts1, h2, rfl⟩
        obtain ⟨h3, rfl⟩ := (ih _).1 h2
        exact ⟨⟨by simp [h1], h3⟩, by simp [h1]⟩
      · rintro ⟨⟨h1, h2⟩, rfl⟩
        obtain ⟨k', h1⟩ := Option.isSome_iff_exists.1 h1
        exact ⟨k', h1, _, (ih _).2 ⟨h2, rfl⟩, by simp [h1]⟩
    | let_ v e =>
      simp only [fillClocks, Option.bind_eq_bind, Option.bind_eq_some_iff, Option.pure_def,
        Option.some.injEq, initialised, List.map_cons, Stmt.withClocks, ih]
      constructor
      · rintro ⟨_, ⟨h1, rfl⟩, rfl⟩; exact ⟨h1, rfl⟩
      · rintro ⟨h1, rfl⟩; exact ⟨_, ⟨h1, rfl⟩, rfl⟩
    | assert e =>
      simp only [fillClocks, Option.bind_eq_bind, Option.bind_eq_some_iff, Option.pure_def,
        Option.some.injEq, initialised, List.map_cons, Stmt.withClocks, ih]
      constructor
      · rintro ⟨_, ⟨h1, rfl⟩, rfl⟩; exact ⟨h1, rfl⟩
      · rintro ⟨h1, rfl⟩; exact ⟨_, ⟨h1, rfl⟩, rfl⟩
    | updateRegister id e =>
      simp only [fillClocks, Option.bind_eq_bind, Option.bind_eq_some_iff, Option.pure_def,
        Option.some.injEq, initialised, List.map_cons, Stmt.withClocks, ih]
      constructor
      · rintro ⟨_, ⟨h1, rfl⟩, rfl⟩; exact ⟨h1, rfl⟩
      · rintro ⟨h1, rfl⟩; exact ⟨_, ⟨h1, rfl⟩, rfl⟩

theorem clocksOf_some : ∀ {vs : List TyVar} {x : String} {k : Clock}, (vs.map (·.name)).Nodup →
    (clocksOf vs x = some k ↔ ∃ v ∈ vs, v.name = x ∧ v.clk = k)
  | [], x, k, _ => by simp [clocksOf]
  | v :: vs, x, k, h => by
    simp only [List.map_cons, List.nodup_cons] at h
    have ih := fun k => clocksOf_some (x := x) (k := k) h.2
    simp only [clocksOf, List.mem_cons, exists_eq_or_imp]
    rcases hc : clocksOf vs x with _ | k'
    · simp only
      have hno : ¬∃ w ∈ vs, w.name = x ∧ w.clk = k := fun hw => by
        have := (ih k).2 hw
        rw [hc] at this
        exact absurd this (by simp)
      by_cases hv : v.name = x <;> simp [hv, hno]
    · simp only
      have hw := (ih k').1 hc
      have hv : v.name ≠ x := fun hv => by
        obtain ⟨w, h1, h2, _⟩ := hw
        exact h.1 (List.mem_map.2 ⟨w, h1, h2.trans hv.symm⟩)
      rw [← ih k, hc]
      simp [hv]

theorem declared_clocksOf {vs : List TyVar} (h : (vs.map (·.name)).Nodup)
    (r : Nat → Option Expr) : Declared vs (clks ⟨clocksOf vs, r⟩) := by
  intro x k
  simp only [clks, Option.map_eq_some_iff]
  constructor
  · rintro ⟨c, h1, rfl⟩
    obtain ⟨v, h2, h3, rfl⟩ := (clocksOf_some h).1 h1
    exact ⟨v, h2, h3, rfl⟩
  · rintro ⟨v, h2, h3, rfl⟩
    exact ⟨v.clk, (clocksOf_some h).2 ⟨v, h2, h3, rfl⟩, rfl⟩

theorem declared_unique {vs : List TyVar} {K K' : String → Option Clk} (h : Declared vs K)
    (h' : Declared vs K') : K = K' := by
  funext x
  rcases hx : K x with _ | k
  · rcases hx' : K' x with _ | k'
    · rfl
    · have := (h x k').2 ((h' x k').1 hx')
      rw [hx] at this
      exact absurd this (by simp)
  · exact ((h' x k).2 ((h x k).1 hx)).symm

theorem node_clk_sound {σ : Type} {n n' : Node} {s s' : EAccum Diag × σ}
    (hn : ((declared n).map (·.name)).Nodup) (h : n.clockcheck s = (.some n', s')) :
    s'.2 = s.2 ∧ s.1.err <+: s'.1.err ∧ ∃ K, NodeClocked false n K ∧
      (s'.1.err = s.1.err → NodeClocked true n K) ∧
      ∃ clk, n' = Node.withClocks clk n ∧ ∀ id ∈ initialised n.stmts,
        ∃ f k, (id, f) ∈ n.stmts.flatMap fetchesIn ∧ HasClock false K f k ∧
          clk id = clockExpr k := by
  unfold Node.clockcheck at h
  obtain ⟨_, s1, h1, h2⟩ := bind_some.1 h
  obtain ⟨hi, rfl⟩ := checkInterface_some.1 h1
  obtain ⟨⟨_, c⟩, s2, h3, h4⟩ := bind_some.1 h2
  obtain ⟨a, h5, rfl⟩ := local_some.1 h3
  obtain ⟨r, j⟩ := stmts_clk_sound n.stmts _ _ _ h5
  dsimp only at h4
  rcases hf : fillClocks c.clockOfRegister n.stmts with _ | sts
  · rw [hf] at h4; cases h4
  rw [hf] at h4
  cases h4
  obtain ⟨h6, rfl⟩ := (fillClocks_some _ _ _).1 hf
  refine ⟨rfl, r.grows, _, ⟨hi, declared_clocksOf hn _, j false (by simp)⟩,
    fun he => ⟨hi, declared_clocksOf hn _, j true fun _ => he⟩, _, rfl, fun id hid => ?_⟩
  rcases r.regs id with ⟨f, k, h7, h8, h9⟩ | ⟨_, h7⟩
  · refine ⟨f, k, h7, h8, ?_⟩
    dsimp only at h9
    rw [h9]
    rfl
  · have := h6 id hid
    dsimp only at h7
    rw [h7] at this
    exact absurd this (by simp)

theorem node_clk_complete {σ : Type} {n : Node} {b : Bool} {K : String → Option Clk}
    (hn : ((declared n).map (·.name)).Nodup) (h : NodeClocked b n K)
    (hreg : ∀ id ∈ initialised n.stmts, ∃ f, (id, f) ∈ n.stmts.flatMap fetchesIn)
    (s : EAccum Diag × σ) :
    ∃ n' s', n.clockcheck s = (.some n', s') ∧ (b = true → s'.1.err = s.1.err) := by
  have hK := declared_unique h.declared (declared_clocksOf hn (fun _ => none))
  obtain ⟨⟨a, c⟩, h1, h2, h3⟩ := stmts_clk_complete n.stmts h.stmts
    (s.1, ⟨clocksOf (n.inputs ++ n.outputs ++ n.locals), fun _ => none⟩) hK.symm
  obtain ⟨r, _⟩ := stmts_clk_sound n.stmts _ _ _ h1
  have hf := (fillClocks_some c.clockOfRegister n.stmts _).2 ⟨fun id hid => by
    rcases r.regs id with ⟨f, k, h7, h8, h9⟩ | ⟨h7, _⟩
    · dsimp only at h9
      rw [h9]
      rfl
    · obtain ⟨f, hf⟩ := hreg id hid
      exact absurd hf (h7 f), rfl⟩
  refine ⟨Node.withClocks (fun id => (c.clockOfRegister id).getD (.lit (.bool true))) n, (a, s.2),
    ?_, h3⟩
  unfold Node.clockcheck
  refine bind_some.2 ⟨(), s, checkInterface_some.2 ⟨h.interface, rfl⟩,
    bind_some.2 ⟨((), c), (a, s.2), local_some.2 ⟨a, h1, rfl⟩, ?_⟩⟩
  dsimp only
  rw [hf]
  rfl

end Chandeliers.Clk
