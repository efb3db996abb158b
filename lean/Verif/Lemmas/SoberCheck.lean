import Verif.Spec.Presence
import Verif.Lemmas.Clockcheck
import Verif.Lemmas.Parts

/-! A test that a node satisfies the conditions of `Sober`, used in examples. -/

set_option autoImplicit false

namespace Chandeliers.Pres
open Chandeliers.San Chandeliers.Spec Chandeliers.Den Chandeliers.Err

mutual
/-- `ReadsWithin`, as a test. -/
def readsWithinB : Nat → Expr → Bool
  | _, .lit _ => true
  | _, .global _ => true
  | c, .var _ d => d ≤ c
  | c, .tuple es => readWithinB c es
  | c, .dummyPre e => readsWithinB c e
  | c, .dummyParen e => readsWithinB c e
  | c, .un _ e => readsWithinB c e
  | c, .bin _ l r => readsWithinB c l && readsWithinB c r
  | c, .cmp _ l r => readsWithinB c l && readsWithinB c r
  | c, .clock _ e b => readsWithinB c b && readsWithinB c e
  | c, .ifx b y n => readsWithinB c b && (readsWithinB c y && readsWithinB c n)
  | c, .merge b y n => readsWithinB c b && (readsWithinB c y && readsWithinB c n)
  | c, .later d b a => readsWithinB c b && readsWithinB (d + 1) a
  | c, .flip _ i a => readsWithinB c i && readsWithinB (c + 1) a
  | c, .substep _ _ a => readsWithinB c a
  | c, .fetchPre _ f => decide (0 < c) && readsWithinB (c - 1) f
  | c, .fetchFby _ i f => readsWithinB c i && readsWithinB c f
/-- All of them. -/
def readWithinB : Nat → List Expr → Bool
  | _, [] => true
  | c, e :: es => readsWithinB c e && readWithinB c es
end

mutual
theorem readsWithinB_iff : (e : Expr) → ∀ c, readsWithinB c e = true ↔ ReadsWithin c e
  | .lit _, c => by simp [readsWithinB, ReadsWithin]
  | .global _, c => by simp [readsWithinB, ReadsWithin]
  | .var _ d, c => by simp [readsWithinB, ReadsWithin]
  | .tuple es, c => by simp [readsWithinB, ReadsWithin, readWithinB_iff es]
  | .dummyPre e, c => by simp [readsWithinB, ReadsWithin, readsWithinB_iff e]
  | .dummyParen e, c => by simp [readsWithinB, ReadsWithin, readsWithinB_iff e]
  | .un _ e, c => by simp [readsWithinB, ReadsWithin, readsWithinB_iff e]
  | .bin _ l r, c => by simp [readsWithinB, ReadsWithin, readsWithinB_iff l, readsWithinB_iff r]
  | .cmp _ l r, c => by simp [readsWithinB, ReadsWithin, readsWithinB_iff l, readsWithinB_iff r]
  | .clock _ l r, c => by simp [readsWithinB, ReadsWithin, readsWithinB_iff l, readsWithinB_iff r]
  | .ifx b y n, c => by
    simp [readsWithinB, ReadsWithin, readsWithinB_iff b, readsWithinB_iff y, readsWithinB_iff n]
  | .merge b y n, c => by
    simp [readsWithinB, ReadsWithin, readsWithinB_iff b, readsWithinB_iff y, readsWithinB_iff n]
  | .later _ l r, c => by simp [readsWithinB, ReadsWithin, readsWithinB_iff l, readsWithinB_iff r]
  | .flip _ l r, c => by simp [readsWithinB, ReadsWithin, readsWithinB_iff l, readsWithinB_iff r]
  | .substep _ _ e, c => by simp [readsWithinB, ReadsWithin, readsWithinB_iff e]
  | .fetchPre _ e, c => by simp [readsWithinB, ReadsWithin, readsWithinB_iff e]
  | .fetchFby _ l r, c => by simp [readsWithinB, ReadsWithin, readsWithinB_iff l, readsWithinB_iff r]
theorem readWithinB_iff : (es : List Expr) → ∀ c, readWithinB c es = true ↔ ReadWithin c es
  | [], c => by simp [readWithinB, ReadWithin]
  | e :: es, c => by simp [readWithinB, ReadWithin, readsWithinB_iff e, readWithinB_iff es]
end

/-- `NilBefore`, as a test. -/
def nilBeforeB (r : Nat) : Expr → Bool
  | .lit _ => false
  | .global _ => false
  | .var _ d => r ≤ d
  | .tuple [] => false
  | .tuple (e :: _) => nilBeforeB r e
  | .dummyPre e => nilBeforeB r e
  | .dummyParen e => nilBeforeB r e
  | .un _ e => nilBeforeB r e
  | .bin _ l r' => nilBeforeB r l || nilBeforeB r r'
  | .cmp _ l r' => nilBeforeB r l || nilBeforeB r r'
  | .clock _ e b => nilBeforeB r b || nilBeforeB r e
  | .ifx b _ _ => nilBeforeB r b
  | .merge b _ _ => nilBeforeB r b
  | .later _ b a => nilBeforeB r b && nilBeforeB r a
  | .substep d _ a => decide (r ≤ d) || nilBeforeB r a
  | .flip _ _ _ => false
  | .fetchPre _ _ => false
  | .fetchFby _ _ _ => false

theorem nilBeforeB_iff {r : Nat} : (e : Expr) → (nilBeforeB r e = true ↔ NilBefore r e)
  | .lit _ => by simp [nilBeforeB, NilBefore]
  | .global _ => by simp [nilBeforeB, NilBefore]
  | .var _ _ => by simp [nilBeforeB, NilBefore]
  | .tuple [] => by simp [nilBeforeB, NilBefore]
  | .tuple (e :: _) => by simp [nilBeforeB, NilBefore, nilBeforeB_iff e]
  | .dummyPre e => by simp [nilBeforeB, NilBefore, nilBeforeB_iff e]
  | .dummyParen e => by simp [nilBeforeB, NilBefore, nilBeforeB_iff e]
  | .un _ e => by simp [nilBeforeB, NilBefore, nilBeforeB_iff e]
  | .bin _ l r' => by simp [nilBeforeB, NilBefore, nilBeforeB_iff l, nilBeforeB_iff r']
  | .cmp _ l r' => by simp [nilBeforeB, NilBefore, nilBeforeB_iff l, nilBeforeB_iff r']
  | .clock _ l r' => by simp [nilBeforeB, NilBefore, nilBeforeB_iff l, nilBeforeB_iff r']
  | .ifx b _ _ => by simp [nilBeforeB, NilBefore, nilBeforeB_iff b]
  | .merge b _ _ => by simp [nilBeforeB, NilBefore, nilBeforeB_iff b]
  | .later _ l r' => by simp [nilBeforeB, NilBefore, nilBeforeB_iff l, nilBeforeB_iff r']
  | .substep _ _ e => by simp [nilBeforeB, NilBefore, nilBeforeB_iff e]
  | .flip _ _ _ => by simp [nilBeforeB, NilBefore]
  | .fetchPre _ _ => by simp [nilBeforeB, NilBefore]
  | .fetchFby _ _ _ => by simp [nilBeforeB, NilBefore]

mutual
/-- `CallsReady`, as a test. -/
def callsReadyB : Nat → Expr → Bool
  | _, .lit _ => true
  | _, .global _ => true
  | _, .var _ _ => true
  | c, .tuple es => callReadyB c es
  | c, .dummyPre e => callsReadyB c e
  | c, .dummyParen e => callsReadyB c e
  | c, .un _ e => callsReadyB c e
  | c, .bin _ l r => callsReadyB c l && callsReadyB c r
  | c, .cmp _ l r => callsReadyB c l && callsReadyB c r
  | c, .clock _ e b => callsReadyB c b && callsReadyB c e
  | c, .ifx b y n => callsReadyB c b && (callsReadyB c y && callsReadyB c n)
  | c, .merge b y n => callsReadyB c b && (callsReadyB c y && callsReadyB c n)
  | c, .later d b a => callsReadyB c b && callsReadyB (d + 1) a
  | c, .substep d _ a => decide (d ≤ c) && (List.range (c + 1)).any fun r =>
      readsWithinB r a && (callsReadyB r a && (decide (r ≤ d) || nilBeforeB r a))
  | _, .flip _ _ _ => false
  | _, .fetchPre _ _ => false
  | _, .fetchFby _ _ _ => false
/-- All of them. -/
def callReadyB : Nat → List Expr → Bool
  | _, [] => true
  | c, e :: es => callsReadyB c e && callReadyB c es
end

mutual
theorem callsReadyB_iff : (e : Expr) → ∀ c, callsReadyB c e = true ↔ CallsReady c e
  | .lit _, c => by simp [callsReadyB, CallsReady]
  | .global _, c => by simp [callsReadyB, CallsReady]
  | .var _ d, c => by simp [callsReadyB, CallsReady]
  | .tuple es, c => by simp [callsReadyB, CallsReady, callReadyB_iff es]
  | .dummyPre e, c => by simp [callsReadyB, CallsReady, callsReadyB_iff e]
  | .dummyParen e, c => by simp [callsReadyB, CallsReady, callsReadyB_iff e]
  | .un _ e, c => by simp [callsReadyB, CallsReady, callsReadyB_iff e]
  | .bin _ l r, c => by simp [callsReadyB, CallsReady, callsReadyB_iff l, callsReadyB_iff r]
  | .cmp _ l r, c => by simp [callsReadyB, CallsReady, callsReadyB_iff l, callsReadyB_iff r]
  | .clock _ l r, c => by simp [callsReadyB, CallsReady, callsReadyB_iff l, callsReadyB_iff r]
  | .ifx b y n, c => by
    simp [callsReadyB, CallsReady, callsReadyB_iff b, callsReadyB_iff y, callsReadyB_iff n]
  | .merge b y n, c => by
    simp [callsReadyB, CallsReady, callsReadyB_iff b, callsReadyB_iff y, callsReadyB_iff n]
  | .later _ l r, c => by simp [callsReadyB, CallsReady, callsReadyB_iff l, callsReadyB_iff r]
  | .substep _ _ e, c => by
    simp [callsReadyB, CallsReady, callsReadyB_iff e, readsWithinB_iff, nilBeforeB_iff,
      Nat.lt_succ_iff]
  | .flip _ _ _, c => by simp [callsReadyB, CallsReady]
  | .fetchPre _ _, c => by simp [callsReadyB, CallsReady]
  | .fetchFby _ _ _, c => by simp [callsReadyB, CallsReady]
theorem callReadyB_iff : (es : List Expr) → ∀ c, callReadyB c es = true ↔ CallReady c es
  | [], c => by simp [callReadyB, CallReady]
  | e :: es, c => by simp [callReadyB, CallReady, callsReadyB_iff e, callReadyB_iff es]
end

/-- An expression that does not have the type of floats. -/
def discrete (vs : List TyVar) : Expr → Bool
  | .lit (.float _) => false
  | .lit _ => true
  | .global _ => false
  | .var x _ => typeIn vs x != some .float
  | .tuple _ => true
  | .dummyPre e => discrete vs e
  | .dummyParen e => discrete vs e
  | .un _ e => discrete vs e
  | .bin _ l r => discrete vs l || discrete vs r
  | .cmp _ _ _ => true
  | .clock _ e _ => discrete vs e
  | .ifx _ y n => discrete vs y || discrete vs n
  | .merge _ y n => discrete vs y || discrete vs n
  | .later _ b a => discrete vs b || discrete vs a
  | .substep _ _ _ => false
  | .flip _ b a => discrete vs b || discrete vs a
  | .fetchPre _ f => discrete vs f
  | .fetchFby _ i f => discrete vs i || discrete vs f

theorem discrete_sound {vs : List TyVar} {Γ : TyEnv} (hΓ : Γ.vars = typeIn vs) : (e : Expr) →
    discrete vs e = true → ¬HasType Γ e (.single .float)
  | .lit (.float _), h, ht => by simp [discrete] at h
  | .lit (.int _), h, ht => by
    generalize hτ : TyTuple.single TyBase.float = τ at ht
    cases ht; simp [litType] at hτ
  | .lit (.bool _), h, ht => by
    generalize hτ : TyTuple.single TyBase.float = τ at ht
    cases ht; simp [litType] at hτ
  | .global _, h, ht => by simp [discrete] at h
  | .var x _, h, ht => by
    cases ht with
    | var h' => rw [hΓ] at h'; simp [discrete, h'] at h
  | .tuple _, h, ht => by cases ht
  | .dummyPre e, h, ht => by cases ht with | dummyPre h' => exact discrete_sound hΓ e h h'
  | .dummyParen e, h, ht => by cases ht with | dummyParen h' => exact discrete_sound hΓ e h h'
  | .un _ e, h, ht => by cases ht with | un h' => exact discrete_sound hΓ e h h'
  | .bin _ l r, h, ht => by
    simp only [discrete, Bool.or_eq_true] at h
    cases ht with
    | bin h1 h2 => exact h.elim (fun h => discrete_sound hΓ l h h1) fun h => discrete_sound hΓ r h h2
  | .cmp _ _ _, h, ht => by cases ht
  | .clock _ e _, h, ht => by cases ht with | clock h' => exact discrete_sound hΓ e h h'
  | .ifx _ l r, h, ht => by
    simp only [discrete, Bool.or_eq_true] at h
    cases ht with
    | ifx _ h1 h2 => exact h.elim (fun h => discrete_sound hΓ l h h1) fun h => discrete_sound hΓ r h h2
  | .merge _ l r, h, ht => by
    simp only [discrete, Bool.or_eq_true] at h
    cases ht with
    | merge _ h1 h2 => exact h.elim (fun h => discrete_sound hΓ l h h1) fun h => discrete_sound hΓ r h h2
  | .later _ l r, h, ht => by
    simp only [discrete, Bool.or_eq_true] at h
    cases ht with
    | later h1 h2 => exact h.elim (fun h => discrete_sound hΓ l h h1) fun h => discrete_sound hΓ r h h2
  | .substep _ _ _, h, ht => by simp [discrete] at h
  | .flip _ l r, h, ht => by
    simp only [discrete, Bool.or_eq_true] at h
    cases ht with
    | flip h1 h2 => exact h.elim (fun h => discrete_sound hΓ l h h1) fun h => discrete_sound hΓ r h h2
  | .fetchPre _ e, h, ht => by cases ht with | fetchPre h' => exact discrete_sound hΓ e h h'
  | .fetchFby _ l r, h, ht => by
    simp only [discrete, Bool.or_eq_true] at h
    cases ht with
    | fetchFby h1 h2 => exact h.elim (fun h => discrete_sound hΓ l h h1) fun h => discrete_sound hΓ r h h2

/-- The only clock that an expression can have. -/
def clockOf (K : String → Option Clk) : Expr → Option Clk
  | .lit _ => some .adaptative
  | .global _ => some .adaptative
  | .var x _ => K x
  | .tuple [] => some .adaptative
  | .tuple (e :: _) => clockOf K e
  | .dummyPre e => clockOf K e
  | .dummyParen e => clockOf K e
  | .un _ e => clockOf K e
  | .bin _ l r =>
    match clockOf K l, clockOf K r with
    | some k, some k' => some (Clk.meet k k')
    | _, _ => none
  | .cmp _ l r =>
    match clockOf K l, clockOf K r with
    | some k, some k' => some (Clk.meet k k')
    | _, _ => none
  | .clock op _ (.var x _) => some (guardClk op x)
  | .clock _ _ _ => none
  | .ifx b y n =>
    match clockOf K b, clockOf K y, clockOf K n with
    | some k, some k', some k'' => some (Clk.meet (Clk.meet k k') k'')
    | _, _, _ => none
  | .merge (.var x _) _ _ => K x
  | .merge _ _ _ => none
  | .later _ b _ => clockOf K b
  | .substep _ _ a => clockOf K a
  | .flip _ _ c => clockOf K c
  | .fetchPre _ f => clockOf K f
  | .fetchFby _ _ f => clockOf K f

theorem clockOf_sound {s : Bool} {K : String → Option Clk} : {e : Expr} → {k : Clk} →
    HasClock s K e k → clockOf K e = some k
  | _, _, .lit => rfl
  | _, _, .global => rfl
  | _, _, .var h => h
  | _, _, .dummyParen h => by
    have := clockOf_sound h
    simpa [clockOf] using this
  | _, _, .dummyPre h _ => by
    have := clockOf_sound h
    simpa [clockOf] using this
  | _, _, .bin h h' _ => by simp [clockOf, clockOf_sound h, clockOf_sound h']
  | _, _, .cmp h h' _ => by simp [clockOf, clockOf_sound h, clockOf_sound h']
  | _, _, .un h => by
    have := clockOf_sound h
    simpa [clockOf] using this
  | _, _, .later h _ _ => by
    have := clockOf_sound h
    simpa [clockOf] using this
  | _, _, .flip _ h _ => by
    have := clockOf_sound h
    simpa [clockOf] using this
  | _, _, .clock _ _ _ => rfl
  | _, _, .substep h => by
    have := clockOf_sound h
    simpa [clockOf] using this
  | _, _, .empty => rfl
  | _, _, .tuple h _ => by
    have := clockOf_sound h
    simpa [clockOf] using this
  | _, _, .ifx h h' h'' _ _ => by
    simp [clockOf, clockOf_sound h, clockOf_sound h', clockOf_sound h'']
  | _, _, .merge h _ _ _ _ => h
  | _, _, .fetchPre h => by
    have := clockOf_sound h
    simpa [clockOf] using this
  | _, _, .fetchFby h _ _ => by
    have := clockOf_sound h
    simpa [clockOf] using this

/-- `Always`, as a test. -/
def alwaysB : Clk → Bool
  | .implicit => true
  | .adaptative => true
  | _ => false

theorem alwaysB_iff {k : Clk} : alwaysB k = true ↔ Always k := by cases k <;> simp [alwaysB, Always]

/-- The tests on each part. -/
def partOk (vs : List TyVar) (K : String → Option Clk) : Expr → Bool
  | .cmp _ a b => discrete vs a || discrete vs b
  | .ifx b y z => decide (clockOf K b ≠ some .adaptative) ||
    match clockOf K y, clockOf K z with
    | some k, some k' => decide (k = k') || (alwaysB k && alwaysB k')
    | _, _ => true
  | _ => true

/-- The tests on each expression. -/
def exprOk (vs : List TyVar) (K : String → Option Clk) (e : Expr) : Bool :=
  callsReadyB 0 e && (parts e).all (partOk vs K)

/-- The clocks of the declared variables. -/
def clocksIn (vs : List TyVar) (x : String) : Option Clk :=
  (vs.find? fun v => v.name = x).map (·.clk.intoClk)

theorem clocksIn_declared {vs : List TyVar} (hn : (vs.map (·.name)).Nodup) :
    Declared vs (clocksIn vs) := by
  intro x k
  simp only [clocksIn, Option.map_eq_some_iff]
  constructor
  · rintro ⟨v, h1, rfl⟩
    exact ⟨v, List.mem_of_find?_eq_some h1, by simpa using List.find?_some h1, rfl⟩
  · rintro ⟨v, h1, rfl, rfl⟩
    refine ⟨v, ?_, rfl⟩
    induction vs with
    | nil => cases h1
    | cons w vs ih =>
      simp only [List.map_cons, List.nodup_cons] at hn
      rcases List.mem_cons.1 h1 with rfl | h1
      · simp
      · have : w.name ≠ v.name := fun e => hn.1 (e ▸ List.mem_map_of_mem h1)
        simp [this, ih hn.2 h1]

/-- A test for `Sober`. -/
def sober (n : Node) : Bool :=
  decide ((declared n).map (·.name)).Nodup &&
  ((match n.clockcheck ((⟨[], []⟩ : EAccum Diag), ()) with
    | (.some _, (a, _)) => a.err.isEmpty
    | _ => false) &&
  ((declared n).all (fun v => decide (v.clk ≠ .adaptative)) &&
  n.stmts.all fun st => (evaluated st).all (exprOk (declared n) (clocksIn (declared n)))))

theorem sober_sound {n : Node} (h : sober n = true) : Sober n (clocksIn (declared n)) := by
  simp only [sober, Bool.and_eq_true, decide_eq_true_eq, List.all_eq_true] at h
  obtain ⟨h1, h2, h3, h4⟩ := h
  have hparts : ∀ st ∈ n.stmts, ∀ e ∈ evaluated st, ∀ c, Part c e →
      partOk (declared n) (clocksIn (declared n)) c = true := by
    intro st hst e he c hc
    have := h4 st hst e he
    simp only [exprOk, Bool.and_eq_true, List.all_eq_true] at this
    exact this.2 c (mem_parts_of_part hc)
  refine ⟨?_, fun v hv => h3 v hv, ?_, ?_, ?_⟩
  · generalize hr : n.clockcheck ((⟨[], []⟩ : EAccum Diag), ()) = r at h2
    rcases r with ⟨r, ⟨a, u⟩⟩
    cases r with
    | some n' =>
      obtain ⟨-, -, K, -, hK, -⟩ := Clk.node_clk_sound h1 hr
      have hK := hK (by simpa [List.isEmpty_iff] using h2)
      have := Clk.declared_unique (clocksIn_declared h1) hK.declared
      rw [this]
      exact hK
    | none => simp at h2
    | abort => simp at h2
  · intro st hst e he
    have := h4 st hst e he
    simp only [exprOk, Bool.and_eq_true] at this
    exact (callsReadyB_iff e 0).1 this.1
  · intro st hst e he op a b hp sigs consts ⟨ha, hb⟩
    have := hparts st hst e he _ hp
    simp only [partOk, Bool.or_eq_true] at this
    exact this.elim (fun h => discrete_sound rfl a h ha) fun h => discrete_sound rfl b h hb
  · intro st hst e he b y z k k' hp hb hy hz
    have := hparts st hst e he _ hp
    simp only [partOk, clockOf_sound hb, clockOf_sound hy, clockOf_sound hz] at this
    simp only [ne_eq, not_true_eq_false, decide_false, Bool.false_or, Bool.or_eq_true,
      decide_eq_true_eq, Bool.and_eq_true, alwaysB_iff] at this
    exact this

end Chandeliers.Pres
