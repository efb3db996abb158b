import Verif.Spec.Presence
import Verif.Lemmas.Denote
import Verif.Lemmas.Tup
import Verif.Lemmas.Machine

/-! # When expressions are present -/

set_option autoImplicit false
set_option linter.unusedSectionVars false

namespace Chandeliers.Pres
open Chandeliers.San Chandeliers.Spec Chandeliers.Den

/-! ## Values -/

theorem full_leaf {v : Nillable Scalar} : Full (.leaf v) ↔ v ≠ .nil := by
  simp [Full, Tup.leaves]

theorem blank_leaf {v : Nillable Scalar} : Blank (.leaf v) ↔ v = .nil := by
  simp [Blank, Tup.leaves]

theorem full_tup {h : Value} {t : List Value} :
    Full (.tup h t) ↔ Full h ∧ ∀ v ∈ t, Full v := by
  have hl : ∀ t : List Value, (∀ l ∈ Tup.leavesList t, l ≠ .nil) ↔ ∀ v ∈ t, Full v := by
    intro t
    induction t with
    | nil => simp [Tup.leavesList]
    | cons v t ih => simp [Tup.leavesList, or_imp, forall_and, Full, ih]
  simp only [Full, Tup.leaves, List.mem_append, or_imp, forall_and, hl]

theorem blank_tup {h : Value} {t : List Value} :
    Blank (.tup h t) ↔ Blank h ∧ ∀ v ∈ t, Blank v := by
  have hl : ∀ t : List Value, (∀ l ∈ Tup.leavesList t, l = .nil) ↔ ∀ v ∈ t, Blank v := by
    intro t
    induction t with
    | nil => simp [Tup.leavesList]
    | cons v t ih => simp [Tup.leavesList, or_imp, forall_and, Blank, ih]
  simp only [Blank, Tup.leaves, List.mem_append, or_imp, forall_and, hl]

theorem first_mem : (v : Value) → v.first ∈ v.leaves
  | .leaf a => by simp [Tup.first, Tup.leaves]
  | .tup h t => by simp [Tup.first, Tup.leaves, first_mem h]

theorem full_present {v : Value} (h : Full v) : v.firstIsNil = false := by
  have := h _ (first_mem v)
  unfold Tup.firstIsNil
  cases hv : v.first with
  | nil => exact absurd hv this
  | defined => rfl

theorem blank_absent {v : Value} (h : Blank v) : v.firstIsNil = true := by
  unfold Tup.firstIsNil
  rw [h _ (first_mem v)]
  rfl

theorem blank_nilLike (v : Value) : Blank v.nilLike := by
  intro l hl
  rw [Tup.nilLike, Tup.leaves_map] at hl
  obtain ⟨_, -, rfl⟩ := List.mem_map.1 hl
  rfl

theorem blank_allNil (t : Tup Unit) : Blank (Tup.allNil Scalar t) := by
  intro l hl
  rw [Tup.allNil, Tup.leaves_map] at hl
  obtain ⟨_, -, rfl⟩ := List.mem_map.1 hl
  rfl

theorem full_tupleValue {vs : List Value} (h : ∀ v ∈ vs, Full v) : Full (tupleValue vs) := by
  match vs with
  | [] => simp [tupleValue, full_leaf]
  | [v] => exact h v (by simp)
  | v :: v' :: vs =>
    exact full_tup.2 ⟨h v (by simp), fun w hw => h w (List.mem_cons_of_mem _ hw)⟩

theorem blank_tupleValue {v : Value} {vs : List Value} (h : ∀ w ∈ v :: vs, Blank w) :
    Blank (tupleValue (v :: vs)) := by
  match vs with
  | [] => exact h v (by simp)
  | v' :: vs => exact blank_tup.2 ⟨h v (by simp), fun w hw => h w (List.mem_cons_of_mem _ hw)⟩

theorem first_tupleValue (v : Value) (vs : List Value) :
    (tupleValue (v :: vs)).firstIsNil = v.firstIsNil := by
  cases vs <;> rfl

/-! ## Calls -/

theorem subState_inputs {m : Machine} {a : Nat → R Value} {d : Nat} : ∀ {k : Nat} {s : m.σ},
    subState m a d (d + k) = .ok s → ∃ is os, m.runFrom m.init is = .ok (os, s) ∧
      is.length = k ∧ ∀ i ∈ is, ∃ u, u < k ∧ a (d + u) = .ok i
  | 0, s, h => by
    unfold subState at h
    rw [iter_le (by omega)] at h
    cases h
    exact ⟨[], [], rfl, rfl, by simp⟩
  | k + 1, s, h => by
    unfold subState at h
    rw [← Nat.add_assoc, iter_succ (by omega)] at h
    obtain ⟨s1, h1, h⟩ := ok_bind.1 h
    obtain ⟨v, h2, h⟩ := ok_bind.1 h
    obtain ⟨⟨o, s2⟩, h3, h⟩ := ok_bind.1 h
    cases h
    obtain ⟨is, os, k1, k2, k3⟩ := subState_inputs (k := k) h1
    refine ⟨is ++ [v], os ++ [o], ?_, by simp [k2], ?_⟩
    · rw [runFrom_append, k1]
      simp only [bind, Except.bind]
      rw [runFrom_single, h3]
      rfl
    · intro i hi
      rcases List.mem_append.1 hi with hi | hi
      · obtain ⟨u, hu, e⟩ := k3 i hi
        exact ⟨u, by omega, e⟩
      · cases List.mem_singleton.1 hi
        exact ⟨k, by omega, h2⟩

theorem runFrom_length {m : Machine} : ∀ {is os : List Value} {s s' : m.σ},
    m.runFrom s is = .ok (os, s') → os.length = is.length
  | [], os, s, s', h => by cases h; rfl
  | i :: is, os, s, s', h => by
    unfold Machine.runFrom at h
    obtain ⟨⟨o, s1⟩, -, h⟩ := ok_bind.1 h
    obtain ⟨⟨os1, s2⟩, h2, h⟩ := ok_bind.1 h
    cases h
    simp [runFrom_length h2]

/-- The answer to a call whose arguments were always complete or absent. -/
theorem answers_call {m : Machine} {τ : TyTuple} (hm : Answers m τ) {a : Nat → R Value} {d k : Nat} {s s' : m.σ}
    {v o : Value} (hs : subState m a d (d + k) = .ok s) (hv : a (d + k) = .ok v)
    (ho : m.step s v = .ok (o, s'))
    (hτ : ∀ u i, u ≤ k → a (d + u) = .ok i → ValTy τ i)
    (ha : ∀ u i, u ≤ k → a (d + u) = .ok i → i.firstIsNil = true ∨ Full i) :
    (Full v → Full o) ∧ (Blank v → Blank o) := by
  constructor
  · intro hf
    obtain ⟨is, os, h1, h2, h3⟩ := subState_inputs hs
    have hr : m.run (is ++ [v]) = .ok (os ++ [o]) := by
      unfold Machine.run
      rw [runFrom_append, h1]
      simp only [bind, Except.bind]
      rw [runFrom_single, ho]
      rfl
    have hlen := runFrom_length h1
    refine hm.full _ _ ?_ hr is.length v o (by simp) (by simp [← hlen]) (full_present hf)
    intro i hi
    rcases List.mem_append.1 hi with hi | hi
    · obtain ⟨u, hu, e⟩ := h3 i hi
      exact ⟨hτ u i (by omega) e, ha u i (by omega) e⟩
    · cases List.mem_singleton.1 hi
      exact ⟨hτ k v (Nat.le_refl _) hv, .inr hf⟩
  · intro hb
    rw [hm.idle s v (blank_absent hb)] at ho
    cases ho
    exact blank_allNil _

section
variable {A : Arith} {glob : Globals} {ms : List Machine} {F : Flow}

theorem nilBefore_sound (hm : ∀ m ∈ ms, Idle m) {r : Nat} : (e : Expr) → NilBefore r e →
    ∀ {lo t : Nat} {v : Value}, t < r → den A glob ms F lo e t = .ok v → v.firstIsNil = true
  | .lit _, h, _, _, _, _, _ => h.elim
  | .global _, h, _, _, _, _, _ => h.elim
  | .var x d, h, lo, t, v, ht, hv => by
    simp only [NilBefore] at h
    simp only [den, Except.ok.injEq] at hv
    subst hv
    rw [if_pos (by omega)]
    rfl
  | .tuple [], h, _, _, _, _, _ => h.elim
  | .tuple (e :: es), h, lo, t, v, ht, hv => by
    simp only [NilBefore] at h
    simp only [den, denList] at hv
    obtain ⟨vs, h1, hv⟩ := ok_bind.1 hv
    obtain ⟨w, h2, h1⟩ := ok_bind.1 h1
    obtain ⟨ws, h3, h1⟩ := ok_bind.1 h1
    cases h1
    cases hv
    rw [first_tupleValue]
    exact nilBefore_sound hm e h ht h2
  | .dummyPre e, h, lo, t, v, ht, hv => nilBefore_sound hm e h ht hv
  | .dummyParen e, h, lo, t, v, ht, hv => nilBefore_sound hm e h ht hv
  | .un op e, h, lo, t, v, ht, hv => by
    simp only [den] at hv
    obtain ⟨w, h1, hv⟩ := ok_bind.1 hv
    obtain ⟨a, h2, hv⟩ := ok_bind.1 hv
    obtain ⟨b, h3, hv⟩ := ok_bind.1 hv
    cases hv
    have := nilBefore_sound hm e h ht h1
    cases w with
    | tup => cases h2
    | leaf x =>
      cases h2
      cases a with
      | defined => cases this
      | nil => cases h3; rfl
  | .bin op l r', h, lo, t, v, ht, hv => by
    simp only [den] at hv
    obtain ⟨w, h1, hv⟩ := ok_bind.1 hv
    obtain ⟨w', h1', hv⟩ := ok_bind.1 hv
    obtain ⟨a, h2, hv⟩ := ok_bind.1 hv
    obtain ⟨a', h2', hv⟩ := ok_bind.1 hv
    obtain ⟨b, h3, hv⟩ := ok_bind.1 hv
    cases hv
    rcases h with h | h
    · have := nilBefore_sound hm l h ht h1
      cases w with
      | tup => cases h2
      | leaf x =>
        cases h2
        cases a with
        | defined => cases this
        | nil => cases h3; rfl
    · have := nilBefore_sound hm r' h ht h1'
      cases w' with
      | tup => cases h2'
      | leaf x =>
        cases h2'
        cases a' with
        | defined => cases this
        | nil => cases a <;> cases h3 <;> rfl
  | .cmp op l r', h, lo, t, v, ht, hv => by
    simp only [den] at hv
    obtain ⟨w, h1, hv⟩ := ok_bind.1 hv
    obtain ⟨w', h1', hv⟩ := ok_bind.1 hv
    obtain ⟨a, h2, hv⟩ := ok_bind.1 hv
    obtain ⟨a', h2', hv⟩ := ok_bind.1 hv
    obtain ⟨b, h3, hv⟩ := ok_bind.1 hv
    cases hv
    have key : a = .nil ∨ a' = .nil := by
      rcases h with h | h
      · have := nilBefore_sound hm l h ht h1
        cases w with
        | tup => cases h2
        | leaf x =>
          cases h2
          cases a with
          | defined => cases this
          | nil => exact .inl rfl
      · have := nilBefore_sound hm r' h ht h1'
        cases w' with
        | tup => cases h2'
        | leaf x =>
          cases h2'
          cases a' with
          | defined => cases this
          | nil => exact .inr rfl
    unfold scalarCmp at h3
    split at h3
    · cases h3
      rcases key with rfl | rfl
      · cases op <;> rfl
      · cases op <;> cases a <;> rfl
    · cases h3
  | .clock op e b, h, lo, t, v, ht, hv => by
    simp only [den] at hv
    obtain ⟨w, h1, hv⟩ := ok_bind.1 hv
    obtain ⟨c, h2, hv⟩ := ok_bind.1 hv
    obtain ⟨w', h3, hv⟩ := ok_bind.1 hv
    rcases h with h | h
    · have := nilBefore_sound hm b h ht h1
      have hc : c = .nil := by
        cases w with
        | tup => cases h2
        | leaf x =>
          cases x with
          | defined => cases this
          | nil => cases h2; rfl
      subst hc
      cases op <;> cases hv <;> exact Tup.firstIsNil_nilLike _
    · have := nilBefore_sound hm e h ht h3
      cases op <;> cases hv <;> rcases c with ⟨⟨⟩⟩ | _ <;>
        first | exact this | exact Tup.firstIsNil_nilLike _
  | .ifx b y n, h, lo, t, v, ht, hv => by
    simp only [den] at hv
    obtain ⟨w1, h1, hv⟩ := ok_bind.1 hv
    obtain ⟨w2, h2, hv⟩ := ok_bind.1 hv
    obtain ⟨w, h3, hv⟩ := ok_bind.1 hv
    obtain ⟨c, h4, hv⟩ := ok_bind.1 hv
    cases hv
    have := nilBefore_sound hm b h ht h3
    have hc : c = .nil := by
      cases w with
      | tup => cases h4
      | leaf x =>
        cases x with
        | defined => cases this
        | nil => cases h4; rfl
    subst hc
    exact Tup.firstIsNil_nilLike _
  | .merge b y n, h, lo, t, v, ht, hv => by
    simp only [den] at hv
    obtain ⟨w, h3, hv⟩ := ok_bind.1 hv
    obtain ⟨c, h4, hv⟩ := ok_bind.1 hv
    obtain ⟨w1, h1, hv⟩ := ok_bind.1 hv
    obtain ⟨w2, h2, hv⟩ := ok_bind.1 hv
    cases hv
    have := nilBefore_sound hm b h ht h3
    have hc : c = .nil := by
      cases w with
      | tup => cases h4
      | leaf x =>
        cases x with
        | defined => cases this
        | nil => cases h4; rfl
    subst hc
    exact Tup.firstIsNil_nilLike _
  | .later d b a, h, lo, t, v, ht, hv => by
    simp only [den] at hv
    obtain ⟨w, h1, hv⟩ := ok_bind.1 hv
    split at hv
    · cases hv
      exact nilBefore_sound hm a h.2 ht h1
    · exact nilBefore_sound hm b h.1 ht hv
  | .substep d i a, h, lo, t, v, ht, hv => by
    simp only [den] at hv
    split at hv
    · obtain ⟨w, h1, hv⟩ := ok_bind.1 hv
      split at hv
      · cases hv
      · rename_i m hmi
        obtain ⟨s, h2, hv⟩ := ok_bind.1 hv
        obtain ⟨⟨o, s'⟩, h3, hv⟩ := ok_bind.1 hv
        cases hv
        rcases h with h | h
        · omega
        · have := nilBefore_sound hm a h ht h1
          rw [hm m (List.mem_of_getElem? hmi) s w this] at h3
          cases h3
          exact Tup.firstIsNil_allNil _
    · split at hv
      · cases hv
      · cases hv
        exact Tup.firstIsNil_allNil _
  | .flip _ _ _, h, _, _, _, _, _ => h.elim
  | .fetchPre _ _, h, _, _, _, _, _ => h.elim
  | .fetchFby _ _ _, h, _, _, _, _, _ => h.elim

/-! ## Expressions of the default mode -/

mutual
/-- The translation of an expression delayed by `n`. -/
def Deep : Nat → Expr → Prop
  | _, .lit _ => True
  | _, .global _ => True
  | n, .var _ d => d = n
  | n, .tuple es => DeepList n es
  | n, .dummyPre e => Deep (n + 1) e
  | n, .dummyParen e => Deep n e
  | n, .un _ e => Deep n e
  | n, .bin _ l r => Deep n l ∧ Deep n r
  | n, .cmp _ l r => Deep n l ∧ Deep n r
  | n, .clock _ e b => Deep n e ∧ Deep n b
  | n, .ifx b y m => Deep n b ∧ Deep n y ∧ Deep n m
  | n, .merge b y m => Deep n b ∧ Deep n y ∧ Deep n m
  | _, .later _ b a => (∃ m, Deep m b) ∧ ∃ m, Deep m a
  | n, .substep _ _ a => Deep n a
  | _, .flip _ _ _ => False
  | _, .fetchPre _ _ => False
  | _, .fetchFby _ _ _ => False
/-- All of them. -/
def DeepList : Nat → List Expr → Prop
  | _, [] => True
  | n, e :: es => Deep n e ∧ DeepList n es
end

/-- The clock of a delayed expression. -/
def ActiveAt (X : String → Nat → Nillable Scalar) (n : Nat) (k : Clk) (t : Nat) : Prop :=
  Always k ∨ (n ≤ t ∧ Active X k (t - n))

/-- Present exactly at these instants. -/
def PresentAt (X : String → Nat → Nillable Scalar) (n : Nat) (k : Clk) (t : Nat) (v : Value) :
    Prop :=
  (ActiveAt X n k t → Full v) ∧ (¬ActiveAt X n k t → Blank v)

/-- The variable is present exactly on its clock. -/
def VarOk (X : String → Nat → Nillable Scalar) (K : String → Option Clk) (x : String) (t : Nat) :
    Prop := ∀ k, K x = some k → PresentOn X k t (.leaf (X x t))

theorem active_always {X : String → Nat → Nillable Scalar} {k : Clk} {t : Nat} (h : Always k) :
    Active X k t := by
  cases k <;> simp_all [Always, Active]

theorem activeAt_zero {X : String → Nat → Nillable Scalar} {k : Clk} {t : Nat} :
    ActiveAt X 0 k t ↔ Active X k t := by
  unfold ActiveAt
  constructor
  · rintro (h | ⟨-, h⟩)
    · exact active_always h
    · exact h
  · exact fun h => .inr ⟨Nat.zero_le _, h⟩

theorem presentAt_zero {X : String → Nat → Nillable Scalar} {k : Clk} {t : Nat} {v : Value} :
    PresentAt X 0 k t v ↔ PresentOn X k t v := by
  simp only [PresentAt, PresentOn, activeAt_zero]

theorem activeAt_same {X : String → Nat → Nillable Scalar} {n : Nat} {k k' : Clk} {t : Nat}
    (h : SameClk k k') : ActiveAt X n k t ↔ ActiveAt X n k' t := by
  rcases h with rfl | ⟨h, h'⟩
  · rfl
  · exact ⟨fun _ => .inl h', fun _ => .inl h⟩

theorem PresentAt.same {X : String → Nat → Nillable Scalar} {n : Nat} {k k' : Clk} {t : Nat}
    {v : Value} (h : SameClk k k') (hp : PresentAt X n k t v) : PresentAt X n k' t v := by
  unfold PresentAt
  rw [← activeAt_same h]
  exact hp

theorem meet_present {X : String → Nat → Nillable Scalar} {n t : Nat} {k k' : Clk} {v w : Value}
    (hc : Compatible k k') (hv : PresentAt X n k t v) (hw : PresentAt X n k' t w) :
    (ActiveAt X n (Clk.meet k k') t → Full v ∧ Full w) ∧
    (¬ActiveAt X n (Clk.meet k k') t → Blank v ∨ Blank w) := by
  have ha : ActiveAt X n .adaptative t := .inl trivial
  rcases hc with rfl | rfl | rfl
  · exact ⟨fun h => ⟨hv.1 ha, hw.1 h⟩, fun h => .inr (hw.2 h)⟩
  · have e : Clk.meet k .adaptative = k := by cases k <;> rfl
    rw [e]
    exact ⟨fun h => ⟨hv.1 h, hw.1 ha⟩, fun h => .inl (hv.2 h)⟩
  · have e : Clk.meet k k = k := by cases k <;> rfl
    rw [e]
    exact ⟨fun h => ⟨hv.1 h, hw.1 h⟩, fun h => .inl (hv.2 h)⟩

theorem cmp_full {op : CmpOp} {a b : Nillable Scalar} {c : Nillable Scalar}
    (hA : ∀ x y, a = .defined (.float x) → b = .defined (.float y) → A.fcmp x y ≠ none)
    (h : scalarCmp A op a b = .ok c) (ha : a ≠ .nil) (hb : b ≠ .nil) : c ≠ .nil := by
  unfold scalarCmp at h
  split at h
  · rename_i hc
    cases h
    cases a with
    | nil => exact absurd rfl ha
    | defined x =>
    cases b with
    | nil => exact absurd rfl hb
    | defined y =>
    have hp : scalarPcmp A x y ≠ none := by
      cases x <;> cases y <;> simp_all [comparable, scalarPcmp]
    obtain ⟨o, ho⟩ := Option.ne_none_iff_exists'.1 hp
    cases op <;> simp only [Candle.cmp, Candle.nillableCmpEq, Candle.nillableCmpOrd, Nillable.eq,
      Nillable.cmp, ho] <;> split <;> simp_all [Nillable.map]
  · cases h

theorem cmp_blank {op : CmpOp} {a b : Nillable Scalar} {c : Nillable Scalar}
    (h : scalarCmp A op a b = .ok c) (ha : a = .nil ∨ b = .nil) : c = .nil := by
  unfold scalarCmp at h
  split at h
  · cases h
    rcases ha with rfl | rfl
    · cases op <;> rfl
    · cases op <;> cases a <;> rfl
  · cases h

theorem asLeaf_eq {v : Value} {a : Nillable Scalar} (h : asLeaf v = .ok a) : v = .leaf a := by
  cases v with
  | tup => cases h
  | leaf x => cases h; rfl

theorem asBool_eq {v : Value} {b : Nillable Bool} (h : asBool v = .ok b) :
    v = .leaf (b.map .bool) := by
  cases v with
  | tup => cases h
  | leaf x =>
    cases x with
    | nil => cases h; rfl
    | defined y => cases y <;> cases h; rfl

/-- What the variables of an expression must be up to an instant. -/
def PastOk (X : String → Nat → Nillable Scalar) (K : String → Option Clk) (t : Nat) (e : Expr) :
    Prop := ∀ u, u ≤ t → ∀ x d, Part (.var x d) e → d ≤ u → VarOk X K x (u - d)

theorem PastOk.mono {X : String → Nat → Nillable Scalar} {K : String → Option Clk} {t u : Nat}
    {e : Expr} (h : PastOk X K t e) (hu : u ≤ t) : PastOk X K u e :=
  fun w hw => h w (Nat.le_trans hw hu)

theorem PastOk.sub {X : String → Nat → Nillable Scalar} {K : String → Option Clk} {t : Nat}
    {e e' : Expr} (h : PastOk X K t e) (he : Operand e' e) : PastOk X K t e' :=
  fun w hw x d hp => h w hw x d (hp.tail he)

/-- What must be known of the values of the parts of an expression up to an instant: conditions are
not constant or the branches are on the same clock; no comparison meets a NaN; the nodes that are
called answer. -/
structure Sane (A : Arith) (glob : Globals) (ms : List Machine) (F : Flow) (K : String → Option Clk)
    (t : Nat) (e : Expr) : Prop where
  conditions : ∀ c y n k k', Part (.ifx c y n) e → HasClock true K c .adaptative →
    HasClock true K y k → HasClock true K n k' → SameClk k k'
  ordered : ∀ op a b, Part (.cmp op a b) e → ∀ u, u ≤ t → ∀ lo x y,
    den A glob ms F lo a u = .ok (.leaf (.defined (.float x))) →
    den A glob ms F lo b u = .ok (.leaf (.defined (.float y))) → A.fcmp x y ≠ none
  answers : ∀ d i a, Part (.substep d i a) e → ∀ m, ms[i]? = some m → ∃ τ, Answers m τ ∧
    ∀ u, u ≤ t → ∀ lo w, den A glob ms F lo a u = .ok w → ValTy τ w

section
variable {A : Arith} {glob : Globals} {ms : List Machine} {F : Flow}

theorem Sane.sub {K : String → Option Clk} {t : Nat} {e e' : Expr} (h : Sane A glob ms F K t e)
    (he : Operand e' e) : Sane A glob ms F K t e' :=
  ⟨fun c y n k k' hp => h.conditions c y n k k' (hp.tail he),
    fun op a b hp => h.ordered op a b (hp.tail he),
    fun d i a hp => h.answers d i a (hp.tail he)⟩

theorem Sane.mono {K : String → Option Clk} {t u : Nat} {e : Expr} (h : Sane A glob ms F K t e)
    (hu : u ≤ t) : Sane A glob ms F K u e :=
  ⟨h.conditions, fun op a b hp w hw => h.ordered op a b hp w (Nat.le_trans hw hu),
    fun d i a hp m hm => by
      obtain ⟨τ, h1, h2⟩ := h.answers d i a hp m hm
      exact ⟨τ, h1, fun w hw => h2 w (Nat.le_trans hw hu)⟩⟩

end

/-- What must be known of the surroundings. -/
structure Sur (ms : List Machine) (K : String → Option Clk) : Prop where
  idle : ∀ m ∈ ms, Idle m
  chosen : ∀ x, K x ≠ some .adaptative

theorem guard_present {X : String → Nat → Nillable Scalar} {K : String → Option Clk} {x : String}
    {n t : Nat} {k k' : Clk} {v : Value} {op : ClockOp} {b : Nillable Bool} (hn : n ≤ t)
    (hx : VarOk X K x (t - n)) (hk' : K x = some k') (hK : K x ≠ some .adaptative)
    (hc : Compatible k k') (hv : PresentAt X n k t v) (hb : b.map Scalar.bool = X x (t - n)) :
    PresentAt X n (guardClk op x) t
      (match op with | .when => Candle.when b v | .whenot => Candle.whenot b v) := by
  have hact : (∃ c, b = .defined c) → Full v := by
    rintro ⟨c, rfl⟩
    refine hv.1 ?_
    have hak : Active X k' (t - n) := by
      apply Classical.byContradiction
      intro hna
      have := blank_leaf.1 ((hx k' hk').2 hna)
      rw [← hb] at this
      cases this
    rcases hc with rfl | rfl | rfl
    · exact .inl trivial
    · exact absurd hk' hK
    · exact .inr ⟨hn, hak⟩
  cases op with
  | when =>
    constructor
    · rintro (h | ⟨-, h⟩)
      · cases h
      · have : b = .defined true := by
          simp only [guardClk, Active, ← hb] at h
          cases b <;> simp_all [Nillable.map]
        subst this
        exact hact ⟨_, rfl⟩
    · intro h
      rcases b with ⟨⟨⟩⟩ | _
      · exact blank_nilLike v
      · exact absurd (.inr ⟨hn, hb.symm⟩) h
      · exact blank_nilLike v
  | whenot =>
    constructor
    · rintro (h | ⟨-, h⟩)
      · cases h
      · have : b = .defined false := by
          simp only [guardClk, Active, ← hb] at h
          cases b <;> simp_all [Nillable.map]
        subst this
        exact hact ⟨_, rfl⟩
    · intro h
      rcases b with ⟨⟨⟩⟩ | _
      · exact absurd (.inr ⟨hn, hb.symm⟩) h
      · exact blank_nilLike v
      · exact blank_nilLike v

mutual
theorem den_present {K : String → Option Clk} (hs : Sur ms K) : (e : Expr) →
    ∀ {n c lo t : Nat} {k : Clk} {v : Value}, HasClock true K e k → Deep n e → ReadsWithin c e →
    CallsReady c e → Sane A glob ms F K t e → PastOk F.X K t e → lo ≤ t → c ≤ t →
    den A glob ms F lo e t = .ok v → PresentAt F.X n k t v
  | .lit l, n, c, lo, t, k, v, hk, hd, hr, hc, hi, hx, hlo, hct, h => by
    cases hk
    cases h
    exact ⟨fun _ => full_leaf.2 (by simp), fun h => absurd (.inl trivial) h⟩
  | .global x, n, c, lo, t, k, v, hk, hd, hr, hc, hi, hx, hlo, hct, h => by
    cases hk
    simp only [den] at h
    split at h
    · cases h
      exact ⟨fun _ => full_leaf.2 (by simp), fun h => absurd (.inl trivial) h⟩
    · cases h
  | .var x d, n, c, lo, t, k, v, hk, hd, hr, hc, hi, hx, hlo, hct, h => by
    cases hk with
    | var hk =>
    simp only [Deep] at hd
    subst hd
    simp only [ReadsWithin] at hr
    simp only [den, Except.ok.injEq] at h
    rw [if_neg (by omega)] at h
    subst h
    have := hx t (Nat.le_refl _) x d .refl (by omega) k hk
    refine ⟨?_, ?_⟩
    · rintro (h | ⟨-, h⟩)
      · exact this.1 (active_always h)
      · exact this.1 h
    · intro h
      exact this.2 fun h' => h (.inr ⟨by omega, h'⟩)
  | .tuple [], n, c, lo, t, k, v, hk, hd, hr, hc, hi, hx, hlo, hct, h => by
    cases hk
    cases h
    exact ⟨fun _ => full_leaf.2 (by simp), fun h => absurd (.inl trivial) h⟩
  | .tuple (e :: es), n, c, lo, t, k, v, hk, hd, hr, hc, hi, hx, hlo, hct, h => by
    cases hk with
    | tuple hk hk' =>
    simp only [Deep, DeepList] at hd
    simp only [ReadsWithin, ReadWithin] at hr
    simp only [CallsReady, CallReady] at hc
    simp only [den, denList] at h
    obtain ⟨vs, h1, h⟩ := ok_bind.1 h
    obtain ⟨w, h2, h1⟩ := ok_bind.1 h1
    obtain ⟨ws, h3, h1⟩ := ok_bind.1 h1
    cases h1
    cases h
    have hw := den_present hs e hk hd.1 hr.1 hc.1 (hi.sub (.tuple (by simp)))
      (hx.sub (.tuple (by simp))) hlo hct h2
    have hws := denList_present hs es hk' hd.2 hr.2 hc.2
      (fun e he => hi.sub (.tuple (List.mem_cons_of_mem _ he)))
      (fun e he => hx.sub (.tuple (List.mem_cons_of_mem _ he))) hlo hct h3
    constructor
    · intro ha
      refine full_tupleValue fun x hx => ?_
      rcases List.mem_cons.1 hx with rfl | hx
      · exact hw.1 ha
      · exact (hws x hx).1 ha
    · intro ha
      refine blank_tupleValue fun x hx => ?_
      rcases List.mem_cons.1 hx with rfl | hx
      · exact hw.2 ha
      · exact (hws x hx).2 ha
  | .dummyPre e, n, c, lo, t, k, v, hk, hd, hr, hc, hi, hx, hlo, hct, h => by
    cases hk with
    | dummyPre hk ha =>
    have := den_present hs e hk hd hr hc (hi.sub .dummyPre) (hx.sub .dummyPre) hlo hct h
    exact ⟨fun _ => this.1 (.inl ha), fun h => absurd (.inl ha) h⟩
  | .dummyParen e, n, c, lo, t, k, v, hk, hd, hr, hc, hi, hx, hlo, hct, h => by
    cases hk with
    | dummyParen hk =>
    exact den_present hs e hk hd hr hc (hi.sub .dummyParen) (hx.sub .dummyParen) hlo hct h
  | .un op e, n, c, lo, t, k, v, hk, hd, hr, hc, hi, hx, hlo, hct, h => by
    cases hk with
    | un hk =>
    simp only [den] at h
    obtain ⟨w, h1, h⟩ := ok_bind.1 h
    obtain ⟨a, h2, h⟩ := ok_bind.1 h
    obtain ⟨b, h3, h⟩ := ok_bind.1 h
    cases h
    have hw := den_present hs e hk hd hr hc (hi.sub .un) (hx.sub .un) hlo hct h1
    cases asLeaf_eq h2
    constructor
    · intro ha
      have := full_leaf.1 (hw.1 ha)
      cases a with
      | nil => exact absurd rfl this
      | defined x =>
        simp only [Nillable.unop] at h3
        cases hu : scalarUn A op x with
        | error => rw [hu] at h3; cases h3
        | ok y => rw [hu] at h3; cases h3; exact full_leaf.2 (by simp)
    · intro ha
      have := blank_leaf.1 (hw.2 ha)
      subst this
      cases h3
      exact blank_leaf.2 rfl
  | .bin op l r, n, c, lo, t, k, v, hk, hd, hr, hc, hi, hx, hlo, hct, h => by
    cases hk with
    | bin hk hk' hcm =>
    simp only [den] at h
    obtain ⟨w, h1, h⟩ := ok_bind.1 h
    obtain ⟨w', h1', h⟩ := ok_bind.1 h
    obtain ⟨a, h2, h⟩ := ok_bind.1 h
    obtain ⟨a', h2', h⟩ := ok_bind.1 h
    obtain ⟨b, h3, h⟩ := ok_bind.1 h
    cases h
    have hw := den_present hs l hk hd.1 hr.1 hc.1 (hi.sub .binL) (hx.sub .binL) hlo hct h1
    have hw' := den_present hs r hk' hd.2 hr.2 hc.2 (hi.sub .binR) (hx.sub .binR) hlo hct h1'
    cases asLeaf_eq h2
    cases asLeaf_eq h2'
    obtain ⟨m1, m2⟩ := meet_present hcm hw hw'
    constructor
    · intro ha
      obtain ⟨f1, f2⟩ := m1 ha
      have f1 := full_leaf.1 f1
      have f2 := full_leaf.1 f2
      cases a with
      | nil => exact absurd rfl f1
      | defined x =>
      cases a' with
      | nil => exact absurd rfl f2
      | defined y =>
        simp only [Nillable.binop] at h3
        cases hu : scalarBin A op x y with
        | error => rw [hu] at h3; cases h3
        | ok y => rw [hu] at h3; cases h3; exact full_leaf.2 (by simp)
    · intro ha
      rcases m2 ha with m2 | m2
      · cases blank_leaf.1 m2
        cases h3
        exact blank_leaf.2 rfl
      · cases blank_leaf.1 m2
        cases a <;> cases h3 <;> exact blank_leaf.2 rfl
  | .cmp op l r, n, c, lo, t, k, v, hk, hd, hr, hc, hi, hx, hlo, hct, h => by
    cases hk with
    | cmp hk hk' hcm =>
    simp only [den] at h
    obtain ⟨w, h1, h⟩ := ok_bind.1 h
    obtain ⟨w', h1', h⟩ := ok_bind.1 h
    obtain ⟨a, h2, h⟩ := ok_bind.1 h
    obtain ⟨a', h2', h⟩ := ok_bind.1 h
    obtain ⟨b, h3, h⟩ := ok_bind.1 h
    cases h
    have hw := den_present hs l hk hd.1 hr.1 hc.1 (hi.sub .cmpL) (hx.sub .cmpL) hlo hct h1
    have hw' := den_present hs r hk' hd.2 hr.2 hc.2 (hi.sub .cmpR) (hx.sub .cmpR) hlo hct h1'
    cases asLeaf_eq h2
    cases asLeaf_eq h2'
    obtain ⟨m1, m2⟩ := meet_present hcm hw hw'
    constructor
    · intro ha
      obtain ⟨f1, f2⟩ := m1 ha
      exact full_leaf.2 (cmp_full (fun x y e1 e2 => hi.ordered op l r .refl t (Nat.le_refl _) lo x y
        (e1 ▸ h1) (e2 ▸ h1')) h3 (full_leaf.1 f1) (full_leaf.1 f2))
    · intro ha
      refine blank_leaf.2 (cmp_blank h3 ?_)
      rcases m2 ha with m2 | m2
      · exact .inl (blank_leaf.1 m2)
      · exact .inr (blank_leaf.1 m2)
  | .clock op e b, n, c, lo, t, k, v, hk, hd, hr, hc, hi, hx, hlo, hct, h => by
    cases hk with
    | @clock _ _ x d k k' hk hk' hcm =>
    obtain ⟨hd1, hd2⟩ := hd
    simp only [Deep] at hd2
    subst hd2
    obtain ⟨hr1, hr2⟩ := hr
    simp only [ReadsWithin] at hr1
    simp only [den] at h
    obtain ⟨w, h1, h'⟩ := ok_bind.1 h
    obtain ⟨cb, h2, h''⟩ := ok_bind.1 h'
    obtain ⟨w', h3, h4⟩ := ok_bind.1 h''
    clear h h' h''
    have hw := den_present hs e hk hd1 hr2 hc.2 (hi.sub .clockInner) (hx.sub .clockInner) hlo hct h3
    cases h1
    have hb := asBool_eq h2
    rw [if_neg (by omega)] at hb
    have := guard_present (op := op) (by omega)
      (hx t (Nat.le_refl _) x d (.single .clockGuard) (by omega)) hk' (hs.chosen x) hcm hw
      (Tup.leaf.inj hb).symm
    cases op <;> cases h4 <;> exact this
  | .ifx b y m, n, c, lo, t, k, v, hk, hd, hr, hc, hi, hx, hlo, hct, h => by
    cases hk with
    | @ifx _ _ _ k1 k2 k3 hk hk' hk'' hcm hcm' =>
    simp only [den] at h
    obtain ⟨w1, h1, h⟩ := ok_bind.1 h
    obtain ⟨w2, h2, h⟩ := ok_bind.1 h
    obtain ⟨w, h3, h⟩ := ok_bind.1 h
    obtain ⟨cb, h4, h⟩ := ok_bind.1 h
    cases h
    have hw := den_present hs b hk hd.1 hr.1 hc.1 (hi.sub .ifCond) (hx.sub .ifCond) hlo hct h3
    have hw1 := den_present hs y hk' hd.2.1 hr.2.1 hc.2.1 (hi.sub .ifYes) (hx.sub .ifYes) hlo hct h1
    have hw2 := den_present hs m hk'' hd.2.2 hr.2.2 hc.2.2 (hi.sub .ifNo) (hx.sub .ifNo) hlo hct h2
    have hb := asBool_eq h4
    by_cases hne : k1 = .adaptative
    · subst hne
      have hsame := hi.conditions b y m k2 k3 .refl hk hk' hk''
      have hf := hw.1 (.inl trivial)
      rw [hb] at hf
      have e1 : Clk.meet .adaptative k2 = k2 := rfl
      rw [e1]
      have hm : SameClk k2 (Clk.meet k2 k3) := by
        rcases hsame with rfl | ⟨ha, ha'⟩
        · exact .inl (by cases k2 <;> rfl)
        · exact .inr ⟨ha, by cases k2 <;> first | exact ha' | exact ha⟩
      have hm' : SameClk k3 (Clk.meet k2 k3) := by
        rcases hsame with rfl | ⟨ha, ha'⟩
        · exact hm
        · exact .inr ⟨ha', by cases k2 <;> first | exact ha' | exact ha⟩
      rcases cb with ⟨⟨⟩⟩ | _
      · exact hw2.same hm'
      · exact hw1.same hm
      · exact absurd rfl (full_leaf.1 hf)
    · have e1 : Clk.meet k1 k2 = k1 := by cases k1 <;> simp_all [Clk.meet]
      have e2 : Clk.meet (Clk.meet k1 k2) k3 = k1 := by rw [e1]; cases k1 <;> simp_all [Clk.meet]
      rw [e1] at hcm'
      rw [e2]
      obtain ⟨m1, -⟩ := meet_present hcm hw hw1
      obtain ⟨m1', -⟩ := meet_present hcm' hw hw2
      rw [e1] at m1
      have e3 : Clk.meet k1 k3 = k1 := by cases k1 <;> simp_all [Clk.meet]
      rw [e3] at m1'
      constructor
      · intro ha
        have hf := hw.1 ha
        rw [hb] at hf
        rcases cb with ⟨⟨⟩⟩ | _
        · exact (m1' ha).2
        · exact (m1 ha).2
        · exact absurd rfl (full_leaf.1 hf)
      · intro ha
        have hf := hw.2 ha
        rw [hb] at hf
        have hf := blank_leaf.1 hf
        rcases cb with _ | _
        · cases hf
        · exact blank_nilLike _
  | .merge b y m, n, c, lo, t, k, v, hk, hd, hr, hc, hi, hx, hlo, hct, h => by
    cases hk with
    | @merge x d _ _ _ k2 k3 hk hk' hk'' hcm hcm' =>
    obtain ⟨hd1, hd2, hd3⟩ := hd
    simp only [Deep] at hd1
    subst hd1
    obtain ⟨hr1, hr2, hr3⟩ := hr
    simp only [ReadsWithin] at hr1
    simp only [den] at h
    obtain ⟨w, h3, h⟩ := ok_bind.1 h
    obtain ⟨cb, h4, h⟩ := ok_bind.1 h
    obtain ⟨w1, h1, h⟩ := ok_bind.1 h
    obtain ⟨w2, h2, h⟩ := ok_bind.1 h
    cases h
    have hw1 := den_present hs y hk' hd2 hr2 hc.2.1 (hi.sub .mergeOn) (hx.sub .mergeOn) hlo hct h1
    have hw2 := den_present hs m hk'' hd3 hr3 hc.2.2 (hi.sub .mergeOff) (hx.sub .mergeOff) hlo hct h2
    cases h3
    have hb := asBool_eq h4
    rw [if_neg (by omega)] at hb
    have hb := (Tup.leaf.inj hb).symm
    have hvx := hx t (Nat.le_refl _) x d (.single .mergeSwitch) (by omega) k hk
    constructor
    · intro ha
      have hak : Active F.X k (t - d) := by
        rcases ha with ha | ⟨-, ha⟩
        · exact active_always ha
        · exact ha
      have := full_leaf.1 (hvx.1 hak)
      rw [← hb] at this
      rcases cb with ⟨⟨⟩⟩ | _
      · refine hw2.1 ?_
        rcases hcm' with rfl | hcm' | rfl
        · exact .inl trivial
        · cases hcm'
        · exact .inr ⟨by omega, hb.symm⟩
      · refine hw1.1 ?_
        rcases hcm with rfl | hcm | rfl
        · exact .inl trivial
        · cases hcm
        · exact .inr ⟨by omega, hb.symm⟩
      · exact absurd rfl this
    · intro ha
      have := blank_leaf.1 (hvx.2 fun h => ha (.inr ⟨by omega, h⟩))
      rw [← hb] at this
      rcases cb with _ | _
      · cases this
      · exact blank_nilLike _
  | .later d b a, n, c, lo, t, k, v, hk, hd, hr, hc, hi, hx, hlo, hct, h => by
    cases hk with
    | later hk hk' hst =>
    obtain ⟨⟨m, hd1⟩, m', hd2⟩ := hd
    obtain ⟨ha, ha'⟩ := hst rfl
    simp only [den] at h
    obtain ⟨w, h1, h⟩ := ok_bind.1 h
    refine ⟨fun _ => ?_, fun h => absurd (.inl ha) h⟩
    split at h
    · cases h
      exact (den_present hs a hk' hd2 hr.2 hc.2 (hi.sub .laterAfter) (hx.sub .laterAfter) hlo
        (by omega) h1).1 (.inl ha')
    · exact (den_present hs b hk hd1 hr.1 hc.1 (hi.sub .laterBefore) (hx.sub .laterBefore) hlo
        hct h).1 (.inl ha)
  | .substep d i a, n, c, lo, t, k, v, hk, hd, hr, hc, hi, hx, hlo, hct, h => by
    cases hk with
    | substep hk =>
    simp only [CallsReady] at hc
    obtain ⟨hdc, r, hrc, hra, hca, hnil⟩ := hc
    simp only [den] at h
    rw [if_pos (by omega)] at h
    obtain ⟨w, h1, h⟩ := ok_bind.1 h
    split at h
    · cases h
    · rename_i m hmi
      obtain ⟨s, h2, h⟩ := ok_bind.1 h
      obtain ⟨⟨o, s'⟩, h3, h⟩ := ok_bind.1 h
      cases h
      have hall : ∀ u w, max lo d ≤ u → u ≤ t → r ≤ u →
          den A glob ms F (max lo d) a u = .ok w → PresentAt F.X n k u w := by
        intro u w hu1 hu2 hu3 hw
        exact den_present hs a hk hd hra hca ((hi.sub .arg).mono hu2) ((hx.sub .arg).mono hu2) hu1 hu3 hw
      obtain ⟨j, hj⟩ : ∃ j, t = max lo d + j := ⟨t - max lo d, by omega⟩
      obtain ⟨τ, hτ, hty⟩ := hi.answers d i a .refl m hmi
      have hans := answers_call hτ (hj ▸ h2) (hj ▸ h1) h3
        (fun u w' hu hw' => hty _ (by omega) _ w' hw') (by
        intro u w' hu hw'
        by_cases hru : r ≤ max lo d + u
        · have := hall _ _ (by omega) (by omega) hru hw'
          by_cases ha : ActiveAt F.X n k (max lo d + u)
          · exact .inr (this.1 ha)
          · exact .inl (blank_absent (this.2 ha))
        · rcases hnil with hnil | hnil
          · omega
          · exact .inl (nilBefore_sound hs.idle a hnil (by omega) hw'))
      have hw := hall t w (by omega) (Nat.le_refl _) (by omega) h1
      exact ⟨fun ha => hans.1 (hw.1 ha), fun ha => hans.2 (hw.2 ha)⟩
  | .flip _ _ _, n, c, lo, t, k, v, hk, hd, hr, hc, hi, hx, hlo, hct, h => hd.elim
  | .fetchPre _ _, n, c, lo, t, k, v, hk, hd, hr, hc, hi, hx, hlo, hct, h => hd.elim
  | .fetchFby _ _ _, n, c, lo, t, k, v, hk, hd, hr, hc, hi, hx, hlo, hct, h => hd.elim
theorem denList_present {K : String → Option Clk} (hs : Sur ms K) : (es : List Expr) →
    ∀ {n c lo t : Nat} {k : Clk} {vs : List Value}, HaveClock true K es k → DeepList n es →
    ReadWithin c es → CallReady c es → (∀ e ∈ es, Sane A glob ms F K t e) → (∀ e ∈ es, PastOk F.X K t e) →
    lo ≤ t → c ≤ t → denList A glob ms F lo es t = .ok vs → ∀ v ∈ vs, PresentAt F.X n k t v
  | [], n, c, lo, t, k, vs, hk, hd, hr, hc, hi, hx, hlo, hct, h => by
    cases h
    simp
  | e :: es, n, c, lo, t, k, vs, hk, hd, hr, hc, hi, hx, hlo, hct, h => by
    cases hk with
    | cons hk hsame hk' =>
    simp only [denList] at h
    obtain ⟨w, h2, h1⟩ := ok_bind.1 h
    obtain ⟨ws, h3, h1⟩ := ok_bind.1 h1
    cases h1
    have hw := den_present hs e hk hd.1 hr.1 hc.1 (hi e (by simp)) (hx e (by simp)) hlo hct h2
    have hws := denList_present hs es hk' hd.2 hr.2 hc.2
      (fun e he => hi e (List.mem_cons_of_mem _ he))
      (fun e he => hx e (List.mem_cons_of_mem _ he)) hlo hct h3
    intro v hv
    rcases List.mem_cons.1 hv with rfl | hv
    · exact hw.same (hsame.elim (fun e => .inl e.symm) fun e => .inr ⟨e.2, e.1⟩)
    · exact hws v hv
end

end

end Chandeliers.Pres
