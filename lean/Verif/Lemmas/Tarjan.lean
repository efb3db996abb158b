import Mathlib.Logic.Relation
import Mathlib.Data.List.Nodup
import Verif.San.Graph

/-! Correctness of the component search of `San/Graph.lean` (Tarjan's algorithm). -/

namespace Chandeliers.San.Explore

/-- `w` is a listed child of `v`. -/
def Edge (graph : List (List Nat)) (v w : Nat) : Prop :=
  ∃ cs, graph[v]? = some cs ∧ w ∈ cs

/-- Each component only has edges into itself and earlier components. -/
inductive Closed (graph : List (List Nat)) : List (List Nat) → Prop
  | nil : Closed graph []
  | snoc (l c) : Closed graph l →
      (∀ v ∈ c, ∀ w, Edge graph v w → w ∈ l.flatten ∨ w ∈ c) → Closed graph (l ++ [c])

structure Inv (graph : List (List Nat)) (st : SccExplorer) : Prop where
  size : st.size = graph.length
  stack : ∀ x, (st.extra x).onStack = true ↔ x ∈ st.stk
  sorted : st.stk.Pairwise (fun a b => ∃ i j,
    (st.extra a).index = some i ∧ (st.extra b).index = some j ∧ j < i)
  fresh : ∀ x i, (st.extra x).index = some i → i < st.index ∧ x < graph.length
  explored : ∀ x, (∃ i, (st.extra x).index = some i) ↔ (x ∈ st.stk ∨ x ∈ st.scc.flatten)
  disj : (st.stk ++ st.scc.flatten).Nodup
  closed : Closed graph st.scc
  nonempty : ∀ c ∈ st.scc, c ≠ []
  conn : ∀ c ∈ st.scc, ∀ a ∈ c, ∀ b ∈ c, Relation.ReflTransGen (Edge graph) a b

structure Frame (st st' : SccExplorer) : Prop where
  index : st.index ≤ st'.index
  old : ∀ x i, (st.extra x).index = some i →
    (st'.extra x).index = some i ∧ (st'.extra x).lowLink = (st.extra x).lowLink
  new : ∀ x i, (st.extra x).index = none → (st'.extra x).index = some i → st.index ≤ i
  scc : ∃ t, st'.scc = st.scc ++ t

/-- `w` is explored, and if it is still on the stack its index is at least `l`. -/
def Bound (st : SccExplorer) (l w : Nat) : Prop :=
  ∃ j, (st.extra w).index = some j ∧ (w ∈ st.stk → l ≤ j)

/-- `u` reaches an older vertex that is on the stack. -/
def Down (graph : List (List Nat)) (st : SccExplorer) (u : Nat) : Prop :=
  ∃ x ∈ st.stk, ∃ i j, (st.extra x).index = some i ∧ (st.extra u).index = some j ∧ i < j ∧
    Relation.TransGen (Edge graph) u x

structure Post (graph : List (List Nat)) (st : SccExplorer) (v : Nat) (st' : SccExplorer) :
    Prop where
  inv : Inv graph st'
  frame : Frame st st'
  idx : (st'.extra v).index = some st.index
  result : (st'.stk = st.stk ∧ (st'.extra v).lowLink = some st.index) ∨
    ∃ s l, st'.stk = s ++ v :: st.stk ∧ (st'.extra v).lowLink = some l ∧
      (∃ x ∈ st.stk, (st'.extra x).index = some l ∧ Relation.TransGen (Edge graph) v x) ∧
      l < st.index ∧ (∀ u, (u ∈ s ∨ u = v) → ∀ w, Edge graph u w → Bound st' l w) ∧
      ∀ u ∈ s, Relation.TransGen (Edge graph) v u ∧ Down graph st' u

/-- Invariant of the loop over the children of `v`, `st0` being the state before `v` was
entered and `done` the children already handled. -/
structure Loop (graph : List (List Nat)) (st0 : SccExplorer) (v : Nat) (done : List Nat)
    (st : SccExplorer) : Prop where
  inv : Inv graph st
  frame : Frame st0 st
  idx : (st.extra v).index = some st0.index
  lt : st0.index < st.index
  result : ∃ s l, st.stk = s ++ v :: st0.stk ∧ (st.extra v).lowLink = some l ∧
      (∃ x ∈ v :: st0.stk, (st.extra x).index = some l ∧
        (x = v ∨ Relation.TransGen (Edge graph) v x)) ∧ l ≤ st0.index ∧
      (∀ u ∈ s, ∀ w, Edge graph u w → Bound st l w) ∧ (∀ w ∈ done, Bound st l w) ∧
      ∀ u ∈ s, Relation.TransGen (Edge graph) v u ∧ Down graph st u

/-- Number of vertices not explored yet. -/
def todo (graph : List (List Nat)) (st : SccExplorer) : Nat :=
  (List.range graph.length).countP (fun x => (st.extra x).index.isNone)

theorem Frame.refl (st : SccExplorer) : Frame st st :=
  ⟨Nat.le_refl _, fun _ _ h => ⟨h, rfl⟩, fun _ _ h h' => by simp [h] at h', [], by simp⟩

theorem Frame.trans {a b c : SccExplorer} (h₁ : Frame a b) (h₂ : Frame b c) : Frame a c := by
  refine ⟨Nat.le_trans h₁.index h₂.index, ?_, ?_, ?_⟩
  · intro x i h
    obtain ⟨h1, h2⟩ := h₁.old x i h
    obtain ⟨h3, h4⟩ := h₂.old x i h1
    exact ⟨h3, h4.trans h2⟩
  · intro x i h h'
    cases hb : (b.extra x).index with
    | none => exact Nat.le_trans h₁.index (h₂.new x i hb h')
    | some j =>
      have := (h₂.old x j hb).1
      rw [this] at h'
      exact h₁.new x i h (hb.trans h')
  · obtain ⟨t, ht⟩ := h₁.scc
    obtain ⟨t', ht'⟩ := h₂.scc
    exact ⟨t ++ t', by rw [ht', ht, List.append_assoc]⟩

theorem countP_le_of_imp {p q : Nat → Bool} {l : List Nat} (h : ∀ x ∈ l, p x = true → q x = true) :
    l.countP p ≤ l.countP q := by
  induction l with
  | nil => simp
  | cons a l ih =>
    have := ih (fun x hx => h x (List.mem_cons_of_mem _ hx))
    have ha := h a List.mem_cons_self
    simp only [List.countP_cons]
    by_cases hp : p a = true
    · simp [hp, ha hp]; omega
    · simp [hp]; omega

theorem countP_lt_of_imp {p q : Nat → Bool} {l : List Nat} (h : ∀ x ∈ l, p x = true → q x = true)
    {v : Nat} (hv : v ∈ l) (hq : q v = true) (hp : p v = false) : l.countP p < l.countP q := by
  induction l with
  | nil => simp at hv
  | cons a l ih =>
    have hle := countP_le_of_imp (fun x hx => h x (List.mem_cons_of_mem _ hx))
    simp only [List.countP_cons]
    have ha := h a List.mem_cons_self
    rcases List.mem_cons.1 hv with rfl | hv
    · simp [hp, hq]; omega
    · have := ih (fun x hx => h x (List.mem_cons_of_mem _ hx)) hv
      by_cases hpa : p a = true
      · simp [hpa, ha hpa]; omega
      · simp [hpa]; omega

theorem todo_lt {graph} {st st' : SccExplorer} {v i : Nat} (hf : Frame st st') (hv : v < graph.length)
    (h0 : (st.extra v).index = none) (h1 : (st'.extra v).index = some i) :
    todo graph st' < todo graph st := by
  refine countP_lt_of_imp ?_ (List.mem_range.2 hv) ?_ ?_
  · intro x _ hx
    cases h : (st.extra x).index with
    | none => rfl
    | some j => rw [(hf.old x j h).1] at hx; simp at hx
  · simp [h0]
  · simp [h1]

theorem popUntil_eq {v : Nat} {s r : List Nat} (h : v ∉ s) :
    popUntil v (s ++ v :: r) = (s ++ [v], r) := by
  induction s with
  | nil => simp [popUntil]
  | cons a s ih =>
    have ha : a ≠ v := fun e => h (by simp [e])
    have := ih (fun e => h (by simp [e]))
    simp [popUntil, ha, this]

section
variable {graph : List (List Nat)}

theorem Closed.closed {scc : List (List Nat)} (h : Closed graph scc) :
    ∀ u ∈ scc.flatten, ∀ w, Edge graph u w → w ∈ scc.flatten := by
  induction h with
  | nil => simp
  | snoc l c _ hc ih =>
    intro u hu w he
    simp only [List.flatten_append, List.flatten_cons, List.flatten_nil, List.append_nil,
      List.mem_append] at hu ⊢
    rcases hu with hu | hu
    · exact Or.inl (ih u hu w he)
    · exact hc u hu w he

theorem Inv.enter {st : SccExplorer} (hi : Inv graph st) {v : Nat} (hv : v < graph.length)
    (h0 : (st.extra v).index = none) : Inv graph (st.enter v) := by
  have hnot : ¬ (v ∈ st.stk ∨ v ∈ st.scc.flatten) := by
    intro h
    obtain ⟨i, hi'⟩ := (hi.explored v).2 h
    simp [h0] at hi'
  have hns : v ∉ st.stk := fun h => hnot (Or.inl h)
  refine ⟨hi.size, ?_, ?_, ?_, ?_, ?_, hi.closed, hi.nonempty, hi.conn⟩
  · intro x
    simp only [SccExplorer.enter, setAt, List.mem_cons]
    by_cases hx : x = v
    · simp [hx]
    · simp [hx, hi.stack x]
  · simp only [SccExplorer.enter, List.pairwise_cons]
    constructor
    · intro b hb
      have hbv : b ≠ v := fun e => hns (e ▸ hb)
      obtain ⟨j, hj⟩ := (hi.explored b).2 (Or.inl hb)
      exact ⟨st.index, j, by simp [setAt], by simp [setAt, hbv, hj], (hi.fresh b j hj).1⟩
    · refine List.Pairwise.imp_of_mem ?_ hi.sorted
      intro a b ha hb hab
      have hav : a ≠ v := fun e => hns (e ▸ ha)
      have hbv : b ≠ v := fun e => hns (e ▸ hb)
      simpa [setAt, hav, hbv] using hab
  · intro x i h
    simp only [SccExplorer.enter, setAt] at h ⊢
    by_cases hx : x = v
    · simp only [hx, if_true, Option.some.injEq] at h ⊢
      omega
    · simp only [hx, if_false] at h
      have := hi.fresh x i h
      omega
  · intro x
    simp only [SccExplorer.enter, setAt, List.mem_cons]
    by_cases hx : x = v
    · simp [hx]
    · simp [hx, hi.explored x]
  · simp only [SccExplorer.enter, List.cons_append, List.nodup_cons, List.mem_append]
    exact ⟨hnot, hi.disj⟩

theorem Frame.enter {st : SccExplorer} {v : Nat} (h0 : (st.extra v).index = none) :
    Frame st (st.enter v) := by
  refine ⟨by simp [SccExplorer.enter], ?_, ?_, [], by simp [SccExplorer.enter]⟩
  · intro x i h
    have hx : x ≠ v := fun e => by simp [← e, h] at h0
    simp [SccExplorer.enter, setAt, hx, h]
  · intro x i h h'
    by_cases hx : x = v
    · simp [SccExplorer.enter, setAt, hx] at h'
      omega
    · simp [SccExplorer.enter, setAt, hx, h] at h'

theorem Loop.start {st : SccExplorer} (hi : Inv graph st) {v : Nat} (hv : v < graph.length)
    (h0 : (st.extra v).index = none) : Loop graph st v [] (st.enter v) := by
  refine ⟨hi.enter hv h0, Frame.enter h0, by simp [SccExplorer.enter, setAt],
    by simp [SccExplorer.enter], [], st.index, by simp [SccExplorer.enter],
    by simp [SccExplorer.enter, setAt], ⟨v, by simp, by simp [SccExplorer.enter, setAt], Or.inl rfl⟩,
    Nat.le_refl _, by simp, by simp, by simp⟩

@[simp] theorem lower_stk (st : SccExplorer) (v x) : (st.lower v x).stk = st.stk := rfl
@[simp] theorem lower_scc (st : SccExplorer) (v x) : (st.lower v x).scc = st.scc := rfl
@[simp] theorem lower_index (st : SccExplorer) (v x) : (st.lower v x).index = st.index := rfl
@[simp] theorem lower_size (st : SccExplorer) (v x) : (st.lower v x).size = st.size := rfl
@[simp] theorem lower_idx (st : SccExplorer) (v x y) :
    ((st.lower v x).extra y).index = (st.extra y).index := by
  simp only [SccExplorer.lower, setAt]; split <;> simp [*]
@[simp] theorem lower_onStack (st : SccExplorer) (v x y) :
    ((st.lower v x).extra y).onStack = (st.extra y).onStack := by
  simp only [SccExplorer.lower, setAt]; split <;> simp [*]
theorem lower_low_ne (st : SccExplorer) {v x y} (h : y ≠ v) :
    ((st.lower v x).extra y).lowLink = (st.extra y).lowLink := by
  simp [SccExplorer.lower, setAt, h]
theorem lower_low_eq (st : SccExplorer) (v x) :
    ((st.lower v x).extra v).lowLink = optMin (st.extra v).lowLink x := by
  simp [SccExplorer.lower, setAt]

theorem Inv.lower {st : SccExplorer} (hi : Inv graph st) (v x) : Inv graph (st.lower v x) :=
  ⟨hi.size, by simpa using hi.stack, by simpa using hi.sorted, by simpa using hi.fresh,
    by simpa using hi.explored, hi.disj, hi.closed, hi.nonempty, hi.conn⟩

theorem Frame.lower {st0 st : SccExplorer} (hf : Frame st0 st) {v} (x)
    (h0 : (st0.extra v).index = none) : Frame st0 (st.lower v x) := by
  refine ⟨hf.index, ?_, ?_, hf.scc⟩
  · intro y i h
    have hy : y ≠ v := fun e => by simp [← e, h] at h0
    obtain ⟨h1, h2⟩ := hf.old y i h
    exact ⟨by simpa using h1, by rw [lower_low_ne _ hy, h2]⟩
  · intro y i h h'
    exact hf.new y i h (by simpa using h')

theorem Bound.mono {st st' : SccExplorer} {l l' w : Nat} (h : Bound st l w) (hl : l' ≤ l)
    (hidx : ∀ j, (st.extra w).index = some j → (st'.extra w).index = some j)
    (hstk : ∀ j, (st.extra w).index = some j → w ∈ st'.stk → w ∈ st.stk) : Bound st' l' w := by
  obtain ⟨j, hj, hb⟩ := h
  exact ⟨j, hidx j hj, fun hw => Nat.le_trans hl (hb (hstk j hj hw))⟩

theorem Down.lower {st : SccExplorer} {u : Nat} (h : Down graph st u) (v x) :
    Down graph (st.lower v x) u := by
  obtain ⟨y, hy, i, j, h1, h2, h3, h4⟩ := h
  exact ⟨y, by simpa using hy, i, j, by simpa using h1, by simpa using h2, h3, h4⟩

theorem Down.mono {st st' : SccExplorer} {u : Nat} (h : Down graph st u) (hf : Frame st st')
    (hs : ∀ x ∈ st.stk, x ∈ st'.stk) : Down graph st' u := by
  obtain ⟨y, hy, i, j, h1, h2, h3, h4⟩ := h
  exact ⟨y, hs y hy, i, j, (hf.old y i h1).1, (hf.old u j h2).1, h3, h4⟩

/-- Elements above `v` on the stack have a larger index. -/
theorem Inv.above {st : SccExplorer} (hi : Inv graph st) {s r : List Nat} {v x i j : Nat}
    (hs : st.stk = s ++ v :: r) (hx : x ∈ s) (hxi : (st.extra x).index = some i)
    (hvj : (st.extra v).index = some j) : j < i := by
  have := hi.sorted
  rw [hs, List.pairwise_append] at this
  obtain ⟨i', j', h1, h2, h3⟩ := this.2.2 x hx v (by simp)
  rw [hxi] at h1; rw [hvj] at h2
  cases h1; cases h2; exact h3

theorem Inv.below {st : SccExplorer} (hi : Inv graph st) {s r : List Nat} {v x i j : Nat}
    (hs : st.stk = s ++ v :: r) (hx : x ∈ r) (hxi : (st.extra x).index = some i)
    (hvj : (st.extra v).index = some j) : i < j := by
  have := hi.sorted
  rw [hs, List.pairwise_append, List.pairwise_cons] at this
  obtain ⟨i', j', h1, h2, h3⟩ := this.2.1.1 x hx
  rw [hxi] at h2; rw [hvj] at h1
  cases h1; cases h2; exact h3

theorem Loop.stepExplored {st0 st : SccExplorer} {v w : Nat} {done : List Nat}
    (h : Loop graph st0 v done st) {j : Nat} (hw : (st.extra w).index = some j)
    (hoff : (st.extra w).onStack = false) :
    Loop graph st0 v (done ++ [w]) st := by
  obtain ⟨s, l, h1, h2, h3, h4, h5, h6, h7⟩ := h.result
  refine ⟨h.inv, h.frame, h.idx, h.lt, s, l, h1, h2, h3, h4, h5, ?_, h7⟩
  intro w' hw'
  rcases List.mem_append.1 hw' with hw' | hw'
  · exact h6 w' hw'
  · simp only [List.mem_singleton] at hw'
    subst hw'
    refine ⟨j, hw, fun hm => ?_⟩
    rw [(h.inv.stack w').2 hm] at hoff
    cases hoff

theorem Loop.stepOnStack {st0 st : SccExplorer} {v w : Nat} {done : List Nat}
    (h : Loop graph st0 v done st) (hvw : Edge graph v w) (h0 : (st0.extra v).index = none)
    {j : Nat} (hw : (st.extra w).index = some j)
    (hon : (st.extra w).onStack = true) :
    Loop graph st0 v (done ++ [w]) (st.lower v (st.extra w).index) := by
  obtain ⟨s, l, h1, h2, ⟨x, hx, hxl, hxr⟩, h4, h5, h6, h7⟩ := h.result
  have hwm : w ∈ st.stk := (h.inv.stack w).1 hon
  refine ⟨h.inv.lower _ _, h.frame.lower _ h0, by simpa using h.idx, h.lt, s, min l j, h1, ?_, ?_,
    by omega, ?_, ?_, fun u hu => ⟨(h7 u hu).1, (h7 u hu).2.lower _ _⟩⟩
  · rw [lower_low_eq, h2, hw]; rfl
  · by_cases hlj : l ≤ j
    · exact ⟨x, hx, by simpa [Nat.min_eq_left hlj] using hxl, hxr⟩
    · have hjl : j < l := by omega
      rw [Nat.min_eq_right (by omega)]
      refine ⟨w, ?_, by simpa using hw, Or.inr (.single hvw)⟩
      rw [h1] at hwm
      rcases List.mem_append.1 hwm with hws | hws
      · have := h.inv.above h1 hws hw h.idx
        omega
      · exact hws
  · intro u hu w' he
    exact (h5 u hu w' he).mono (Nat.min_le_left _ _) (by simp) (by simp)
  · intro w' hw'
    rcases List.mem_append.1 hw' with hw' | hw'
    · exact (h6 w' hw').mono (Nat.min_le_left _ _) (by simp) (by simp)
    · simp only [List.mem_singleton] at hw'
      subst hw'
      exact ⟨j, by simpa using hw, fun _ => Nat.min_le_right _ _⟩

theorem Loop.stepNew {st0 st st1 : SccExplorer} {v w : Nat} {done : List Nat}
    (h : Loop graph st0 v done st) (h0 : (st0.extra v).index = none)
    (hp : Post graph st w st1) (hw : (st.extra w).index = none) (hedge : Edge graph v w) :
    Loop graph st0 v (done ++ [w]) (st1.lower v (st1.extra w).lowLink) := by
  obtain ⟨s, l, h1, h2, ⟨x, hx, hxl, hxr⟩, h4, h5, h6, h7⟩ := h.result
  have hvw : v ≠ w := fun e => by have := h.idx; rw [e, hw] at this; cases this
  have hlow : (st1.extra v).lowLink = some l := by rw [(hp.frame.old v _ h.idx).2, h2]
  have hidx : (st1.extra v).index = some st0.index := (hp.frame.old v _ h.idx).1
  have hmono : ∀ w' j, (st.extra w').index = some j → (st1.extra w').index = some j :=
    fun w' j hj => (hp.frame.old w' j hj).1
  have hf : Frame st0 (st1.lower v (st1.extra w).lowLink) :=
    (h.frame.trans hp.frame).lower _ h0
  have hlt : st0.index < st1.index := Nat.lt_of_lt_of_le h.lt hp.frame.index
  have hlt0 := h.lt
  rcases hp.result with ⟨hs, hlw⟩ | ⟨s', l', hs, hlw, ⟨y, hy, hyl, hyr⟩, hl', hb, hd⟩
  · refine ⟨hp.inv.lower _ _, hf, by simpa using hidx, hlt, s, l, by simpa [hs] using h1, ?_,
      ⟨x, hx, by simpa using hmono x l hxl, hxr⟩, h4, ?_, ?_,
      fun u hu => ⟨(h7 u hu).1, ((h7 u hu).2.mono hp.frame (by simp [hs])).lower _ _⟩⟩
    · rw [lower_low_eq, hlow, hlw]
      simp only [optMin, Option.some.injEq]
      omega
    · intro u hu w' he
      exact (h5 u hu w' he).mono (Nat.le_refl _) (by simpa using hmono w') (by simp [hs])
    · intro w' hw'
      rcases List.mem_append.1 hw' with hw' | hw'
      · exact (h6 w' hw').mono (Nat.le_refl _) (by simpa using hmono w') (by simp [hs])
      · simp only [List.mem_singleton] at hw'
        subst hw'
        refine ⟨st.index, by simpa using hp.idx, fun _ => by omega⟩
  · have hback : ∀ w' j, (st.extra w').index = some j → w' ∈ st1.stk → w' ∈ st.stk := by
      intro w' j hj hm
      rw [hs] at hm
      rcases List.mem_append.1 hm with hm | hm
      · have h7 := hp.inv.above hs hm (hmono w' j hj) hp.idx
        have h8 := (h.inv.fresh w' j hj).1
        omega
      · rcases List.mem_cons.1 hm with rfl | hm
        · simp [hw] at hj
        · exact hm
    refine ⟨hp.inv.lower _ _, hf, by simpa using hidx, hlt, s' ++ w :: s, min l l',
      by simp [hs, h1], ?_, ?_, by omega, ?_, ?_, ?_⟩
    · rw [lower_low_eq, hlow, hlw]; rfl
    · by_cases hll : l ≤ l'
      · exact ⟨x, hx, by simpa [Nat.min_eq_left hll] using hmono x l hxl, hxr⟩
      · rw [Nat.min_eq_right (by omega)]
        refine ⟨y, ?_, by simpa using hyl, Or.inr (.head hedge hyr)⟩
        have hy' := hy
        rw [h1] at hy'
        rcases List.mem_append.1 hy' with hys | hys
        · obtain ⟨k, hk⟩ := (h.inv.explored y).2 (Or.inl hy)
          have hk' := hmono y k hk
          rw [hyl] at hk'
          cases hk'
          have := h.inv.above h1 hys hk h.idx
          omega
        · exact hys
    · intro u hu w' he
      rcases List.mem_append.1 hu with hu | hu
      · exact (hb u (Or.inl hu) w' he).mono (Nat.min_le_right _ _) (by simp) (by simp)
      · rcases List.mem_cons.1 hu with rfl | hu
        · exact (hb u (Or.inr rfl) w' he).mono (Nat.min_le_right _ _) (by simp) (by simp)
        · refine (h5 u hu w' he).mono (Nat.min_le_left _ _) (by simpa using hmono w') ?_
          intro j hj hm
          exact hback w' j hj (by simpa using hm)
    · intro w' hw'
      rcases List.mem_append.1 hw' with hw' | hw'
      · refine (h6 w' hw').mono (Nat.min_le_left _ _) (by simpa using hmono w') ?_
        intro j hj hm
        exact hback w' j hj (by simpa using hm)
      · simp only [List.mem_singleton] at hw'
        subst hw'
        exact ⟨st.index, by simpa using hp.idx, fun _ => by omega⟩
    · intro u hu
      rcases List.mem_append.1 hu with hu | hu
      · exact ⟨.head hedge (hd u hu).1, (hd u hu).2.lower _ _⟩
      · rcases List.mem_cons.1 hu with rfl | hu
        · refine ⟨.single hedge, y, ?_, l', st.index, by simpa using hyl, by simpa using hp.idx,
            hl', hyr⟩
          simp [hs, hy]
        · exact ⟨(h7 u hu).1, ((h7 u hu).2.mono hp.frame
            (fun z hz => by simp [hs, hz])).lower _ _⟩

theorem visit_ok {U : Type} {rec : Nat → SccExplorer → Except (GErr U) SccExplorer} {bound : Nat}
    (hrec : ∀ st v, Inv graph st → v < graph.length → (st.extra v).index = none →
      todo graph st < bound → ∃ st', rec v st = .ok st' ∧ Post graph st v st')
    {st0 : SccExplorer} {v : Nat} (h0 : (st0.extra v).index = none) (hv : v < graph.length)
    (hb : todo graph st0 ≤ bound) :
    ∀ (ws done : List Nat) (st : SccExplorer), (∀ w ∈ ws, w < graph.length ∧ Edge graph v w) →
      Loop graph st0 v done st →
      ∃ st', visit rec v ws st = .ok st' ∧ Loop graph st0 v (done ++ ws) st' := by
  intro ws
  induction ws with
  | nil => intro done st _ h; exact ⟨st, rfl, by simpa using h⟩
  | cons w ws ih =>
    intro done st hws h
    obtain ⟨hwl, hedge⟩ : w < graph.length ∧ Edge graph v w := hws w (by simp)
    have hws' : ∀ w ∈ ws, w < graph.length ∧ Edge graph v w := fun w hw => hws w (by simp [hw])
    have hsz : w < st.size := by rw [h.inv.size]; exact hwl
    cases hw : (st.extra w).index with
    | none =>
      have htodo : todo graph st < bound :=
        Nat.lt_of_lt_of_le (todo_lt h.frame hv h0 h.idx) hb
      obtain ⟨st1, hr, hp⟩ := hrec st w h.inv hwl hw htodo
      obtain ⟨st', he, hl⟩ := ih (done ++ [w]) _ hws' (h.stepNew h0 hp hw hedge)
      refine ⟨st', ?_, by simpa using hl⟩
      simp [visit, hsz, hw, hr, bind, Except.bind, he]
    | some j =>
      cases hon : (st.extra w).onStack with
      | false =>
        obtain ⟨st', he, hl⟩ := ih (done ++ [w]) _ hws' (h.stepExplored hw hon)
        exact ⟨st', by simp [visit, hsz, hw, hon, he], by simpa using hl⟩
      | true =>
        obtain ⟨st', he, hl⟩ := ih (done ++ [w]) _ hws' (h.stepOnStack hedge h0 hw hon)
        refine ⟨st', ?_, by simpa using hl⟩
        rw [hw] at he
        simp [visit, hsz, hw, hon, he]

theorem Loop.finish {st0 st : SccExplorer} {v : Nat} {done : List Nat}
    (hdone : ∀ w, Edge graph v w → w ∈ done) (h0 : (st0.extra v).index = none)
    (h : Loop graph st0 v done st) :
    Post graph st0 v (if (st.extra v).lowLink = (st.extra v).index then st.close v else st) := by
  obtain ⟨s, l, h1, h2, ⟨x, hx, hxl, hxr⟩, h4, h5, h6, h7⟩ := h.result
  have hnd : (s ++ v :: st0.stk).Nodup := by
    have := h.inv.disj
    rw [h1] at this
    exact (List.nodup_append.1 this).1
  have hvs : v ∉ s := by
    intro hv
    exact (List.nodup_append.1 hnd).2.2 v hv v (by simp) rfl
  by_cases hc : (st.extra v).lowLink = (st.extra v).index
  · rw [if_pos hc]
    rw [h2, h.idx] at hc
    have hc : l = st0.index := by simpa using hc
    have hpop : popUntil v st.stk = (s ++ [v], st0.stk) := by rw [h1]; exact popUntil_eq hvs
    have hst : st.close v =
        { st with
          extra := fun w => if w ∈ s ++ [v] then { st.extra w with onStack := false } else st.extra w
          stk := st0.stk
          scc := st.scc ++ [s ++ [v]] } := by
      simp [SccExplorer.close, hpop]
    have hidx : ∀ y, ((st.close v).extra y).index = (st.extra y).index := by
      intro y; rw [hst]; dsimp only; split <;> rfl
    have hlow : ∀ y, ((st.close v).extra y).lowLink = (st.extra y).lowLink := by
      intro y; rw [hst]; dsimp only; split <;> rfl
    have hdis : ∀ y ∈ s ++ [v], y ∉ st0.stk := by
      have : ((s ++ [v]) ++ st0.stk).Nodup := by simpa using hnd
      intro y hy hy'
      exact (List.nodup_append.1 this).2.2 y hy y hy' rfl
    have hstk : st.stk = (s ++ [v]) ++ st0.stk := by simpa using h1
    have hclosed : ∀ u ∈ s ++ [v], ∀ w, Edge graph u w → w ∈ st.scc.flatten ∨ w ∈ s ++ [v] := by
      intro u hu w he
      have hB : Bound st l w := by
        rcases List.mem_append.1 hu with hu | hu
        · exact h5 u hu w he
        · simp only [List.mem_singleton] at hu
          subst hu
          exact h6 w (hdone w he)
      obtain ⟨j, hj, hle⟩ := hB
      rcases (h.inv.explored w).1 ⟨j, hj⟩ with hw | hw
      · have hle := hle hw
        rw [hstk] at hw
        rcases List.mem_append.1 hw with hw | hw
        · exact Or.inr hw
        · have := h.inv.below h1 hw hj h.idx
          omega
      · exact Or.inl hw
    have hclosed' : ∀ u x, u ∈ st.scc.flatten ∨ u ∈ s ++ [v] →
        Relation.TransGen (Edge graph) u x → x ∈ st.scc.flatten ∨ x ∈ s ++ [v] := by
      intro u x hu ht
      induction ht with
      | single he =>
        rcases hu with hu | hu
        · exact Or.inl (h.inv.closed.closed u hu _ he)
        · exact hclosed u hu _ he
      | tail _ he ih =>
        rcases ih with hu | hu
        · exact Or.inl (h.inv.closed.closed _ hu _ he)
        · exact hclosed _ hu _ he
    have hup : ∀ n u j, j < n → u ∈ s ++ [v] → (st.extra u).index = some j →
        Relation.ReflTransGen (Edge graph) u v := by
      intro n
      induction n with
      | zero => intro u j hj; omega
      | succ n ih =>
        intro u j hj hu huj
        rcases List.mem_append.1 hu with hu' | hu'
        · obtain ⟨y, hy, i, j', g1, g2, g3, g4⟩ := (h7 u hu').2
          rw [huj] at g2
          cases g2
          have hys : y ∈ s ++ [v] := by
            rcases hclosed' u y (Or.inr hu) g4 with hy' | hy'
            · exact absurd rfl ((List.nodup_append.1 h.inv.disj).2.2 y hy y hy')
            · exact hy'
          exact g4.to_reflTransGen.trans (ih y i (by omega) hys g1)
        · simp only [List.mem_singleton] at hu'
          rw [hu']
    have hdown : ∀ u ∈ s ++ [v], Relation.ReflTransGen (Edge graph) v u := by
      intro u hu
      rcases List.mem_append.1 hu with hu | hu
      · exact (h7 u hu).1.to_reflTransGen
      · simp only [List.mem_singleton] at hu
        rw [hu]
    refine ⟨⟨?_, ?_, ?_, ?_, ?_, ?_, ?_, ?_, ?_⟩, ⟨?_, ?_, ?_, ?_⟩, ?_, ?_⟩
    · rw [hst]; exact h.inv.size
    · intro y
      rw [hst]
      dsimp only
      have := h.inv.stack y
      rw [hstk, List.mem_append] at this
      by_cases hy : y ∈ s ++ [v]
      · simp [hy, hdis y hy]
      · simp [hy, this]
    · simp only [hidx]
      have := h.inv.sorted
      rw [hstk, List.pairwise_append] at this
      rw [hst]
      exact this.2.1
    · intro y i hy
      rw [hidx] at hy
      rw [hst]
      exact h.inv.fresh y i hy
    · intro y
      simp only [hidx]
      rw [h.inv.explored y, hst, hstk]
      simp only [List.mem_append, List.flatten_append, List.flatten_cons, List.flatten_nil,
        List.append_nil]
      constructor
      · rintro ((h | h) | h)
        · exact Or.inr (Or.inr h)
        · exact Or.inl h
        · exact Or.inr (Or.inl h)
      · rintro (h | h | h)
        · exact Or.inl (Or.inr h)
        · exact Or.inr h
        · exact Or.inl (Or.inl h)
    · have := h.inv.disj
      rw [hstk] at this
      rw [hst]
      simp only [List.flatten_append, List.flatten_cons, List.flatten_nil, List.append_nil]
      refine (List.Perm.nodup_iff ?_).1 this
      refine (List.Perm.trans ?_ (List.Perm.append_left _ List.perm_append_comm))
      rw [← List.append_assoc]
      exact List.Perm.append_right _ List.perm_append_comm
    · rw [hst]
      exact Closed.snoc _ _ h.inv.closed hclosed
    · rw [hst]
      intro c hc'
      rcases List.mem_append.1 hc' with hc' | hc'
      · exact h.inv.nonempty c hc'
      · simp only [List.mem_singleton] at hc'
        subst hc'
        simp
    · rw [hst]
      intro c hc' a ha b hb
      rcases List.mem_append.1 hc' with hc' | hc'
      · exact h.inv.conn c hc' a ha b hb
      · simp only [List.mem_singleton] at hc'
        subst hc'
        have hm : a ∈ st.stk := by rw [hstk]; exact List.mem_append_left _ ha
        obtain ⟨j, hj⟩ := (h.inv.explored a).2 (Or.inl hm)
        exact (hup (j + 1) a j (by omega) ha hj).trans (hdown b hb)
    · rw [hst]; exact h.frame.index
    · intro y i hy
      rw [hidx, hlow]
      exact h.frame.old y i hy
    · intro y i hy hy'
      rw [hidx] at hy'
      exact h.frame.new y i hy hy'
    · obtain ⟨t, ht⟩ := h.frame.scc
      exact ⟨t ++ [s ++ [v]], by rw [hst]; simp [ht]⟩
    · rw [hidx]; exact h.idx
    · left
      refine ⟨by rw [hst], ?_⟩
      rw [hlow, h2, hc]
  · rw [if_neg hc]
    rw [h2, h.idx] at hc
    have hc : l < st0.index := by
      have : l ≠ st0.index := by simpa using hc
      omega
    refine ⟨h.inv, h.frame, h.idx, Or.inr ⟨s, l, h1, h2, ⟨x, ?_, hxl, ?_⟩, hc, ?_, h7⟩⟩
    · rcases List.mem_cons.1 hx with rfl | hx
      · rw [h.idx] at hxl
        cases hxl
        omega
      · exact hx
    · rcases hxr with rfl | hxr
      · rw [h.idx] at hxl
        cases hxl
        omega
      · exact hxr
    · rintro u (hu | rfl) w he
      · exact h5 u hu w he
      · exact h6 w (hdone w he)

/-- The search terminates without failure from any consistent state. -/
theorem run_ok {U : Type} (hg : ∀ v w, Edge graph v w → w < graph.length) :
    ∀ (fuel : Nat) (st : SccExplorer) (v : Nat), Inv graph st → v < graph.length →
      (st.extra v).index = none → todo graph st < fuel →
      ∃ st', run (U := U) graph fuel v st = .ok st' ∧ Post graph st v st' := by
  intro fuel
  induction fuel with
  | zero => intro st v _ _ _ h; omega
  | succ fuel ih =>
    intro st v hi hv h0 hb
    obtain ⟨cs, hcs⟩ : ∃ cs, graph[v]? = some cs := ⟨graph[v], List.getElem?_eq_getElem hv⟩
    obtain ⟨st', he, hl⟩ := visit_ok (U := U) (bound := fuel) ih h0 hv (by omega) cs [] _
      (fun w hw => ⟨hg v w ⟨cs, hcs, hw⟩, cs, hcs, hw⟩) (Loop.start hi hv h0)
    have := hl.finish (by rintro w ⟨cs', h1, h2⟩; rw [hcs] at h1; cases h1; simpa using h2) h0
    refine ⟨_, ?_, this⟩
    simp only [run, hcs, hi.size, hv, if_true, he, bind, Except.bind]
    split <;> rfl

/-- On an acyclic graph, exploring a vertex that everything on the stack reaches leaves the
stack as it was and only closes singletons. -/
theorem run_acyclic {U : Type} (hg : ∀ v w, Edge graph v w → w < graph.length)
    (hac : ∀ v, ¬ Relation.TransGen (Edge graph) v v) :
    ∀ (fuel : Nat) (st st' : SccExplorer) (v : Nat), Inv graph st → v < graph.length →
      (st.extra v).index = none → todo graph st < fuel →
      (∀ c ∈ st.scc, ∃ u, c = [u]) →
      (∀ x ∈ st.stk, Relation.ReflTransGen (Edge graph) x v) →
      run (U := U) graph fuel v st = .ok st' → st'.stk = st.stk ∧ ∀ c ∈ st'.scc, ∃ u, c = [u] := by
  intro fuel
  induction fuel with
  | zero => intro st st' v _ _ _ h; omega
  | succ fuel ih =>
    intro st st' v hi hv h0 hb hsing hreach hrun
    obtain ⟨cs, hcs⟩ : ∃ cs, graph[v]? = some cs := ⟨graph[v], List.getElem?_eq_getElem hv⟩
    -- the loop keeps the stack and `low_link`
    have key : ∀ (ws done : List Nat) (a b : SccExplorer), (∀ w ∈ ws, Edge graph v w) →
        Loop graph st v done a → a.stk = v :: st.stk → (a.extra v).lowLink = some st.index →
        (∀ c ∈ a.scc, ∃ u, c = [u]) →
        visit (run (U := U) graph fuel) v ws a = .ok b →
        b.stk = v :: st.stk ∧ (b.extra v).lowLink = some st.index ∧
          (b.extra v).index = some st.index ∧ ∀ c ∈ b.scc, ∃ u, c = [u] := by
      intro ws
      induction ws with
      | nil =>
        intro done a b _ hl hs hlow hsg he
        simp only [visit, Except.ok.injEq] at he
        subst he
        exact ⟨hs, hlow, hl.idx, hsg⟩
      | cons w ws ihw =>
        intro done a b hws hl hs hlow hsg he
        have hvw : Edge graph v w := hws w (by simp)
        have hws' : ∀ w ∈ ws, Edge graph v w := fun w hw => hws w (by simp [hw])
        have hwl := hg v w hvw
        have hsz : w < a.size := by rw [hl.inv.size]; exact hwl
        cases hw : (a.extra w).index with
        | none =>
          have htodo : todo graph a < fuel := by
            have := todo_lt hl.frame hv h0 hl.idx
            omega
          obtain ⟨a1, hr, hp⟩ := run_ok (U := U) hg fuel a w hl.inv hwl hw htodo
          simp only [visit, hsz, if_true, hw, Option.isNone_none, hr, bind, Except.bind] at he
          have hreach' : ∀ x ∈ a.stk, Relation.ReflTransGen (Edge graph) x w := by
            intro x hx
            rw [hs] at hx
            rcases List.mem_cons.1 hx with rfl | hx
            · exact Relation.ReflTransGen.single hvw
            · exact (hreach x hx).tail hvw
          obtain ⟨h1, h2⟩ := ih a a1 w hl.inv hwl hw htodo hsg hreach' hr
          have hloww : (a1.extra w).lowLink = some a.index := by
            rcases hp.result with ⟨_, h⟩ | ⟨s', l', h, _⟩
            · exact h
            · rw [h1] at h
              have := congrArg List.length h
              simp at this
              omega
          refine ihw (done ++ [w]) _ b hws' (hl.stepNew h0 hp hw hvw) (by simp [h1, hs]) ?_
            (by simpa using h2) he
          rw [lower_low_eq, (hp.frame.old v _ hl.idx).2, hlow, hloww]
          have := hl.lt
          simp only [optMin, Option.some.injEq]
          omega
        | some j =>
          cases hon : (a.extra w).onStack with
          | false =>
            simp only [visit, hsz, if_true, hw, Option.isNone_some, hon] at he
            exact ihw (done ++ [w]) _ b hws' (hl.stepExplored hw hon) hs hlow hsg (by simpa using he)
          | true =>
            exfalso
            have hm := (hl.inv.stack w).1 hon
            rw [hs] at hm
            rcases List.mem_cons.1 hm with rfl | hm
            · exact hac w (Relation.TransGen.single hvw)
            · exact hac v (Relation.TransGen.head' hvw (hreach w hm))
    simp only [run, hcs, hi.size, hv, if_true, bind, Except.bind] at hrun
    cases hvis : visit (run (U := U) graph fuel) v cs (st.enter v) with
    | error e => simp [hvis] at hrun
    | ok b =>
      simp only [hvis] at hrun
      obtain ⟨h1, h2, h3, h4⟩ := key cs [] _ b (fun w hw => ⟨cs, hcs, hw⟩) (Loop.start hi hv h0)
        rfl (by simp [SccExplorer.enter, setAt]) hsing hvis
      rw [h2, h3, if_pos rfl] at hrun
      cases hrun
      have hpop : popUntil v (v :: st.stk) = ([v], st.stk) := by simp [popUntil]
      simp only [SccExplorer.close, h1, hpop]
      refine ⟨trivial, ?_⟩
      intro c hc
      rcases List.mem_append.1 hc with hc | hc
      · exact h4 c hc
      · exact ⟨v, by simpa using hc⟩

theorem Inv.init : Inv graph (forGraphOfSize graph.length) := by
  refine ⟨rfl, ?_, ?_, ?_, ?_, ?_, Closed.nil, ?_, ?_⟩ <;> simp [forGraphOfSize, Extra.default]

theorem exploreFrom_ok {U : Type} (hg : ∀ v w, Edge graph v w → w < graph.length) :
    ∀ (vs : List Nat) (st : SccExplorer), (∀ v ∈ vs, v < graph.length) → Inv graph st →
      st.stk = [] →
      ∃ st', exploreFrom (U := U) graph graph.length vs st = .ok st' ∧ Inv graph st' ∧
        st'.stk = [] ∧ (∀ x i, (st.extra x).index = some i → (st'.extra x).index = some i) ∧
        (∀ x ∈ vs, ∃ i, (st'.extra x).index = some i) ∧
        ((∀ v, ¬ Relation.TransGen (Edge graph) v v) → (∀ c ∈ st.scc, ∃ u, c = [u]) →
          ∀ c ∈ st'.scc, ∃ u, c = [u]) := by
  intro vs
  induction vs with
  | nil =>
    intro st _ hi hs
    exact ⟨st, rfl, hi, hs, fun _ _ h => h, by simp, fun _ h => h⟩
  | cons v vs ih =>
    intro st hvs hi hs
    have hvs' : ∀ v ∈ vs, v < graph.length := fun w hw => hvs w (by simp [hw])
    cases hv : (st.extra v).index with
    | some i =>
      obtain ⟨st', h1, h2, h3, h4, h5, h6⟩ := ih st hvs' hi hs
      refine ⟨st', by simp [exploreFrom, hv, h1], h2, h3, h4, ?_, h6⟩
      intro x hx
      rcases List.mem_cons.1 hx with rfl | hx
      · exact ⟨i, h4 x i hv⟩
      · exact h5 x hx
    | none =>
      have hb : todo graph st < graph.length + 1 := by
        have := List.countP_le_length (p := fun x => (st.extra x).index.isNone)
          (l := List.range graph.length)
        rw [List.length_range] at this
        exact Nat.lt_succ_of_le this
      have hvl := hvs v (by simp)
      obtain ⟨a, hr, hp⟩ := run_ok (U := U) hg (graph.length + 1) st v hi hvl hv hb
      have has : a.stk = [] := by
        rcases hp.result with ⟨h, _⟩ | ⟨s, l, _, _, ⟨x, hx, _, _⟩, _⟩
        · rw [h, hs]
        · rw [hs] at hx; cases hx
      obtain ⟨st', h1, h2, h3, h4, h5, h6⟩ := ih a hvs' hp.inv has
      refine ⟨st', by simp [exploreFrom, hv, hr, bind, Except.bind, h1], h2, h3, ?_, ?_, ?_⟩
      · intro x i hx
        exact h4 x i (hp.frame.old x i hx).1
      · intro x hx
        rcases List.mem_cons.1 hx with rfl | hx
        · exact ⟨_, h4 x _ hp.idx⟩
        · exact h5 x hx
      · intro hac hsg
        refine h6 hac (run_acyclic (U := U) hg hac _ st a v hi hvl hv hb hsg ?_ hr).2
        rw [hs]
        simp

/-- What the component search returns: every vertex exactly once, in non-empty components
closed under dependencies from earlier to later; all of size one on an acyclic graph. -/
theorem sccs_ok {U : Type} (hg : ∀ v w, Edge graph v w → w < graph.length) :
    ∃ scc, sccs (U := U) graph = .ok scc ∧ Closed graph scc ∧ scc.flatten.Nodup ∧
      (∀ x, x ∈ scc.flatten ↔ x < graph.length) ∧ (∀ c ∈ scc, c ≠ []) ∧
      (∀ c ∈ scc, ∀ a ∈ c, ∀ b ∈ c, Relation.ReflTransGen (Edge graph) a b) ∧
      ((∀ v, ¬ Relation.TransGen (Edge graph) v v) → ∀ c ∈ scc, ∃ u, c = [u]) := by
  obtain ⟨st, h1, h2, h3, _, h5, h6⟩ := exploreFrom_ok (U := U) hg (List.range graph.length)
    (forGraphOfSize graph.length) (by simp) Inv.init rfl
  refine ⟨st.scc, by simp [sccs, h1, bind, Except.bind, pure, Except.pure], h2.closed, ?_, ?_,
    h2.nonempty, h2.conn, ?_⟩
  · simpa [h3] using h2.disj
  · intro x
    have := h2.explored x
    rw [h3] at this
    constructor
    · intro hx
      obtain ⟨i, hi⟩ := this.2 (Or.inr hx)
      exact (h2.fresh x i hi).2
    · intro hx
      rcases this.1 (h5 x (List.mem_range.2 hx)) with h | h
      · cases h
      · exact h
  · intro hac
    exact h6 hac (by simp [forGraphOfSize])

/-- A component has everything that it depends on and that depends on it. -/
theorem Closed.component {scc : List (List Nat)} (hc : Closed graph scc)
    (hnd : scc.flatten.Nodup) : ∀ c ∈ scc, ∀ a ∈ c, ∀ b, Relation.TransGen (Edge graph) a b →
      Relation.TransGen (Edge graph) b a → b ∈ c := by
  have reach : ∀ {l : List (List Nat)}, Closed graph l → ∀ {a b : Nat}, a ∈ l.flatten →
      Relation.TransGen (Edge graph) a b → b ∈ l.flatten := by
    intro l hl a b ha h
    induction h with
    | single h => exact hl.closed a ha _ h
    | tail _ h ih => exact hl.closed _ ih _ h
  induction hc with
  | nil => intro c hc; cases hc
  | snoc l c' hl hcl ih =>
    rw [List.flatten_append, List.flatten_cons, List.flatten_nil, List.append_nil] at hnd
    intro c hc a ha b hab hba
    rcases List.mem_append.1 hc with hc | hc
    · exact ih (List.nodup_append.1 hnd).1 c hc a ha b hab hba
    · rw [List.mem_singleton] at hc
      subst hc
      have hb := reach (Closed.snoc l c hl hcl) (a := a) (by simp [ha]) hab
      rw [List.flatten_append, List.flatten_cons, List.flatten_nil, List.append_nil,
        List.mem_append] at hb
      rcases hb with hb | hb
      · exact absurd rfl ((List.nodup_append.1 hnd).2.2 a (reach hl hb hba) a ha)
      · exact hb

/-- A closed list of singletons has no cycle other than self-loops. -/
theorem Closed.rank {scc : List (List Nat)} (hc : Closed graph scc)
    (hs : ∀ c ∈ scc, ∃ u, c = [u]) (hnd : scc.flatten.Nodup) :
    ∀ l₁ v l₂, scc.flatten = l₁ ++ v :: l₂ → ∀ w, Edge graph v w → w ∈ l₁ ∨ w = v := by
  induction hc with
  | nil => intro l₁ v l₂ h; simp at h
  | snoc l c hl hcl ih =>
    obtain ⟨u, rfl⟩ := hs c (by simp)
    intro l₁ v l₂ h w he
    rw [List.flatten_append, List.flatten_cons, List.flatten_nil, List.append_nil] at h hnd
    rcases List.eq_nil_or_concat l₂ with rfl | ⟨l₂, b, rfl⟩
    · have h := List.append_inj' h rfl
      obtain ⟨h1, h2⟩ := h
      cases h2
      rcases hcl u (by simp) w he with hw | hw
      · left; rw [← h1]; exact hw
      · right; simpa using hw
    · have h' : l.flatten ++ [u] = (l₁ ++ v :: l₂) ++ [b] := by simpa using h
      have h' := List.append_inj' h' rfl
      exact ih (fun c hc => hs c (by simp [hc])) (List.nodup_append.1 hnd).1 l₁ v l₂ h'.1 w he

end

end Chandeliers.San.Explore
