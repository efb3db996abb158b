import Mathlib.Data.List.Perm.Basic
import Mathlib.Data.List.Nodup
import Verif.Lemmas.Tarjan
import Verif.Spec.Schedule

/-! Correctness of `Graph.scheduling` from the correctness of the component search. -/

namespace Chandeliers.San.Graph
open Chandeliers.Spec Explore

set_option linter.unusedSectionVars false
set_option autoImplicit false

variable {Obj U : Type} [DecidableEq U] [Depends Obj U]

/-! ### Units and their ids -/

theorem getOrInsertAtomic_spec (a : List U) (u : U) :
    ∃ t, (getOrInsertAtomic a u).1 = a ++ t ∧
      (getOrInsertAtomic a u).1[(getOrInsertAtomic a u).2]? = some u ∧
      (a.Nodup → (getOrInsertAtomic a u).1.Nodup) := by
  unfold getOrInsertAtomic
  cases h : a.findIdx? (fun x => decide (x = u)) with
  | none =>
    refine ⟨[u], rfl, by simp, ?_⟩
    rw [List.findIdx?_eq_none_iff] at h
    intro hn
    have hu : u ∉ a := fun hu => by simpa using h u hu
    rw [List.nodup_append]
    refine ⟨hn, by simp, ?_⟩
    intro x hx y hy e
    simp only [List.mem_singleton] at hy
    exact hu (hy ▸ e ▸ hx)
  | some i =>
    rw [List.findIdx?_eq_some_iff_getElem] at h
    obtain ⟨h1, h2, _⟩ := h
    refine ⟨[], by simp, ?_, id⟩
    simp only
    rw [List.getElem?_eq_getElem h1]
    simpa using h2

theorem map_getElem?_append {a t : List U} {ids : List Nat} {us : List U}
    (h : ids.map (a[·]?) = us.map some) : ids.map ((a ++ t)[·]?) = us.map some := by
  induction ids generalizing us with
  | nil => simpa using h
  | cons i ids ih =>
    cases us with
    | nil => simp at h
    | cons u us =>
      simp only [List.map_cons, List.cons.injEq] at h ⊢
      refine ⟨?_, ih h.2⟩
      have hi : i < a.length := by
        by_contra hc
        have := h.1
        rw [List.getElem?_eq_none (by omega)] at this
        cases this
      rw [List.getElem?_append_left hi]
      exact h.1

theorem getElem?_append_some {a t : List U} {i : Nat} {u : U} (h : a[i]? = some u) :
    (a ++ t)[i]? = some u := by
  have hi : i < a.length := by
    by_contra hc
    rw [List.getElem?_eq_none (by omega)] at h
    cases h
  rw [List.getElem?_append_left hi]
  exact h

theorem getOrInsertAll_spec (us : List U) : ∀ (a : List U),
    ∃ t, (getOrInsertAll a us).1 = a ++ t ∧
      (getOrInsertAll a us).2.map ((getOrInsertAll a us).1[·]?) = us.map some ∧
      (a.Nodup → (getOrInsertAll a us).1.Nodup) := by
  induction us with
  | nil => intro a; exact ⟨[], by simp [getOrInsertAll], by simp [getOrInsertAll], id⟩
  | cons u us ih =>
    intro a
    obtain ⟨t, h1, h2, h3⟩ := getOrInsertAtomic_spec a u
    obtain ⟨t', h4, h5, h6⟩ := ih (getOrInsertAtomic a u).1
    refine ⟨t ++ t', ?_, ?_, fun hn => h6 (h3 hn)⟩
    · simp only [getOrInsertAll]
      rw [h4, h1, List.append_assoc]
    · simp only [getOrInsertAll, List.map_cons, List.cons.injEq]
      refine ⟨?_, h5⟩
      rw [h4]
      exact getElem?_append_some h2

structure OK (g : Graph Obj U) (ctx : List U) (objs : List Obj) : Prop where
  nodup : g.atomics.Nodup
  elems : g.elements = objs
  plen : g.provide.length = objs.length
  rlen : g.require.length = objs.length
  prov : ∀ (k : Nat) o, objs[k]? = some o → ∃ ids : List Nat, g.provide[k]? = some ids ∧
    ids.map (g.atomics[·]?) = (Depends.provides o).map some
  req : ∀ (k : Nat) o, objs[k]? = some o → ∃ ids : List Nat, g.require[k]? = some ids ∧
    ids.map (g.atomics[·]?) = (Depends.requires o).map some
  ctxIn : ∀ u ∈ ctx, u ∈ g.atomics
  ext : ∀ (id : Nat) u, g.atomics[id]? = some u → (id ∈ g.providedByExt ↔ u ∈ ctx)
  extLt : ∀ id ∈ g.providedByExt, id < g.atomics.length
  forExt : ∀ (id : Nat) u, g.atomics[id]? = some u →
    (id ∈ g.providedForExt ↔ ∃ o ∈ objs, u ∈ Depends.provides o)
  forIn : ∀ o ∈ objs, ∀ u ∈ (Depends.provides o : List U), u ∈ g.atomics
  forLt : ∀ id ∈ g.providedForExt, id < g.atomics.length

theorem nodup_id_unique {a : List U} (h : a.Nodup) {i j : Nat} {u : U} (hi : a[i]? = some u)
    (hj : a[j]? = some u) : i = j := by
  have hil : i < a.length := by
    by_contra hc; rw [List.getElem?_eq_none (by omega)] at hi; cases hi
  have hjl : j < a.length := by
    by_contra hc; rw [List.getElem?_eq_none (by omega)] at hj; cases hj
  rw [List.getElem?_eq_getElem hil] at hi
  rw [List.getElem?_eq_getElem hjl] at hj
  exact (List.Nodup.getElem_inj_iff h).1 (by rw [Option.some.injEq] at hi hj; rw [hi, hj])

/-- An id of the longer table either was there, with the same unit, or names a new unit. -/
theorem old_or_new {a t : List U} (hn : (a ++ t).Nodup) {i : Nat} {u : U}
    (h : (a ++ t)[i]? = some u) : a[i]? = some u ∨ (a.length ≤ i ∧ u ∉ a) := by
  by_cases hi : i < a.length
  · left; rwa [List.getElem?_append_left hi] at h
  · right
    refine ⟨by omega, fun hu => ?_⟩
    obtain ⟨j, hj, hju⟩ := List.mem_iff_getElem.1 hu
    have : (a ++ t)[j]? = some u := getElem?_append_some (by rw [List.getElem?_eq_getElem hj, hju])
    have := nodup_id_unique hn h this
    omega

theorem OK.grow {g : Graph Obj U} {ctx : List U} {objs : List Obj} (h : OK g ctx objs)
    {a t : List U} (ha : a = g.atomics ++ t) (hn : a.Nodup) :
    OK { g with atomics := a } ctx objs := by
  subst ha
  have key : ∀ (id : Nat) u, (g.atomics ++ t)[id]? = some u →
      g.atomics[id]? = some u ∨ (g.atomics.length ≤ id ∧ u ∉ g.atomics) :=
    fun id u hu => old_or_new hn hu
  refine ⟨hn, h.elems, h.plen, h.rlen, ?_, ?_, ?_, ?_, ?_, ?_, ?_, ?_⟩
  · intro k o ho
    obtain ⟨ids, h1, h2⟩ := h.prov k o ho
    exact ⟨ids, h1, map_getElem?_append h2⟩
  · intro k o ho
    obtain ⟨ids, h1, h2⟩ := h.req k o ho
    exact ⟨ids, h1, map_getElem?_append h2⟩
  · intro u hu; exact List.mem_append_left _ (h.ctxIn u hu)
  · intro id u hu
    rcases key id u hu with h1 | ⟨h1, h2⟩
    · exact h.ext id u h1
    · constructor
      · intro hi; exact absurd (h.extLt id hi) (by omega)
      · intro hc; exact absurd (h.ctxIn u hc) h2
  · intro id hi
    have := h.extLt id hi
    simp only [List.length_append]
    omega
  · intro id u hu
    rcases key id u hu with h1 | ⟨h1, h2⟩
    · exact h.forExt id u h1
    · constructor
      · intro hi; exact absurd (h.forLt id hi) (by omega)
      · rintro ⟨o, ho, hc⟩; exact absurd (h.forIn o ho u hc) h2
  · intro o ho u hu; exact List.mem_append_left _ (h.forIn o ho u hu)
  · intro id hi
    have := h.forLt id hi
    simp only [List.length_append]
    omega

theorem lt_of_getElem?_some {α : Type _} {a : List α} {i : Nat} {u : α} (h : a[i]? = some u) :
    i < a.length := by
  by_contra hc
  rw [List.getElem?_eq_none (by omega)] at h
  cases h

theorem OK.empty : OK (Graph.empty : Graph Obj U) [] [] := by
  refine ⟨by simp [Graph.empty], rfl, rfl, rfl, ?_, ?_, ?_, ?_, ?_, ?_, ?_, ?_⟩ <;>
    simp [Graph.empty]

theorem OK.alreadyProvided {g : Graph Obj U} {ctx : List U} (h : OK g ctx ([] : List Obj)) (u : U) :
    OK (g.alreadyProvided u) (ctx ++ [u]) [] := by
  obtain ⟨t, h1, h2, h3⟩ := getOrInsertAtomic_spec g.atomics u
  have hn := h3 h.nodup
  have h' := h.grow h1 hn
  refine ⟨hn, h'.elems, h'.plen, h'.rlen, h'.prov, h'.req, ?_, ?_, ?_, h'.forExt, h'.forIn, h'.forLt⟩
  · intro x hx
    rcases List.mem_append.1 hx with hx | hx
    · exact h'.ctxIn x hx
    · simp only [List.mem_singleton] at hx
      subst hx
      exact List.mem_of_getElem? h2
  · intro id x hx
    simp only [Graph.alreadyProvided, List.mem_cons, List.mem_append, List.not_mem_nil, or_false]
    constructor
    · rintro (rfl | hi)
      · right
        have := hx.symm.trans h2
        simpa using this
      · left; exact (h'.ext id x hx).1 hi
    · rintro (hc | rfl)
      · right; exact (h'.ext id x hx).2 hc
      · left; exact nodup_id_unique hn hx h2
  · intro id hi
    simp only [Graph.alreadyProvided, List.mem_cons] at hi
    rcases hi with rfl | hi
    · exact lt_of_getElem?_some h2
    · exact h'.extLt id hi

theorem map_some_mem {a : List U} {ids : List Nat} {us : List U}
    (h : ids.map (a[·]?) = us.map some) {id : Nat} (hi : id ∈ ids) :
    ∃ u ∈ us, a[id]? = some u := by
  have : a[id]? ∈ us.map some := h ▸ List.mem_map.2 ⟨id, hi, rfl⟩
  obtain ⟨u, hu, he⟩ := List.mem_map.1 this
  exact ⟨u, hu, he.symm⟩

theorem map_some_mem' {a : List U} {ids : List Nat} {us : List U}
    (h : ids.map (a[·]?) = us.map some) {u : U} (hu : u ∈ us) :
    ∃ id ∈ ids, a[id]? = some u := by
  have : some u ∈ ids.map (a[·]?) := h ▸ List.mem_map.2 ⟨u, hu, rfl⟩
  obtain ⟨id, hi, he⟩ := List.mem_map.1 this
  exact ⟨id, hi, he⟩

theorem map_some_nodup {a : List U} (hn : a.Nodup) {ids : List Nat} {us : List U}
    (h : ids.map (a[·]?) = us.map some) : ids.Nodup ↔ us.Nodup := by
  have h1 : (ids.map (a[·]?)).Nodup ↔ ids.Nodup := by
    constructor
    · exact List.Nodup.of_map _
    · intro hi
      refine List.Nodup.map_on ?_ hi
      intro x hx y hy e
      obtain ⟨u, _, hu⟩ := map_some_mem h hx
      exact nodup_id_unique hn hu (e ▸ hu)
  rw [← h1, h]
  exact List.nodup_map_iff (fun _ _ h => by simpa using h)

theorem getElem?_snoc {α : Type _} {l : List α} {a x : α} {k : Nat} (h : (l ++ [a])[k]? = some x) :
    l[k]? = some x ∨ (k = l.length ∧ x = a) := by
  by_cases hk : k < l.length
  · left; rwa [List.getElem?_append_left hk] at h
  · have := lt_of_getElem?_some h
    simp only [List.length_append, List.length_cons, List.length_nil] at this
    have hk : k = l.length := by omega
    subst hk
    right
    simp at h
    exact ⟨rfl, h.symm⟩

theorem OK.insert {g : Graph Obj U} {ctx : List U} {objs : List Obj} (h : OK g ctx objs) (o : Obj) :
    OK (g.insert o) ctx (objs ++ [o]) := by
  obtain ⟨t, h1, h2, h3⟩ := getOrInsertAll_spec (Depends.provides o) g.atomics
  obtain ⟨t', h4, h5, h6⟩ := getOrInsertAll_spec (Depends.requires o)
    (getOrInsertAll g.atomics (Depends.provides o)).1
  have hn := h6 (h3 h.nodup)
  have h' := h.grow (t := t ++ t') (by rw [h4, h1, List.append_assoc]) hn
  have h2' : (getOrInsertAll g.atomics (Depends.provides o)).2.map
      ((getOrInsertAll (getOrInsertAll g.atomics (Depends.provides o)).1
        (Depends.requires o)).1[·]?) = (Depends.provides o).map some := by
    rw [h4]; exact map_getElem?_append h2
  refine ⟨hn, by simp [Graph.insert, h.elems], by simp [Graph.insert, h.plen],
    by simp [Graph.insert, h.rlen], ?_, ?_, h'.ctxIn, h'.ext, h'.extLt, ?_, ?_, ?_⟩
  · intro k x hx
    rcases getElem?_snoc hx with hx | ⟨rfl, rfl⟩
    · obtain ⟨ids, hi, hm⟩ := h'.prov k x hx
      exact ⟨ids, by simp only [Graph.insert]; exact getElem?_append_some' hi, hm⟩
    · exact ⟨_, by simp only [Graph.insert]; rw [← h.plen]; simp, h2'⟩
  · intro k x hx
    rcases getElem?_snoc hx with hx | ⟨rfl, rfl⟩
    · obtain ⟨ids, hi, hm⟩ := h'.req k x hx
      exact ⟨ids, by simp only [Graph.insert]; exact getElem?_append_some' hi, hm⟩
    · exact ⟨_, by simp only [Graph.insert]; rw [← h.rlen]; simp, h5⟩
  · intro id u hu
    have hf := h'.forExt id u hu
    simp only [Graph.insert, List.mem_append, List.mem_singleton]
    constructor
    · rintro (hi | hi)
      · obtain ⟨x, hx, hxu⟩ := hf.1 hi
        exact ⟨x, Or.inl hx, hxu⟩
      · obtain ⟨u', hu', he⟩ := map_some_mem h2' hi
        have := hu.symm.trans he
        simp only [Option.some.injEq] at this
        exact ⟨o, Or.inr rfl, this ▸ hu'⟩
    · rintro ⟨x, hx | rfl, hxu⟩
      · left; exact hf.2 ⟨x, hx, hxu⟩
      · right
        obtain ⟨i, hi, he⟩ := map_some_mem' h2' hxu
        exact nodup_id_unique hn hu he ▸ hi
  · intro x hx u hu
    rcases List.mem_append.1 hx with hx | hx
    · exact h'.forIn x hx u hu
    · simp only [List.mem_singleton] at hx
      subst hx
      obtain ⟨i, _, he⟩ := map_some_mem' h2' hu
      exact List.mem_of_getElem? he
  · intro id hi
    simp only [Graph.insert, List.mem_append] at hi
    rcases hi with hi | hi
    · exact h'.forLt id hi
    · obtain ⟨u', _, he⟩ := map_some_mem h2' hi
      exact lt_of_getElem?_some he
where
  getElem?_append_some' {α : Type _} {a t : List α} {i : Nat} {u : α} (h : a[i]? = some u) :
      (a ++ t)[i]? = some u := by
    rw [List.getElem?_append_left (lt_of_getElem?_some h)]
    exact h

theorem OK.mustProvide {g : Graph Obj U} {ctx : List U} {objs : List Obj} (h : OK g ctx objs)
    (u : U) :
    (∃ g', g.mustProvide u = .ok g' ∧ OK g' ctx objs ∧ ∃ o ∈ objs, u ∈ Depends.provides o) ∨
    (g.mustProvide u = .error (.undeclared u) ∧ ∀ o ∈ objs, u ∉ Depends.provides o) := by
  obtain ⟨t, h1, h2, h3⟩ := getOrInsertAtomic_spec g.atomics u
  have h' := h.grow h1 (h3 h.nodup)
  have hf := h'.forExt _ u h2
  unfold Graph.mustProvide
  by_cases hi : (getOrInsertAtomic g.atomics u).2 ∈ g.providedForExt
  · left
    exact ⟨_, by simp only [hi, if_true], h', hf.1 hi⟩
  · right
    refine ⟨by simp only [hi, if_false], ?_⟩
    intro o ho hu
    exact hi (hf.2 ⟨o, ho, hu⟩)

/-! ### The maps -/

theorem addConstraints_eq (g : Graph Obj U) (p : Nat) : ∀ (rs : List Nat) (m : Maps),
    addConstraints g p rs m = if p ∈ rs then .error (g.reportUnit .dependsOnItself p)
      else .ok { m with constraints := setAt m.constraints p (m.constraints p ++ rs) } := by
  intro rs
  induction rs with
  | nil =>
    intro m
    simp only [addConstraints, List.not_mem_nil, if_false, List.append_nil]
    have : setAt m.constraints p (m.constraints p) = m.constraints := by
      funext j
      simp only [setAt]
      split <;> simp [*]
    rw [this]
  | cons r rs ih =>
    intro m
    simp only [addConstraints]
    by_cases h : r = p
    · simp [h]
    · have hp : p ≠ r := fun e => h e.symm
      rw [if_neg h, ih]
      simp only [List.mem_cons, hp, false_or]
      split
      · rfl
      · congr 2
        funext j
        simp only [setAt]
        split <;> simp

/-- The effect of a successful `addProvided`. -/
def Maps.provided (m : Maps) (id : Nat) (ps rs : List Nat) : Maps where
  provider q := if q ∈ ps then some id else m.provider q
  constraints q := if q ∈ ps then m.constraints q ++ rs else m.constraints q

/-- The way an element can be refused. -/
inductive Refused (g : Graph Obj U) (m : Maps) (ps rs : List Nat) : GErr U → Prop
  | context (p) : p ∈ ps → p ∈ g.providedByExt → Refused g m ps rs (g.reportUnit .providedByContext p)
  | twice (p) : p ∈ ps → ((m.provider p).isSome ∨ ¬ ps.Nodup ∧ 2 ≤ ps.count p) →
      Refused g m ps rs (g.reportUnit .declTwice p)
  | self (p) : p ∈ ps → p ∈ rs → Refused g m ps rs (g.reportUnit .dependsOnItself p)

theorem addProvided_spec (g : Graph Obj U) (id : Nat) (rs : List Nat) :
    ∀ (ps : List Nat) (m : Maps), (∀ p ∈ ps, p < g.atomics.length) →
      (addProvided g id rs ps m = .ok (m.provided id ps rs) ∧
        ps.Nodup ∧ ∀ p ∈ ps, p ∉ g.providedByExt ∧ m.provider p = none ∧ p ∉ rs) ∨
      (∃ e, addProvided g id rs ps m = .error e ∧ Refused g m ps rs e) := by
  intro ps
  induction ps with
  | nil =>
    intro m _
    left
    simp [addProvided, Maps.provided]
  | cons p ps ih =>
    intro m hlt
    have hp : p < g.atomics.length := hlt p (by simp)
    have hlt' : ∀ p ∈ ps, p < g.atomics.length := fun q hq => hlt q (by simp [hq])
    unfold addProvided
    by_cases h1 : p ∈ g.providedByExt
    · right
      exact ⟨_, by rw [if_pos h1], .context p (by simp) h1⟩
    rw [if_neg h1, if_pos hp]
    by_cases h2 : (m.provider p).isSome
    · right
      exact ⟨_, by rw [if_pos h2], .twice p (by simp) (Or.inl h2)⟩
    rw [if_neg h2, addConstraints_eq]
    by_cases h3 : p ∈ rs
    · right
      exact ⟨_, by rw [if_pos h3]; rfl, .self p (by simp) h3⟩
    rw [if_neg h3]
    simp only [bind, Except.bind]
    have hnone : m.provider p = none := by simpa using h2
    rcases ih { provider := setAt m.provider p (some id)
                constraints := setAt m.constraints p (m.constraints p ++ rs) } hlt' with
      ⟨he, hnd, hall⟩ | ⟨e, he, hr⟩
    · left
      have hpps : p ∉ ps := by
        intro hm
        have := (hall p hm).2.1
        simp [setAt] at this
      refine ⟨?_, List.nodup_cons.2 ⟨hpps, hnd⟩, ?_⟩
      · rw [he]
        congr 1
        simp only [Maps.provided, Maps.mk.injEq]
        constructor
        · funext q
          by_cases hq : q = p
          · simp [hq, hpps, setAt]
          · simp [hq, setAt]
        · funext q
          by_cases hq : q = p
          · simp [hq, hpps, setAt]
          · simp [hq, setAt]
      · intro q hq
        rcases List.mem_cons.1 hq with rfl | hq'
        · exact ⟨h1, hnone, h3⟩
        · have := hall q hq'
          have hqp : q ≠ p := fun e => hpps (e ▸ hq')
          simpa [setAt, hqp] using this
    · right
      refine ⟨e, he, ?_⟩
      cases hr with
      | context q hq hx => exact .context q (by simp [hq]) hx
      | twice q hq hx =>
        refine .twice q (by simp [hq]) ?_
        by_cases hqp : q = p
        · subst hqp
          right
          refine ⟨fun hn => (List.nodup_cons.1 hn).1 hq, ?_⟩
          rw [List.count_cons_self]
          have := List.count_pos_iff.2 hq
          omega
        · rcases hx with hx | hx
          · left; simpa [setAt, hqp] using hx
          · right
            refine ⟨fun hn => hx.1 (List.nodup_cons.1 hn).2, ?_⟩
            rw [List.count_cons]
            omega
      | self q hq hx => exact .self q (by simp [hq]) hx

/-- The maps after the first elements. -/
structure MapsOK (pss rss : List (List Nat)) (m : Maps) : Prop where
  provider : ∀ q k, m.provider q = some k ↔ ∃ ps, pss[k]? = some ps ∧ q ∈ ps
  constraints : ∀ q k rs, m.provider q = some k → rss[k]? = some rs → m.constraints q = rs
  nothing : ∀ q, m.provider q = none → m.constraints q = []

theorem append_none {α : Type _} {l : List α} {a : α} {k : Nat} (h : k = l.length) :
    (l ++ [a])[k]? = some a := by subst h; simp

theorem MapsOK.snoc {pss rss : List (List Nat)} {m : Maps} (h : MapsOK pss rss m)
    (hlen : pss.length = rss.length) {ps rs : List Nat}
    (hps : ∀ p ∈ ps, m.provider p = none) :
    MapsOK (pss ++ [ps]) (rss ++ [rs]) (m.provided pss.length ps rs) := by
  refine ⟨?_, ?_, ?_⟩
  · intro q k
    simp only [Maps.provided]
    by_cases hq : q ∈ ps
    · rw [if_pos hq]
      constructor
      · intro he
        cases he
        exact ⟨ps, by simp, hq⟩
      · rintro ⟨ps', h1, h2⟩
        rcases getElem?_snoc h1 with h1 | ⟨rfl, rfl⟩
        · have := (h.provider q k).2 ⟨ps', h1, h2⟩
          rw [hps q hq] at this
          cases this
        · rfl
    · rw [if_neg hq, h.provider]
      constructor
      · rintro ⟨ps', h1, h2⟩
        exact ⟨ps', by rw [List.getElem?_append_left (lt_of_getElem?_some h1)]; exact h1, h2⟩
      · rintro ⟨ps', h1, h2⟩
        rcases getElem?_snoc h1 with h1 | ⟨rfl, rfl⟩
        · exact ⟨ps', h1, h2⟩
        · exact absurd h2 hq
  · intro q k rs' h1 h2
    simp only [Maps.provided] at h1 ⊢
    by_cases hq : q ∈ ps
    · rw [if_pos hq] at h1 ⊢
      cases h1
      rw [hlen] at h2
      rcases getElem?_snoc h2 with h2 | ⟨_, rfl⟩
      · exact absurd (lt_of_getElem?_some h2) (by omega)
      · rw [h.nothing q (hps q hq), List.nil_append]
    · rw [if_neg hq] at h1 ⊢
      rcases getElem?_snoc h2 with h2 | ⟨rfl, _⟩
      · exact h.constraints q k rs' h1 h2
      · obtain ⟨ps', h3, _⟩ := (h.provider q _).1 h1
        exact absurd (lt_of_getElem?_some h3) (by omega)
  · intro q h1
    simp only [Maps.provided] at h1 ⊢
    by_cases hq : q ∈ ps
    · simp [hq] at h1
    · rw [if_neg hq] at h1 ⊢
      exact h.nothing q h1

/-- What the refusal of a whole graph means, at the level of ids. -/
inductive RefusedAny (g : Graph Obj U) (pss rss : List (List Nat)) : GErr U → Prop
  | context (p k : Nat) (ps : List Nat) : pss[k]? = some ps → p ∈ ps → p ∈ g.providedByExt →
      RefusedAny g pss rss (g.reportUnit .providedByContext p)
  | twice (p) : 2 ≤ pss.flatten.count p → RefusedAny g pss rss (g.reportUnit .declTwice p)
  | self (p k : Nat) (ps rs : List Nat) : pss[k]? = some ps → rss[k]? = some rs → p ∈ ps → p ∈ rs →
      RefusedAny g pss rss (g.reportUnit .dependsOnItself p)

theorem addElements_spec (g : Graph Obj U) : ∀ (pss rss pss0 rss0 : List (List Nat)) (m : Maps),
    pss.length = rss.length → pss0.length = rss0.length →
    (∀ ps ∈ pss, ∀ p ∈ ps, p < g.atomics.length) → MapsOK pss0 rss0 m →
    pss0.flatten.Nodup →
    (∃ m', addElements g pss0.length pss rss m = .ok m' ∧ MapsOK (pss0 ++ pss) (rss0 ++ rss) m' ∧
      (pss0 ++ pss).flatten.Nodup ∧ (∀ ps ∈ pss, ∀ p ∈ ps, p ∉ g.providedByExt) ∧
      ∀ (k : Nat) ps rs, pss[k]? = some ps → rss[k]? = some rs → ∀ p ∈ ps, p ∉ rs) ∨
    (∃ e, addElements g pss0.length pss rss m = .error e ∧
      RefusedAny g (pss0 ++ pss) (rss0 ++ rss) e) := by
  intro pss
  induction pss with
  | nil =>
    intro rss pss0 rss0 m hl hl0 hlt hm hnd
    cases rss with
    | cons _ _ => simp at hl
    | nil => left; exact ⟨m, by simp [addElements], by simpa using hm, by simpa using hnd,
        by simp, by simp⟩
  | cons ps pss ih =>
    intro rss pss0 rss0 m hl hl0 hlt hm hnd
    cases rss with
    | nil => simp at hl
    | cons rs rss =>
      simp only [List.length_cons, Nat.add_right_cancel_iff] at hl
      unfold addElements
      rcases addProvided_spec g pss0.length rs ps m (hlt ps (by simp)) with
        ⟨he, hn, hall⟩ | ⟨e, he, hr⟩
      · rw [he]
        simp only [bind, Except.bind]
        have hm' := hm.snoc hl0 (ps := ps) (rs := rs) (fun p hp => (hall p hp).2.1)
        have hdis : ∀ q ∈ pss0.flatten, ∀ p ∈ ps, q ≠ p := by
          intro q hq p hp e
          subst e
          obtain ⟨ps', h1, h2⟩ := List.mem_flatten.1 hq
          obtain ⟨k, hk, hkp⟩ := List.mem_iff_getElem.1 h1
          have := (hm.provider q k).2 ⟨ps', by rw [List.getElem?_eq_getElem hk, hkp], h2⟩
          rw [(hall q hp).2.1] at this
          cases this
        have hnd' : (pss0 ++ [ps]).flatten.Nodup := by
          rw [List.flatten_append, List.flatten_cons, List.flatten_nil, List.append_nil,
            List.nodup_append]
          exact ⟨hnd, hn, hdis⟩
        have := ih rss (pss0 ++ [ps]) (rss0 ++ [rs]) _ hl (by simp [hl0])
          (fun x hx => hlt x (by simp [hx])) hm' hnd'
        simp only [List.length_append, List.length_cons, List.length_nil, Nat.zero_add,
          List.append_assoc, List.singleton_append] at this
        rcases this with ⟨m', h1, h2, h3, h4, h5⟩ | ⟨e, h1, h2⟩
        · left
          refine ⟨m', h1, h2, h3, ?_, ?_⟩
          · intro x hx p hp
            rcases List.mem_cons.1 hx with rfl | hx
            · exact (hall p hp).1
            · exact h4 x hx p hp
          · intro k ps' rs' hk hk' p hp
            cases k with
            | zero =>
              simp only [List.getElem?_cons_zero, Option.some.injEq] at hk hk'
              subst hk hk'
              exact (hall p hp).2.2
            | succ k =>
              simp only [List.getElem?_cons_succ] at hk hk'
              exact h5 k ps' rs' hk hk' p hp
        · right; exact ⟨e, h1, h2⟩
      · right
        refine ⟨e, by rw [he]; rfl, ?_⟩
        have hps : (pss0 ++ ps :: pss)[pss0.length]? = some ps := by simp
        have hrs : (rss0 ++ rs :: rss)[pss0.length]? = some rs := by rw [hl0]; simp
        cases hr with
        | context p h1 h2 => exact .context p _ ps hps h1 h2
        | twice p h1 h2 =>
          refine .twice p ?_
          rw [List.flatten_append, List.flatten_cons, List.count_append, List.count_append]
          have := List.count_pos_iff.2 h1
          rcases h2 with h2 | h2
          · obtain ⟨k, hk⟩ := Option.isSome_iff_exists.1 h2
            obtain ⟨ps', h3, h4⟩ := (hm.provider p k).1 hk
            have := List.count_pos_iff.2
              (List.mem_flatten.2 ⟨ps', List.mem_of_getElem? h3, h4⟩ : p ∈ pss0.flatten)
            omega
          · omega
        | self p h1 h2 => exact .self p _ ps rs hps hrs h1 h2

theorem maps_spec {g : Graph Obj U} {ctx : List U} {objs : List Obj} (h : OK g ctx objs) :
    (∃ m, g.maps = .ok m ∧ MapsOK g.provide g.require m ∧
      g.provide.flatten.Nodup ∧ (∀ ps ∈ g.provide, ∀ p ∈ ps, p ∉ g.providedByExt) ∧
      ∀ (k : Nat) ps rs, g.provide[k]? = some ps → g.require[k]? = some rs → ∀ p ∈ ps, p ∉ rs) ∨
    (∃ e, g.maps = .error e ∧ RefusedAny g g.provide g.require e) := by
  have hlt : ∀ ps ∈ g.provide, ∀ p ∈ ps, p < g.atomics.length := by
    intro ps hps p hp
    obtain ⟨k, hk, hkp⟩ := List.mem_iff_getElem.1 hps
    have hk' : k < objs.length := by rw [← h.plen]; exact hk
    obtain ⟨ids, h1, h2⟩ := h.prov k objs[k] (List.getElem?_eq_getElem hk')
    rw [List.getElem?_eq_getElem hk, hkp] at h1
    cases h1
    obtain ⟨u, _, hu⟩ := map_some_mem h2 hp
    exact lt_of_getElem?_some hu
  have := addElements_spec g g.provide g.require [] []
    { provider := fun _ => none, constraints := fun _ => [] } (by rw [h.plen, h.rlen]) rfl hlt
    ⟨by simp, by simp, by simp⟩ (by simp)
  simpa [Graph.maps] using this

/-! ### From components to the schedule -/

/-- Objects not taken yet. -/
def leftover (objs : List Obj) (ks : List Nat) : List (Option Obj) :=
  objs.mapIdx (fun k o => if k ∈ ks then none else some o)

theorem leftover_get (objs : List Obj) (ks : List Nat) (k : Nat) :
    (leftover objs ks)[k]? = objs[k]?.map (fun o => if k ∈ ks then none else some o) := by
  simp [leftover, List.getElem?_mapIdx]

theorem leftover_set (objs : List Obj) (ks : List Nat) (k : Nat) :
    (leftover objs ks).set k none = leftover objs (ks ++ [k]) := by
  apply List.ext_getElem?
  intro j
  rw [List.getElem?_set, leftover_get, leftover_get]
  by_cases hj : k = j
  · subst hj
    by_cases hk : k < objs.length
    · simp [leftover, hk]
    · simp [leftover, hk]
  · have hj' : j ≠ k := fun e => hj e.symm
    simp [hj, hj']

/-- The order in which `drain` takes objects: for each id in turn its provider, once. -/
inductive Taken (m : Maps) : List Nat → List Nat → Prop
  | nil : Taken m [] []
  | skip (ids ks id) : Taken m ids ks → (m.provider id = none ∨ ∃ k ∈ ks, m.provider id = some k) →
      Taken m (ids ++ [id]) ks
  | take (ids ks id k) : Taken m ids ks → m.provider id = some k → k ∉ ks →
      Taken m (ids ++ [id]) (ks ++ [k])

theorem drain_spec {g : Graph Obj U} (m : Maps) {objs : List Obj} 
    (hprov : ∀ q k, m.provider q = some k → k < objs.length) :
    ∀ (ids ids0 ks : List Nat) (out : List Obj), (∀ i ∈ ids, i < g.atomics.length) →
      Taken m ids0 ks → ks.map (objs[·]?) = out.map some →
      ∃ ks' out', drain g m (ids.map (fun i => [i])) (leftover objs ks) out =
          .ok (leftover objs ks', out') ∧ Taken m (ids0 ++ ids) ks' ∧
          ks'.map (objs[·]?) = out'.map some := by
  intro ids
  induction ids with
  | nil => intro ids0 ks out _ ht ho; exact ⟨ks, out, rfl, by simpa using ht, ho⟩
  | cons i ids ih =>
    intro ids0 ks out hlt ht ho
    have hi : i < g.atomics.length := hlt i (by simp)
    have hlt' : ∀ i ∈ ids, i < g.atomics.length := fun j hj => hlt j (by simp [hj])
    simp only [List.map_cons, drain, hi, if_true]
    cases hp : m.provider i with
    | none =>
      obtain ⟨ks', out', h1, h2, h3⟩ := ih (ids0 ++ [i]) ks out hlt' (.skip _ _ _ ht (Or.inl hp)) ho
      exact ⟨ks', out', h1, by simpa using h2, h3⟩
    | some k =>
      have hk := hprov i k hp
      by_cases hm : k ∈ ks
      · have : (leftover objs ks)[k]? = some none := by
          rw [leftover_get, List.getElem?_eq_getElem hk]; simp [hm]
        simp only [this]
        obtain ⟨ks', out', h1, h2, h3⟩ := ih (ids0 ++ [i]) ks out hlt'
          (.skip _ _ _ ht (Or.inr ⟨k, hm, hp⟩)) ho
        exact ⟨ks', out', h1, by simpa using h2, h3⟩
      · have : (leftover objs ks)[k]? = some (some objs[k]) := by
          rw [leftover_get, List.getElem?_eq_getElem hk]; simp [hm]
        simp only [this, leftover_set]
        obtain ⟨ks', out', h1, h2, h3⟩ := ih (ids0 ++ [i]) (ks ++ [k]) (out ++ [objs[k]]) hlt'
          (.take _ _ _ _ ht hp hm) (by simp [ho, List.getElem?_eq_getElem hk])
        exact ⟨ks', out', h1, by simpa using h2, h3⟩

/-- With a component of size two or more, the loop reports a cycle. -/
theorem drain_cycle {g : Graph Obj U} (m : Maps) {objs : List Obj}
    (hprov : ∀ q k, m.provider q = some k → k < objs.length) :
    ∀ (scc : List (List Nat)) (ks : List Nat) (out : List Obj),
      (∀ c ∈ scc, c ≠ []) → (∃ c ∈ scc, ∀ u, c ≠ [u]) →
      ∃ c ∈ scc, 2 ≤ c.length ∧ drain g m scc (leftover objs ks) out =
        .error (.cycle (c.filterMap (fun l => g.atomics[l]?))) := by
  intro scc
  induction scc with
  | nil => rintro ks out _ ⟨c, hc, _⟩; cases hc
  | cons c scc ih =>
    intro ks out hne hex
    have hne' : ∀ c ∈ scc, c ≠ [] := fun x hx => hne x (by simp [hx])
    match c, hne c (by simp) with
    | [], h => exact absurd rfl h
    | [i], _ =>
      have hex' : ∃ c ∈ scc, ∀ u, c ≠ [u] := by
        obtain ⟨c', hc', hu⟩ := hex
        rcases List.mem_cons.1 hc' with rfl | hc'
        · exact absurd rfl (hu i)
        · exact ⟨c', hc', hu⟩
      have lift : ∀ ks out, ∃ c ∈ [i] :: scc, 2 ≤ c.length ∧ drain g m scc (leftover objs ks) out =
          .error (.cycle (c.filterMap (fun l => g.atomics[l]?))) := by
        intro ks out
        obtain ⟨c', h1, h2, h3⟩ := ih ks out hne' hex'
        exact ⟨c', by simp [h1], h2, h3⟩
      simp only [drain]
      cases hp : (if i < g.atomics.length then m.provider i else none) with
      | none => exact lift ks out
      | some k =>
        have hk : k < objs.length := by
          split at hp
          · exact hprov i k hp
          · cases hp
        by_cases hm : k ∈ ks
        · have : (leftover objs ks)[k]? = some none := by
            rw [leftover_get, List.getElem?_eq_getElem hk]; simp [hm]
          simp only [this]
          exact lift ks out
        · have : (leftover objs ks)[k]? = some (some objs[k]) := by
            rw [leftover_get, List.getElem?_eq_getElem hk]; simp [hm]
          simp only [this, leftover_set]
          exact lift _ _
    | a :: b :: c, _ => exact ⟨a :: b :: c, by simp, by simp, rfl⟩

theorem Taken.mem {m : Maps} {ids ks : List Nat} (h : Taken m ids ks) (k : Nat) :
    k ∈ ks ↔ ∃ i ∈ ids, m.provider i = some k := by
  induction h with
  | nil => simp
  | skip ids ks id _ hs ih =>
    rw [ih]
    constructor
    · rintro ⟨i, hi, hp⟩; exact ⟨i, by simp [hi], hp⟩
    · rintro ⟨i, hi, hp⟩
      rcases List.mem_append.1 hi with hi | hi
      · exact ⟨i, hi, hp⟩
      · simp only [List.mem_singleton] at hi
        subst hi
        rcases hs with hs | ⟨k', hk', hs⟩
        · rw [hp] at hs; cases hs
        · rw [hp] at hs
          cases hs
          exact ih.1 hk'
  | take ids ks id k' _ hp hk ih =>
    simp only [List.mem_append, List.mem_singleton, ih]
    constructor
    · rintro (⟨i, hi, h⟩ | rfl)
      · exact ⟨i, Or.inl hi, h⟩
      · exact ⟨id, Or.inr rfl, hp⟩
    · rintro ⟨i, hi | rfl, h⟩
      · exact Or.inl ⟨i, hi, h⟩
      · right; rw [hp] at h; cases h; rfl

theorem Taken.nodup {m : Maps} {ids ks : List Nat} (h : Taken m ids ks) : ks.Nodup := by
  induction h with
  | nil => simp
  | skip _ _ _ _ _ ih => exact ih
  | take ids ks id k _ _ hk ih =>
    rw [List.nodup_append]
    refine ⟨ih, by simp, ?_⟩
    intro x hx y hy e
    simp only [List.mem_singleton] at hy
    exact hk (hy ▸ e ▸ hx)

/-- If every id comes after the ids it has an edge to, providers are taken in dependency order. -/
theorem Taken.order {m : Maps} {ids ks : List Nat} (h : Taken m ids ks)
    (hord : ∀ l₁ v l₂, ids = l₁ ++ v :: l₂ → ∀ w ∈ m.constraints v, w ∈ l₁) :
    ∀ k₁ k k₂, ks = k₁ ++ k :: k₂ → ∃ v, m.provider v = some k ∧
      ∀ w ∈ m.constraints v, ∀ k', m.provider w = some k' → k' ∈ k₁ := by
  induction h with
  | nil => intro k₁ k k₂ h; simp at h
  | skip ids ks id _ _ ih =>
    exact ih (fun l₁ v l₂ e => hord l₁ v (l₂ ++ [id]) (by simp [e]))
  | take ids ks id k' ht hp _ ih =>
    intro k₁ k k₂ he
    rcases List.eq_nil_or_concat k₂ with rfl | ⟨k₂, b, rfl⟩
    · obtain ⟨h1, h2⟩ := List.append_inj' he rfl
      cases h2
      refine ⟨id, hp, ?_⟩
      intro w hw k'' hk''
      rw [← h1, ht.mem]
      exact ⟨w, hord ids id [] rfl w hw, hk''⟩
    · have he' : ks ++ [k'] = (k₁ ++ k :: k₂) ++ [b] := by simpa using he
      obtain ⟨h1, _⟩ := List.append_inj' he' rfl
      exact ih (fun l₁ v l₂ e => hord l₁ v (l₂ ++ [id]) (by simp [e])) k₁ k k₂ h1

/-- Order of the objects of the final schedule, as positions in the input. -/
def finalOrder (n : Nat) (ks : List Nat) : List Nat :=
  ks ++ (List.range n).filter (fun k => k ∉ ks)

theorem filterMap_leftover (objs : List Obj) (ks : List Nat) :
    ((leftover objs ks).filterMap id).map some =
      ((List.range objs.length).filter (fun k => k ∉ ks)).map (objs[·]?) := by
  have key : ∀ (l : List Obj) (off : Nat), (∀ i, l[i]? = objs[off + i]?) →
      ((l.mapIdx (fun k o => if off + k ∈ ks then none else some o)).filterMap id).map some =
        ((List.range' off l.length).filter (fun k => k ∉ ks)).map (objs[·]?) := by
    intro l
    induction l with
    | nil => intro off _; simp
    | cons o l ih =>
      intro off h
      have h0 : objs[off]? = some o := by have := h 0; simpa using this.symm
      have ih' := ih (off + 1) (fun i => by
        have := h (i + 1)
        rw [List.getElem?_cons_succ] at this
        rw [this]; congr 1; omega)
      have e : (fun (k : Nat) (o : Obj) => if off + (k + 1) ∈ ks then none else some o) =
          (fun k o => if off + 1 + k ∈ ks then none else some o) := by
        funext k o
        rw [Nat.add_assoc off 1 k, Nat.add_comm 1 k]
      simp only [List.mapIdx_cons, Nat.add_zero, List.length_cons, List.range'_succ]
      rw [e]
      by_cases hk : off ∈ ks
      · simpa [hk] using ih'
      · simp only [hk, if_false, List.filterMap_cons, id, List.map_cons, List.filter_cons,
          not_false_eq_true, decide_true, if_true, h0]
        congr 1
  have := key objs 0 (by simp)
  simpa [leftover, List.range_eq_range'] using this

theorem finalOrder_perm {n : Nat} {ks : List Nat} (hn : ks.Nodup) (hlt : ∀ k ∈ ks, k < n) :
    (finalOrder n ks).Perm (List.range n) := by
  rw [List.perm_ext_iff_of_nodup]
  · intro k
    simp only [finalOrder, List.mem_append, List.mem_filter, List.mem_range, decide_eq_true_eq]
    constructor
    · rintro (h | h)
      · exact hlt k h
      · exact h.1
    · intro h
      by_cases hk : k ∈ ks
      · exact Or.inl hk
      · exact Or.inr ⟨h, by simpa using hk⟩
  · rw [finalOrder, List.nodup_append]
    refine ⟨hn, List.Nodup.filter _ List.nodup_range, ?_⟩
    intro x hx y hy e
    subst e
    simp only [List.mem_filter, decide_eq_true_eq] at hy
    exact (by simpa using hy.2 : x ∉ ks) hx
  · exact List.nodup_range

theorem map_range_getElem? (objs : List Obj) :
    (List.range objs.length).map (objs[·]?) = objs.map some := by
  apply List.ext_getElem?
  intro i
  by_cases hi : i < objs.length
  · simp [hi]
  · simp [hi]

end Chandeliers.San.Graph
