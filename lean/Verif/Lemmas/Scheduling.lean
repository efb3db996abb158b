import Verif.Lemmas.Schedule

/-! The scheduler meets its specification. -/

namespace Chandeliers.San.Graph
open Chandeliers.Spec Explore

set_option linter.unusedSectionVars false
set_option autoImplicit false

variable {Obj U : Type} [DecidableEq U] [Depends Obj U]

section
variable {g : Graph Obj U} {ctx : List U} {objs : List Obj}

theorem OK.provide_flatten (h : OK g ctx objs) :
    g.provide.flatten.map (g.atomics[·]?) = (objs.flatMap Depends.provides).map some := by
  have key : ∀ (os : List Obj) (pss : List (List Nat)), pss.length = os.length →
      (∀ (k : Nat) o, os[k]? = some o → ∃ ids : List Nat, pss[k]? = some ids ∧
        ids.map (g.atomics[·]?) = (Depends.provides o).map some) →
      pss.flatten.map (g.atomics[·]?) = (os.flatMap Depends.provides).map some := by
    intro os
    induction os with
    | nil => intro pss hl _; simp at hl; simp [hl]
    | cons o os ih =>
      intro pss hl hk
      cases pss with
      | nil => simp at hl
      | cons ps pss =>
        simp only [List.length_cons, Nat.add_right_cancel_iff] at hl
        obtain ⟨ids, h1, h2⟩ := hk 0 o rfl
        simp only [List.getElem?_cons_zero, Option.some.injEq] at h1
        subst h1
        simp only [List.flatten_cons, List.map_append, List.flatMap_cons, h2]
        rw [ih pss hl (fun k o' h' => by simpa using hk (k + 1) o' (by simpa using h'))]
  exact key objs g.provide h.plen h.prov

theorem count_map_some {a : List U} (hn : a.Nodup) : ∀ {ids : List Nat} {us : List U},
    ids.map (a[·]?) = us.map some → ∀ {i : Nat} {u : U}, a[i]? = some u →
      ids.count i = us.count u := by
  intro ids
  induction ids with
  | nil =>
    intro us h
    have : us = [] := by simpa using h.symm
    simp [this]
  | cons j ids ih =>
    intro us h i u hi
    cases us with
    | nil => simp at h
    | cons w us =>
      simp only [List.map_cons, List.cons.injEq] at h
      rw [List.count_cons, List.count_cons, ih h.2 hi]
      congr 1
      have : (j == i) = (w == u) := by
        rw [Bool.eq_iff_iff]
        simp only [beq_iff_eq]
        constructor
        · intro e
          subst e
          have := h.1.symm.trans hi
          simpa using this
        · intro e
          subst e
          exact nodup_id_unique hn h.1 hi
      rw [this]

theorem OK.prov_at (h : OK g ctx objs) {k : Nat} {ps : List Nat} (hk : g.provide[k]? = some ps) :
    ∃ o, objs[k]? = some o ∧ ps.map (g.atomics[·]?) = (Depends.provides o).map some := by
  have hl : k < objs.length := by rw [← h.plen]; exact lt_of_getElem?_some hk
  obtain ⟨ids, h1, h2⟩ := h.prov k objs[k] (List.getElem?_eq_getElem hl)
  rw [hk] at h1
  cases h1
  exact ⟨_, List.getElem?_eq_getElem hl, h2⟩

theorem OK.req_at (h : OK g ctx objs) {k : Nat} {rs : List Nat} (hk : g.require[k]? = some rs) :
    ∃ o, objs[k]? = some o ∧ rs.map (g.atomics[·]?) = (Depends.requires o).map some := by
  have hl : k < objs.length := by rw [← h.rlen]; exact lt_of_getElem?_some hk
  obtain ⟨ids, h1, h2⟩ := h.req k objs[k] (List.getElem?_eq_getElem hl)
  rw [hk] at h1
  cases h1
  exact ⟨_, List.getElem?_eq_getElem hl, h2⟩

/-- Errors found while building the maps tell the truth. -/
theorem RefusedAny.truthful (h : OK g ctx objs) {e : GErr U}
    (hr : RefusedAny g g.provide g.require e) (iface : List U) : Truthful ctx objs iface e := by
  cases hr with
  | context p k ps h1 h2 h3 =>
    obtain ⟨o, ho, hm⟩ := h.prov_at h1
    obtain ⟨u, hu, hpu⟩ := map_some_mem hm h2
    simp only [reportUnit, hpu, Truthful]
    exact ⟨(h.ext p u hpu).1 h3, o, List.mem_of_getElem? ho, hu⟩
  | twice p h1 =>
    have hmem : p ∈ g.provide.flatten := List.count_pos_iff.1 (by omega)
    obtain ⟨u, _, hpu⟩ := map_some_mem h.provide_flatten hmem
    simp only [reportUnit, hpu, Truthful]
    rw [← count_map_some h.nodup h.provide_flatten hpu]
    exact h1
  | self p k ps rs h1 h2 h3 h4 =>
    obtain ⟨o, ho, hm⟩ := h.prov_at h1
    obtain ⟨o', ho', hm'⟩ := h.req_at h2
    rw [ho] at ho'
    cases ho'
    obtain ⟨u, hu, hpu⟩ := map_some_mem hm h3
    obtain ⟨u', hu', hpu'⟩ := map_some_mem hm' h4
    rw [hpu] at hpu'
    cases hpu'
    simp only [reportUnit, hpu, Truthful]
    exact ⟨o, List.mem_of_getElem? ho, hu, hu'⟩

/-- The constraint graph of a set of maps. -/
abbrev cgraph (g : Graph Obj U) (m : Maps) : List (List Nat) :=
  (List.range g.atomics.length).map m.constraints

theorem cgraph_edge {m : Maps} {v w : Nat} :
    Edge (cgraph g m) v w ↔ v < g.atomics.length ∧ w ∈ m.constraints v := by
  constructor
  · rintro ⟨cs, h1, h2⟩
    simp only [cgraph, List.getElem?_map, Option.map_eq_some_iff] at h1
    obtain ⟨a, h1, rfl⟩ := h1
    have hl := lt_of_getElem?_some h1
    rw [List.length_range] at hl
    rw [List.getElem?_range hl] at h1
    cases h1
    exact ⟨hl, h2⟩
  · rintro ⟨h1, h2⟩
    exact ⟨m.constraints v, by simp [cgraph, List.getElem?_map, List.getElem?_range h1], h2⟩

/-- Edges between ids are needs between units. -/
theorem edge_needs (h : OK g ctx objs) {m : Maps} (hm : MapsOK g.provide g.require m) {v w : Nat}
    {u : U} (hv : g.atomics[v]? = some u) (he : Edge (cgraph g m) v w) :
    ∃ x, g.atomics[w]? = some x ∧ Needs objs u x := by
  obtain ⟨_, hw⟩ := cgraph_edge.1 he
  cases hp : m.provider v with
  | none => rw [hm.nothing v hp] at hw; cases hw
  | some k =>
    obtain ⟨ps, h1, h2⟩ := (hm.provider v k).1 hp
    obtain ⟨o, ho, hmp⟩ := h.prov_at h1
    obtain ⟨rs, hr, hmr⟩ := h.req k o ho
    rw [hm.constraints v k rs hp hr] at hw
    obtain ⟨x, hx, hwx⟩ := map_some_mem hmr hw
    obtain ⟨u', hu', hvu⟩ := map_some_mem hmp h2
    rw [hv] at hvu
    cases hvu
    exact ⟨x, hwx, o, List.mem_of_getElem? ho, hu', hx⟩

theorem needs_edge (h : OK g ctx objs) {m : Maps} (hm : MapsOK g.provide g.require m) {u x : U}
    (hn : Needs objs u x) : ∃ v w, g.atomics[v]? = some u ∧ g.atomics[w]? = some x ∧
      Edge (cgraph g m) v w := by
  obtain ⟨o, ho, hu, hx⟩ := hn
  obtain ⟨k, hk, hko⟩ := List.mem_iff_getElem.1 ho
  have hk' : objs[k]? = some o := by rw [List.getElem?_eq_getElem hk, hko]
  obtain ⟨ps, h1, h2⟩ := h.prov k o hk'
  obtain ⟨rs, h3, h4⟩ := h.req k o hk'
  obtain ⟨v, hv, hvu⟩ := map_some_mem' h2 hu
  obtain ⟨w, hw, hwx⟩ := map_some_mem' h4 hx
  refine ⟨v, w, hvu, hwx, cgraph_edge.2 ⟨lt_of_getElem?_some hvu, ?_⟩⟩
  rw [hm.constraints v k rs ((hm.provider v k).2 ⟨ps, h1, hv⟩) h3]
  exact hw

theorem trans_edge_needs (h : OK g ctx objs) {m : Maps} (hm : MapsOK g.provide g.require m)
    {v w : Nat} (ht : Relation.TransGen (Edge (cgraph g m)) v w) :
    ∀ {u : U}, g.atomics[v]? = some u → ∃ x, g.atomics[w]? = some x ∧
      Relation.TransGen (Needs objs) u x := by
  induction ht with
  | single he =>
    intro u hv
    obtain ⟨x, h1, h2⟩ := edge_needs h hm hv he
    exact ⟨x, h1, .single h2⟩
  | tail _ he ih =>
    intro u hv
    obtain ⟨x, h1, h2⟩ := ih hv
    obtain ⟨y, h3, h4⟩ := edge_needs h hm h1 he
    exact ⟨y, h3, .tail h2 h4⟩

theorem trans_needs_edge (h : OK g ctx objs) {m : Maps} (hm : MapsOK g.provide g.require m)
    {u x : U} (ht : Relation.TransGen (Needs objs) u x) :
    ∃ v w, g.atomics[v]? = some u ∧ g.atomics[w]? = some x ∧
      Relation.TransGen (Edge (cgraph g m)) v w := by
  induction ht with
  | single he =>
    obtain ⟨v, w, h1, h2, h3⟩ := needs_edge h hm he
    exact ⟨v, w, h1, h2, .single h3⟩
  | tail _ he ih =>
    obtain ⟨v, w, h1, h2, h3⟩ := ih
    obtain ⟨v', w', h4, h5, h6⟩ := needs_edge h hm he
    have := nodup_id_unique h.nodup h2 h4
    subst this
    exact ⟨v, w', h1, h5, .tail h3 h6⟩

/-- Acyclicity of the id graph and of the needs are the same. -/
theorem acyclic_iff (h : OK g ctx objs) {m : Maps} (hm : MapsOK g.provide g.require m) :
    (∀ v, ¬ Relation.TransGen (Edge (cgraph g m)) v v) ↔ ∀ u : U, ¬ OnCycle objs u := by
  constructor
  · intro hac u hu
    obtain ⟨v, w, h1, h2, h3⟩ := trans_needs_edge h hm hu
    have := nodup_id_unique h.nodup h1 h2
    subst this
    exact hac v h3
  · intro hac v hv
    have hl : v < g.atomics.length := by
      obtain ⟨c, h1, _⟩ := Relation.TransGen.head'_iff.1 hv
      exact (cgraph_edge.1 h1).1
    have hu : g.atomics[v]? = some g.atomics[v] := List.getElem?_eq_getElem hl
    obtain ⟨x, h1, h2⟩ := trans_edge_needs h hm hv hu
    rw [hu] at h1
    cases h1
    exact hac _ h2

theorem refl_edge_needs (h : OK g ctx objs) {m : Maps} (hm : MapsOK g.provide g.require m)
    {v w : Nat} (ht : Relation.ReflTransGen (Edge (cgraph g m)) v w) {u x : U}
    (hv : g.atomics[v]? = some u) (hw : g.atomics[w]? = some x) :
    Relation.ReflTransGen (Needs objs) u x := by
  rcases Relation.reflTransGen_iff_eq_or_transGen.1 ht with rfl | ht
  · rw [hv] at hw; cases hw; exact .refl
  · obtain ⟨y, h1, h2⟩ := trans_edge_needs h hm ht hv
    rw [hw] at h1
    cases h1
    exact h2.to_reflTransGen

theorem filterMap_ids_nodup (h : OK g ctx objs) {c : List Nat} (hn : c.Nodup)
    (hlt : ∀ i ∈ c, i < g.atomics.length) :
    (c.filterMap (fun l => g.atomics[l]?)).length = c.length ∧
      (c.filterMap (fun l => g.atomics[l]?)).Nodup := by
  constructor
  · clear hn
    induction c with
    | nil => rfl
    | cons i c ih =>
      have hi := hlt i (by simp)
      have := ih (fun j hj => hlt j (by simp [hj]))
      simp [List.getElem?_eq_getElem hi, this]
  · refine List.Nodup.filterMap ?_ hn
    intro i j u hi hj
    exact nodup_id_unique h.nodup (by simpa using hi) (by simpa using hj)

end

/-- The full specification of `scheduling`. -/
theorem scheduling_spec {g : Graph Obj U} {ctx : List U} {objs : List Obj} (h : OK g ctx objs)
    (iface : List U) :
    (∃ s, g.scheduling = .ok s ∧ s.Perm objs ∧ DefinedBeforeUse s ∧
      (∀ u ∈ ctx, ∀ o ∈ objs, u ∉ Depends.provides o) ∧
      (objs.flatMap Depends.provides).Nodup ∧ ∀ u : U, ¬ OnCycle objs u) ∨
    (∃ e, g.scheduling = .error e ∧ Truthful ctx objs iface e) := by
  rcases maps_spec h with ⟨m, hm, hok, hnd, hctx, hself⟩ | ⟨e, hm, hr⟩
  swap
  · right
    exact ⟨e, by simp [scheduling, hm, bind, Except.bind], hr.truthful h iface⟩
  have hlen : (cgraph g m).length = g.atomics.length := by simp [cgraph]
  have hg : ∀ v w, Edge (cgraph g m) v w → w < (cgraph g m).length := by
    intro v w he
    have hl := (cgraph_edge.1 he).1
    have hv : g.atomics[v]? = some g.atomics[v] := List.getElem?_eq_getElem hl
    obtain ⟨x, hx, _⟩ := edge_needs h hok hv he
    rw [hlen]
    exact lt_of_getElem?_some hx
  obtain ⟨scc, hs, hcl, hsn, hall, hne, hconn, hsing⟩ := sccs_ok (U := U) (graph := cgraph g m) hg
  have hprov : ∀ q k, m.provider q = some k → k < objs.length := by
    intro q k hq
    obtain ⟨ps, h1, _⟩ := (hok.provider q k).1 hq
    rw [← h.plen]
    exact lt_of_getElem?_some h1
  have hleft : g.elements.map some = leftover objs [] := by
    rw [h.elems]
    apply List.ext_getElem?
    intro i
    simp [leftover_get]
  have hctx' : ∀ u ∈ ctx, ∀ o ∈ objs, u ∉ (Depends.provides o : List U) := by
    intro u hu o ho hp
    obtain ⟨k, hk, hko⟩ := List.mem_iff_getElem.1 ho
    obtain ⟨ps, h1, h2⟩ := h.prov k o (by rw [List.getElem?_eq_getElem hk, hko])
    obtain ⟨p, hp1, hp2⟩ := map_some_mem' h2 hp
    exact hctx ps (List.mem_of_getElem? h1) p hp1 ((h.ext p u hp2).2 hu)
  have honce : (objs.flatMap Depends.provides : List U).Nodup :=
    (map_some_nodup h.nodup h.provide_flatten).1 hnd
  have hflat : ∀ c ∈ scc, ∀ i ∈ c, i < g.atomics.length := by
    intro c hc i hi
    rw [← hlen]
    exact (hall i).1 (List.mem_flatten.2 ⟨c, hc, hi⟩)
  by_cases hallsing : ∀ c ∈ scc, ∃ u, c = [u]
  · left
    -- all components are singletons
    have hscc : scc = scc.flatten.map (fun i => [i]) := by
      clear hcl hsn hall hne hconn hsing hflat hs
      induction scc with
      | nil => rfl
      | cons c scc ih =>
        obtain ⟨u, rfl⟩ := hallsing c (by simp)
        simp only [List.flatten_cons, List.singleton_append, List.map_cons]
        rw [← ih (fun c hc => hallsing c (by simp [hc]))]
    have hrank := hcl.rank hallsing hsn
    have hord : ∀ l₁ v l₂, scc.flatten = l₁ ++ v :: l₂ → ∀ w ∈ m.constraints v, w ∈ l₁ := by
      intro l₁ v l₂ he w hw
      have hv : v < g.atomics.length := by
        rw [← hlen]; exact (hall v).1 (by rw [he]; simp)
      rcases hrank l₁ v l₂ he w (cgraph_edge.2 ⟨hv, hw⟩) with h1 | rfl
      · exact h1
      · exfalso
        cases hp : m.provider w with
        | none => rw [hok.nothing w hp] at hw; cases hw
        | some k =>
          obtain ⟨ps, h1, h2⟩ := (hok.provider w k).1 hp
          obtain ⟨o, ho, _⟩ := h.prov_at h1
          obtain ⟨rs, h3, _⟩ := h.req k o ho
          rw [hok.constraints w k rs hp h3] at hw
          exact hself k ps rs h1 h3 w h2 hw
    have hlt : ∀ i ∈ scc.flatten, i < g.atomics.length := by
      intro i hi; rw [← hlen]; exact (hall i).1 hi
    obtain ⟨ks, out, hd, ht, ho⟩ := drain_spec (g := g) m hprov scc.flatten [] [] []
      hlt .nil rfl
    rw [← hscc] at hd
    rw [List.nil_append] at ht
    have hsched : g.scheduling = .ok (out ++ (leftover objs ks).filterMap id) := by
      have hs' : sccs (U := U) ((List.range g.atomics.length).map m.constraints) = .ok scc := hs
      simp only [scheduling, hm, bind, Except.bind, hs', hleft, hd, pure, Except.pure]
    have hsome : (out ++ (leftover objs ks).filterMap id).map some =
        (finalOrder objs.length ks).map (objs[·]?) := by
      rw [List.map_append, filterMap_leftover, finalOrder, List.map_append, ho]
    have hklt : ∀ k ∈ ks, k < objs.length := by
      intro k hk
      obtain ⟨i, _, hp⟩ := (ht.mem k).1 hk
      exact hprov i k hp
    have hperm : (out ++ (leftover objs ks).filterMap id).Perm objs := by
      have h1 : ((out ++ (leftover objs ks).filterMap id).map some).Perm (objs.map some) := by
        rw [hsome, ← map_range_getElem? objs]
        exact (finalOrder_perm ht.nodup hklt).map _
      exact (List.map_perm_map_iff (fun _ _ e => by simpa using e)).1 h1
    refine ⟨_, hsched, hperm, ?_, hctx', honce, ?_⟩
    · intro l₁ o l₂ he u hu o' ho' hu'
      -- positions
      rw [he] at hsome
      rw [List.map_append, List.map_cons] at hsome
      obtain ⟨k₁, krest, hk, hk1, hk2⟩ := List.map_eq_append_iff.1 hsome.symm
      obtain ⟨k, k₂, rfl, hko, hk2⟩ := List.map_eq_cons_iff.1 hk2
      obtain ⟨k', hk', hko'⟩ := List.mem_iff_getElem.1 (hperm.mem_iff.1 ho')
      have hko'' : objs[k']? = some o' := by rw [List.getElem?_eq_getElem hk', hko']
      -- ids
      obtain ⟨rs, hr, hrm⟩ := h.req k o hko
      obtain ⟨r, hr1, hr2⟩ := map_some_mem' hrm hu
      obtain ⟨ps', hp', hpm'⟩ := h.prov k' o' hko''
      obtain ⟨r', hr1', hr2'⟩ := map_some_mem' hpm' hu'
      have := nodup_id_unique h.nodup hr2 hr2'
      subst this
      have hprovr : m.provider r = some k' := (hok.provider r k').2 ⟨ps', hp', hr1'⟩
      have hk'ks : k' ∈ ks := (ht.mem k').2 ⟨r, (hall r).2 (by
        rw [hlen]; exact lt_of_getElem?_some hr2), hprovr⟩
      have hk'1 : k' ∈ k₁ := by
        by_cases hkks : k ∈ ks
        · -- taken because of one of its units
          obtain ⟨a, b, hab⟩ := List.append_of_mem hkks
          have hfo : finalOrder objs.length ks =
              a ++ k :: (b ++ (List.range objs.length).filter (fun k => k ∉ ks)) := by
            unfold finalOrder
            rw [hab]
            simp
          have hnodup : (finalOrder objs.length ks).Nodup :=
            ((finalOrder_perm ht.nodup hklt).nodup_iff).2 List.nodup_range
          have hk1a : k₁ = a := by
            rw [hk] at hfo hnodup
            exact (split_unique hnodup hfo).1
          rw [hk1a]
          obtain ⟨v, hv, hvw⟩ := ht.order hord a k b hab
          refine hvw r ?_ k' hprovr
          rw [hok.constraints v k rs hv hr]
          exact hr1
        · -- left over: comes after everything taken
          have hfo := hk
          unfold finalOrder at hfo
          rcases List.append_eq_append_iff.1 hfo with ⟨as, h1, h2⟩ | ⟨as, h1, h2⟩
          · rw [h1]; exact List.mem_append_left _ hk'ks
          · cases as with
            | nil => rw [h1, List.append_nil] at hk'ks; exact hk'ks
            | cons x as =>
              simp only [List.cons_append, List.cons.injEq] at h2
              exfalso
              apply hkks
              rw [h1, h2.1]
              simp
      have : some o' ∈ l₁.map some := by
        rw [← hk1]
        exact List.mem_map.2 ⟨k', hk'1, hko''⟩
      simpa using this
    · -- acyclic
      rw [← acyclic_iff h hok]
      intro v hv
      have hrankTrans : ∀ w, Relation.TransGen (Edge (cgraph g m)) v w →
          ∀ l₁ l₂, scc.flatten = l₁ ++ v :: l₂ → w ∈ l₁ := by
        intro w hw
        induction hw with
        | single he =>
          intro l₁ l₂ e
          exact hord l₁ v l₂ e _ (cgraph_edge.1 he).2
        | @tail b c _ he ih =>
          intro l₁ l₂ e
          obtain ⟨a, a', ha⟩ := List.append_of_mem (ih l₁ l₂ e)
          have := hord a b (a' ++ v :: l₂) (by rw [e, ha]; simp) c (cgraph_edge.1 he).2
          rw [ha]
          exact List.mem_append_left _ this
      have hvl : v < g.atomics.length := by
        obtain ⟨c, h1, _⟩ := Relation.TransGen.head'_iff.1 hv
        exact (cgraph_edge.1 h1).1
      obtain ⟨l₁, l₂, e⟩ := List.append_of_mem ((hall v).2 (by rw [hlen]; exact hvl))
      have := hrankTrans v hv l₁ l₂ e
      rw [e] at hsn
      exact (List.nodup_append.1 hsn).2.2 v this v (by simp) rfl
  · right
    have hex : ∃ c ∈ scc, ∀ u, c ≠ [u] := by
      by_contra hc
      apply hallsing
      intro c hcm
      by_contra hcu
      exact hc ⟨c, hcm, fun u e => hcu ⟨u, e⟩⟩
    obtain ⟨c, hc, hlc, hd⟩ := drain_cycle (g := g) m hprov scc [] [] hne hex
    refine ⟨.cycle (c.filterMap (fun l => g.atomics[l]?)), ?_, ?_⟩
    · have hs' : sccs (U := U) ((List.range g.atomics.length).map m.constraints) = .ok scc := hs
      simp only [scheduling, hm, bind, Except.bind, hs', hleft, hd]
    · have hcn : c.Nodup := by
        obtain ⟨a, b, hab⟩ := List.append_of_mem hc
        rw [hab, List.flatten_append, List.flatten_cons] at hsn
        exact (List.nodup_append.1 (List.nodup_append.1 hsn).2.1).1
      obtain ⟨h1, h2⟩ := filterMap_ids_nodup h hcn (hflat c hc)
      refine ⟨by rw [h1]; exact hlc, h2, ?_, fun u hu w huw hwu => ?_⟩
      swap
      · obtain ⟨i, hi, hiu⟩ := List.mem_filterMap.1 hu
        obtain ⟨v, j, hv, hj, h3⟩ := trans_needs_edge h hok huw
        obtain ⟨j', v', hj', hv', h4⟩ := trans_needs_edge h hok hwu
        cases nodup_id_unique h.nodup hv hiu
        cases nodup_id_unique h.nodup hv' hiu
        cases nodup_id_unique h.nodup hj' hj
        exact List.mem_filterMap.2 ⟨j, hcl.component hsn c hc _ hi _ h3 h4, hj⟩
      intro u hu w hw
      obtain ⟨i, hi, hiu⟩ := List.mem_filterMap.1 hu
      obtain ⟨j, hj, hjw⟩ := List.mem_filterMap.1 hw
      exact refl_edge_needs h hok (hconn c hc i hi j hj) hiu hjw
where
  split_unique {a b c d : List Nat} {k : Nat} (hn : (a ++ k :: b).Nodup)
      (he : a ++ k :: b = c ++ k :: d) : a = c ∧ b = d := by
    induction a generalizing c with
    | nil =>
      cases c with
      | nil => simpa using he
      | cons x c =>
        simp only [List.nil_append, List.cons_append, List.cons.injEq] at he
        obtain ⟨rfl, he⟩ := he
        exfalso
        have := (List.nodup_cons.1 hn).1
        rw [he] at this
        simp at this
    | cons x a ih =>
      cases c with
      | nil =>
        simp only [List.nil_append, List.cons_append, List.cons.injEq] at he
        obtain ⟨rfl, he⟩ := he
        exfalso
        have := (List.nodup_cons.1 hn).1
        simp at this
      | cons y c =>
        simp only [List.cons_append, List.cons.injEq] at he
        obtain ⟨rfl, he⟩ := he
        obtain ⟨h1, h2⟩ := ih (List.nodup_cons.1 hn).2 he
        exact ⟨by rw [h1], h2⟩

theorem schedule_built (ctx : List U) (objs : List Obj) :
    OK (objs.foldl Graph.insert (ctx.foldl Graph.alreadyProvided (Graph.empty : Graph Obj U)))
      ctx objs := by
  have h1 : ∀ (c c0 : List U) (g : Graph Obj U), OK g c0 [] →
      OK (c.foldl Graph.alreadyProvided g) (c0 ++ c) [] := by
    intro c
    induction c with
    | nil => intro c0 g h; simpa using h
    | cons u c ih =>
      intro c0 g h
      have := ih (c0 ++ [u]) _ (h.alreadyProvided u)
      simpa using this
  have h2 : ∀ (os os0 : List Obj) (g : Graph Obj U), OK g ctx os0 →
      OK (os.foldl Graph.insert g) ctx (os0 ++ os) := by
    intro os
    induction os with
    | nil => intro os0 g h; simpa using h
    | cons o os ih =>
      intro os0 g h
      have := ih (os0 ++ [o]) _ (h.insert o)
      simpa using this
  have := h2 objs [] _ (by simpa using h1 ctx [] _ OK.empty)
  simpa using this

/-- The full specification of `schedule`. -/
theorem schedule_spec (ctx : List U) (objs : List Obj) (iface : List U) :
    (∃ s, schedule ctx objs iface = .ok s ∧ s.Perm objs ∧ DefinedBeforeUse s ∧
      Schedulable ctx objs iface) ∨
    (∃ e, schedule ctx objs iface = .error e ∧ Truthful ctx objs iface e) := by
  have key : ∀ (fs : List U) (g : Graph Obj U), OK g ctx objs → (∀ u ∈ fs, u ∈ iface) →
      (∃ g', fs.foldlM Graph.mustProvide g = .ok g' ∧ OK g' ctx objs ∧
        ∀ u ∈ fs, ∃ o ∈ objs, u ∈ Depends.provides o) ∨
      (∃ e, fs.foldlM Graph.mustProvide g = .error e ∧ Truthful ctx objs iface e) := by
    intro fs
    induction fs with
    | nil => intro g h _; left; exact ⟨g, rfl, h, by simp⟩
    | cons u fs ih =>
      intro g h hsub
      rcases h.mustProvide u with ⟨g', h1, h2, h3⟩ | ⟨h1, h2⟩
      · rcases ih g' h2 (fun x hx => hsub x (by simp [hx])) with ⟨g'', h4, h5, h6⟩ | ⟨e, h4, h5⟩
        · left
          refine ⟨g'', by simp [List.foldlM_cons, h1, bind, Except.bind, h4], h5, ?_⟩
          intro x hx
          rcases List.mem_cons.1 hx with rfl | hx
          · exact h3
          · exact h6 x hx
        · right; exact ⟨e, by simp [List.foldlM_cons, h1, bind, Except.bind, h4], h5⟩
      · right
        exact ⟨.undeclared u, by simp [List.foldlM_cons, h1, bind, Except.bind],
          hsub u (by simp), h2⟩
  rcases key iface _ (schedule_built ctx objs) (fun _ h => h) with ⟨g, h1, h2, h3⟩ | ⟨e, h1, h2⟩
  · rcases scheduling_spec h2 iface with ⟨s, h4, h5, h6, h7, h8, h9⟩ | ⟨e, h4, h5⟩
    · left
      exact ⟨s, by simp [schedule, h1, bind, Except.bind, h4], h5, h6, ⟨h7, h8, h3, h9⟩⟩
    · right; exact ⟨e, by simp [schedule, h1, bind, Except.bind, h4], h5⟩
  · right; exact ⟨e, by simp [schedule, h1, bind, Except.bind], h2⟩

end Chandeliers.San.Graph
