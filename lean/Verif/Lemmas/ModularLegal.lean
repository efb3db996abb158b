import Verif.Spec.Modular
import Verif.Lemmas.LegalOrder

/-! # Legality of parts and of unions -/

set_option autoImplicit false

namespace Chandeliers.Fol
open Chandeliers.San Chandeliers.Spec Chandeliers.Syn Chandeliers.Spec.Static

theorem refers_mem {item : SrcItem} {fs xs : List String} (h : Den.Refers item fs xs) :
    (∀ f, f ∈ fs ↔ ∃ e ∈ expressions item, f ∈ callees e) ∧
    ∀ x, x ∈ xs ↔ (∃ e ∈ expressions item, x ∈ names e) ∧ x ∉ ownNames item := by
  cases item with
  | const c =>
    obtain ⟨rfl, rfl⟩ := h
    simp [expressions, ownNames]
  | node n =>
    obtain ⟨rfl, rfl⟩ := h
    constructor
    · intro f
      simp [expressions, List.mem_flatMap]
    · intro x
      rw [List.mem_filter, List.mem_flatMap]
      refine and_congr (by simp [expressions]) ?_
      rw [Option.isNone_iff_eq_none, List.find?_eq_none]
      simp [ownNames, variablesOf]
  | extConst x t => obtain ⟨rfl, rfl⟩ := h; simp [expressions]
  | extNode f i o => obtain ⟨rfl, rfl⟩ := h; simp [expressions]

/-- A path that starts in a part with no way out stays in it. -/
theorem stays {α : Type} {R S : α → α → Prop} {P : α → Prop}
    (h : ∀ x y, P x → R x y → S x y ∧ P y) {x y : α} (hr : Relation.TransGen R x y) :
    P x → Relation.TransGen S x y := by
  induction hr using Relation.TransGen.head_induction_on with
  | single hr => exact fun hp => .single (h _ _ hp hr).1
  | head hr _ ih => exact fun hp => .head (h _ _ hp hr).1 (ih (h _ _ hp hr).2)

/-- A part of a legal program that has all that it needs is legal. -/
theorem legal_part {p r : SrcProg} (hr : Legal r) (hn : p.Nodup) (hs : ∀ d ∈ p, d ∈ r)
    (hc : Closed p r) : Legal p := by
  obtain ⟨l, hl, hsub⟩ := hn.subperm hs
  have n1 : ((p.filterMap constant).map (·.1)).Nodup :=
    (((hl.filterMap constant).map (·.1)).nodup_iff).1
      (((hsub.filterMap constant).map (·.1)).nodup hr.constNames)
  have n2 : ((p.filterMap nodeSig).map (·.1)).Nodup :=
    (((hl.filterMap nodeSig).map (·.1)).nodup_iff).1
      (((hsub.filterMap nodeSig).map (·.1)).nodup hr.nodeNames)
  refine ⟨fun d hd => hr.attributes d (hs d hd), n1, n2, fun d hd => ?_, fun x hx => ?_,
    fun f hf => ?_⟩
  · have hi := hr.items d (hs d hd)
    refine (Den.legalItem_agree fun fs xs hf => ?_).2 hi
    obtain ⟨h1, h2⟩ := Den.legalItem_finds hi fs xs hf
    obtain ⟨m1, m2⟩ := refers_mem hf
    constructor
    · intro f hf
      obtain ⟨s, h3⟩ := Option.isSome_iff_exists.1 (h1 f hf)
      obtain ⟨d', hd', he⟩ := List.mem_filterMap.1 (Den.find_some_mem h3)
      obtain ⟨e, k1, k2⟩ := (m1 f).1 hf
      rw [h3]
      exact Den.find_mem n2 (List.mem_filterMap.2 ⟨d', hc d hd d' hd' (.node k1 k2 he), he⟩)
    · intro x hx
      obtain ⟨s, h3⟩ := Option.isSome_iff_exists.1 (h2 x hx)
      obtain ⟨d', hd', he⟩ := List.mem_filterMap.1 (Den.find_some_mem h3)
      obtain ⟨⟨e, k1, k2⟩, k3⟩ := (m2 x).1 hx
      rw [h3]
      exact Den.find_mem n1 (List.mem_filterMap.2 ⟨d', hc d hd d' hd' (.const k1 k2 k3 he), he⟩)
  · exact hr.constCycles x (stays (P := fun _ => True)
      (fun _ _ _ ⟨at', c, h1, h2, h3⟩ => ⟨⟨at', c, hs _ h1, h2, h3⟩, trivial⟩) hx trivial)
  · exact hr.nodeCycles f (stays (P := fun _ => True)
      (fun _ _ _ ⟨at', n, h1, h2, h3⟩ => ⟨⟨at', n, hs _ h1, h2, h3⟩, trivial⟩) hf trivial)

theorem find_left {α : Type} {l r : List (String × α)} {x : String} (h : (find l x).isSome = true) :
    find (l ++ r) x = find l x := by
  rw [Den.find_append]
  obtain ⟨a, h⟩ := Option.isSome_iff_exists.1 h
  rw [h]
  rfl

theorem find_right {α : Type} {l r : List (String × α)} {x : String}
    (hd : x ∈ l.map (·.1) → x ∉ r.map (·.1)) (h : (find r x).isSome = true) :
    find (l ++ r) x = find r x := by
  rw [Den.find_append]
  cases hx : find l x with
  | none => rfl
  | some a =>
    exact absurd (Den.find_isSome.1 h) (hd (Den.find_isSome.1 (by rw [hx]; rfl)))

theorem nodup_disjoint {l r : List String} (hl : l.Nodup) (hr : r.Nodup) (h : ∀ x ∈ l, x ∉ r) :
    (l ++ r).Nodup :=
  List.nodup_append.2 ⟨hl, hr, fun a ha _ hb e => h a ha (e ▸ hb)⟩

theorem disjoint_symm {p q : SrcProg} (h : Static.Disjoint p q) : Static.Disjoint q p :=
  ⟨fun x h1 h2 => h.consts x h2 h1, fun x h1 h2 => h.nodes x h2 h1⟩

/-- In a legal program constants are defined from constants of the program. -/
theorem const_closed {p : SrcProg} (hp : Legal p) {attrs : List Attribute} {c : SrcConst} {y : String}
    (hd : ⟨attrs, .const c⟩ ∈ p) (hy : y ∈ names c.value) : y ∈ (p.filterMap constant).map (·.1) :=
  Den.find_isSome.1 ((Den.legalItem_finds (hp.items _ hd) _ _ ⟨rfl, rfl⟩).2 y hy)

theorem node_closed {p : SrcProg} (hp : Legal p) {attrs : List Attribute} {n : SrcNode} {g : String}
    {st : SrcStmt} (hd : ⟨attrs, .node n⟩ ∈ p) (hst : st ∈ n.defs)
    (hy : g ∈ callees (SrcStmt.expr st)) : g ∈ (p.filterMap nodeSig).map (·.1) :=
  Den.find_isSome.1 ((Den.legalItem_finds (hp.items _ hd) _ _ ⟨rfl, rfl⟩).1 g
    (List.mem_flatMap.2 ⟨st, hst, hy⟩))

theorem const_named {p : SrcProg} {attrs : List Attribute} {c : SrcConst}
    (hd : ⟨attrs, .const c⟩ ∈ p) : c.name ∈ (p.filterMap constant).map (·.1) :=
  List.mem_map.2 ⟨_, List.mem_filterMap.2 ⟨_, hd, rfl⟩, rfl⟩

theorem node_named {p : SrcProg} {attrs : List Attribute} {n : SrcNode}
    (hd : ⟨attrs, .node n⟩ ∈ p) : n.name ∈ (p.filterMap nodeSig).map (·.1) :=
  List.mem_map.2 ⟨_, List.mem_filterMap.2 ⟨_, hd, rfl⟩, rfl⟩

/-- Two legal programs with different names are one. -/
theorem legal_union {p q : SrcProg} (hp : Legal p) (hq : Legal q) (hd : Static.Disjoint p q) :
    Legal (p ++ q) := by
  have hd' := disjoint_symm hd
  refine ⟨fun d hm => (List.mem_append.1 hm).elim (hp.attributes d) (hq.attributes d), ?_, ?_,
    fun d hm => ?_, fun x hx => ?_, fun f hf => ?_⟩
  · rw [List.filterMap_append, List.map_append]
    exact nodup_disjoint hp.constNames hq.constNames hd.consts
  · rw [List.filterMap_append, List.map_append]
    exact nodup_disjoint hp.nodeNames hq.nodeNames hd.nodes
  · rw [List.filterMap_append, List.filterMap_append]
    rcases List.mem_append.1 hm with hm | hm
    · have hi := hp.items d hm
      refine (Den.legalItem_agree fun fs xs hf => ?_).2 hi
      obtain ⟨h1, h2⟩ := Den.legalItem_finds hi fs xs hf
      exact ⟨fun f hf => find_left (h1 f hf), fun x hx => find_left (h2 x hx)⟩
    · have hi := hq.items d hm
      refine (Den.legalItem_agree fun fs xs hf => ?_).2 hi
      obtain ⟨h1, h2⟩ := Den.legalItem_finds hi fs xs hf
      exact ⟨fun f hf => find_right (hd.nodes f) (h1 f hf),
        fun x hx => find_right (hd.consts x) (h2 x hx)⟩
  · obtain ⟨y, ⟨at', c, hc, rfl, -⟩, -⟩ := Relation.TransGen.head'_iff.1 hx
    rcases List.mem_append.1 hc with hc | hc
    · refine hp.constCycles c.name (stays (P := (· ∈ (p.filterMap constant).map (·.1))) ?_ hx
        (const_named hc))
      rintro _ y hP ⟨at', c', hm, rfl, hy⟩
      rcases List.mem_append.1 hm with hm | hm
      · exact ⟨⟨at', c', hm, rfl, hy⟩, const_closed hp hm hy⟩
      · exact absurd (const_named hm) (hd.consts _ hP)
    · refine hq.constCycles c.name (stays (P := (· ∈ (q.filterMap constant).map (·.1))) ?_ hx
        (const_named hc))
      rintro _ y hP ⟨at', c', hm, rfl, hy⟩
      rcases List.mem_append.1 hm with hm | hm
      · exact absurd (const_named hm) (hd'.consts _ hP)
      · exact ⟨⟨at', c', hm, rfl, hy⟩, const_closed hq hm hy⟩
  · obtain ⟨y, ⟨at', c, hc, rfl, -⟩, -⟩ := Relation.TransGen.head'_iff.1 hf
    rcases List.mem_append.1 hc with hc | hc
    · refine hp.nodeCycles c.name (stays (P := (· ∈ (p.filterMap nodeSig).map (·.1))) ?_ hf
        (node_named hc))
      rintro _ y hP ⟨at', c', hm, rfl, st, hst, hy⟩
      rcases List.mem_append.1 hm with hm | hm
      · exact ⟨⟨at', c', hm, rfl, st, hst, hy⟩, node_closed hp hm hst hy⟩
      · exact absurd (node_named hm) (hd.nodes _ hP)
    · refine hq.nodeCycles c.name (stays (P := (· ∈ (q.filterMap nodeSig).map (·.1))) ?_ hf
        (node_named hc))
      rintro _ y hP ⟨at', c', hm, rfl, st, hst, hy⟩
      rcases List.mem_append.1 hm with hm | hm
      · exact absurd (node_named hm) (hd'.nodes _ hP)
      · exact ⟨⟨at', c', hm, rfl, st, hst, hy⟩, node_closed hq hm hst hy⟩

end Chandeliers.Fol
