import Verif.Spec.Split
import Verif.Lemmas.Modular
import Verif.Lemmas.ModularLegal
import Verif.Lemmas.Replace
import Verif.Props.Steps

/-! # Programs in several invocations of the macro -/

set_option autoImplicit false

namespace Chandeliers.Fol
open Chandeliers.San Chandeliers.Spec Chandeliers.Syn Chandeliers.Spec.Static
open Chandeliers.Prg Chandeliers.Emt Chandeliers.Rep

section
variable {A : Arith} {X : Extern} {g g' : Globals}

/-- What one table knows, the other has something alike. -/
def SubAlike (N N₁ : String → Option Machine) : Prop :=
  ∀ f m, N f = some m → ∃ m', N₁ f = some m' ∧ Alike Eq m m'

/-- The nodes of a program are in the larger one, where those that are external here behave the same. -/
structure HoldsAlike (A : Arith) (X : Extern) (g : Globals) (N : String → Option Machine)
    (ds : List San.Decl) : Prop where
  nodes : ∀ n, .node n ∈ ds → ∃ ms, N n.name = some (n.machine A g ms) ∧ Linked ms N n.blocks ∧
    ms.length = n.blocks.length
  externs : ∀ n, .extNode n ∈ ds → ∃ m m', X.nodes n.name = some m ∧ N n.name = some m' ∧
    Alike Eq (wrapExtern m) m'

theorem linked_alike {N N₁ : String → Option Machine} {bs : List NodeInstance} {ms ms' : List Machine}
    (hN : SubAlike N N₁) (h : Linked ms N bs) (h' : Linked ms' N₁ bs) (hl : ms.length = bs.length)
    (hl' : ms'.length = bs.length) : List.Forall₂ (Alike Eq) ms ms' := by
  rw [List.forall₂_iff_get]
  refine ⟨by omega, fun i h1 h2 => ?_⟩
  have hb : bs[i]? = some bs[i] := List.getElem?_eq_getElem (by omega)
  have e1 := h i _ hb
  have e2 := h' i _ hb
  rw [List.getElem?_eq_getElem h1] at e1
  rw [List.getElem?_eq_getElem h2] at e2
  obtain ⟨m', k1, k2⟩ := hN _ _ e1.symm
  rw [k1] at e2
  cases e2
  exact k2

theorem linkNodes_subAlike {N₁ : String → Option Machine} {sigs : String → Option Sig}
    {consts : String → Option TyBase}
    {q : List SrcDecl} {ds : List San.Decl} (h : ProgPasses sigs consts q ds) :
    HoldsAlike A X g' N₁ ds → (∀ n, .node n ∈ ds → ∀ st ∈ n.stmts, ∀ e ∈ st.emitted, ∀ x ∈ globalsIn e,
      g x = g' x) →
    {N : String → Option Machine} → SubAlike N N₁ → (∀ f, sigs f ≠ none → N f ≠ none) →
    ∃ N', linkNodes A X g N ds = .ok N' ∧ SubAlike N' N₁ := by
  have step : ∀ {sigs : String → Option Sig} {N : String → Option Machine} {f : String} {t : Sig}
      {m : Machine}, (∀ x, sigs x ≠ none → N x ≠ none) → ∀ y, extend sigs f t y ≠ none →
        (if y = f then some m else N y) ≠ none := by
    intro sigs N x t v h y hy
    unfold extend at hy
    by_cases e : y = x
    · rw [if_pos e]; simp
    · rw [if_neg e] at hy ⊢; exact h y hy
  have below : ∀ {N : String → Option Machine} {f : String} {m m' : Machine}, SubAlike N N₁ →
      N₁ f = some m' → Alike Eq m m' → SubAlike (fun y => if y = f then some m else N y) N₁ := by
    intro N f m m' h1 h2 h3 y w hy
    by_cases e : y = f
    · subst e
      simp only [if_true, Option.some.injEq] at hy
      subst hy
      exact ⟨m', h2, h3⟩
    · simp only [e, if_false] at hy
      exact h1 y w hy
  induction h with
  | nil => intro _ _ N hN _; exact ⟨N, rfl, hN⟩
  | @const sigs consts attrs c c' ds ds' ht h hn hs ih =>
    intro hH hG N hN hk
    unfold linkNodes
    exact ih ⟨fun n hm => hH.nodes n (List.mem_cons_of_mem _ hm),
      fun n hm => hH.externs n (List.mem_cons_of_mem _ hm)⟩
      (fun n hm => hG n (List.mem_cons_of_mem _ hm)) hN hk
  | @extConst sigs consts attrs x ty ds ds' hn hs ih =>
    intro hH hG N hN hk
    unfold linkNodes
    exact ih ⟨fun n hm => hH.nodes n (List.mem_cons_of_mem _ hm),
      fun n hm => hH.externs n (List.mem_cons_of_mem _ hm)⟩
      (fun n hm => hG n (List.mem_cons_of_mem _ hm)) hN hk
  | @node sigs consts attrs src n ds ds' h hn hs ih =>
    intro hH hG N hN hk
    obtain ⟨ms, k1, k2, k3⟩ := hH.nodes n (List.mem_cons_self ..)
    obtain ⟨ms', hms⟩ := subnodes_some (N := N) (bs := n.blocks) fun b hb => by
      obtain ⟨s, e⟩ := blocks_known h b hb
      exact hk _ (by rw [e]; simp)
    obtain ⟨l1, l2⟩ := subnodes_linked hms
    have hname := (passes_sig h).1
    have em : n.machine A g ms' = n.machine A g' ms' :=
      machine_globals (hG n (List.mem_cons_self ..))
    have ha : Alike Eq (n.machine A g ms') (n.machine A g' ms) := by
      rw [em]
      exact machine_same (fun _ => rfl) A g' n (linked_alike hN l1 k2 (subnodes_length hms) k3)
    obtain ⟨N', r1, r2⟩ := ih ⟨fun n hm => hH.nodes n (List.mem_cons_of_mem _ hm),
      fun n hm => hH.externs n (List.mem_cons_of_mem _ hm)⟩
      (fun n hm => hG n (List.mem_cons_of_mem _ hm))
      (below (f := src.name) (m := n.machine A g ms') hN (by rw [← hname]; exact k1) ha) (step hk)
    refine ⟨N', ?_, r2⟩
    unfold linkNodes
    rw [hms, hname]
    exact r1
  | @extNode sigs consts attrs f ins outs ds ds' h hdt hn hs ih =>
    intro hH hG N hN hk
    obtain ⟨m, m', k1, k2, k3⟩ := hH.externs _ (List.mem_cons_self ..)
    obtain ⟨N', r1, r2⟩ := ih ⟨fun n hm => hH.nodes n (List.mem_cons_of_mem _ hm),
      fun n hm => hH.externs n (List.mem_cons_of_mem _ hm)⟩
      (fun n hm => hG n (List.mem_cons_of_mem _ hm))
      (below (f := f) (m := wrapExtern m) hN k2 k3) (step hk)
    refine ⟨N', ?_, r2⟩
    unfold linkNodes
    rw [k1]
    exact r1

/-- rustc accepts the nodes if the external ones exist. -/
theorem linkNodes_total {sigs : String → Option Sig} {consts : String → Option TyBase}
    {q : List SrcDecl} {ds : List San.Decl} (h : ProgPasses sigs consts q ds) :
    (∀ n, .extNode n ∈ ds → X.nodes n.name ≠ none) →
    {N : String → Option Machine} → (∀ f, sigs f ≠ none → N f ≠ none) →
    ∃ N', linkNodes A X g N ds = .ok N' := by
  have step : ∀ {sigs : String → Option Sig} {N : String → Option Machine} {f : String} {t : Sig}
      {m : Machine}, (∀ x, sigs x ≠ none → N x ≠ none) → ∀ y, extend sigs f t y ≠ none →
        (if y = f then some m else N y) ≠ none := by
    intro sigs N x t v h y hy
    unfold extend at hy
    by_cases e : y = x
    · rw [if_pos e]; simp
    · rw [if_neg e] at hy ⊢; exact h y hy
  induction h with
  | nil => intro _ N _; exact ⟨N, rfl⟩
  | const ht h hn hs ih =>
    intro hX N hk
    unfold linkNodes
    exact ih (fun n hm => hX n (List.mem_cons_of_mem _ hm)) hk
  | extConst hn hs ih =>
    intro hX N hk
    unfold linkNodes
    exact ih (fun n hm => hX n (List.mem_cons_of_mem _ hm)) hk
  | @node sigs consts attrs src n ds ds' h hn hs ih =>
    intro hX N hk
    obtain ⟨ms', hms⟩ := subnodes_some (N := N) (bs := n.blocks) fun b hb => by
      obtain ⟨s, e⟩ := blocks_known h b hb
      exact hk _ (by rw [e]; simp)
    obtain ⟨N', r1⟩ := ih (fun n hm => hX n (List.mem_cons_of_mem _ hm))
      (N := fun y => if y = src.name then some (n.machine A g ms') else N y) (step hk)
    refine ⟨N', ?_⟩
    unfold linkNodes
    rw [hms, (passes_sig h).1]
    exact r1
  | @extNode sigs consts attrs f ins outs ds ds' h hdt hn hs ih =>
    intro hX N hk
    obtain ⟨m, hm⟩ := Option.ne_none_iff_exists'.1 (hX _ (List.mem_cons_self ..))
    obtain ⟨N', r1⟩ := ih (fun n hm => hX n (List.mem_cons_of_mem _ hm))
      (N := fun y => if y = f then some (wrapExtern m) else N y) (step hk)
    refine ⟨N', ?_⟩
    unfold linkNodes
    rw [hm]
    exact r1

theorem alike_refl {E : Panic → Panic → Prop} (hE : ∀ p, E p p) (m : Machine) : Alike E m m :=
  ⟨rfl, fun _ => upto_none.1 (both_refl hE _)⟩

theorem alike_run {m m' : Machine} : Alike Eq m m' ↔ m.outTy = m'.outTy ∧ ∀ is, m.run is = m'.run is := by
  constructor
  · rintro ⟨h1, h2⟩
    refine ⟨h1, fun is => ?_⟩
    have := h2 is
    cases ha : m.run is <;> cases hb : m'.run is <;> rw [ha, hb] at this
    · exact congrArg _ this
    · exact this.elim
    · exact this.elim
    · exact congrArg _ this
  · rintro ⟨h1, h2⟩
    refine ⟨h1, fun is => ?_⟩
    rw [h2 is]
    exact upto_none.1 (both_refl (fun _ => rfl) _)

/-- An exported node, seen through an external declaration. -/
theorem imported_alike (n : Node) (ms : List Machine) :
    Alike Eq (wrapExtern (wrapExport (n.machine A g ms))) (n.machine A g ms) := by
  have h1 : Alike Eq (wrapExport (n.machine A g ms)) (n.machine A g ms) :=
    alike_run.2 ⟨rfl, fun is => Props.C38_export_transparent A g ms n is⟩
  have h2 : Alike Eq (wrapExport (wrapExport (n.machine A g ms))) (wrapExport (n.machine A g ms)) :=
    alike_milder.2 (wrapExport_alike (alike_milder.1 h1))
  refine alike_run.2 ⟨rfl, fun is => ?_⟩
  rw [Props.C38_extern_transparent, (alike_run.1 h2).2 is, (alike_run.1 h1).2 is]

end

/-! ## What the declarations become -/

theorem imports_same {d d' : SrcDecl} (h : Imports d d') :
    nodeSig d = nodeSig d' ∧ constant d = constant d' := by
  cases h with
  | const => exact ⟨rfl, rfl⟩
  | node h => exact ⟨h, rfl⟩

/-- The declarations of a program become what they become in another that has their names, with the
same types. -/
theorem same_types {r q₂ q₁ : SrcProg} {ds₂ ds₁ : List San.Decl} (hq : q₂.Perm r)
    (h : ProgPasses (fun _ => none) (fun _ => none) q₂ ds₂)
    (h₁ : ProgPasses (fun _ => none) (fun _ => none) q₁ ds₁)
    (hs : ∀ d ∈ q₁, ∃ d' ∈ r, nodeSig d = nodeSig d' ∧ constant d = constant d') :
    ∃ S' G', List.Forall₂ (Becomes S' G') q₂ ds₂ ∧ List.Forall₂ (Becomes S' G') q₁ ds₁ := by
  obtain ⟨n1, n2⟩ := keys_names (((hq.map key).nodup_iff).1 (passes_keys h).2)
  have hN : ∀ d ∈ r, ∀ f s, nodeSig d = some (f, s) →
      find (r.filterMap nodeSig) f = some s := fun d hd f s e =>
    Den.find_mem n1 (List.mem_filterMap.2 ⟨d, hd, e⟩)
  have hC : ∀ d ∈ r, ∀ x t, constant d = some (x, t) →
      find (r.filterMap constant) x = some t := fun d hd f s e =>
    Den.find_mem n2 (List.mem_filterMap.2 ⟨d, hd, e⟩)
  refine ⟨_, _, passes_becomes h (fun d hd => hN d (hq.mem_iff.1 hd))
      (fun d hd => hC d (hq.mem_iff.1 hd)) (fun _ _ h => by cases h) (fun _ _ h => by cases h),
    passes_becomes h₁ (fun d hd f s e => ?_) (fun d hd x t e => ?_) (fun _ _ h => by cases h)
      (fun _ _ h => by cases h)⟩
  · obtain ⟨d', k1, k2, -⟩ := hs d hd
    exact hN d' k1 f s (k2 ▸ e)
  · obtain ⟨d', k1, -, k2⟩ := hs d hd
    exact hC d' k1 x t (k2 ▸ e)

/-! ## Legality -/

theorem importOf_same (d : SrcDecl) :
    Static.nodeSig (importOf d) = Static.nodeSig d ∧ Static.constant (importOf d) = Static.constant d := by
  obtain ⟨a, i⟩ := d
  cases i with
  | const c => exact ⟨rfl, rfl⟩
  | extConst x t => exact ⟨rfl, rfl⟩
  | extNode f ins outs => exact ⟨rfl, rfl⟩
  | node n =>
    refine ⟨?_, rfl⟩
    simp [importOf, Static.nodeSig, signature, meaning, List.filter_filter]

theorem importOf_imports {d : SrcDecl} : importOf d = d ∨ Imports (importOf d) d := by
  obtain ⟨a, i⟩ := d
  cases i with
  | const c => exact .inr .const
  | extConst x t => exact .inl rfl
  | extNode f ins outs => exact .inl rfl
  | node n => exact .inr (.node (importOf_same ⟨a, .node n⟩).1)

theorem client_names (lib : SrcDecl → Bool) (r : SrcProg) :
    (client lib r).filterMap Static.nodeSig = r.filterMap Static.nodeSig ∧
    (client lib r).filterMap Static.constant = r.filterMap Static.constant := by
  unfold client
  rw [List.filterMap_map, List.filterMap_map]
  constructor
  · congr 1
    funext d
    simp only [Function.comp]
    split
    · exact (importOf_same d).1
    · rfl
  · congr 1
    funext d
    simp only [Function.comp]
    split
    · exact (importOf_same d).2
    · rfl

theorem importOf_legal {consts : String → Option TyBase} {nodes : String → Option Sig} {d : SrcDecl}
    (h : LegalItem consts nodes (meaning d.attrs) d.item) :
    LegalItem consts nodes (meaning (importOf d).attrs) (importOf d).item := by
  obtain ⟨a, i⟩ := d
  cases i with
  | const c => trivial
  | extConst x t => exact h
  | extNode f ins outs => exact h
  | node n =>
    have h : LegalNode _ _ _ _ := h
    have hm : (meaning (a.filter fun a => a.action = "generic")).main = none := by
      have : (a.filter fun a => a.action = "generic").filter (fun a => a.action = "main") = [] := by
        rw [List.filter_eq_nil_iff]
        intro b hb
        have := (List.mem_filter.1 hb).2
        simp only [decide_eq_true_eq] at this ⊢
        rw [this]
        decide
      simp only [meaning, lastNamed, this]
      rfl
    have hgen : (meaning (a.filter fun a => a.action = "generic")).generics = (meaning a).generics := by
      simp [meaning, List.filter_filter]
    refine ⟨⟨?_, ?_, ?_, h.interface.present⟩, ?_⟩
    · intro e
      rw [show importOf ⟨a, .node n⟩ = ⟨a.filter fun a => a.action = "generic", _⟩ from rfl, hm] at e
      cases e
    · intro v hv x hx
      rw [show (importOf ⟨a, .node n⟩).attrs = a.filter fun a => a.action = "generic" from rfl, hgen]
      refine h.interface.declared v ?_ x hx
      rw [List.append_nil] at hv
      exact List.mem_append_left _ hv
    · rw [show (importOf ⟨a, .node n⟩).attrs = a.filter fun a => a.action = "generic" from rfl, hgen]
      exact h.interface.used
    · have hv := h.vars
      have e : varsOf (n.inputs ++ n.outputs ++ n.locals) =
          varsOf (n.inputs ++ n.outputs) ++ varsOf n.locals := by
        simp only [varsOf, List.flatMap_append]
      rw [e] at hv
      refine ⟨?_, fun l v r e x hx => ?_⟩
      · have := hv.distinct
        rw [List.map_append] at this
        exact (List.nodup_append.1 this).1
      · exact hv.clocks l v (r ++ varsOf n.locals) (by rw [e]; simp) x hx

/-- What is left of a legal program is legal. -/
theorem legal_client {r : SrcProg} (lib : SrcDecl → Bool) (h : Legal r) : Legal (client lib r) := by
  obtain ⟨e1, e2⟩ := client_names lib r
  have hm : ∀ d ∈ client lib r, ∃ d' ∈ r, d = d' ∨ d = importOf d' := by
    intro d hd
    obtain ⟨d', h1, h2⟩ := List.mem_map.1 hd
    refine ⟨d', h1, ?_⟩
    split at h2
    · exact .inr h2.symm
    · exact .inl h2.symm
  refine ⟨fun d hd a ha => ?_, by rw [e2]; exact h.constNames, by rw [e1]; exact h.nodeNames,
    fun d hd => ?_, fun x hx => ?_, fun f hf => ?_⟩
  · obtain ⟨d', h1, rfl | rfl⟩ := hm d hd
    · exact h.attributes d h1 a ha
    · obtain ⟨a', i⟩ := d'
      cases i with
      | const c => simp [importOf] at ha
      | extConst x t => exact h.attributes _ h1 a ha
      | extNode f ins outs => exact h.attributes _ h1 a ha
      | node n =>
        simp only [importOf, List.mem_filter, decide_eq_true_eq] at ha
        obtain ⟨k1, k2, -⟩ := h.attributes _ h1 a ha.1
        refine ⟨k1, k2, ?_⟩
        rw [ha.2]
        simp [importOf, kind, inapplicable]
  · rw [e1, e2]
    obtain ⟨d', h1, rfl | rfl⟩ := hm d hd
    · exact h.items d h1
    · exact importOf_legal (h.items d' h1)
  · refine h.constCycles x (stays (P := fun _ => True) ?_ hx trivial)
    rintro _ y - ⟨at', c, hc, rfl, hy⟩
    refine ⟨?_, trivial⟩
    obtain ⟨d', h1, e | e⟩ := hm _ hc
    · exact ⟨at', c, e ▸ h1, rfl, hy⟩
    · rcases importOf_imports (d := d') with e' | e'
      · exact ⟨at', c, by rw [e, e']; exact h1, rfl, hy⟩
      · rw [← e] at e'; cases e'
  · refine h.nodeCycles f (stays (P := fun _ => True) ?_ hf trivial)
    rintro _ y - ⟨at', c, hc, rfl, hy⟩
    refine ⟨?_, trivial⟩
    obtain ⟨d', h1, e | e⟩ := hm _ hc
    · exact ⟨at', c, e ▸ h1, rfl, hy⟩
    · rcases importOf_imports (d := d') with e' | e'
      · exact ⟨at', c, by rw [e, e']; exact h1, rfl, hy⟩
      · rw [← e] at e'; cases e'

/-- A path that ends out of a part with no way out was never in it. -/
theorem avoids {α : Type} {R S : α → α → Prop} {P : α → Prop} (hc : ∀ x y, P x → R x y → P y)
    (h : ∀ x y, ¬ P x → ¬ P y → R x y → S x y) {x y : α} (hr : Relation.TransGen R x y) (hy : ¬ P y) :
    ¬ P x ∧ Relation.TransGen S x y := by
  induction hr using Relation.TransGen.head_induction_on with
  | single hr =>
    have hx := fun hp => hy (hc _ _ hp hr)
    exact ⟨hx, .single (h _ _ hx hy hr)⟩
  | head hr _ ih =>
    have hx := fun hp => ih.1 (hc _ _ hp hr)
    exact ⟨hx, .head (h _ _ hx ih.1 hr) ih.2⟩

/-- A program and another that uses it through `extern` declarations make one. -/
theorem legal_join {p q₀ is : SrcProg} (hp : Legal p) (hq : Legal (is ++ q₀))
    (hi : ∀ d ∈ is, ∃ d' ∈ p, Imports d d') (hd : Static.Disjoint p q₀) : Legal (p ++ q₀) := by
  have hq₀ : ∀ d ∈ q₀, d ∈ is ++ q₀ := fun d hd => List.mem_append_right _ hd
  have c1 : ((q₀.filterMap Static.constant).map (·.1)).Nodup := by
    have := hq.constNames
    rw [List.filterMap_append, List.map_append] at this
    exact (List.nodup_append.1 this).2.1
  have c2 : ((q₀.filterMap Static.nodeSig).map (·.1)).Nodup := by
    have := hq.nodeNames
    rw [List.filterMap_append, List.map_append] at this
    exact (List.nodup_append.1 this).2.1
  have r1 : (((p ++ q₀).filterMap Static.constant).map (·.1)).Nodup := by
    rw [List.filterMap_append, List.map_append]
    exact nodup_disjoint hp.constNames c1 hd.consts
  have r2 : (((p ++ q₀).filterMap Static.nodeSig).map (·.1)).Nodup := by
    rw [List.filterMap_append, List.map_append]
    exact nodup_disjoint hp.nodeNames c2 hd.nodes
  have same : ∀ d ∈ is ++ q₀, ∃ d' ∈ p ++ q₀, Static.nodeSig d = Static.nodeSig d' ∧
      Static.constant d = Static.constant d' := by
    intro d hd
    rcases List.mem_append.1 hd with hd | hd
    · obtain ⟨d', h1, h2⟩ := hi d hd
      exact ⟨d', List.mem_append_left _ h1, imports_same h2⟩
    · exact ⟨d, List.mem_append_right _ hd, rfl, rfl⟩
  refine ⟨fun d hm => (List.mem_append.1 hm).elim (hp.attributes d) fun h => hq.attributes d (hq₀ d h),
    r1, r2, fun d hm => ?_, fun x hx => ?_, fun f hf => ?_⟩
  · rcases List.mem_append.1 hm with hm | hm
    · rw [List.filterMap_append, List.filterMap_append]
      have hi := hp.items d hm
      refine (Den.legalItem_agree fun fs xs hf => ?_).2 hi
      obtain ⟨h1, h2⟩ := Den.legalItem_finds hi fs xs hf
      exact ⟨fun f hf => find_left (h1 f hf), fun x hx => find_left (h2 x hx)⟩
    · have hi := hq.items d (hq₀ d hm)
      refine (Den.legalItem_agree fun fs xs hf => ?_).2 hi
      obtain ⟨h1, h2⟩ := Den.legalItem_finds hi fs xs hf
      constructor
      · intro f hf
        obtain ⟨s, h3⟩ := Option.isSome_iff_exists.1 (h1 f hf)
        obtain ⟨d', hd', he⟩ := List.mem_filterMap.1 (Den.find_some_mem h3)
        obtain ⟨d'', k1, k2, -⟩ := same d' hd'
        rw [h3]
        exact Den.find_mem r2 (List.mem_filterMap.2 ⟨d'', k1, k2 ▸ he⟩)
      · intro x hx
        obtain ⟨s, h3⟩ := Option.isSome_iff_exists.1 (h2 x hx)
        obtain ⟨d', hd', he⟩ := List.mem_filterMap.1 (Den.find_some_mem h3)
        obtain ⟨d'', k1, -, k2⟩ := same d' hd'
        rw [h3]
        exact Den.find_mem r1 (List.mem_filterMap.2 ⟨d'', k1, k2 ▸ he⟩)
  · have hc : ∀ x y, x ∈ (p.filterMap Static.constant).map (·.1) →
        (∃ attrs c, ⟨attrs, .const c⟩ ∈ p ++ q₀ ∧ c.name = x ∧ y ∈ names c.value) →
        (∃ attrs c, ⟨attrs, .const c⟩ ∈ p ∧ c.name = x ∧ y ∈ names c.value) ∧
        y ∈ (p.filterMap Static.constant).map (·.1) := by
      rintro _ y hP ⟨at', c, hm, rfl, hy⟩
      rcases List.mem_append.1 hm with hm | hm
      · exact ⟨⟨at', c, hm, rfl, hy⟩, const_closed hp hm hy⟩
      · exact absurd (const_named hm) (hd.consts _ hP)
    by_cases hP : x ∈ (p.filterMap Static.constant).map (·.1)
    · exact hp.constCycles x (stays hc hx hP)
    · refine hq.constCycles x (avoids (fun x y h1 h2 => (hc x y h1 h2).2) ?_ hx hP).2
      rintro _ y hP - ⟨at', c, hm, rfl, hy⟩
      rcases List.mem_append.1 hm with hm | hm
      · exact absurd (const_named hm) hP
      · exact ⟨at', c, hq₀ _ hm, rfl, hy⟩
  · have hc : ∀ x y, x ∈ (p.filterMap Static.nodeSig).map (·.1) →
        (∃ attrs n, ⟨attrs, .node n⟩ ∈ p ++ q₀ ∧ n.name = x ∧
          ∃ st ∈ n.defs, y ∈ callees (SrcStmt.expr st)) →
        (∃ attrs n, ⟨attrs, .node n⟩ ∈ p ∧ n.name = x ∧
          ∃ st ∈ n.defs, y ∈ callees (SrcStmt.expr st)) ∧
        y ∈ (p.filterMap Static.nodeSig).map (·.1) := by
      rintro _ y hP ⟨at', c, hm, rfl, st, hst, hy⟩
      rcases List.mem_append.1 hm with hm | hm
      · exact ⟨⟨at', c, hm, rfl, st, hst, hy⟩, node_closed hp hm hst hy⟩
      · exact absurd (node_named hm) (hd.nodes _ hP)
    by_cases hP : f ∈ (p.filterMap Static.nodeSig).map (·.1)
    · exact hp.nodeCycles f (stays hc hf hP)
    · refine hq.nodeCycles f (avoids (fun x y h1 h2 => (hc x y h1 h2).2) ?_ hf hP).2
      rintro _ y hP - ⟨at', c, hm, rfl, hy⟩
      rcases List.mem_append.1 hm with hm | hm
      · exact absurd (node_named hm) hP
      · exact ⟨at', c, hq₀ _ hm, rfl, hy⟩

end Chandeliers.Fol
