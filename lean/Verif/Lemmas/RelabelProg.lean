import Verif.Lemmas.Relabel

/-!
# Names of nodes and constants: programs
-/

set_option autoImplicit false

namespace Chandeliers.Rep
open Chandeliers.San Chandeliers.Spec Chandeliers.Syn Chandeliers.Spec.Static Chandeliers.Err
  Chandeliers.Prg Chandeliers.Props

section
variable {ν κ : String ≃ String} {p r : SrcProg}

/-! ## Legality -/

theorem find_relabelled {α : Type} (l : List (String × α)) (f : String ≃ String) (x : String) :
    find (l.map fun q => (f q.1, q.2)) (f x) = find l x := by
  unfold find
  induction l with
  | nil => rfl
  | cons q l ih =>
    by_cases h : q.1 = x
    · rw [List.map_cons, List.find?_cons_of_pos (by simp [h]), List.find?_cons_of_pos (by simp [h])]
      rfl
    · rw [List.map_cons, List.find?_cons_of_neg (by simpa using h),
        List.find?_cons_of_neg (by simpa using h)]
      exact ih

theorem constants_relabelled (hr : List.Forall₂ (Relabelled ν κ) p r) :
    r.filterMap Static.constant = (p.filterMap Static.constant).map fun q => (κ q.1, q.2) := by
  induction hr with
  | nil => rfl
  | @cons d e _ _ h _ ih =>
    have : Static.constant e = (Static.constant d).map fun q => (κ q.1, q.2) := by cases h <;> rfl
    rw [List.filterMap_cons, List.filterMap_cons, this, ih]
    cases Static.constant d <;> rfl

theorem nodes_relabelled (hr : List.Forall₂ (Relabelled ν κ) p r) :
    r.filterMap Static.nodeSig = (p.filterMap Static.nodeSig).map fun q => (ν q.1, q.2) := by
  induction hr with
  | nil => rfl
  | @cons d e _ _ h _ ih =>
    have : Static.nodeSig e = (Static.nodeSig d).map fun q => (ν q.1, q.2) := by
      cases h with
      | node ρ h1 h2 =>
        simp [Static.nodeSig, signature, renameNode, argTypes_rename]
      | _ => rfl
    rw [List.filterMap_cons, List.filterMap_cons, this, ih]
    cases Static.nodeSig d <;> rfl

theorem names_nodup {α : Type} {l : List (String × α)} {f : String ≃ String}
    (h : (l.map (·.1)).Nodup) : ((l.map fun q => (f q.1, q.2)).map (·.1)).Nodup := by
  have : (l.map fun q => (f q.1, q.2)).map (·.1) = (l.map (·.1)).map f := by simp [Function.comp_def]
  rw [this]
  exact h.map f.injective

theorem cycle_relabelled {R R' : String → String → Prop} (f : String ≃ String)
    (h : ∀ a b, R' a b → R (f.symm a) (f.symm b)) (hR : ∀ x, ¬ Relation.TransGen R x x) (x : String) :
    ¬ Relation.TransGen R' x x := by
  have key : ∀ a b, Relation.TransGen R' a b → Relation.TransGen R (f.symm a) (f.symm b) := by
    intro a b hab
    induction hab with
    | single h1 => exact .single (h _ _ h1)
    | tail _ h1 ih => exact ih.tail (h _ _ h1)
  exact fun hx => hR _ (key x x hx)

theorem relabelled_attrs {d e : SrcDecl} (h : Relabelled ν κ d e) : e.attrs = d.attrs := by
  cases h <;> rfl

theorem relabelled_kind {d e : SrcDecl} (h : Relabelled ν κ d e) : kind e.item = kind d.item := by
  cases h <;> rfl

theorem legal_relabelled (hr : List.Forall₂ (Relabelled ν κ) p r) (h : Legal p) : Legal r := by
  have e1 := constants_relabelled hr
  have e2 := nodes_relabelled hr
  have hq := mem_right hr
  refine ⟨fun d hd a ha => ?_, by rw [e1]; exact names_nodup h.constNames,
    by rw [e2]; exact names_nodup h.nodeNames, fun d hd => ?_,
    cycle_relabelled κ ?_ h.constCycles, cycle_relabelled ν ?_ h.nodeCycles⟩
  · obtain ⟨d', hd', hs⟩ := hq d hd
    rw [relabelled_attrs hs] at ha
    rw [relabelled_kind hs]
    exact h.attributes d' hd' a ha
  · obtain ⟨d', hd', hs⟩ := hq d hd
    rw [e1, e2]
    have hi := h.items d' hd'
    cases hs with
    | @const attrs c =>
      have hS : CorrS κ ν (fun _ => True)
          ⟨[], find (p.filterMap Static.constant), find (p.filterMap Static.nodeSig), false⟩
          ⟨[], find ((p.filterMap Static.constant).map fun q => (κ q.1, q.2)),
            find ((p.filterMap Static.nodeSig).map fun q => (ν q.1, q.2)), false⟩ :=
        ⟨rfl, fun f => find_relabelled _ ν f, fun x _ => rfl, fun x _ _ => find_relabelled _ κ x⟩
      exact ⟨constant_rename _ hi.1, (hasTy_rename hS c.value fun _ _ => trivial).2 hi.2⟩
    | extConst => trivial
    | extNode => exact hi
    | @node attrs n ρ h1 h2 =>
      exact legal_rename (o := meaning attrs) ⟨h1⟩
        (fun x hx hv => by rw [h2 x hx hv]; exact find_relabelled _ κ x)
        (fun f => find_relabelled _ ν f) hi
  · rintro a b ⟨attrs, c, h1, rfl, h3⟩
    obtain ⟨d', hd', hs⟩ := hq _ h1
    cases hs with
    | @const _ c =>
      rw [names_rename, List.mem_map] at h3
      obtain ⟨y, h3, rfl⟩ := h3
      exact ⟨attrs, c, hd', by simp, by simpa using h3⟩
  · rintro a b ⟨attrs, n, h1, rfl, st, h3, h4⟩
    obtain ⟨d', hd', hs⟩ := hq _ h1
    cases hs with
    | @node _ n ρ k1 k2 =>
      obtain ⟨st, h3', rfl⟩ := List.mem_map.1 h3
      rw [expr_rename, callees_rename, List.mem_map] at h4
      obtain ⟨g, h4, rfl⟩ := h4
      exact ⟨attrs, n, hd', by simp [renameNode], st, h3', by simpa using h4⟩

theorem generics_relabelled (hr : List.Forall₂ (Relabelled ν κ) p r) (h : DistinctGenerics p) :
    DistinctGenerics r := by
  intro d hd
  obtain ⟨d', hd', hs⟩ := mem_right hr d hd
  rw [relabelled_attrs hs]
  exact h d' hd'

theorem tidy_relabelled (hr : List.Forall₂ (Relabelled ν κ) p r) (h : TidyProg p) : TidyProg r := by
  intro attrs n hd hu
  obtain ⟨d', hd', hs⟩ := mem_right hr _ hd
  cases hs with
  | node ρ h1 h2 => exact rename_tidy (h attrs _ hd' hu)

theorem accepted_relabelled (hr : List.Forall₂ (Relabelled ν κ) p r) (hg : DistinctGenerics p)
    (h : Accepted p) : Accepted r :=
  (C50_accepted (generics_relabelled hr hg)).2 (legal_relabelled hr ((C50_accepted hg).1 h))

/-! ## Linking -/

variable {A : Arith} {X X' : Extern}

theorem externAs_symm (h : ExternAs ν κ X X') : ExternAs ν.symm κ.symm X' X :=
  ⟨fun x => by rw [← h.consts]; simp, fun f => by rw [← h.nodes]; simp⟩

theorem extern_relabelled (hr : List.Forall₂ (Relabelled ν κ) p r) (hX : ExternAs ν κ X X')
    (h : ExternOk X p) : ExternOk X' r := by
  constructor
  · intro attrs x ty hd
    obtain ⟨d', hd', hs⟩ := mem_right hr _ hd
    cases hs with
    | extConst => rw [hX.consts]; exact h.consts _ _ _ hd'
  · intro attrs f ins outs hd
    obtain ⟨d', hd', hs⟩ := mem_right hr _ hd
    cases hs with
    | extNode => rw [hX.nodes]; exact h.nodes _ _ _ _ hd'

theorem link_consts_relabelled {p' r' : Prog} {w w' : List Report} {I : Items}
    (hr : List.Forall₂ (Relabelled ν κ) p r) (hXX : ExternAs ν κ X X')
    (h : decl (compile p) = .done w (some p')) (h' : decl (compile r) = .done w' (some r'))
    (hX : ExternOk X p) (hg : DistinctGenerics p) (ht : TidyProg p)
    (hl : link A X p'.decls = .ok I) : ∃ I', link A X' r'.decls = .ok I' ∧
      ∀ x v, I'.consts x = some v → I.consts (κ.symm x) = some v := by
  obtain ⟨q₂, hq₂, hp₂⟩ := accepted_passes h'
  have hX' := extern_relabelled hr hXX hX
  have hg' := generics_relabelled hr hg
  have hleg : Legal p := (C50_accepted hg).1 ⟨w, p', h⟩
  obtain ⟨i1, i2, i3⟩ := C47_items A X h hl
  have hS : Satisfies A X' (fun x => I.consts (κ.symm x)) q₂ := by
    constructor
    · intro a c hm
      obtain ⟨d', hd', hs⟩ := mem_right hr _ (hq₂.mem_iff.1 hm)
      cases hs with
      | @const _ c =>
        obtain ⟨c₁, v, k1, k2, k3⟩ := i1 a c hd'
        have hi := hleg.items _ hd'
        obtain ⟨c₂, k4, k5⟩ := value_rename (κ := κ) (ν := ν) (g' := fun x => I.consts (κ.symm x))
          hi.1 k1 (by simp) k2
        exact ⟨c₂, v, k4, k5, by simpa using k3⟩
    · intro a x t hm
      obtain ⟨d', hd', hs⟩ := mem_right hr _ (hq₂.mem_iff.1 hm)
      cases hs with
      | @extConst _ x =>
        obtain ⟨v, k1, k2⟩ := i2 a x t hd'
        exact ⟨v, by rw [hXX.consts]; exact k1, by simpa using k2⟩
  obtain ⟨l1, l2⟩ := linkConsts_same hp₂ hS (g := fun _ => none) (fun _ _ h => by cases h)
  rcases C28_program_tidy A X' h' hX' hg' (tidy_relabelled hr ht) with he | ⟨I', h1, -⟩
  · exfalso
    unfold link at he
    split at he
    · rename_i e hc'; cases he; exact l1 hc'
    · split at he
      · rename_i e hn'
        cases he
        cases linkNodes_error hn'
      · cases he
  · exact ⟨I', h1, l2 _ (link_ok h1).1⟩

/-- The nodes of the other program. -/
structure Over (A : Arith) (X X' : Extern) (ν κ : String ≃ String) (g : Globals)
    (N₂ : String → Option Machine) (q : List SrcDecl) : Prop where
  nodes : ∀ attrs src, ⟨attrs, .node src⟩ ∈ q → ∃ ρ n₂ ms₂ sigs' consts', Ren ρ src ∧
    (∀ x ∈ mentions src, x ∉ SrcNode.vars src → ρ x = κ x) ∧
    InProg Flat g sigs' consts' attrs (renameNode ρ ν src) n₂ ms₂ ∧
    ((meaning attrs).universalPre = true → BoundBeforeUse n₂) ∧
    N₂ (ν src.name) = some (n₂.machine A g ms₂) ∧ Linked ms₂ N₂ n₂.blocks
  externs : ∀ attrs f ins outs, ⟨attrs, .extNode f ins outs⟩ ∈ q → ∃ m, X.nodes f = some m ∧
    N₂ (ν f) = some (wrapExtern m) ∧
      Flat (wrapExtern m) ((meaning attrs).generics, argTypes ins, argTypes outs)

theorem Over.tail {g : Globals} {N₂ : String → Option Machine} {d : SrcDecl} {q : List SrcDecl}
    (h : Over A X X' ν κ g N₂ (d :: q)) : Over A X X' ν κ g N₂ q :=
  ⟨fun a c hm => h.nodes a c (List.mem_cons_of_mem _ hm),
    fun a f i o hm => h.externs a f i o (List.mem_cons_of_mem _ hm)⟩

theorem alike_over {g g₂ : Globals} {N₂ : String → Option Machine} {attrs : List Attribute}
    {src : SrcNode} {ρ : String → String} {n n₂ : Node} {ms ms₂ : List Machine}
    {sigs sigs' : String → Option Sig} {consts consts' : String → Option TyBase}
    (hg : ∀ x, g₂ (κ x) = g x) (hρ : Ren ρ src)
    (hκ : ∀ x ∈ mentions src, x ∉ SrcNode.vars src → ρ x = κ x)
    (h : InProg Flat g sigs consts attrs src n ms)
    (h' : InProg Flat g₂ sigs' consts' attrs (renameNode ρ ν src) n₂ ms₂)
    (hb : (meaning attrs).universalPre = true → BoundBeforeUse n ∧ BoundBeforeUse n₂)
    (hL : Linked ms (fun f => N₂ (ν f)) n.blocks) (hL' : Linked ms₂ N₂ n₂.blocks) :
    Alike Any (n.machine A g ms) (n₂.machine A g₂ ms₂) := by
  have ho : (argTypes (renameNode ρ ν src).outputs).length = (argTypes src.outputs).length := by
    simp [renameNode, argTypes_rename]
  refine ⟨?_, fun is => both_any fun os => ?_⟩
  · rw [show (n.machine A g ms).outTy = _ from machine_flat h.passes [] [],
      show (n₂.machine A g₂ ms₂).outTy = _ from machine_flat h'.passes [] []]
    simp only [ho]
  · rw [runs_answers h (fun hu => (hb hu).1) hL, runs_answers h' (fun hu => (hb hu).2) hL',
      arg_lengths, arg_lengths, ho]
    exact exists_congr fun outs => and_congr_left fun _ =>
      answers_rename hρ (fun x hx hv => by rw [hκ x hx hv, hg]) (fun _ => rfl) _ _

theorem linkNodes_over {g g₂ : Globals} {N₁ N₂ : String → Option Machine}
    (hgg : ∀ x, g₂ (κ x) = g x) {sigs : String → Option Sig}
    {consts : String → Option TyBase} {q : List SrcDecl} {ds : List San.Decl}
    (h : ProgPasses sigs consts q ds) : DistinctGenerics q → Over A X X' ν κ g₂ N₂ q →
    ConstsOk consts g → (∀ c, .const c ∈ ds → ConstOk g c.name c.ty) →
    (∀ c, .extConst c ∈ ds → ConstOk g c.name c.ty) →
    (∀ attrs src n, ⟨attrs, .node src⟩ ∈ q → .node n ∈ ds →
      (meaning attrs).universalPre = true → BoundBeforeUse n) →
    {N : String → Option Machine} →
    (∀ f s, sigs f = some s → s.Wf ∧ ∃ m, N₂ (ν f) = some m ∧ Flat m s) →
    (∀ f m m', N f = some m → N₂ (ν f) = some m' → Alike Any m m') → linkNodes A X g N ds = .ok N₁ →
    ∀ f m m', N₁ f = some m → N₂ (ν f) = some m' → Alike Any m m' := by
  have hT := congr_alike A
  have ext : ∀ {consts : String → Option TyBase} {x : String} {t : TyBase},
      ConstsOk consts g → ConstOk g x t → ConstsOk (extend consts x t) g := by
    intro consts x t h1 h2 y u hy
    unfold extend at hy
    by_cases e : y = x
    · rw [if_pos e] at hy; cases hy; rw [e]; exact h2
    · rw [if_neg e] at hy; exact h1 y u hy
  induction h with
  | nil => intro _ _ _ _ _ _ N _ h hl; cases hl; exact h
  | @const sigs consts attrs c c' ds ds' ht h hn hs ih =>
    intro hd hM hc h1 h2 hb N hk hN hl
    unfold linkNodes at hl
    exact ih (fun d hm => hd d (List.mem_cons_of_mem _ hm)) hM.tail
      (ext hc (h1 c' (List.mem_cons_self ..)))
      (fun c hm => h1 c (List.mem_cons_of_mem _ hm)) (fun c hm => h2 c (List.mem_cons_of_mem _ hm))
      (fun a s n hm hn => hb a s n (List.mem_cons_of_mem _ hm) (List.mem_cons_of_mem _ hn)) hk hN hl
  | @extConst sigs consts attrs x ty ds ds' hn hs ih =>
    intro hd hM hc h1 h2 hb N hk hN hl
    unfold linkNodes at hl
    exact ih (fun d hm => hd d (List.mem_cons_of_mem _ hm)) hM.tail
      (ext hc (h2 ⟨x, ty⟩ (List.mem_cons_self ..)))
      (fun c hm => h1 c (List.mem_cons_of_mem _ hm)) (fun c hm => h2 c (List.mem_cons_of_mem _ hm))
      (fun a s n hm hn => hb a s n (List.mem_cons_of_mem _ hm) (List.mem_cons_of_mem _ hn)) hk hN hl
  | @node sigs consts attrs src n ds ds' h hn hs ih =>
    intro hd hM hc h1 h2 hb N hk hN hl
    obtain ⟨ρ, n₂, ms₂, sigs', consts', k0, k1, k2, kb, k3, k4⟩ :=
      hM.nodes attrs src (List.mem_cons_self ..)
    have hg : (meaning attrs).generics.Nodup := hd _ (List.mem_cons_self ..)
    obtain ⟨w1, w2⟩ := sigOf_passes h hg
    unfold linkNodes at hl
    split at hl
    · rename_i ms hms
      have hb' : ∀ b ∈ n.blocks, (fun f => N₂ (ν f)) b.name ≠ none := by
        intro b hb
        obtain ⟨s, hs⟩ := blocks_known h b hb
        obtain ⟨-, m, e, -⟩ := hk _ _ hs
        show N₂ (ν b.name) ≠ none
        rw [e]; simp
      obtain ⟨ms', hms'⟩ := subnodes_some (N := fun f => N₂ (ν f)) hb'
      obtain ⟨l1, l2⟩ := subnodes_linked hms'
      have hname : n.name = src.name := (passes_sig h).1
      have hin : InProg Flat g sigs consts attrs src n ms' := by
        refine ⟨h, fun f s h => (hk f s h).1, hc, subnodes_length hms', fun i b hb => ?_,
          fun f => N₂ (ν f), l1, fun f s h => (hk f s h).2⟩
        obtain ⟨s, hs⟩ := blocks_known h b (List.mem_of_getElem? hb)
        obtain ⟨-, m, e1, e2⟩ := hk _ _ hs
        exact ⟨m, s, (l1 i b hb).trans e1, hs, e2⟩
      have t1 : Alike Any (n.machine A g ms) (n.machine A g ms') :=
        hT.nodes g n (subnodes_rel (N' := fun f => N₂ (ν f)) hN hms hms')
      have t2 : Alike Any (n.machine A g ms') (n₂.machine A g₂ ms₂) :=
        alike_over hgg k0 k1 hin k2
          (fun hu => ⟨hb attrs src n (List.mem_cons_self ..) (List.mem_cons_self ..) hu, kb hu⟩) l1 k4
      rw [hname] at hl
      refine ih (fun d hm => hd d (List.mem_cons_of_mem _ hm)) hM.tail hc
        (fun c hm => h1 c (List.mem_cons_of_mem _ hm)) (fun c hm => h2 c (List.mem_cons_of_mem _ hm))
        (fun a s n hm hn => hb a s n (List.mem_cons_of_mem _ hm) (List.mem_cons_of_mem _ hn))
        (flat_set (N₂ := fun f => N₂ (ν f)) hk k3 w1 ?_)
        (rel_set (N₂ := fun f => N₂ (ν f)) hN k3 (hT.trans t1 t2)) hl
      rw [w2]
      have := machine_flat (A := A) (g := g₂) (ms := ms₂) k2.passes (meaning attrs).generics
        (argTypes src.inputs)
      simp only [Flat, renameNode, argTypes_rename] at this ⊢
      exact this
    · cases hl
  | @extNode sigs consts attrs f ins outs ds ds' h hdt hn hs ih =>
    intro hd hM hc h1 h2 hb N hk hN hl
    obtain ⟨m, k1, k2, k3⟩ := hM.externs attrs f ins outs (List.mem_cons_self ..)
    have hg : (meaning attrs).generics.Nodup := hd _ (List.mem_cons_self ..)
    unfold linkNodes at hl
    split at hl
    · rename_i m' hm'
      rw [k1] at hm'
      cases hm'
      refine ih (fun d hm => hd d (List.mem_cons_of_mem _ hm)) hM.tail hc
        (fun c hm => h1 c (List.mem_cons_of_mem _ hm)) (fun c hm => h2 c (List.mem_cons_of_mem _ hm))
        (fun a s n hm hn => hb a s n (List.mem_cons_of_mem _ hm) (List.mem_cons_of_mem _ hn))
        (flat_set (N₂ := fun f => N₂ (ν f)) hk k2 (sigOf_wf hg h) ?_)
        (rel_set (N₂ := fun f => N₂ (ν f)) hN k2 (hT.refl _)) hl
      simp only [sigOf, translateArgs_ty]
      exact k3
    · cases hl

theorem link_relabelled_half {p' r' : Prog} {w w' : List Report} {I : Items}
    (hr : List.Forall₂ (Relabelled ν κ) p r) (hXX : ExternAs ν κ X X')
    (h : decl (compile p) = .done w (some p')) (h' : decl (compile r) = .done w' (some r'))
    (hX : ExternOk X p) (hg : DistinctGenerics p) (ht : TidyProg p)
    (hl : link A X p'.decls = .ok I) : ∃ I', link A X' r'.decls = .ok I' ∧
      AlikeItems (fun _ _ => True) I.consts (fun x => I'.consts (κ x)) I.nodes
        (fun f => I'.nodes (ν f)) := by
  have hX' := extern_relabelled hr hXX hX
  have hg' := generics_relabelled hr hg
  have ht' := tidy_relabelled hr ht
  obtain ⟨I', hl', hle⟩ := link_consts_relabelled hr hXX h h' hX hg ht hl
  obtain ⟨J, hJ, hge⟩ := link_consts_relabelled (relabelled_back hr) (externAs_symm hXX) h' h hX' hg' ht' hl'
  rw [hl] at hJ
  cases hJ
  have heq : ∀ x, I'.consts (κ x) = I.consts x := by
    intro x
    cases h1 : I.consts x with
    | some v => exact hge x v h1
    | none =>
      cases h2 : I'.consts (κ x) with
      | none => rfl
      | some v =>
        have := hle _ v h2
        simp only [Equiv.symm_apply_apply] at this
        rw [this] at h1
        cases h1
  obtain ⟨q₁, hq₁, hp₁⟩ := accepted_passes h
  obtain ⟨q₂, hq₂, hp₂⟩ := accepted_passes h'
  obtain ⟨hc, hn⟩ := link_ok hl
  obtain ⟨hc', hn'⟩ := link_ok hl'
  obtain ⟨-, m1, m2⟩ := linkNodes_values hp₂ (fun _ _ => rfl) hn'
  have hO : Over A X X' ν κ I'.consts I'.nodes q₁ := by
    refine ⟨fun a src hm => ?_, fun a f i o hm => ?_⟩
    · obtain ⟨d, k2, hs⟩ := forall2_left hr _ (hq₁.mem_iff.1 hm)
      cases hs with
      | node ρ k1 k3 =>
        obtain ⟨sigs', consts', n₂, ms₂, n1, n2, n3, n4⟩ := linked_in h' hl' hX' hg' k2
        exact ⟨ρ, n₂, ms₂, sigs', consts', ⟨k1⟩, k3, n2,
          fun _ => (C59_tidy h' hg' ht' n₂ n1).2.2, n3, n4⟩
    · have hm' := hq₁.mem_iff.1 hm
      obtain ⟨d, k2, hs⟩ := forall2_left hr _ hm'
      cases hs with
      | extNode =>
        obtain ⟨m, k1, k2⟩ := m2 a (ν f) i o (hq₂.mem_iff.2 k2)
        obtain ⟨m', e1, e2⟩ := hX.nodes a f i o hm'
        rw [hXX.nodes] at k1
        rw [k1] at e1
        cases e1
        exact ⟨m, k1, k2, extern_shape (m := m) e2⟩
  refine ⟨I', hl', (funext fun x => (heq x).symm), fun f => ?_, ?_⟩
  · rw [declared_none hp₁ hn, declared_none hp₂ hn']
    constructor
    · rintro ⟨h1, h2⟩
      refine ⟨fun a src hm e => ?_, fun a i o hm => ?_⟩
      · obtain ⟨d, k2, hs⟩ := mem_right hr _ (hq₂.mem_iff.1 hm)
        cases hs with
        | node ρ _ _ => exact h1 a _ (hq₁.mem_iff.2 k2) (ν.injective e)
      · obtain ⟨d, k2, hs⟩ := mem_right hr _ (hq₂.mem_iff.1 hm)
        generalize hf : ν f = f' at hs
        cases hs with
        | extNode => exact h2 a i o (by rw [ν.injective hf]; exact hq₁.mem_iff.2 k2)
    · rintro ⟨h1, h2⟩
      refine ⟨fun a src hm e => ?_, fun a i o hm => ?_⟩
      · obtain ⟨d, k2, hs⟩ := forall2_left hr _ (hq₁.mem_iff.1 hm)
        cases hs with
        | node ρ _ _ => exact h1 a _ (hq₂.mem_iff.2 k2) (by rw [← e]; rfl)
      · obtain ⟨d, k2, hs⟩ := forall2_left hr _ (hq₁.mem_iff.1 hm)
        cases hs with
        | extNode => exact h2 a i o (hq₂.mem_iff.2 k2)
  · rcases linkConsts_typed (A := A) (X := X) hp₁
        (fun a x t hm => hX.consts a x t (hq₁.mem_iff.1 hm)) (g := fun _ => none)
        (fun x t h => by cases h) with he | ⟨g, h1, -, h3, h4⟩
    · rw [hc] at he; cases he
    · rw [hc] at h1
      cases h1
      exact linkNodes_over heq hp₁ (fun d hm => hg d (hq₁.mem_iff.1 hm)) hO
        (fun x t h => by cases h) h3 h4
        (fun a s n hm hn hu => (C59_tidy h hg ht n hn).2.2)
        (fun f s h => by cases h) (fun f m m' h => by cases h) hn

theorem link_relabelled {p' r' : Prog} {w w' : List Report}
    (hr : List.Forall₂ (Relabelled ν κ) p r) (hXX : ExternAs ν κ X X')
    (h : decl (compile p) = .done w (some p')) (h' : decl (compile r) = .done w' (some r'))
    (hX : ExternOk X p) (hg : DistinctGenerics p) (ht : TidyProg p) :
    Both (· = ·) (fun I I' : Items => AlikeItems (fun _ _ => True) I.consts
      (fun x => I'.consts (κ x)) I.nodes (fun f => I'.nodes (ν f)))
      (link A X p'.decls) (link A X' r'.decls) := by
  have hX' := extern_relabelled hr hXX hX
  have hg' := generics_relabelled hr hg
  have ht' := tidy_relabelled hr ht
  rcases C28_program_tidy A X h hX hg ht with he | ⟨I, h1, -⟩
  · rcases C28_program_tidy A X' h' hX' hg' ht' with he' | ⟨I', h2, -⟩
    · rw [he, he']; rfl
    · obtain ⟨I, h3, -⟩ :=
        link_consts_relabelled (relabelled_back hr) (externAs_symm hXX) h' h hX' hg' ht' h2
      rw [he] at h3
      cases h3
  · obtain ⟨I', h2, h3⟩ := link_relabelled_half hr hXX h h' hX hg ht h1
    rw [h1, h2]
    exact h3

end

end Chandeliers.Rep
