import Verif.Spec.Emit
import Verif.Props.Options
import Verif.Props.Program
import Verif.Lemmas.LegalRun
import Verif.Lemmas.Closed
import Verif.Props.Legal

/-! Lemmas on the emitted code. -/

set_option autoImplicit false

namespace Chandeliers.Emt
open Chandeliers.San Chandeliers.Spec Chandeliers.Syn Chandeliers.Err Chandeliers.Err.Chk
open Chandeliers.Den Chandeliers.Prg

/-! ### Options -/

section
variable {attrs : List Attribute}

/-- Attributes of an accepted declaration. -/
def AttrsOk (k : DeclKind) (attrs : List Attribute) : Prop := ∀ a ∈ attrs,
  wellFormed a ∧ smallNumbers a ∧ a.action ∉ inapplicable k

theorem options_node {src : SrcNode} (h : AttrsOk .node attrs) :
    SrcDecl.options ⟨attrs, .node src⟩ = some (.node (meaning attrs)) := by
  obtain ⟨ws, hr⟩ := Props.C33_node_options attrs (fun a ha => (h a ha).2.1)
    (fun a ha => (h a ha).1) ((EAccum.default, ()) : EAccum AttrDiag × Unit)
  obtain ⟨d, s1, h1, h2⟩ := bind_some.1 hr
  unfold SrcDecl.options
  simp only [run_bind, h1, h2, run_pure]

/-- The options of an `extern node`. -/
def extOptions (attrs : List Attribute) : ExtNodeOptions where
  trace := (meaning attrs).trace
  main := (meaning attrs).main
  rustcAllow := (meaning attrs).rustcAllow
  generics := (meaning attrs).generics

theorem options_extNode {f : String} {ins outs : List ArgsTy} (h : AttrsOk .extNode attrs) :
    SrcDecl.options ⟨attrs, .extNode f ins outs⟩ = some (.extNode (extOptions attrs)) := by
  obtain ⟨ws, hr⟩ := (Props.C33_extern_node_options attrs (fun a ha => (h a ha).2.1)
    (fun a ha => (h a ha).1) ((EAccum.default, ()) : EAccum AttrDiag × Unit)).1
    (fun a ha => (h a ha).2.2)
  obtain ⟨d, s1, h1, h2⟩ := bind_some.1 hr
  unfold SrcDecl.options
  simp only [run_bind, h1, h2, run_pure]
  rfl

/-- The options of a constant. -/
def constOptions (attrs : List Attribute) : ConstOptions where
  export_ := (meaning attrs).export_
  rustcAllow := (meaning attrs).rustcAllow
  doc := (meaning attrs).doc
  isPub := (meaning attrs).isPub

theorem options_const {c : SrcConst} (h : AttrsOk .const attrs) :
    SrcDecl.options ⟨attrs, .const c⟩ = some (.const (constOptions attrs)) := by
  obtain ⟨ws, hr⟩ := (Props.C33_const_options attrs (fun a ha => (h a ha).2.1)
    (fun a ha => (h a ha).1) ((EAccum.default, ()) : EAccum AttrDiag × Unit)).1
    (fun a ha => (h a ha).2.2)
  obtain ⟨d, s1, h1, h2⟩ := bind_some.1 hr
  unfold SrcDecl.options
  simp only [run_bind, h1, h2, run_pure]
  rfl

theorem options_extConst {x : String} {ty : TyBase} (h : AttrsOk .extConst attrs) :
    ∃ o, SrcDecl.options ⟨attrs, .extConst x ty⟩ = some (.extConst o) := by
  obtain ⟨ws, hr⟩ := (Props.C33_extern_const_options attrs (fun a ha => (h a ha).2.1)
    (fun a ha => (h a ha).1) ((EAccum.default, ()) : EAccum AttrDiag × Unit)).1
    (fun a ha => (h a ha).2.2)
  obtain ⟨d, s1, h1, h2⟩ := bind_some.1 hr
  unfold SrcDecl.options
  simp only [run_bind, h1, h2, run_pure]
  exact ⟨_, rfl⟩
end

theorem accepted_attributes {p : SrcProg} {p' : Prog} {w : List Report}
    (h : decl (compile p) = .done w (some p')) : ∀ d ∈ p, AttrsOk (Static.kind d.item) d.attrs := by
  unfold decl at h
  split at h
  · cases h
  · split at h <;> cases h
  · rename_i hc
    cases h
    unfold compile progPipeline at hc
    obtain ⟨p₁, s1, h1, g1⟩ := bind_some.1 hc
    obtain ⟨ds, t1, i1, j1⟩ := bind_some.1 h1
    exact decls_attributes i1

/-! ### Names of declarations -/

/-- What a declaration defines: whether a node or a constant, and its name. -/
def key (d : SrcDecl) : Bool × String :=
  match d.item with
  | .const c => (false, c.name)
  | .node n => (true, n.name)
  | .extConst x _ => (false, x)
  | .extNode f _ _ => (true, f)

theorem passes_keys {sigs : String → Option Sig} {consts : String → Option TyBase}
    {q : List SrcDecl} {ds : List San.Decl} (h : ProgPasses sigs consts q ds) :
    (∀ d ∈ q, match key d with | (true, f) => sigs f = none | (false, x) => consts x = none) ∧
    (q.map key).Nodup := by
  have new : ∀ {α : Type} {g : String → Option α} {x y : String} {a : α},
      extend g x a y = none → g y = none ∧ y ≠ x := by
    intro α g x y a h
    unfold extend at h
    split at h
    · cases h
    · exact ⟨h, ‹_›⟩
  induction h with
  | nil => simp
  | @const sigs consts attrs c c' ds ds' ht h hn hs ih =>
    have hname : c'.name = c.name := by
      obtain ⟨x, s, -, -, -, rfl⟩ := const_translate ht; rfl
    rw [hname] at hn ih
    refine ⟨?_, ?_⟩
    · intro d hd
      rcases List.mem_cons.1 hd with rfl | hd
      · exact hn
      · have := ih.1 d hd
        revert this
        rcases key d with ⟨_ | _, x⟩
        · exact fun h => (new h).1
        · exact id
    · rw [List.map_cons, List.nodup_cons]
      refine ⟨fun hm => ?_, ih.2⟩
      obtain ⟨d, hd, e⟩ := List.mem_map.1 hm
      have := ih.1 d hd
      rw [e] at this
      exact (new this).2 rfl
  | @extConst sigs consts attrs x ty ds ds' hn hs ih =>
    refine ⟨?_, ?_⟩
    · intro d hd
      rcases List.mem_cons.1 hd with rfl | hd
      · exact hn
      · have := ih.1 d hd
        revert this
        rcases key d with ⟨_ | _, x⟩
        · exact fun h => (new h).1
        · exact id
    · rw [List.map_cons, List.nodup_cons]
      refine ⟨fun hm => ?_, ih.2⟩
      obtain ⟨d, hd, e⟩ := List.mem_map.1 hm
      have := ih.1 d hd
      rw [e] at this
      exact (new this).2 rfl
  | node h hn hs ih =>
    refine ⟨?_, ?_⟩
    · intro d hd
      rcases List.mem_cons.1 hd with rfl | hd
      · exact hn
      · have := ih.1 d hd
        revert this
        rcases key d with ⟨_ | _, x⟩
        · exact id
        · exact fun h => (new h).1
    · rw [List.map_cons, List.nodup_cons]
      refine ⟨fun hm => ?_, ih.2⟩
      obtain ⟨d, hd, e⟩ := List.mem_map.1 hm
      have := ih.1 d hd
      rw [e] at this
      exact (new this).2 rfl
  | extNode h hd' hn hs ih =>
    refine ⟨?_, ?_⟩
    · intro d hd
      rcases List.mem_cons.1 hd with rfl | hd
      · exact hn
      · have := ih.1 d hd
        revert this
        rcases key d with ⟨_ | _, x⟩
        · exact id
        · exact fun h => (new h).1
    · rw [List.map_cons, List.nodup_cons]
      refine ⟨fun hm => ?_, ih.2⟩
      obtain ⟨d, hd, e⟩ := List.mem_map.1 hm
      have := ih.1 d hd
      rw [e] at this
      exact (new this).2 rfl

theorem comesFrom_key {x : San.Decl} {d d' : SrcDecl} (h : comesFrom x d = true)
    (h' : comesFrom x d' = true) : key d = key d' := by
  obtain ⟨_, i⟩ := d
  obtain ⟨_, i'⟩ := d'
  cases x <;> cases i <;> simp only [comesFrom, decide_eq_true_eq, Bool.false_eq_true] at h <;>
    cases i' <;> simp only [comesFrom, decide_eq_true_eq, Bool.false_eq_true] at h' <;>
    simp [key, ← h, ← h']

theorem nodup_map_inj {α β : Type} {f : α → β} : {l : List α} → (l.map f).Nodup →
    ∀ {a b : α}, a ∈ l → b ∈ l → f a = f b → a = b
  | [], _, a, b, ha, _, _ => by cases ha
  | c :: l, h, a, b, ha, hb, e => by
    rw [List.map_cons, List.nodup_cons] at h
    rcases List.mem_cons.1 ha with rfl | ha <;> rcases List.mem_cons.1 hb with rfl | hb
    · rfl
    · exact absurd (List.mem_map.2 ⟨_, hb, e.symm⟩) h.1
    · exact absurd (List.mem_map.2 ⟨_, ‹a ∈ l›, e⟩) h.1
    · exact nodup_map_inj h.2 ha hb e

theorem find_comesFrom {p : SrcProg} (hk : (p.map key).Nodup) {d : SrcDecl} (hd : d ∈ p)
    {x : San.Decl} (h : comesFrom x d = true) : p.find? (comesFrom x) = some d := by
  cases hf : p.find? (comesFrom x) with
  | none => exact absurd h (List.find?_eq_none.1 hf d hd)
  | some d' =>
    have h' := List.find?_some hf
    have hm := List.mem_of_find?_eq_some hf
    rw [nodup_map_inj hk hm hd (comesFrom_key h' h)]

/-! ### One declaration -/

/-- Signatures are in order, if the attributes of the program are. -/
def SigsOk (p : SrcProg) (sigs : String → Option Sig) : Prop :=
  DistinctGenerics p → ∀ f s, sigs f = some s → s.Wf

/-- Constants are of one of the three types, if those that are external are. -/
def BasicOk (p : SrcProg) (consts : String → Option TyBase) : Prop :=
  (∀ attrs x ty, ⟨attrs, .extConst x ty⟩ ∈ p → ∀ g, ty ≠ .other g) →
    ∀ x t, consts x = some t → ∀ g, t ≠ .other g

/-- The code of a declaration. -/
inductive Emitted (uid : Nat) (p : SrcProg) : SrcDecl → Code → Prop
  | node {attrs src n sigs consts} (hw : SigsOk p sigs) (hb : BasicOk p consts)
    (h : Passes (meaning attrs).universalPre (tyOpts (meaning attrs)) sigs consts src n) :
    Emitted uid p ⟨attrs, .node src⟩ (n.emit uid (meaning attrs))
  | extNode {attrs f ins outs}
    (h : SigTyped (meaning attrs).main.isSome (meaning attrs).generics (translateArgs ins)
      (translateArgs outs) []) :
    Emitted uid p ⟨attrs, .extNode f ins outs⟩
      (ExtNode.emit uid (extOptions attrs) ⟨f, translateArgs ins, translateArgs outs⟩)
  | const {attrs c c' consts} (hb : BasicOk p consts) (ht : c.translate = .ok c')
    (h : ConstTyped consts c') :
    Emitted uid p ⟨attrs, .const c⟩ (c'.emit uid (constOptions attrs))
  | extConst {attrs x ty} : Emitted uid p ⟨attrs, .extConst x ty⟩ (ExtConst.emit uid ⟨x, ty⟩)

theorem SigsOk.extend {p : SrcProg} {sigs : String → Option Sig} (h : SigsOk p sigs) {x : String}
    {s : Sig} (hs : DistinctGenerics p → s.Wf) : SigsOk p (extend sigs x s) := by
  intro hg f t ht
  unfold Spec.extend at ht
  split at ht
  · cases ht; exact hs hg
  · exact h hg f t ht

theorem BasicOk.extend {p : SrcProg} {consts : String → Option TyBase} (h : BasicOk p consts)
    {x : String} {t : TyBase}
    (ht : (∀ attrs x ty, ⟨attrs, .extConst x ty⟩ ∈ p → ∀ g, ty ≠ .other g) → ∀ g, t ≠ .other g) :
    BasicOk p (extend consts x t) := by
  intro he y u hu
  unfold Spec.extend at hu
  split at hu
  · cases hu; exact ht he
  · exact h he y u hu

theorem const_ty {p : SrcProg} {consts : String → Option TyBase} {c : Const} (hb : BasicOk p consts)
    (h : ConstTyped consts c)
    (he : ∀ attrs x ty, ⟨attrs, .extConst x ty⟩ ∈ p → ∀ g, ty ≠ .other g) :
    ∀ g, c.ty ≠ .other g := const_basic (hb he) h.const h.type

theorem node_wf {attrs : List Attribute} {sigs : String → Option Sig}
    {consts : String → Option TyBase} {src : SrcNode} {n : Node}
    (hg : (meaning attrs).generics.Nodup)
    (h : Passes (meaning attrs).universalPre (tyOpts (meaning attrs)) sigs consts src n) :
    Sig.Wf (sigOf (meaning attrs).generics n.inputs n.outputs) := by
  obtain ⟨n₁, n₂, c, ctx, clk, m, K, hf⟩ := passes_final h
  have := sigOf_wf hg hf.sig
  have e1 : n.inputs.map (·.ty) = n₂.inputs.map (·.ty) := by
    rw [hf.final]; simp [Node.withDepths, setDepths, Node.withClocks, Node.fill, Function.comp_def]
  have e2 : n.outputs.map (·.ty) = n₂.outputs.map (·.ty) := by
    rw [hf.final]; simp [Node.withDepths, setDepths, Node.withClocks, Node.fill, Function.comp_def]
  unfold sigOf at this ⊢
  rw [e1, e2]
  exact this

theorem emitted_all {uid : Nat} {p : SrcProg} (hk : (p.map key).Nodup)
    (ha : ∀ d ∈ p, AttrsOk (Static.kind d.item) d.attrs) {sigs : String → Option Sig}
    {consts : String → Option TyBase} {q : List SrcDecl} {ds : List San.Decl}
    (h : ProgPasses sigs consts q ds) (hq : ∀ d ∈ q, d ∈ p) (hw : SigsOk p sigs)
    (hb : BasicOk p consts) :
    List.Forall₂ (Emitted uid p) q (ds.map fun d =>
      match (p.find? (comesFrom d)).bind SrcDecl.options with
      | some o => d.emit uid o
      | none => {}) := by
  induction h with
  | nil => exact .nil
  | @const sigs consts attrs c c' ds ds' ht h hn hs ih =>
    refine .cons ?_ (ih (fun d hd => hq d (List.mem_cons_of_mem _ hd)) hw (hb.extend (const_ty hb h)))
    have hm := hq _ (List.mem_cons_self ..)
    have hname : c'.name = c.name := by
      obtain ⟨x, s, -, -, -, rfl⟩ := const_translate ht; rfl
    beta_reduce
    rw [find_comesFrom (x := .const c') hk hm (by simp [comesFrom, hname])]
    simp only [Option.bind_some, options_const (ha _ hm)]
    exact .const hb ht h
  | @extConst sigs consts attrs x ty ds ds' hn hs ih =>
    refine .cons ?_ (ih (fun d hd => hq d (List.mem_cons_of_mem _ hd)) hw
      (hb.extend fun he => he _ _ _ (hq _ (List.mem_cons_self ..))))
    have hm := hq _ (List.mem_cons_self ..)
    beta_reduce
    rw [find_comesFrom (x := .extConst ⟨x, ty⟩) hk hm (by simp [comesFrom])]
    obtain ⟨o, ho⟩ := options_extConst (x := x) (ty := ty) (ha _ hm)
    simp only [Option.bind_some, ho]
    exact .extConst
  | @node sigs consts attrs src n ds ds' h hn hs ih =>
    refine .cons ?_ (ih (fun d hd => hq d (List.mem_cons_of_mem _ hd))
      (hw.extend fun hg => node_wf (hg _ (hq _ (List.mem_cons_self ..))) h) hb)
    have hm := hq _ (List.mem_cons_self ..)
    beta_reduce
    rw [find_comesFrom (x := .node n) hk hm (by simp [comesFrom, (passes_sig h).1])]
    simp only [Option.bind_some, options_node (ha _ hm)]
    exact .node hw hb h
  | @extNode sigs consts attrs f ins outs ds ds' h hd' hn hs ih =>
    refine .cons ?_ (ih (fun d hd => hq d (List.mem_cons_of_mem _ hd))
      (hw.extend fun hg => sigOf_wf (hg _ (hq _ (List.mem_cons_self ..))) h) hb)
    have hm := hq _ (List.mem_cons_self ..)
    beta_reduce
    rw [find_comesFrom (x := .extNode ⟨f, translateArgs ins, translateArgs outs⟩) hk hm
      (by simp [comesFrom])]
    simp only [Option.bind_some, options_extNode (ha _ hm)]
    exact .extNode h

theorem emitted {uid : Nat} {p : SrcProg} {p' : Prog} {w : List Report}
    (h : decl (compile p) = .done w (some p')) :
    (p.map key).Nodup ∧ ∃ q, q.Perm p ∧ List.Forall₂ (Emitted uid p) q (emit uid p p') := by
  obtain ⟨q, hq, hp⟩ := Props.accepted_passes h
  have hk : (p.map key).Nodup := (hq.map key).nodup_iff.1 (passes_keys hp).2
  exact ⟨hk, q, hq, emitted_all hk (accepted_attributes h) hp (fun d hd => hq.mem_iff.1 hd)
    (fun _ f s h => by cases h) fun _ x t h => by cases h⟩

/-- The identifier of what a declaration defines. -/
def entity (uid : Nat) (d : SrcDecl) : Entity :=
  match d.item with
  | .const c => .glob c.name uid
  | .node n => .node n.name uid
  | .extConst x _ => .glob x uid
  | .extNode f _ _ => .node f uid

/-- The item under this identifier. -/
def hiddenItem (uid : Nat) (d : SrcDecl) : Item :=
  match d.item with
  | .const _ => ⟨.const, (entity uid d).sanitized, false, true, false⟩
  | .node _ => ⟨.struct_, (entity uid d).sanitized, (meaning d.attrs).isPub, true, false⟩
  | .extConst _ _ => ⟨.const, (entity uid d).sanitized, false, true, false⟩
  | .extNode _ _ _ => ⟨.struct_, (entity uid d).sanitized, false, true, false⟩

/-- The method `step` of this item. -/
def hiddenSteps (uid : Nat) (d : SrcDecl) : List StepFn :=
  match d.item with
  | .node _ => [⟨(entity uid d).sanitized, false, false, (meaning d.attrs).test.isSome⟩]
  | .extNode _ _ _ => [⟨(entity uid d).sanitized, false, true, false⟩]
  | _ => []

theorem emitted_items {uid : Nat} {p : SrcProg} {d : SrcDecl} {c : Code} (h : Emitted uid p d c) :
    c.items = hiddenItem uid d :: offeredItems d := by
  cases h with
  | @node attrs src n sigs consts hw hb h =>
    have e := (passes_sig h).1
    cases hm : (meaning attrs).main <;> cases ht : (meaning attrs).test <;>
      cases hx : (meaning attrs).export_ <;>
      simp [Node.emit, Code.append, Node.internal, Node.external, fnMain, fnTest, hiddenItem,
        entity, offeredItems, pubQualifier, e, hm, ht, hx, Entity.raw]
  | @extNode attrs f ins outs h =>
    cases hm : (meaning attrs).main <;>
      simp [ExtNode.emit, Code.append, fnMain, hiddenItem, entity, offeredItems, extOptions, hm]
  | @const attrs c c' consts hb ht h =>
    have hname : c'.name = c.name := by
      obtain ⟨x, s, -, -, -, rfl⟩ := const_translate ht; rfl
    cases hx : (meaning attrs).export_ <;>
    simp [Const.emit, Code.append, hiddenItem, entity, offeredItems, constOptions, hname, hx,
      pubQualifier, Entity.raw]
  | extConst => simp [ExtConst.emit, hiddenItem, entity, offeredItems]

theorem emitted_steps {uid : Nat} {p : SrcProg} {d : SrcDecl} {c : Code} (h : Emitted uid p d c) :
    c.steps = hiddenSteps uid d ++ offeredSteps d := by
  cases h with
  | @node attrs src n sigs consts hw hb h =>
    have e := (passes_sig h).1
    cases hm : (meaning attrs).main <;> cases ht : (meaning attrs).test <;>
      cases hx : (meaning attrs).export_ <;>
      simp [Node.emit, Code.append, Node.internal, Node.external, fnMain, fnTest, hiddenSteps,
        entity, offeredSteps, pubQualifier, e, hm, ht, hx, Entity.raw]
  | @extNode attrs f ins outs h =>
    cases hm : (meaning attrs).main <;>
      simp [ExtNode.emit, Code.append, fnMain, hiddenSteps, entity, offeredSteps, extOptions, hm]
  | @const attrs c c' consts hb ht h =>
    cases hx : (meaning attrs).export_ <;>
    simp [Const.emit, Code.append, hiddenSteps, offeredSteps, constOptions, hx]
  | extConst => simp [ExtConst.emit, hiddenSteps, offeredSteps]

/-! ### All declarations -/

section
variable {uid : Nat} {p q : SrcProg} {E : List Code} {b : Build}

theorem flatMap_eq {α β γ : Type} {R : α → β → Prop} {f : β → List γ} {g : α → List γ}
    (hR : ∀ a b, R a b → f b = g a) : {l : List α} → {l' : List β} → List.Forall₂ R l l' →
    l'.flatMap f = l.flatMap g
  | _, _, .nil => rfl
  | _, _, .cons h t => by rw [List.flatMap_cons, List.flatMap_cons, hR _ _ h, flatMap_eq hR t]

theorem forall₂_right {α β : Type} {R : α → β → Prop} : {l : List α} → {l' : List β} →
    List.Forall₂ R l l' → ∀ {b}, b ∈ l' → ∃ a ∈ l, R a b
  | _, _, .nil, b, hb => by cases hb
  | _, _, .cons h t, b, hb => by
    rcases List.mem_cons.1 hb with rfl | hb
    · exact ⟨_, List.mem_cons_self .., h⟩
    · obtain ⟨a, ha, hR⟩ := forall₂_right t hb
      exact ⟨a, List.mem_cons_of_mem _ ha, hR⟩

theorem forall₂_left {α β : Type} {R : α → β → Prop} : {l : List α} → {l' : List β} →
    List.Forall₂ R l l' → ∀ {a}, a ∈ l → ∃ b ∈ l', R a b
  | _, _, .nil, b, hb => by cases hb
  | _, _, .cons h t, b, hb => by
    rcases List.mem_cons.1 hb with rfl | hb
    · exact ⟨_, List.mem_cons_self .., h⟩
    · obtain ⟨a, ha, hR⟩ := forall₂_left t hb
      exact ⟨a, List.mem_cons_of_mem _ ha, hR⟩

theorem all_items (hq : q.Perm p) (h : List.Forall₂ (Emitted uid p) q E) :
    (E.flatMap Code.items).Perm (p.map (hiddenItem uid) ++ p.flatMap offeredItems) := by
  rw [flatMap_eq (g := fun d => [hiddenItem uid d] ++ offeredItems d)
    (fun _ _ h => emitted_items h) h]
  refine ((hq.flatMap_right _).trans (List.flatMap_append_perm p _ _).symm).trans ?_
  rw [← List.map_eq_flatMap]

theorem all_steps (hq : q.Perm p) (h : List.Forall₂ (Emitted uid p) q E) :
    (E.flatMap Code.steps).Perm (p.flatMap (hiddenSteps uid) ++ p.flatMap offeredSteps) := by
  rw [flatMap_eq (g := fun d => hiddenSteps uid d ++ offeredSteps d)
    (fun _ _ h => emitted_steps h) h]
  exact (hq.flatMap_right _).trans (List.flatMap_append_perm p _ _).symm

theorem hidden_hidden (d : SrcDecl) : (hiddenItem uid d).hidden = true := by
  obtain ⟨_, i⟩ := d
  cases i <;> rfl

theorem hidden_always (d : SrcDecl) : (hiddenItem uid d).testOnly = false := by
  obtain ⟨_, i⟩ := d
  cases i <;> rfl

theorem hidden_name (d : SrcDecl) : (hiddenItem uid d).name = (entity uid d).sanitized := by
  obtain ⟨_, i⟩ := d
  cases i <;> rfl

theorem offered_visible {d : SrcDecl} {i : Item} (h : i ∈ offeredItems d) : i.hidden = false := by
  obtain ⟨_, x⟩ := d
  cases x <;> simp only [offeredItems, List.mem_append, List.mem_ite_nil_right, List.mem_singleton,
    List.not_mem_nil, or_assoc] at h
  · rw [h.2]
  · rcases h with h | h | h <;> rw [h.2]
  · rw [h.2]

/-- What is visible is what is offered. -/
theorem visible_items (hq : q.Perm p) (h : List.Forall₂ (Emitted uid p) q E) :
    ((E.flatMap Code.items).filter fun i => !i.hidden).Perm (p.flatMap offeredItems) := by
  refine ((all_items hq h).filter _).trans ?_
  rw [List.filter_append, List.filter_eq_nil_iff.2, List.filter_eq_self.2, List.nil_append]
  · intro i hi
    obtain ⟨d, -, hd⟩ := List.mem_flatMap.1 hi
    simp [offered_visible hd]
  · intro i hi
    obtain ⟨d, -, rfl⟩ := List.mem_map.1 hi
    simp [hidden_hidden]

/-- The names of hidden items. -/
def hiddenNames (uid : Nat) (p : SrcProg) : List RustName := p.map fun d => (hiddenItem uid d).rust

theorem has_false : b.has false = true := by cases b <;> rfl

theorem all_names (hq : q.Perm p) (h : List.Forall₂ (Emitted uid p) q E) :
    (itemNames b E).Perm (hiddenNames uid p ++ offeredNames b p) := by
  have := ((all_items hq h).filter fun i => b.has i.testOnly).map Item.rust
  have e : (p.map (hiddenItem uid)).filter (fun i => b.has i.testOnly) = p.map (hiddenItem uid) := by
    refine List.filter_eq_self.2 fun i hi => ?_
    obtain ⟨d, -, rfl⟩ := List.mem_map.1 hi
    rw [hidden_always, has_false]
  rw [List.filter_append, List.map_append, e, List.map_map] at this
  exact this

theorem entity_key {d d' : SrcDecl} (h : entity uid d = entity uid d') : key d = key d' := by
  obtain ⟨_, i⟩ := d
  obtain ⟨_, i'⟩ := d'
  cases i <;> cases i' <;> simp only [entity, Entity.glob.injEq, Entity.node.injEq, reduceCtorEq]
    at h <;> simp [key, h.1]

theorem hidden_nodup (hk : (p.map key).Nodup) : (hiddenNames uid p).Nodup := by
  unfold hiddenNames
  refine List.Nodup.map_on (fun d hd d' hd' e => ?_) (List.Nodup.of_map _ hk)
  refine nodup_map_inj hk hd hd' (entity_key (uid := uid) ?_)
  refine Props.C39_sanitized_injective _ _ ?_
  rw [← hidden_name, ← hidden_name]
  exact congrArg Prod.snd e

/-- Names of items are distinct just when those that are offered are, and are not names of hidden
items. -/
theorem once_iff (hk : (p.map key).Nodup) (hq : q.Perm p) (h : List.Forall₂ (Emitted uid p) q E) :
    (itemNames b E).Nodup ↔ (offeredNames b p).Nodup ∧
      ∀ n ∈ offeredNames b p, n ∉ hiddenNames uid p := by
  rw [(all_names hq h).nodup_iff, List.nodup_append']
  constructor
  · rintro ⟨-, h2, h3⟩
    exact ⟨h2, fun n hn hn' => h3 hn' hn⟩
  · rintro ⟨h2, h3⟩
    exact ⟨hidden_nodup hk, h2, fun n hn hn' => h3 n hn' hn⟩

theorem hidden_internal {n : RustName} (h : n ∈ hiddenNames uid p) : Internal n.2 := by
  obtain ⟨d, -, rfl⟩ := List.mem_map.1 h
  exact ⟨entity uid d, (hidden_name d).symm⟩

theorem emitted_user {d : SrcDecl} {c : Code} (h : Emitted uid p d c) {n : RustName} :
    Use.user n ∈ c.uses ↔ n ∈ needed d := by
  have ty : ∀ t : TyBase, Use.user n ≠ t.use := by intro t; cases t <;> simp [TyBase.use]
  cases h with
  | @node attrs src m sigs consts hw hb h =>
    cases hm : (meaning attrs).main <;> cases ht : (meaning attrs).test <;>
      cases hx : (meaning attrs).export_ <;>
      simp [Node.emit, Code.append, Node.internal, Node.external, fnMain, fnTest, needed, hm, ht,
        hx, fun t => (ty t).symm]
  | @extNode attrs f ins outs h =>
    cases hm : (meaning attrs).main <;>
      simp [ExtNode.emit, Code.append, fnMain, extOptions, hm, needed, fun t => (ty t).symm,
        Entity.raw]
  | @const attrs c c' consts hb ht h =>
    cases hx : (meaning attrs).export_ <;>
    simp [Const.emit, Code.append, constOptions, hx, needed, ty]
  | extConst => simp [ExtConst.emit, needed, ty, Entity.raw]

theorem mem_userNames (hq : q.Perm p) (h : List.Forall₂ (Emitted uid p) q E) {n : RustName} :
    n ∈ userNames E ↔ n ∈ p.flatMap needed := by
  have h1 : n ∈ userNames E ↔ ∃ c ∈ E, Use.user n ∈ c.uses := by
    unfold userNames
    simp only [List.mem_filterMap, List.mem_flatMap]
    constructor
    · rintro ⟨u, ⟨c, hc, hu⟩, e⟩
      split at e <;> cases e
      exact ⟨c, hc, hu⟩
    · rintro ⟨c, hc, hu⟩
      exact ⟨_, ⟨c, hc, hu⟩, rfl⟩
  rw [h1, List.mem_flatMap]
  constructor
  · rintro ⟨c, hc, hu⟩
    obtain ⟨d, hd, hR⟩ := forall₂_right h hc
    exact ⟨d, hq.mem_iff.1 hd, (emitted_user hR).1 hu⟩
  · rintro ⟨d, hd, hn⟩
    obtain ⟨c, hc, hR⟩ := forall₂_left h (hq.mem_iff.2 hd)
    exact ⟨c, hc, (emitted_user hR).2 hn⟩

/-! ### Names of the compiler -/

theorem internal_end {x : String} (h : Internal x) :
    x.toList.reverse.take 3 ∈ [['e', 'd', 'o'], ['l', 'a', 'b'], ['l', 'a', 'c']] := by
  obtain ⟨e, rfl⟩ := h
  cases e <;> simp [Entity.sanitized, String.toList_append]

theorem reserved_not_internal {x : String} (h : x ∈ reservedVars) : ¬ Internal x := by
  have key : ∀ x ∈ reservedVars,
      x.toList.reverse.take 3 ∉ [['e', 'd', 'o'], ['l', 'a', 'b'], ['l', 'a', 'c']] := by decide
  exact fun hi => key x h (internal_end hi)

theorem prelude_not_internal {x : String} (h : x ∈ preludeNames) : ¬ Internal x := by
  have key : ∀ x ∈ preludeNames,
      x.toList.reverse.take 3 ∉ [['e', 'd', 'o'], ['l', 'a', 'b'], ['l', 'a', 'c']] := by decide
  exact fun hi => key x h (internal_end hi)

theorem type_not_internal : ¬ Internal "Type" := by
  intro hi
  have := internal_end hi
  revert this
  decide

/-! ### Patterns -/

theorem mem_known {x : String} : x ∈ knownConsts p ↔
    (∃ attrs c, ⟨attrs, .const c⟩ ∈ p ∧ (meaning attrs).export_ = true ∧ c.name = x) ∨
    ∃ attrs ty, ⟨attrs, .extConst x ty⟩ ∈ p := by
  unfold knownConsts
  rw [List.mem_flatMap]
  constructor
  · rintro ⟨⟨attrs, i⟩, hd, hx⟩
    cases i <;> simp at hx
    · exact .inl ⟨_, _, hd, hx.1, hx.2.symm⟩
    · subst hx; exact .inr ⟨_, _, hd⟩
  · rintro (⟨attrs, c, hd, he, rfl⟩ | ⟨attrs, ty, hd⟩)
    · exact ⟨_, hd, by simp [he]⟩
    · exact ⟨_, hd, by simp⟩

theorem known_offered {x : String} (h : x ∈ knownConsts p) :
    (.values, x) ∈ offeredNames b p ++ p.flatMap needed := by
  rcases mem_known.1 h with ⟨attrs, c, hd, he, rfl⟩ | ⟨attrs, ty, hd⟩
  · refine List.mem_append_left _ (List.mem_map.2 ⟨⟨.const, c.name, (meaning attrs).isPub, false,
      false⟩, List.mem_filter.2 ⟨List.mem_flatMap.2 ⟨_, hd, ?_⟩, has_false⟩, rfl⟩)
    simp [offeredItems, he]
  · exact List.mem_append_right _ (List.mem_flatMap.2 ⟨_, hd, by simp [needed]⟩)

theorem known_not_internal (hS : Sensible b p) {x : String} (h : x ∈ knownConsts p) :
    ¬ Internal x := hS.internal _ (known_offered h)

theorem mem_items (hq : q.Perm p) (h : List.Forall₂ (Emitted uid p) q E) {i : Item} :
    i ∈ E.flatMap Code.items ↔ (∃ d ∈ p, i = hiddenItem uid d) ∨ ∃ d ∈ p, i ∈ offeredItems d := by
  rw [(all_items hq h).mem_iff, List.mem_append, List.mem_map, List.mem_flatMap]
  simp only [eq_comm]

/-- Constants have the name of a constant of the program, or one that the compiler made up. -/
theorem const_item (hq : q.Perm p) (h : List.Forall₂ (Emitted uid p) q E) {i : Item}
    (hi : i ∈ E.flatMap Code.items) (hk : i.kind = .const) :
    i.name ∈ knownConsts p ∨ ∃ x, i.name = (Entity.glob x uid).sanitized := by
  rcases (mem_items hq h).1 hi with ⟨⟨attrs, x⟩, hd, rfl⟩ | ⟨⟨attrs, x⟩, hd, ho⟩
  · cases x <;> simp only [hiddenItem, reduceCtorEq] at hk
    · exact .inr ⟨_, rfl⟩
    · exact .inr ⟨_, rfl⟩
  · cases x <;> simp only [offeredItems, List.mem_append, List.mem_ite_nil_right,
      List.mem_singleton, List.not_mem_nil, or_assoc] at ho
    · obtain ⟨he, rfl⟩ := ho
      exact .inl (mem_known.2 (.inl ⟨_, _, hd, he, rfl⟩))
    · rcases ho with ⟨_, rfl⟩ | ⟨_, rfl⟩ | ⟨_, rfl⟩ <;> cases hk
    · obtain ⟨_, rfl⟩ := ho; cases hk

theorem user_value (hq : q.Perm p) (h : List.Forall₂ (Emitted uid p) q E) {x : String}
    (hx : (.values, x) ∈ userNames E) : x ∈ knownConsts p := by
  obtain ⟨⟨attrs, i⟩, hd, hn⟩ := List.mem_flatMap.1 ((mem_userNames hq h).1 hx)
  cases i <;> simp [needed] at hn
  subst hn
  exact mem_known.2 (.inr ⟨_, _, hd⟩)

theorem translateArgs_names {as : List ArgsTy} {x : String}
    (h : x ∈ (translateArgs as).map (·.name)) : x ∈ argNames as := by
  simpa [translateArgs, argNames, List.mem_flatMap] using h

theorem flips_reserved : (e : Expr) → ∀ {x : String}, x ∈ flipsIn e → x = "initial" ∨ x = "continued" := by
  intro e
  refine Expr.rec (motive_1 := fun e => ∀ {x : String}, x ∈ flipsIn e → x = "initial" ∨ x = "continued")
    (motive_2 := fun es => ∀ {x : String}, x ∈ flipsInList es → x = "initial" ∨ x = "continued")
    ?_ ?_ ?_ ?_ ?_ ?_ ?_ ?_ ?_ ?_ ?_ ?_ ?_ ?_ ?_ ?_ ?_ ?_ ?_ e <;>
    intros <;> simp only [flipsIn, flipsInList, List.mem_append, List.mem_cons, List.not_mem_nil, or_false] at * <;> grind

/-- What is bound: names that are reserved, variables, and variables by their own name if they are
traced. -/
theorem emitted_binds {d : SrcDecl} {c : Code} (h : Emitted uid p d c) {x : String}
    (hx : x ∈ c.binds) : x ∈ reservedVars ∨ (∃ v, x = (Entity.loc v).sanitized) ∨
      ((meaning d.attrs).trace.isSome ∧ x ∈ variablesOf d.item) := by
  have sys : ∀ {x}, x ∈ ["sys"] → x ∈ reservedVars := by decide
  have inp : ∀ {x}, x ∈ ["inputs"] → x ∈ reservedVars := by decide
  have ext : ∀ {x}, x ∈ ["_ext", "_this", "_clk"] → x ∈ reservedVars := by decide
  have real : ∀ {x}, x ∈ ["real", "expected"] → x ∈ reservedVars := by decide
  have main : ∀ {u m} {x}, x ∈ (fnMain u m).binds → x ∈ reservedVars := by
    intro u m x h; cases m
    · simp [fnMain] at h
    · exact sys h
  have test : ∀ {u r m} {x}, x ∈ (fnTest u r m).binds → x ∈ reservedVars := by
    intro u r m x h; cases m
    · simp [fnTest] at h
    · exact sys h
  have trace : ∀ {t} {vs : List TyVar} {x}, x ∈ traceBinds t vs → x ∈ reservedVars ∨
      t.isSome ∧ x ∈ vs.map (·.name) := by
    intro t vs x h
    cases t with
    | none => simp [traceBinds] at h
    | some t =>
      rcases List.mem_append.1 h with h | h
      · exact .inl (ext h)
      · exact .inr ⟨rfl, by simpa [Entity.raw] using h⟩
  cases h with
  | @node attrs src m sigs consts hw hb h =>
    obtain ⟨n₁, n₂, c, ctx, clk, dep, K, hf⟩ := passes_final h
    simp only [Node.emit, Code.append, List.mem_append, or_assoc] at hx
    rcases hx with hx | hx | hx | hx
    · simp only [Node.internal, List.mem_append, or_assoc] at hx
      rcases hx with hx | hx | hx | hx | hx
      · exact .inl (inp hx)
      · obtain ⟨v, -, rfl⟩ := List.mem_map.1 hx
        exact .inr (.inl ⟨_, rfl⟩)
      · rcases trace hx with hx | ⟨ht, hx⟩
        · exact .inl hx
        · refine .inr (.inr ⟨ht, ?_⟩)
          have e := hf.declared_names
          have : x ∈ (declared m).map (·.name) := by
            simp only [declared, List.map_append, List.mem_append] at hx ⊢
            tauto
          rw [e] at this
          simp only [SrcNode.view, List.map_append, List.mem_append] at this
          simp only [variablesOf, List.mem_append]
          exact this.imp (Or.imp translateArgs_names translateArgs_names) translateArgs_names
      · obtain ⟨st, -, hx⟩ := List.mem_flatMap.1 hx
        cases st <;> simp only [Stmt.binds, List.not_mem_nil] at hx
        obtain ⟨v, -, rfl⟩ := List.mem_map.1 hx
        exact .inr (.inl ⟨_, rfl⟩)
      · obtain ⟨e, -, hx⟩ := List.mem_flatMap.1 hx
        left
        rcases flips_reserved e hx with rfl | rfl <;> decide
    · unfold Node.external at hx
      left
      split at hx
      · exact inp hx
      · simp at hx
    · exact .inl (main hx)
    · exact .inl (test hx)
  | @extNode attrs f ins outs h =>
    simp only [ExtNode.emit, Code.append, List.mem_append, or_assoc] at hx
    rcases hx with hx | hx | hx | hx
    · exact .inl (inp hx)
    · obtain ⟨v, -, rfl⟩ := List.mem_map.1 hx
      exact .inr (.inl ⟨_, rfl⟩)
    · rcases trace hx with hx | ⟨ht, hx⟩
      · exact .inl hx
      · refine .inr (.inr ⟨ht, ?_⟩)
        rw [List.map_append, List.mem_append] at hx
        simp only [variablesOf, List.mem_append]
        exact hx.imp translateArgs_names translateArgs_names
    · exact .inl (main hx)
  | @const attrs c c' consts hb ht h =>
    simp only [Const.emit, Code.append, List.nil_append] at hx
    split at hx <;> simp at hx
  | extConst => exact .inl (real hx)

theorem binds_resolve (hS : Sensible b p) (hq : q.Perm p) (h : List.Forall₂ (Emitted uid p) q E)
    {x : String} (hx : x ∈ E.flatMap Code.binds) :
    (∀ i ∈ E.flatMap Code.items, i.kind = .const → i.name ≠ x) ∧ (.values, x) ∉ userNames E := by
  obtain ⟨c, hc, hx⟩ := List.mem_flatMap.1 hx
  obtain ⟨d, hd, hE⟩ := forall₂_right h hc
  have : x ∉ knownConsts p ∧ ∀ y, x ≠ (Entity.glob y uid).sanitized := by
    rcases emitted_binds hE hx with hr | ⟨v, rfl⟩ | ⟨ht, hv⟩
    · exact ⟨fun hk => hS.consts x hk hr, fun y e => reserved_not_internal hr ⟨_, e.symm⟩⟩
    · refine ⟨fun hk => known_not_internal hS hk ⟨_, rfl⟩, fun y e => ?_⟩
      cases Props.C39_sanitized_injective _ _ e
    · have := hS.traced d (hq.mem_iff.1 hd) ht x hv
      exact ⟨this.1, fun y e => this.2 ⟨_, e.symm⟩⟩
  refine ⟨fun i hi hk e => ?_, fun hu => this.1 (user_value hq h hu)⟩
  rcases const_item hq h hi hk with h1 | ⟨y, h1⟩
  · exact this.1 (e ▸ h1)
  · exact this.2 y (e ▸ h1)

/-- The variables of a traced node are bound under their own name. -/
theorem traced_binds {d : SrcDecl} {c : Code} (h : Emitted uid p d c)
    (ht : (meaning d.attrs).trace.isSome) {x : String} (hx : x ∈ variablesOf d.item) :
    x ∈ c.binds := by
  have back : ∀ {as : List ArgsTy} {x}, x ∈ argNames as → x ∈ (translateArgs as).map (·.name) := by
    intro as x h
    simpa [translateArgs, argNames, List.mem_flatMap] using h
  have trace : ∀ {t} {vs : List TyVar} {x}, Option.isSome t → x ∈ vs.map (·.name) →
      x ∈ traceBinds t vs := by
    intro t vs x h hx
    obtain ⟨t, rfl⟩ := Option.isSome_iff_exists.1 h
    exact List.mem_append_right _ (by simpa [Entity.raw] using hx)
  cases h with
  | @node attrs src m sigs consts hw hb h =>
    obtain ⟨n₁, n₂, c, ctx, clk, dep, K, hf⟩ := passes_final h
    have e := hf.declared_names
    have : x ∈ (declared m).map (·.name) := by
      rw [e]
      simp only [SrcNode.view, List.map_append, List.mem_append]
      simp only [variablesOf, List.mem_append] at hx
      exact hx.imp (Or.imp back back) back
    simp only [Node.emit, Code.append, List.mem_append, Node.internal]
    refine .inl (.inl (.inl (.inl (.inl (.inr (trace ht ?_))))))
    simp only [declared, List.map_append, List.mem_append] at this ⊢
    tauto
  | @extNode attrs f ins outs h =>
    simp only [ExtNode.emit, Code.append, List.mem_append]
    refine .inl (.inr (trace ht ?_))
    simp only [variablesOf, List.mem_append] at hx
    rw [List.map_append, List.mem_append]
    exact hx.imp back back
  | const _ _ _ => cases hx
  | extConst => cases hx

theorem traced_clash (hq : q.Perm p) (h : List.Forall₂ (Emitted uid p) q E) {d : SrcDecl}
    (hd : d ∈ p) (ht : (meaning d.attrs).trace.isSome) {x : String} (hx : x ∈ variablesOf d.item)
    (hk : x ∈ knownConsts p) : ¬ Resolves b E := by
  intro hR
  obtain ⟨c, hc, hE⟩ := forall₂_left h (hq.mem_iff.2 hd)
  obtain ⟨h1, h2⟩ := hR.binds x (List.mem_flatMap.2 ⟨c, hc, traced_binds hE ht hx⟩)
  rcases mem_known.1 hk with ⟨attrs, c, hd, he, rfl⟩ | ⟨attrs, ty, hd⟩
  · refine h1 ⟨.const, c.name, (meaning attrs).isPub, false, false⟩
      ((mem_items hq h).2 (.inr ⟨_, hd, ?_⟩)) rfl rfl
    simp [offeredItems, he]
  · exact h2 ((mem_userNames hq h).2 (List.mem_flatMap.2 ⟨_, hd, by simp [needed]⟩))

/-! ### Nodes and constants that are mentioned -/

mutual
theorem globals_known {Γ : TyEnv} {x : String} : {e : Expr} → {t : TyTuple} → HasType Γ e t →
    x ∈ globalsIn e → (Γ.global x).isSome = true
  | _, _, .lit, h => by simp [globalsIn] at h
  | _, _, .global h1, h => by
    simp only [globalsIn, List.mem_singleton] at h
    rw [h, h1]; rfl
  | _, _, .var _, h => by simp [globalsIn] at h
  | _, _, .dummyPre h1, h => globals_known h1 (by simpa only [globalsIn] using h)
  | _, _, .dummyParen h1, h => globals_known h1 (by simpa only [globalsIn] using h)
  | _, _, .tuple h1, h => globals_knowns h1 (by simpa only [globalsIn] using h)
  | _, _, .un h1 _, h => globals_known h1 (by simpa only [globalsIn] using h)
  | _, _, .bin h1 h2 _, h => (List.mem_append.1 (by simpa only [globalsIn] using h)).elim
      (globals_known h1) (globals_known h2)
  | _, _, .cmp h1 h2 _, h => (List.mem_append.1 (by simpa only [globalsIn] using h)).elim
      (globals_known h1) (globals_known h2)
  | _, _, .clock h1 h2, h => (List.mem_append.1 (by simpa only [globalsIn] using h)).elim
      (globals_known h1) (globals_known h2)
  | _, _, .later h1 h2, h => (List.mem_append.1 (by simpa only [globalsIn] using h)).elim
      (globals_known h1) (globals_known h2)
  | _, _, .flip h1 h2, h => (List.mem_append.1 (by simpa only [globalsIn] using h)).elim
      (globals_known h1) (globals_known h2)
  | _, _, .ifx h1 h2 h3, h => (List.mem_append.1 (by simpa only [globalsIn] using h)).elim
      (fun h => (List.mem_append.1 h).elim (globals_known h1) (globals_known h2)) (globals_known h3)
  | _, _, .merge h1 h2 h3, h => (List.mem_append.1 (by simpa only [globalsIn] using h)).elim
      (fun h => (List.mem_append.1 h).elim (globals_known h1) (globals_known h2)) (globals_known h3)
  | _, _, .substep h1 _, h => globals_known h1 (by simpa only [globalsIn] using h)
  | _, _, .fetchPre _ _, h => by simp [globalsIn] at h
  | _, _, .fetchFby _ _ _, h => by simp [globalsIn] at h
theorem globals_knowns {Γ : TyEnv} {x : String} : {es : List Expr} → {ts : List TyTuple} →
    HasTypes Γ es ts → x ∈ globalsInList es → (Γ.global x).isSome = true
  | _, _, .nil, h => by simp [globalsInList] at h
  | _, _, .cons h1 h2, h => (List.mem_append.1 (by simpa only [globalsInList] using h)).elim
      (globals_known h1) (globals_knowns h2)
end

theorem globals_part {x : String} {e : Expr} (h : ConstExpr e) (hx : x ∈ globalsIn e) :
    Part (.global x) e := by
  induction h with
  | lit => simp [globalsIn] at hx
  | global => simp only [globalsIn, List.mem_singleton] at hx; subst hx; exact .refl
  | paren _ ih => exact .tail (ih (by simpa only [globalsIn] using hx)) .dummyParen
  | un _ ih => exact .tail (ih (by simpa only [globalsIn] using hx)) .un
  | bin _ _ ih1 ih2 =>
    rw [globalsIn, List.mem_append] at hx
    exact hx.elim (fun h => .tail (ih1 h) .binL) fun h => .tail (ih2 h) .binR
  | cmp _ _ ih1 ih2 =>
    rw [globalsIn, List.mem_append] at hx
    exact hx.elim (fun h => .tail (ih1 h) .cmpL) fun h => .tail (ih2 h) .cmpR
  | ifx _ _ _ ih1 ih2 ih3 =>
    rw [globalsIn, List.mem_append, List.mem_append] at hx
    exact hx.elim (fun h => h.elim (fun h => .tail (ih1 h) .ifCond) fun h => .tail (ih2 h) .ifYes) fun h => .tail (ih3 h) .ifNo

theorem find_const {x : String} (h : (Static.find (p.filterMap Static.constant) x).isSome = true) :
    ∃ d ∈ p, key d = (false, x) := by
  unfold Static.find at h
  rw [Option.isSome_map, Option.isSome_iff_exists] at h
  obtain ⟨⟨y, t⟩, h⟩ := h
  have e := List.find?_some h
  obtain ⟨⟨attrs, i⟩, hd, hc⟩ := List.mem_filterMap.1 (List.mem_of_find?_eq_some h)
  refine ⟨_, hd, ?_⟩
  cases i <;> simp [Static.constant] at hc e <;> simp [key, hc, e]

theorem find_node {x : String} (h : (Static.find (p.filterMap Static.nodeSig) x).isSome = true) :
    ∃ d ∈ p, key d = (true, x) := by
  unfold Static.find at h
  rw [Option.isSome_map, Option.isSome_iff_exists] at h
  obtain ⟨⟨y, t⟩, h⟩ := h
  have e := List.find?_some h
  obtain ⟨⟨attrs, i⟩, hd, hc⟩ := List.mem_filterMap.1 (List.mem_of_find?_eq_some h)
  refine ⟨_, hd, ?_⟩
  cases i <;> simp [Static.nodeSig, signature] at hc e <;> simp [key, hc, e]

theorem clock_globals (k : Clk) : globalsIn (clockExpr k) = [] := by
  cases k <;> rfl

/-- Nodes and constants that a node mentions. -/
theorem node_mentions (hL : Static.Legal p) {attrs : List Attribute} {src : SrcNode}
    (hd : ⟨attrs, .node src⟩ ∈ p) {sigs : String → Option Sig} {consts : String → Option TyBase}
    {n : Node} (h : Passes (meaning attrs).universalPre (tyOpts (meaning attrs)) sigs consts src n) :
    (∀ b ∈ n.blocks, (∃ st ∈ src.defs, b.name ∈ callees (SrcStmt.expr st)) ∧
      ∃ d ∈ p, key d = (true, b.name)) ∧
    (∀ st ∈ n.stmts, ∀ e ∈ st.emitted, ∀ x ∈ globalsIn e, ∃ d ∈ p, key d = (false, x)) ∧
    ∀ v ∈ n.inputs ++ n.outputs ++ n.locals, ∀ g, v.ty = .other g → g ∈ (meaning attrs).generics := by
  obtain ⟨n₁, n₂, c, ctx, clk, dep, K, hf⟩ := passes_final h
  have hN : Static.LegalNode _ _ _ src := hL.items _ hd
  have ok := nodeOk_of_legal hf.stmts hN
  have eb : ∀ b ∈ n.blocks, ∃ b' ∈ c.blocks, b'.name = b.name := by
    have e1 : n₂.blocks = c.blocks := by rw [hf.same, hf.start]
    intro b hb
    rw [hf.final] at hb
    change b ∈ (n₂.fill ctx).blocks at hb
    unfold Node.fill at hb
    obtain ⟨i, hi, rfl⟩ := List.mem_mapIdx.1 hb
    refine ⟨n₂.blocks[i], ?_, rfl⟩
    rw [← e1]
    exact List.getElem_mem hi
  refine ⟨fun b hb => ?_, fun st hst e he x hx => ?_, fun v hv g hg => ?_⟩
  · obtain ⟨b', hb, e⟩ := eb b hb
    rw [← e]
    have hlit : ∀ st ∈ src.defs, LitsOk (literals (SrcStmt.expr st)) := fun st hst => by
      obtain ⟨t, ht⟩ := legalStmt_ty (hN.stmts st hst)
      exact (hasTy_known _ ht).1
    refine ⟨blocks_callees hf.stmts hlit b' hb, find_node ?_⟩
    exact Option.isSome_iff_exists.2 (ok.typed.blocks b' hb)
  · have he' : e ∈ evaluated st := by
      cases st <;> exact he
    refine find_const ?_
    change ((nodeEnv (Static.find (p.filterMap Static.nodeSig))
      (Static.find (p.filterMap Static.constant)) (built src c)).global x).isSome = true
    have typed := ok.typed.stmts
    change ∀ st ∈ c.stmts, _ at typed
    rcases hf.evaluated hst he' with ⟨st', h1, h2⟩ | ⟨id, -, k, rfl, hk⟩
    · cases st' with
      | let_ y e' =>
        simp only [evaluated, List.mem_singleton] at h2; subst h2
        cases typed _ h1 with | let_ _ ht => exact globals_known ht hx
      | assert e' =>
        simp only [evaluated, List.mem_singleton] at h2; subst h2
        cases typed _ h1 with | assert ht => exact globals_known ht hx
      | updateRegister id e' =>
        simp only [evaluated, List.mem_singleton] at h2; subst h2
        obtain ⟨st, hst, hm⟩ := List.mem_flatMap.1 ((hf.built.fetched id e).2 h1)
        cases st <;> simp only [fetchesIn, List.not_mem_nil] at hm
        · cases typed _ hst with
          | let_ _ ht => obtain ⟨u, -, hu⟩ := fetch_typed ht hm; exact globals_known hu hx
        · cases typed _ hst with
          | assert ht => obtain ⟨u, -, hu⟩ := fetch_typed ht hm; exact globals_known hu hx
      | initRegister id i k =>
        obtain rfl := hf.built.clocks _ _ _ h1
        simp only [evaluated, Option.toList_none, List.nil_append, Option.mem_toList] at h2
        obtain ⟨st, hst, hm⟩ := List.mem_flatMap.1 ((hf.built.started id i).2 h1)
        cases st <;> simp only [startsIn, List.not_mem_nil] at hm
        · cases typed _ hst with
          | let_ _ ht =>
            obtain ⟨u, -, hu⟩ := start_typed ht hm
            exact globals_known (hu _ h2) hx
        · cases typed _ hst with
          | assert ht =>
            obtain ⟨u, -, hu⟩ := start_typed ht hm
            exact globals_known (hu _ h2) hx
    · rw [hk, clock_globals] at hx
      cases hx
  · have : ∃ w ∈ n₂.inputs ++ n₂.outputs ++ n₂.locals, w.ty = v.ty := by
      rw [hf.final] at hv
      simp only [Node.withDepths, setDepths, Node.withClocks, Node.fill, List.mem_append,
        List.mem_map] at hv ⊢
      rcases hv with (⟨w, hw, rfl⟩ | ⟨w, hw, rfl⟩) | ⟨w, hw, rfl⟩
      · exact ⟨w, .inl (.inl hw), rfl⟩
      · exact ⟨w, .inl (.inr hw), rfl⟩
      · exact ⟨w, .inr hw, rfl⟩
    obtain ⟨w, hw, e⟩ := this
    exact hf.sig.declared w hw g (e.trans hg)

/-- There is a subnode for each call. -/
theorem called_block {b : Bool} {o : TyOpts} {src : SrcNode} {sigs : String → Option Sig}
    {consts : String → Option TyBase} {n : Node} (h : Passes b o sigs consts src n) {f : String}
    (hf : ∃ st ∈ src.defs, f ∈ callees (SrcStmt.expr st)) : ∃ bl ∈ n.blocks, bl.name = f := by
  obtain ⟨n₁, n₂, c, ctx, clk, dep, K, hF⟩ := passes_final h
  have hn := node_comes hF.stmts
  have key : ⟨f, none⟩ ∈ c.blocks := by
    obtain ⟨st, hst, hf⟩ := hf
    cases st with
    | def_ p e =>
      obtain ⟨x, h1, h2⟩ := hn.defs p e hst
      exact ((comes_mentioned e h1).stmt (es' := []) h2 (by simp [values])).1 f hf
    | assert e =>
      obtain ⟨x, h1, h2⟩ := hn.asserts e hst
      exact ((comes_mentioned e h1).stmt (es' := []) h2 (by simp [values])).1 f hf
  have e1 : n₂.blocks = c.blocks := by rw [hF.same, hF.start]
  rw [← e1] at key
  obtain ⟨i, hi, e⟩ := List.mem_iff_getElem.1 key
  have : ∃ bl ∈ (n₂.fill ctx).blocks, bl.name = f := by
    unfold Node.fill
    exact ⟨_, List.mem_mapIdx.2 ⟨i, hi, rfl⟩, by simp [e]⟩
  rw [hF.final]
  exact this

theorem const_mentions (hL : Static.Legal p) {attrs : List Attribute} {c : SrcConst}
    (hd : ⟨attrs, .const c⟩ ∈ p) {c' : Const} (ht : c.translate = .ok c')
    (hc : ConstExpr c'.value) : ∀ x ∈ globalsIn c'.value, ∃ d ∈ p, key d = (false, x) := by
  intro x hx
  have h1 := (const_names ht hc x).1 (globals_part hc hx)
  obtain ⟨-, hty⟩ : Static.Constant c.value ∧ _ := hL.items _ hd
  rcases (hasTy_known _ hty).2.2 x h1 with h2 | h2
  · simp [Static.Scope.var] at h2
  · exact find_const h2

/-! ### Calls -/

theorem mem_steps (hq : q.Perm p) (h : List.Forall₂ (Emitted uid p) q E) {s : StepFn} {d : SrcDecl}
    (hd : d ∈ p) (hs : s ∈ hiddenSteps uid d) : s ∈ E.flatMap Code.steps :=
  (all_steps hq h).mem_iff.2 (List.mem_append_left _ (List.mem_flatMap.2 ⟨d, hd, hs⟩))

/-- There is a method for each node, and it exists outside of tests unless the node is a test. -/
theorem node_step (hq : q.Perm p) (h : List.Forall₂ (Emitted uid p) q E) {d : SrcDecl} {f : String}
    (hd : d ∈ p) (hf : key d = (true, f))
    (ht : ∀ attrs src, ⟨attrs, .node src⟩ ∈ p → src.name = f → b.has (meaning attrs).test.isSome) :
    ∃ s ∈ E.flatMap Code.steps, s.owner = (Entity.node f uid).sanitized ∧ b.has s.testOnly := by
  obtain ⟨attrs, i⟩ := d
  cases i <;> simp [key] at hf
  · subst hf
    exact ⟨_, mem_steps hq h hd (List.mem_singleton_self _), rfl, ht _ _ hd rfl⟩
  · subst hf
    exact ⟨_, mem_steps hq h hd (List.mem_singleton_self _), rfl, has_false⟩

theorem has_true (h : b.has true = true) (x : Bool) : b.has x = true := by
  cases b
  · cases h
  · rfl

theorem calls_resolve (hL : Static.Legal p) (hS : Sensible b p) (hkey : (p.map key).Nodup) (hq : q.Perm p)
    (h : List.Forall₂ (Emitted uid p) q E) {k : StepCall} (hk : k ∈ E.flatMap Code.calls)
    (hb : b.has k.testOnly) :
    ∃ s ∈ E.flatMap Code.steps, s.owner = k.owner ∧ b.has s.testOnly := by
  obtain ⟨c, hc, hk⟩ := List.mem_flatMap.1 hk
  obtain ⟨d, hd, hE⟩ := forall₂_right h hc
  have hd' := hq.mem_iff.1 hd
  cases hE with
  | @node attrs src m sigs consts hw hbs hp =>
    have e := (passes_sig hp).1
    have own : ∀ f, key ⟨attrs, .node f⟩ = (true, f.name) := fun f => rfl
    simp only [Node.emit, Code.append, List.mem_append, or_assoc] at hk
    rcases hk with hk | hk | hk | hk
    · simp only [Node.internal, List.mem_map] at hk
      obtain ⟨bl, hbl, rfl⟩ := hk
      obtain ⟨h1, d', hd1, hd2⟩ := (node_mentions hL hd' hp).1 bl hbl
      exact node_step hq h hd1 hd2 (hS.tests _ hd' _ (.inside hb h1))
    · unfold Node.external at hk
      split at hk
      · rename_i hx
        simp only [List.mem_singleton] at hk
        subst hk
        rw [e]
        exact node_step hq h hd' (own _) (hS.tests _ hd' _ (.exported hx))
      · simp at hk
    · cases hm : (meaning attrs).main with
      | none => simp [hm, fnMain] at hk
      | some x =>
        simp only [hm, fnMain, List.mem_singleton] at hk
        subst hk
        rw [e]
        exact node_step hq h hd' (own _) (hS.tests _ hd' _ (.main (by simp [hm])))
    · cases hm : (meaning attrs).test with
      | none => simp [hm, fnTest] at hk
      | some x =>
        simp only [hm, fnTest, List.mem_singleton] at hk
        subst hk
        rw [e]
        exact node_step hq h hd' (own _) fun _ _ _ _ => has_true hb _
  | @extNode attrs f ins outs hs =>
    simp only [ExtNode.emit, Code.append, List.nil_append] at hk
    cases hm : (extOptions attrs).main with
    | none => simp [hm, fnMain] at hk
    | some x =>
      simp only [hm, fnMain, List.mem_singleton] at hk
      subst hk
      refine node_step (f := f) hq h hd' rfl fun attrs' src hm' hf => ?_
      have := nodup_map_inj hkey hd' hm' (by simp [key, hf])
      cases this
  | @const attrs c c' consts hbs ht hp =>
    simp only [Const.emit, Code.append, List.nil_append] at hk
    split at hk <;> simp at hk
  | extConst => simp [ExtConst.emit] at hk

/-- A call that the program asks for is in the code. -/
theorem call_emitted (hq : q.Perm p) (h : List.Forall₂ (Emitted uid p) q E) {d : SrcDecl}
    (hd : d ∈ p) {f : String} (hc : Calls b d f) :
    ∃ k ∈ E.flatMap Code.calls, b.has k.testOnly ∧ k.owner = (Entity.node f uid).sanitized := by
  obtain ⟨c, hcE, hE⟩ := forall₂_left h (hq.mem_iff.2 hd)
  cases hc with
  | @inside attrs src f hb hf =>
    cases hE with
    | @node _ _ m _ _ _ _ hp =>
      obtain ⟨bl, h1, h2⟩ := called_block hp hf
      refine ⟨⟨(Entity.node f uid).sanitized, _⟩, List.mem_flatMap.2 ⟨_, hcE, ?_⟩, hb, rfl⟩
      simp only [Node.emit, Code.append, List.mem_append]
      exact .inl (.inl (.inl (List.mem_map.2 ⟨bl, h1, by rw [h2]; rfl⟩)))
  | @exported attrs src hx =>
    cases hE with
    | @node _ _ m _ _ _ _ hp =>
      refine ⟨⟨(Entity.node src.name uid).sanitized, false⟩, List.mem_flatMap.2 ⟨_, hcE, ?_⟩, has_false, rfl⟩
      simp only [Node.emit, Code.append, List.mem_append]
      refine .inl (.inl (.inr ?_))
      simp [Node.external, hx, (passes_sig hp).1]
  | @main attrs src hx =>
    cases hE with
    | @node _ _ m _ _ _ _ hp =>
      refine ⟨⟨(Entity.node src.name uid).sanitized, false⟩, List.mem_flatMap.2 ⟨_, hcE, ?_⟩, has_false, rfl⟩
      simp only [Node.emit, Code.append, List.mem_append]
      refine .inl (.inr ?_)
      obtain ⟨x, hx⟩ := Option.isSome_iff_exists.1 hx
      simp [fnMain, hx, (passes_sig hp).1]

/-- A method of a node outside of tests is missing if the node is a test. -/
theorem step_missing (hkey : (p.map key).Nodup) (hq : q.Perm p)
    (h : List.Forall₂ (Emitted uid p) q E) {d : SrcDecl} (hd : d ∈ p) {f : String}
    (hc : Calls b d f) {attrs : List Attribute} {src : SrcNode} (hm : ⟨attrs, .node src⟩ ∈ p)
    (hn : src.name = f) (ht : ¬ b.has (meaning attrs).test.isSome) : ¬ Resolves b E := by
  intro hR
  obtain ⟨k, h1, h2, h3⟩ := call_emitted hq h hd hc
  obtain ⟨s, hs, hs1, hs2⟩ := hR.steps k h1 h2
  rw [h3] at hs1
  rcases List.mem_append.1 ((all_steps hq h).mem_iff.1 hs) with hs | hs
  · obtain ⟨d', hd', hs⟩ := List.mem_flatMap.1 hs
    obtain ⟨attrs', i'⟩ := d'
    have own : (∃ g, key ⟨attrs', i'⟩ = (true, g) ∧ s.owner = (Entity.node g uid).sanitized) := by
      cases i' <;> simp only [hiddenSteps, List.mem_singleton, List.not_mem_nil] at hs <;> subst hs <;>
        exact ⟨_, rfl, rfl⟩
    obtain ⟨g, hg1, hg2⟩ := own
    rw [hg2] at hs1
    have := Props.C39_sanitized_injective _ _ hs1
    cases this
    have := nodup_map_inj hkey hd' hm (by rw [hg1, ← hn]; rfl)
    cases this
    simp only [hiddenSteps, List.mem_singleton] at hs
    subst hs
    exact ht hs2
  · obtain ⟨d', hd', hs⟩ := List.mem_flatMap.1 hs
    have hn' := (once_iff (uid := uid) (b := b) hkey hq h).1 hR.once
    have hoff : (Space.types, s.owner) ∈ offeredNames b p := by
      obtain ⟨attrs', i'⟩ := d'
      cases i' with
      | node n =>
        simp only [offeredSteps] at hs
        split at hs
        · rename_i hx
          simp only [List.mem_singleton] at hs
          subst hs
          refine List.mem_map.2 ⟨⟨.struct_, n.name,
            (meaning attrs').isPub && !(meaning attrs').implTrait, false, false⟩, List.mem_filter.2
            ⟨List.mem_flatMap.2 ⟨_, hd', ?_⟩, has_false⟩, rfl⟩
          simp only [offeredItems, hx, if_true]
          simp
        · cases hs
      | _ => simp [offeredSteps] at hs
    refine hn'.2 _ hoff ?_
    rw [hs1, ← hn]
    exact List.mem_map.2 ⟨_, hm, rfl⟩

/-! ### Names -/

theorem item_name (hq : q.Perm p) (h : List.Forall₂ (Emitted uid p) q E) {n : RustName} :
    n ∈ itemNames b E ↔ n ∈ hiddenNames uid p ∨ n ∈ offeredNames b p := by
  rw [(all_names hq h).mem_iff, List.mem_append]

theorem user_not_item (hS : Sensible b p) (hq : q.Perm p) (h : List.Forall₂ (Emitted uid p) q E)
    {n : RustName} (hi : n ∈ itemNames b E) : n ∉ userNames E := by
  intro hu
  have hu := (mem_userNames hq h).1 hu
  rcases (item_name hq h).1 hi with hh | ho
  · exact hS.internal n (List.mem_append_right _ hu) (hidden_internal hh)
  · exact (List.nodup_append'.1 hS.distinct).2.2 ho hu

/-- The hidden item of a declaration. -/
theorem hidden_means (hS : Sensible b p) (hq : q.Perm p) (h : List.Forall₂ (Emitted uid p) q E)
    {c : Code} {d d' : SrcDecl} (hd : d ∈ p) (hd' : d' ∈ p)
    (hpar : ∀ g ∈ c.params, g ∈ (meaning d.attrs).generics) (hin : ∀ n ∈ c.inner, n.2 = "Type") :
    Means b E c (.item (hiddenItem uid d').rust) := by
  have hm : (hiddenItem uid d').rust ∈ itemNames b E :=
    (item_name hq h).2 (.inl (List.mem_map.2 ⟨d', hd', rfl⟩))
  have hint : Internal (hiddenItem uid d').rust.2 := ⟨_, (hidden_name d').symm⟩
  refine ⟨fun hl => ?_, hm, user_not_item hS hq h hm⟩
  rcases List.mem_append.1 hl with hl | hl
  · have := hin _ hl
    rw [this] at hint
    exact type_not_internal hint
  · obtain ⟨g, hg, e⟩ := List.mem_map.1 hl
    rw [← e] at hint
    exact (hS.generics d hd g (hpar g hg)).1 hint

theorem prelude_means (hS : Sensible b p) (hq : q.Perm p) (h : List.Forall₂ (Emitted uid p) q E)
    {c : Code} {d : SrcDecl} (hd : d ∈ p)
    (hpar : ∀ g ∈ c.params, g ∈ (meaning d.attrs).generics) (hin : ∀ n ∈ c.inner, n.2 = "Type")
    {x : String} (hx : x ∈ preludeNames) : Means b E c (.prelude x) := by
  refine ⟨fun hl => ?_, fun hi => ?_, fun hu => ?_⟩
  · rcases List.mem_append.1 hl with hl | hl
    · have : x = "Type" := hin _ hl
      subst this
      exact absurd hx (by decide)
    · obtain ⟨g, hg, e⟩ := List.mem_map.1 hl
      cases e
      exact (hS.generics d hd x (hpar x hg)).2.1 hx
  · rcases (item_name hq h).1 hi with hh | ho
    · exact prelude_not_internal hx (hidden_internal hh)
    · exact hS.prelude x (List.mem_append_left _ ho) hx
  · exact hS.prelude x (List.mem_append_right _ ((mem_userNames hq h).1 hu)) hx

/-- A type, if its variables are those of the code. -/
theorem type_means (hS : Sensible b p) (hq : q.Perm p) (h : List.Forall₂ (Emitted uid p) q E)
    {c : Code} {d : SrcDecl} (hd : d ∈ p)
    (hpar : ∀ g ∈ c.params, g ∈ (meaning d.attrs).generics) (hin : ∀ n ∈ c.inner, n.2 = "Type")
    {t : TyBase} (ht : ∀ g, t = .other g → c.inner = [] ∧ g ∈ c.params) : Means b E c t.use := by
  cases t with
  | int => exact prelude_means hS hq h hd hpar hin (by decide)
  | float => exact prelude_means hS hq h hd hpar hin (by decide)
  | bool => exact prelude_means hS hq h hd hpar hin (by decide)
  | other g =>
    obtain ⟨h1, h2⟩ := ht g rfl
    exact ⟨by simp [h1], h2⟩

/-- What is offered. -/
theorem offered_means (hS : Sensible b p) (hq : q.Perm p) (h : List.Forall₂ (Emitted uid p) q E)
    {c : Code} {d : SrcDecl} (hd : d ∈ p)
    (hpar : ∀ g ∈ c.params, g ∈ (meaning d.attrs).generics) (hin : c.inner = [])
    {i : Item} (hi : i ∈ offeredItems d) (ht : i.testOnly = false) : Means b E c (.item i.rust) := by
  have hm : i.rust ∈ itemNames b E := (item_name hq h).2 (.inr (List.mem_map.2 ⟨i,
    List.mem_filter.2 ⟨List.mem_flatMap.2 ⟨d, hd, hi⟩, by rw [ht, has_false]⟩, rfl⟩))
  refine ⟨fun hl => ?_, hm, user_not_item hS hq h hm⟩
  rcases List.mem_append.1 hl with hl | hl
  · rw [hin] at hl; cases hl
  · obtain ⟨g, hg, e⟩ := List.mem_map.1 hl
    exact (hS.generics d hd g (hpar g hg)).2.2.1 i hi (congrArg Prod.snd e)

/-- What is needed. -/
theorem needed_means (hS : Sensible b p) (hq : q.Perm p) (h : List.Forall₂ (Emitted uid p) q E)
    {c : Code} {d : SrcDecl} (hd : d ∈ p)
    (hpar : ∀ g ∈ c.params, g ∈ (meaning d.attrs).generics)
    {n : RustName} (hn : n ∈ needed d) (hin : n ∉ c.inner) : Means b E c (.user n) := by
  have hn' : n ∈ p.flatMap needed := List.mem_flatMap.2 ⟨d, hd, hn⟩
  refine ⟨fun hl => ?_, fun hi => ?_⟩
  · rcases List.mem_append.1 hl with hl | hl
    · exact hin hl
    · obtain ⟨g, hg, e⟩ := List.mem_map.1 hl
      exact (hS.generics d hd g (hpar g hg)).2.2.2 n hn (congrArg Prod.snd e)
  · exact user_not_item hS hq h hi ((mem_userNames hq h).2 hn')

theorem hidden_of_node {f : String} {d : SrcDecl} (h : key d = (true, f)) :
    (hiddenItem uid d).rust = (.types, (Entity.node f uid).sanitized) := by
  obtain ⟨attrs, i⟩ := d
  cases i <;> simp [key] at h <;> subst h <;> rfl

theorem hidden_of_const {f : String} {d : SrcDecl} (h : key d = (false, f)) :
    (hiddenItem uid d).rust = (.values, (Entity.glob f uid).sanitized) := by
  obtain ⟨attrs, i⟩ := d
  cases i <;> simp [key] at h <;> subst h <;> rfl

mutual
theorem bases_vars : (t : TyTuple) → ∀ b ∈ t.bases, ∀ x ∈ baseVars b, x ∈ tyVars t
  | .single t, b, hb, x, hx => by
    simp only [TyTuple.bases, List.mem_singleton] at hb
    subst hb
    exact hx
  | .multiple ts, b, hb, x, hx => by
    rw [TyTuple.bases] at hb
    exact basesList_vars ts b hb x hx
theorem basesList_vars : (ts : List TyTuple) → ∀ b ∈ TyTuple.basesList ts, ∀ x ∈ baseVars b,
    x ∈ tyVarsList ts
  | [], b, hb, x, hx => by simp [TyTuple.basesList] at hb
  | t :: ts, b, hb, x, hx => by
    rw [TyTuple.basesList, List.mem_append] at hb
    rw [tyVarsList, List.mem_append]
    exact hb.imp (fun h => bases_vars t b h x hx) fun h => basesList_vars ts b h x hx
end

theorem uses_resolve (hL : Static.Legal p) (hS : Sensible b p) (hq : q.Perm p)
    (h : List.Forall₂ (Emitted uid p) q E) {c : Code} (hc : c ∈ E) {u : Use} (hu : u ∈ c.uses) :
    Means b E c u := by
  obtain ⟨d, hd, hE⟩ := forall₂_right h hc
  have hd' := hq.mem_iff.1 hd
  have basic : ∀ attrs x ty, ⟨attrs, .extConst x ty⟩ ∈ p → ∀ g, ty ≠ .other g :=
    fun attrs x ty hm => (hS.externs attrs x ty hm).2
  cases hE with
  | @node attrs src m sigs consts hw hbs hp =>
    have e := (passes_sig hp).1
    have hpar : ∀ g ∈ (m.emit uid (meaning attrs)).params, g ∈ (meaning attrs).generics :=
      fun g hg => hg
    have hin' : (m.emit uid (meaning attrs)).inner = [] := by
      have e1 : ∀ u x, (fnMain u x).inner = [] := by intro u x; cases x <;> rfl
      have e2 : ∀ u r x, (fnTest u r x).inner = [] := by intro u r x; cases x <;> rfl
      have e3 : (m.external uid (meaning attrs)).inner = [] := by
        unfold Node.external; split <;> rfl
      simp [Node.emit, Code.append, e1, e2, e3, Node.internal]
    have hin : ∀ n ∈ (m.emit uid (meaning attrs)).inner, n.2 = "Type" := by simp [hin']
    obtain ⟨hblocks, hglobals, htypes⟩ := node_mentions hL hd' hp
    obtain ⟨n₁, n₂, cx, ctx, clk, dep, K, hf⟩ := passes_final hp
    obtain ⟨hgen, hreg⟩ := final_closed hf (hw hS.once) (hbs basic)
    have own : Means b E (m.emit uid (meaning attrs))
        (.item (.types, (Entity.node m.name uid).sanitized)) := by
      rw [e]
      exact hidden_means hS hq h hd' hd' hpar hin
    have ty : ∀ {t : TyBase}, (∀ x ∈ baseVars t, x ∈ (meaning attrs).generics) →
        Means b E (m.emit uid (meaning attrs)) t.use := fun ht =>
      type_means hS hq h hd' hpar hin fun g hg => ⟨hin', ht g (by simp [hg, baseVars])⟩
    have vty : ∀ v ∈ m.inputs ++ m.outputs ++ m.locals,
        Means b E (m.emit uid (meaning attrs)) v.ty.use := fun v hv => ty fun x hx => by
      cases ev : v.ty <;> simp [ev, baseVars] at hx
      subst hx
      exact htypes v hv _ ev
    generalize hcode : m.emit uid (meaning attrs) = code at *
    have hu' := hu
    rw [← hcode] at hu'
    simp only [Node.emit, Code.append, List.mem_append, or_assoc] at hu'
    rcases hu' with hu | hu | hu | hu
    · simp only [Node.internal, List.mem_append, or_assoc] at hu
      rcases hu with hu | hu | hu | hu | hu | hu
      · simp only [List.mem_cons, List.not_mem_nil, or_false] at hu
        rcases hu with rfl | rfl | rfl
        · exact prelude_means hS hq h hd' hpar hin (by decide)
        · exact prelude_means hS hq h hd' hpar hin (by decide)
        · exact own
      · obtain ⟨bl, hbl, rfl⟩ := List.mem_map.1 hu
        obtain ⟨-, d', hd1, hd2⟩ := hblocks bl hbl
        rw [← hidden_of_node hd2]
        exact hidden_means hS hq h hd' hd1 hpar hin
      · obtain ⟨bl, hbl, hu⟩ := List.mem_flatMap.1 hu
        obtain ⟨t, ht, rfl⟩ := List.mem_map.1 hu
        obtain ⟨ts, e1, e2⟩ := hgen bl hbl
        rw [e1] at ht
        exact ty (e2 t ht)
      · obtain ⟨v, hv, rfl⟩ := List.mem_map.1 hu
        refine vty v ?_
        simp only [List.mem_append, List.mem_filter] at hv ⊢
        tauto
      · obtain ⟨r, hr, hu⟩ := List.mem_flatMap.1 hu
        obtain ⟨t, ht, rfl⟩ := List.mem_map.1 hu
        obtain ⟨tt, rfl, hcl⟩ := hreg r hr
        simp only [Option.toList_some, List.flatMap_cons, List.flatMap_nil, List.append_nil] at ht
        exact ty fun x hx => hcl x (bases_vars tt t ht x hx)
      · obtain ⟨x, hx, rfl⟩ := List.mem_map.1 hu
        obtain ⟨ex, he, hx⟩ := List.mem_flatMap.1 hx
        obtain ⟨st, hst, he⟩ := List.mem_flatMap.1 he
        obtain ⟨d', hd1, hd2⟩ := hglobals st hst ex he x hx
        rw [← hidden_of_const hd2]
        exact hidden_means hS hq h hd' hd1 hpar hin
    · unfold Node.external at hu
      split at hu
      · rename_i hx
        simp only [List.mem_append, List.mem_cons, List.not_mem_nil, or_false, or_assoc] at hu
        rcases hu with rfl | rfl | rfl | hu
        · exact prelude_means hS hq h hd' hpar hin (by decide)
        · refine offered_means (i := ⟨.struct_, m.name, (meaning attrs).isPub &&
            !(meaning attrs).implTrait, false, false⟩) hS hq h hd' hpar hin' ?_ rfl
          simp [offeredItems, hx, e]
        · exact own
        · obtain ⟨v, hv, rfl⟩ := List.mem_map.1 hu
          refine vty v ?_
          simp only [List.mem_append] at hv ⊢
          tauto
      · simp at hu
    · cases hm : (meaning attrs).main with
      | none => simp [hm, fnMain] at hu
      | some x =>
        simp only [hm, fnMain, List.mem_singleton] at hu
        subst hu
        exact own
    · cases hm : (meaning attrs).test with
      | none => simp [hm, fnTest] at hu
      | some x =>
        simp only [hm, fnTest, List.mem_singleton] at hu
        subst hu
        exact own
  | @extNode attrs f ins outs hs =>
    have hpar : ∀ g ∈ (ExtNode.emit uid (extOptions attrs)
        ⟨f, translateArgs ins, translateArgs outs⟩).params, g ∈ (meaning attrs).generics :=
      fun g hg => hg
    have hin' : (ExtNode.emit uid (extOptions attrs)
        ⟨f, translateArgs ins, translateArgs outs⟩).inner = [] := by
      have e1 : ∀ u x, (fnMain u x).inner = [] := by intro u x; cases x <;> rfl
      simp [ExtNode.emit, Code.append, e1]
    have hin : ∀ n ∈ (ExtNode.emit uid (extOptions attrs)
        ⟨f, translateArgs ins, translateArgs outs⟩).inner, n.2 = "Type" := by simp [hin']
    have own : Means b E (ExtNode.emit uid (extOptions attrs)
        ⟨f, translateArgs ins, translateArgs outs⟩) (.item (.types, (Entity.node f uid).sanitized)) :=
      hidden_means hS hq h hd' hd' hpar hin
    have hu' := hu
    simp only [ExtNode.emit, Code.append, List.mem_append, List.mem_cons, List.not_mem_nil,
      or_false, or_assoc] at hu'
    rcases hu' with rfl | rfl | rfl | rfl | hu | hu
    · exact prelude_means hS hq h hd' hpar hin (by decide)
    · exact prelude_means hS hq h hd' hpar hin (by decide)
    · exact own
    · exact needed_means hS hq h hd' hpar (by simp [needed, Entity.raw]) (by simp [hin'])
    · obtain ⟨v, hv, rfl⟩ := List.mem_map.1 hu
      refine type_means hS hq h hd' hpar hin fun g hg => ⟨hin', ?_⟩
      exact hs.declared v (by simpa using hv) g hg
    · cases hm : (extOptions attrs).main with
      | none => simp [hm, fnMain] at hu
      | some x =>
        simp only [hm, fnMain, List.mem_singleton] at hu
        subst hu
        exact own
  | @const attrs c c' consts hbs ht hp =>
    have hname : c'.name = c.name := by
      obtain ⟨x, s, -, -, -, rfl⟩ := const_translate ht; rfl
    have hty := const_ty hbs hp basic
    have hpar : ∀ g ∈ (c'.emit uid (constOptions attrs)).params, g ∈ (meaning attrs).generics := by
      simp [Const.emit, Code.append]
    have hin' : (c'.emit uid (constOptions attrs)).inner = [] := by
      simp only [Const.emit, Code.append, List.nil_append]
      split <;> rfl
    have hin : ∀ n ∈ (c'.emit uid (constOptions attrs)).inner, n.2 = "Type" := by simp [hin']
    have typ : Means b E (c'.emit uid (constOptions attrs)) c'.ty.use :=
      type_means hS hq h hd' hpar hin fun g hg => absurd hg (hty g)
    have hu' := hu
    simp only [Const.emit, Code.append, List.mem_append, List.mem_cons, or_assoc] at hu'
    rcases hu' with rfl | hu | hu
    · exact typ
    · obtain ⟨x, hx, rfl⟩ := List.mem_map.1 hu
      obtain ⟨d', hd1, hd2⟩ := const_mentions hL hd' ht hp.const x hx
      rw [← hidden_of_const hd2]
      exact hidden_means hS hq h hd' hd1 hpar hin
    · split at hu
      · simp only [List.mem_cons, List.not_mem_nil, or_false] at hu
        rcases hu with rfl | rfl
        · exact typ
        · rw [hname]
          exact hidden_means hS hq h hd' hd' hpar hin
      · simp at hu
  | @extConst attrs x ty =>
    have hpar : ∀ g ∈ (ExtConst.emit uid ⟨x, ty⟩).params, g ∈ (meaning attrs).generics := by
      simp [ExtConst.emit]
    have hin : ∀ n ∈ (ExtConst.emit uid ⟨x, ty⟩).inner, n.2 = "Type" := by simp [ExtConst.emit]
    obtain ⟨h1, h2⟩ := hS.externs _ _ _ hd'
    simp only [ExtConst.emit, List.mem_cons, List.not_mem_nil, or_false] at hu
    rcases hu with rfl | rfl
    · exact type_means hS hq h hd' hpar hin fun g hg => absurd hg (h2 g)
    · exact needed_means hS hq h hd' hpar (by simp [needed, Entity.raw])
        (by simp [ExtConst.emit, Entity.raw, h1])

theorem params_resolve (hg : DistinctGenerics p) (hq : q.Perm p)
    (h : List.Forall₂ (Emitted uid p) q E) {c : Code} (hc : c ∈ E) : c.params.Nodup := by
  obtain ⟨d, hd, hE⟩ := forall₂_right h hc
  have := hg d (hq.mem_iff.1 hd)
  cases hE with
  | node _ _ _ => exact this
  | extNode _ => exact this
  | const _ _ _ => exact List.nodup_nil
  | extConst => exact List.nodup_nil

theorem resolves (hL : Static.Legal p) (hS : Sensible b p) (hk : (p.map key).Nodup) (hq : q.Perm p)
    (h : List.Forall₂ (Emitted uid p) q E) : Resolves b E where
  once := (once_iff hk hq h).2 ⟨(List.nodup_append'.1 hS.distinct).1, fun n hn hh =>
    hS.internal n (List.mem_append_left _ hn) (hidden_internal hh)⟩
  steps _ hk' hb := calls_resolve hL hS hk hq h hk' hb
  binds _ hx := binds_resolve hS hq h hx
  params _ hc := params_resolve hS.once hq h hc
  uses _ hc _ hu := uses_resolve hL hS hq h hc hu

end

end Chandeliers.Emt
