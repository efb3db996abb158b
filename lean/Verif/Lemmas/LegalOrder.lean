import Verif.Lemmas.LegalProg

/-! The declarations of a program, in order or not. -/

set_option autoImplicit false

namespace Chandeliers.Den
open Chandeliers.San Chandeliers.Spec Chandeliers.Syn Chandeliers.Spec.Static Chandeliers.Prg

/-! ### Finding names -/

section
variable {α : Type}

theorem find_nil {x : String} : find ([] : List (String × α)) x = none := rfl

theorem find_some_mem {l : List (String × α)} {x : String} {a : α} (h : find l x = some a) :
    (x, a) ∈ l := by
  unfold find at h
  obtain ⟨⟨y, b⟩, h1, h2⟩ := Option.map_eq_some_iff.1 h
  have h3 := List.find?_some h1
  simp only [decide_eq_true_eq] at h3 h2
  subst h3 h2
  exact List.mem_of_find?_eq_some h1

theorem find_isSome {l : List (String × α)} {x : String} :
    (find l x).isSome = true ↔ x ∈ l.map (·.1) := by
  unfold find
  rw [Option.isSome_map, List.find?_isSome]
  simp

theorem find_append (l r : List (String × α)) (x : String) :
    find (l ++ r) x = (find l x).or (find r x) := by
  unfold find
  rw [List.find?_append]
  cases List.find? (fun p => decide (p.1 = x)) l <;> rfl

theorem find_mem {l : List (String × α)} (h : (l.map (·.1)).Nodup) {x : String} {a : α}
    (hm : (x, a) ∈ l) : find l x = some a := by
  induction l with
  | nil => cases hm
  | cons p l ih =>
    rw [List.map_cons, List.nodup_cons] at h
    unfold find
    rw [List.find?_cons]
    rcases List.mem_cons.1 hm with rfl | hm
    · simp
    · have hne : p.1 ≠ x := fun e => h.1 (List.mem_map.2 ⟨_, hm, e.symm⟩)
      rw [show decide (p.1 = x) = false by simp [hne]]
      exact ih h.2 hm

theorem find_perm {l r : List (String × α)} (h : (l.map (·.1)).Nodup) (hp : l.Perm r) :
    find l = find r := by
  have h' : (r.map (·.1)).Nodup := (hp.map _).nodup_iff.1 h
  funext x
  cases hx : find r x with
  | some a => exact find_mem h (hp.mem_iff.2 (find_some_mem hx))
  | none =>
    cases hx' : find l x with
    | none => rfl
    | some a => rw [find_mem h' (hp.mem_iff.1 (find_some_mem hx'))] at hx; cases hx

theorem find_snoc {l : List (String × α)} {x : String} {a : α} (h : find l x = none) :
    find (l ++ [(x, a)]) = extend (find l) x a := by
  funext y
  rw [find_append]
  unfold extend
  by_cases e : y = x
  · subst e
    rw [h, if_pos rfl]
    simp [find]
  · rw [if_neg e]
    have : find [(x, a)] y = none := by
      have : x ≠ y := fun h => e h.symm
      simp [find, this]
    rw [this, Option.or_none]

end

/-! ### What declarations introduce -/

/-- A constant and its type. -/
def entryC : San.Decl → Option (String × TyBase)
  | .const c => some (c.name, c.ty)
  | .extConst c => some (c.name, c.ty)
  | _ => none

/-- A node and its signature. -/
def entryN (opts : String → TyOpts) : San.Decl → Option (String × Sig)
  | .node n => some (n.name, sigOf (opts n.name).generics n.inputs n.outputs)
  | .extNode n => some (n.name, sigOf (opts n.name).generics n.inputs n.outputs)
  | _ => none

/-- The constants of some declarations. -/
def constsOf (l : List San.Decl) : String → Option TyBase := find (l.filterMap entryC)

/-- The nodes of some declarations. -/
def nodesOf (opts : String → TyOpts) (l : List San.Decl) : String → Option Sig :=
  find (l.filterMap (entryN opts))

/-- Distinct names. -/
def NamesOk (opts : String → TyOpts) (l : List San.Decl) : Prop :=
  ((l.filterMap entryC).map (·.1)).Nodup ∧ ((l.filterMap (entryN opts)).map (·.1)).Nodup

/-- A new name. -/
def NewName (opts : String → TyOpts) (l : List San.Decl) (y : San.Decl) : Prop :=
  (∀ e, entryC y = some e → constsOf l e.1 = none) ∧
  ∀ e, entryN opts y = some e → nodesOf opts l e.1 = none

variable {opts : String → TyOpts}

theorem namesOk_prefix {l r : List San.Decl} (h : NamesOk opts (l ++ r)) : NamesOk opts l := by
  unfold NamesOk at h ⊢
  simp only [List.filterMap_append, List.map_append] at h
  exact ⟨(List.nodup_append.1 h.1).1, (List.nodup_append.1 h.2).1⟩

theorem namesOk_snoc {l : List San.Decl} {y : San.Decl} (h : NamesOk opts l) :
    NewName opts l y ↔ NamesOk opts (l ++ [y]) := by
  have key : ∀ {α : Type} (f : San.Decl → Option (String × α)),
      ((l.filterMap f).map (·.1)).Nodup →
      ((∀ e, f y = some e → find (l.filterMap f) e.1 = none) ↔
        (((l ++ [y]).filterMap f).map (·.1)).Nodup) := by
    intro α f hn
    rw [List.filterMap_append, List.map_append, List.nodup_append]
    cases hy : f y with
    | none => simp [hy, hn]
    | some e =>
      have : ∀ x, find (l.filterMap f) x = none ↔ x ∉ (l.filterMap f).map (·.1) := by
        intro x
        rw [← find_isSome]; simp
      simp only [this, Option.some.injEq, forall_eq', List.filterMap_cons, hy, List.filterMap_nil,
        List.map_cons, List.map_nil, hn, true_and]
      constructor
      · intro hx
        refine ⟨by simp, fun a ha b hb e' => ?_⟩
        rw [List.mem_singleton] at hb
        subst e' hb
        exact hx ha
      · rintro ⟨-, hx⟩ hm
        exact hx _ hm _ (by simp) rfl
  exact and_congr (key entryC h.1) (key (entryN opts) h.2)

theorem constsOf_snoc {l : List San.Decl} {y : San.Decl} {e : String × TyBase}
    (he : entryC y = some e) (h : constsOf l e.1 = none) :
    constsOf (l ++ [y]) = extend (constsOf l) e.1 e.2 := by
  unfold constsOf at h ⊢
  rw [List.filterMap_append, List.filterMap_cons, he]
  exact find_snoc h

theorem nodesOf_snoc {l : List San.Decl} {y : San.Decl} {e : String × Sig}
    (he : entryN opts y = some e) (h : nodesOf opts l e.1 = none) :
    nodesOf opts (l ++ [y]) = extend (nodesOf opts l) e.1 e.2 := by
  unfold nodesOf at h ⊢
  rw [List.filterMap_append, List.filterMap_cons, he]
  exact find_snoc h

theorem constsOf_same {l : List San.Decl} {y : San.Decl} (he : entryC y = none) :
    constsOf (l ++ [y]) = constsOf l := by
  unfold constsOf
  rw [List.filterMap_append, List.filterMap_cons, he]
  simp

theorem nodesOf_same {l : List San.Decl} {y : San.Decl} (he : entryN opts y = none) :
    nodesOf opts (l ++ [y]) = nodesOf opts l := by
  unfold nodesOf
  rw [List.filterMap_append, List.filterMap_cons, he]
  simp

theorem progTyped_cons {l r : List San.Decl} {y : San.Decl} :
    ProgTyped opts (nodesOf opts l) (constsOf l) (y :: r) ↔
      NewName opts l y ∧ DeclTyped opts (nodesOf opts l) (constsOf l) y ∧
        ProgTyped opts (nodesOf opts (l ++ [y])) (constsOf (l ++ [y])) r := by
  cases y with
  | const c =>
    rw [nodesOf_same rfl]
    constructor
    · intro h
      cases h with | const h hn hs =>
      refine ⟨⟨fun e he => by cases he; exact hn, fun e he => by cases he⟩, h, ?_⟩
      rw [constsOf_snoc rfl hn]; exact hs
    · rintro ⟨⟨h1, -⟩, h2, h3⟩
      rw [constsOf_snoc rfl (h1 _ rfl)] at h3
      exact .const h2 (h1 _ rfl) h3
  | extConst c =>
    rw [nodesOf_same rfl]
    constructor
    · intro h
      cases h with | extConst hn hs =>
      refine ⟨⟨fun e he => by cases he; exact hn, fun e he => by cases he⟩, trivial, ?_⟩
      rw [constsOf_snoc rfl hn]; exact hs
    · rintro ⟨⟨h1, -⟩, h2, h3⟩
      rw [constsOf_snoc rfl (h1 _ rfl)] at h3
      exact .extConst (h1 _ rfl) h3
  | node n =>
    rw [constsOf_same rfl]
    constructor
    · intro h
      cases h with | node h hn hs =>
      refine ⟨⟨fun e he => (by cases he), fun e he => by cases he; exact hn⟩, h, ?_⟩
      rw [nodesOf_snoc rfl hn]; exact hs
    · rintro ⟨⟨-, h1⟩, h2, h3⟩
      rw [nodesOf_snoc rfl (h1 _ rfl)] at h3
      exact .node h2 (h1 _ rfl) h3
  | extNode n =>
    rw [constsOf_same rfl]
    constructor
    · intro h
      cases h with | extNode h hd hn hs =>
      refine ⟨⟨fun e he => (by cases he), fun e he => by cases he; exact hn⟩, ⟨h, hd⟩, ?_⟩
      rw [nodesOf_snoc rfl hn]; exact hs
    · rintro ⟨⟨-, h1⟩, h2, h3⟩
      rw [nodesOf_snoc rfl (h1 _ rfl)] at h3
      exact .extNode h2.1 h2.2 (h1 _ rfl) h3

theorem progTyped_split : (r : List San.Decl) → {l : List San.Decl} → NamesOk opts l →
    (ProgTyped opts (nodesOf opts l) (constsOf l) r ↔ NamesOk opts (l ++ r) ∧
      ∀ l₁ y l₂, r = l₁ ++ y :: l₂ →
        DeclTyped opts (nodesOf opts (l ++ l₁)) (constsOf (l ++ l₁)) y)
  | [], l, h => by
    rw [List.append_nil]
    exact ⟨fun _ => ⟨h, fun l₁ y l₂ e => by simp at e⟩, fun _ => .nil⟩
  | y :: r, l, h => by
    rw [progTyped_cons]
    constructor
    · rintro ⟨h1, h2, h3⟩
      obtain ⟨k1, k2⟩ := (progTyped_split r ((namesOk_snoc h).1 h1)).1 h3
      refine ⟨by simpa using k1, fun l₁ z l₂ e => ?_⟩
      cases l₁ with
      | nil =>
        simp only [List.nil_append, List.cons.injEq] at e
        rw [List.append_nil, ← e.1]; exact h2
      | cons w l₁ =>
        simp only [List.cons_append, List.cons.injEq] at e
        obtain ⟨rfl, e⟩ := e
        have := k2 l₁ z l₂ e
        simpa using this
    · rintro ⟨k1, k2⟩
      have e : l ++ y :: r = (l ++ [y]) ++ r := by simp
      rw [e] at k1
      have hy := namesOk_prefix k1
      refine ⟨(namesOk_snoc h).2 hy, by simpa using k2 [] y r rfl,
        (progTyped_split r hy).2 ⟨k1, fun l₁ z l₂ e' => ?_⟩⟩
      have := k2 (y :: l₁) z l₂ (by rw [e']; rfl)
      simpa using this

/-! ### From source to target -/

theorem argTypes_eq (args : List ArgsTy) : argTypes args = (translateArgs args).map (·.ty) := by
  induction args with
  | nil => rfl
  | cons a args ih =>
    simp only [argTypes, translateArgs, List.flatMap_cons, List.map_append, List.map_map] at ih ⊢
    rw [ih]
    congr 1

theorem front_entryC {d : SrcDecl} {y : San.Decl} (h : Front opts d y) : entryC y = constant d := by
  cases h with
  | const h =>
    obtain ⟨x, s, -, -, -, rfl⟩ := const_translate h
    rfl
  | extConst => rfl
  | node => rfl
  | extNode => rfl

theorem front_entryN {d : SrcDecl} {y : San.Decl} (h : Front opts d y) :
    entryN opts y = nodeSig d := by
  cases h with
  | const h => rfl
  | extConst => rfl
  | @node attrs src n' n'' h hc e =>
    obtain ⟨c, -, e1⟩ := node_translate h
    obtain ⟨-, hs⟩ := Props.C22_node hc
    have e2 : n'' = { n' with stmts := n''.stmts } := by rw [← hs]
    rw [entryN, e]
    rw [e2, e1]
    simp only [nodeSig, signature, Option.map_some, sigOf, argTypes_eq, tyOpts]
  | extNode e =>
    simp only [entryN, e, nodeSig, signature, Option.map_some, sigOf, argTypes_eq]

theorem front_to {p : List SrcDecl} {ds : List San.Decl} (hf : List.Forall₂ (Front opts) p ds)
    {y : San.Decl} (hy : y ∈ ds) : ∃ d ∈ p, Front opts d y := by
  induction hf with
  | nil => cases hy
  | cons a b ih =>
    rcases List.mem_cons.1 hy with rfl | hy
    · exact ⟨_, by simp, a⟩
    · obtain ⟨d, h1, h2⟩ := ih hy
      exact ⟨d, by simp [h1], h2⟩

theorem front_from {p : List SrcDecl} {ds : List San.Decl} (hf : List.Forall₂ (Front opts) p ds)
    {d : SrcDecl} (hd : d ∈ p) : ∃ y ∈ ds, Front opts d y := by
  induction hf with
  | nil => cases hd
  | cons a b ih =>
    rcases List.mem_cons.1 hd with rfl | hd
    · exact ⟨_, by simp, a⟩
    · obtain ⟨d, h1, h2⟩ := ih hd
      exact ⟨d, by simp [h1], h2⟩

theorem fronts_entryC {p : List SrcDecl} {ds : List San.Decl} (h : List.Forall₂ (Front opts) p ds) :
    ds.filterMap entryC = p.filterMap constant := by
  induction h with
  | nil => rfl
  | cons a b ih => rw [List.filterMap_cons, List.filterMap_cons, front_entryC a, ih]

theorem fronts_entryN {p : List SrcDecl} {ds : List San.Decl} (h : List.Forall₂ (Front opts) p ds) :
    ds.filterMap (entryN opts) = p.filterMap nodeSig := by
  induction h with
  | nil => rfl
  | cons a b ih => rw [List.filterMap_cons, List.filterMap_cons, front_entryN a, ih]

theorem view_shadow {src : SrcNode} {b : Bool} {o : NodeOptions} {consts : String → Option TyBase}
    {sigs : String → Option Sig} {x : String}
    (h : ((varsOf (src.inputs ++ src.outputs ++ src.locals)).find? fun v => v.name = x).isNone) :
    x ∉ (src.view b).shadow := by
  have hS : Sees (scope { o with universalPre := b } consts sigs src) (src.view b) := scope_sees
  intro hx
  have := (hS.shadow x).1 hx
  rw [Option.isNone_iff_eq_none] at h
  simp only [scope, Scope.var, h] at this
  cases this

/-- A declaration mentions what its source refers to. -/
theorem refers_mentions {d : SrcDecl} {y : San.Decl} (hf : Front opts d y)
    {consts : String → Option TyBase} {sigs : String → Option Sig}
    (hL : LegalItem consts sigs (meaning d.attrs) d.item) {fs xs : List String}
    (hr : Refers d.item fs xs) :
    (∀ f ∈ fs, Mentions y (.funName f)) ∧ ∀ x ∈ xs, Mentions y (.globalVarName x) := by
  have hty := (front_legal hf).2 hL
  cases hf with
  | const h =>
    obtain ⟨rfl, rfl⟩ := hr
    rw [constant_callees _ hL.1]
    exact ⟨by simp, fun x hx => .const ((const_names h hty.1.const x).2 hx)⟩
  | extConst => obtain ⟨rfl, rfl⟩ := hr; simp
  | extNode e => obtain ⟨rfl, rfl⟩ := hr; simp
  | @node attrs src n' n'' h hc e =>
    obtain ⟨rfl, rfl⟩ := hr
    obtain ⟨c, hc', e'⟩ := node_translate h
    have e1 : n' = built src c := e'
    subst e1
    obtain ⟨hp, hs⟩ := Props.C22_node hc
    have e2 : n''.blocks = c.blocks := congrArg Node.blocks hs
    have hn := node_comes hc'
    have key : ∀ st ∈ src.defs, (∀ f ∈ callees (SrcStmt.expr st), ⟨f, none⟩ ∈ c.blocks) ∧
        ∀ x ∈ names (SrcStmt.expr st), x ∉ (src.view (meaning attrs).universalPre).shadow →
          ∃ st ∈ c.stmts, Reads st (.globalVarName x) := by
      intro st hst
      cases st with
      | def_ p e =>
        obtain ⟨x, h1, h2⟩ := hn.defs p e hst
        have := (comes_mentioned e h1).stmt (es' := []) h2 (by simp [values])
        exact ⟨this.1, fun x hx hs => (this.2 x hx hs).resolve_left (by simp)⟩
      | assert e =>
        obtain ⟨x, h1, h2⟩ := hn.asserts e hst
        have := (comes_mentioned e h1).stmt (es' := []) h2 (by simp [values])
        exact ⟨this.1, fun x hx hs => (this.2 x hx hs).resolve_left (by simp)⟩
    constructor
    · intro f hf
      obtain ⟨st, hst, hf⟩ := List.mem_flatMap.1 hf
      have := (key st hst).1 f hf
      rw [← e2] at this
      exact .call this
    · intro x hx
      obtain ⟨hx, hi⟩ := List.mem_filter.1 hx
      obtain ⟨st, hst, hx⟩ := List.mem_flatMap.1 hx
      obtain ⟨st', h1, h2⟩ := (key st hst).2 x hx
        (view_shadow (o := meaning attrs) (consts := consts) (sigs := sigs) hi)
      exact .global (hp.mem_iff.2 h1) h2

theorem entryC_introduces {y : San.Decl} {e : String × TyBase} (h : entryC y = some e) :
    Introduces y (.globalVarName e.1) := by
  cases y <;> cases h <;> constructor

theorem entryN_introduces {y : San.Decl} {e : String × Sig} (h : entryN opts y = some e) :
    Introduces y (.funName e.1) := by
  cases y <;> cases h <;> constructor

/-- In order, what comes before is all that matters. -/
theorem prefix_legal {s : List San.Decl} (ho : DefinedBeforeUse s) {l₁ l₂ : List San.Decl}
    {y : San.Decl} (e : s = l₁ ++ y :: l₂) {d : SrcDecl} (hf : Front opts d y) :
    LegalItem (constsOf l₁) (nodesOf opts l₁) (meaning d.attrs) d.item ↔
      LegalItem (constsOf s) (nodesOf opts s) (meaning d.attrs) d.item := by
  have keyN : ∀ f, (nodesOf opts l₁ f).isSome = true → nodesOf opts l₁ f = nodesOf opts s f := by
    intro f hf
    rw [e, nodesOf, nodesOf, List.filterMap_append, find_append]
    obtain ⟨a, ha⟩ := Option.isSome_iff_exists.1 hf
    rw [show find _ f = some a from ha]
    rfl
  have keyC : ∀ x, (constsOf l₁ x).isSome = true → constsOf l₁ x = constsOf s x := by
    intro f hf
    rw [e, constsOf, constsOf, List.filterMap_append, find_append]
    obtain ⟨a, ha⟩ := Option.isSome_iff_exists.1 hf
    rw [show find _ f = some a from ha]
    rfl
  constructor
  · intro h
    have hF := legalItem_finds h
    refine (legalItem_agree fun fs xs hr => ?_).1 h
    obtain ⟨h1, h2⟩ := hF fs xs hr
    exact ⟨fun f hf => keyN f (h1 f hf), fun x hx => keyC x (h2 x hx)⟩
  · intro h
    have hF := legalItem_finds h
    refine (legalItem_agree fun fs xs hr => ?_).2 h
    obtain ⟨h1, h2⟩ := hF fs xs hr
    obtain ⟨m1, m2⟩ := refers_mentions hf h hr
    constructor
    · intro f hfm
      refine keyN f ?_
      obtain ⟨a, ha⟩ := Option.isSome_iff_exists.1 (h1 f hfm)
      obtain ⟨y', hy', he⟩ := List.mem_filterMap.1 (find_some_mem ha)
      have := ho l₁ y l₂ e _ (decl_requires (m1 f hfm)) y' hy' (decl_provides.2 (entryN_introduces he))
      rw [nodesOf, find_isSome]
      exact List.mem_map.2 ⟨_, List.mem_filterMap.2 ⟨y', this, he⟩, rfl⟩
    · intro f hfm
      refine keyC f ?_
      obtain ⟨a, ha⟩ := Option.isSome_iff_exists.1 (h2 f hfm)
      obtain ⟨y', hy', he⟩ := List.mem_filterMap.1 (find_some_mem ha)
      have := ho l₁ y l₂ e _ (decl_requires (m2 f hfm)) y' hy' (decl_provides.2 (entryC_introduces he))
      rw [constsOf, find_isSome]
      exact List.mem_map.2 ⟨_, List.mem_filterMap.2 ⟨y', this, he⟩, rfl⟩

/-- The whole program is well typed, clocked and initialised exactly when each item is legal. -/
theorem items_legal {p : List SrcDecl} {ds s : List San.Decl} (hf : List.Forall₂ (Front opts) p ds)
    (hp : s.Perm ds) (ho : DefinedBeforeUse s) (hn : NamesOk opts ds) :
    (ProgTyped opts (fun _ => none) (fun _ => none) s ∧ ∀ y ∈ s, Sound y) ↔
      ∀ d ∈ p, LegalItem (find (p.filterMap constant)) (find (p.filterMap nodeSig))
        (meaning d.attrs) d.item := by
  have hns : NamesOk opts s :=
    ⟨((hp.filterMap _).map _).nodup_iff.2 hn.1, ((hp.filterMap _).map _).nodup_iff.2 hn.2⟩
  have eC : find (p.filterMap constant) = constsOf s := by
    rw [← fronts_entryC hf, constsOf]
    exact (find_perm hns.1 (hp.filterMap _)).symm
  have eN : find (p.filterMap nodeSig) = nodesOf opts s := by
    rw [← fronts_entryN hf, nodesOf]
    exact (find_perm hns.2 (hp.filterMap _)).symm
  rw [eC, eN]
  have h0 := progTyped_split (opts := opts) s (l := []) ⟨.nil, .nil⟩
  have e1 : nodesOf opts [] = fun _ => none := rfl
  have e2 : constsOf [] = fun _ => none := rfl
  simp only [List.nil_append] at h0
  rw [e1, e2] at h0
  rw [h0]
  have hto : ∀ y ∈ ds, ∃ d ∈ p, Front opts d y := fun y hy => front_to hf hy
  have hfrom : ∀ d ∈ p, ∃ y ∈ ds, Front opts d y := fun d hd => front_from hf hd
  constructor
  · rintro ⟨⟨-, h1⟩, h2⟩ d hd
    obtain ⟨y, hy, hfy⟩ := hfrom d hd
    obtain ⟨l₁, l₂, e⟩ := List.append_of_mem (hp.mem_iff.2 hy)
    rw [← prefix_legal ho e hfy]
    exact (front_legal hfy).1 ⟨h1 l₁ y l₂ e, h2 y (hp.mem_iff.2 hy)⟩
  · intro h
    have key : ∀ l₁ y l₂, s = l₁ ++ y :: l₂ →
        DeclTyped opts (nodesOf opts l₁) (constsOf l₁) y ∧ Sound y := by
      intro l₁ y l₂ e
      obtain ⟨d, hd, hfy⟩ := hto y (hp.mem_iff.1 (by rw [e]; simp))
      exact (front_legal hfy).2 ((prefix_legal ho e hfy).2 (h d hd))
    refine ⟨⟨hns, fun l₁ y l₂ e => (key l₁ y l₂ e).1⟩, fun y hy => ?_⟩
    obtain ⟨l₁, l₂, e⟩ := List.append_of_mem hy
    exact (key l₁ y l₂ e).2

/-! ### Names and cycles -/

theorem namesOk_iff {ds : List San.Decl} :
    (ds.flatMap Depends.provides : List Reference).Nodup ↔ NamesOk opts ds := by
  have key : (ds.flatMap Depends.provides : List Reference).Perm
      (((ds.filterMap entryC).map fun e => Reference.globalVarName e.1) ++
        ((ds.filterMap (entryN opts)).map fun e => Reference.funName e.1)) := by
    induction ds with
    | nil => simp
    | cons y ds ih =>
      rw [List.flatMap_cons]
      cases y with
      | const c =>
        exact List.Perm.cons _ ih
      | extConst c =>
        exact List.Perm.cons _ ih
      | node n =>
        exact (List.Perm.cons _ ih).trans List.perm_middle.symm
      | extNode n =>
        exact (List.Perm.cons _ ih).trans List.perm_middle.symm
  rw [key.nodup_iff, List.nodup_append]
  have e1 : (ds.filterMap entryC).map (fun e => Reference.globalVarName e.1) =
      ((ds.filterMap entryC).map (·.1)).map Reference.globalVarName := by simp
  have e2 : (ds.filterMap (entryN opts)).map (fun e => Reference.funName e.1) =
      ((ds.filterMap (entryN opts)).map (·.1)).map Reference.funName := by simp
  rw [e1, e2, List.nodup_map_iff (f := Reference.globalVarName) (fun a b h => by cases h; rfl),
    List.nodup_map_iff (f := Reference.funName) (fun a b h => by cases h; rfl)]
  constructor
  · rintro ⟨h1, h2, -⟩; exact ⟨h1, h2⟩
  · rintro ⟨h1, h2⟩
    refine ⟨h1, h2, fun a ha b hb e => ?_⟩
    obtain ⟨x, -, rfl⟩ := List.mem_map.1 ha
    obtain ⟨y, -, rfl⟩ := List.mem_map.1 hb
    cases e

/-- One declaration needs another. -/
def Leads (ds : List San.Decl) (u w : Reference) : Prop := ∃ y ∈ ds, Introduces y u ∧ Mentions y w

theorem onCycle_leads {ds : List San.Decl} {u : Reference} :
    OnCycle ds u ↔ Relation.TransGen (Leads ds) u u := by
  have one : ∀ {a b c}, Needs ds a b → Needs ds b c → Leads ds a b := by
    rintro a b c ⟨y, hy, h1, h2⟩ ⟨y', hy', h1', h2'⟩
    exact ⟨y, hy, decl_provides.1 h1, mentions_of_requires h2 (decl_provides.1 h1')⟩
  constructor
  · have key : ∀ {a b c}, Relation.TransGen (Needs ds) a b → Needs ds b c →
        Relation.TransGen (Leads ds) a b := by
      intro a b c h
      induction h generalizing c with
      | single h => exact fun h' => .single (one h h')
      | tail _ h ih => exact fun h' => (ih h).tail (one h h')
    intro h
    obtain ⟨v, h1, -⟩ := Relation.TransGen.head'_iff.1 h
    exact key h h1
  · refine Relation.TransGen.mono ?_ u u
    rintro a b ⟨y, hy, h1, h2⟩
    exact ⟨y, hy, decl_provides.2 h1, decl_requires h2⟩

/-- A constant is defined from another. -/
def ConstFrom (p : List SrcDecl) (x y : String) : Prop :=
  ∃ attrs c, ⟨attrs, .const c⟩ ∈ p ∧ c.name = x ∧ y ∈ names c.value

/-- A node calls another. -/
def NodeFrom (p : List SrcDecl) (f g : String) : Prop :=
  ∃ attrs n, ⟨attrs, .node n⟩ ∈ p ∧ n.name = f ∧ ∃ st ∈ n.defs, g ∈ callees (SrcStmt.expr st)

theorem leads_global {ds : List San.Decl} {x : String} {w : Reference}
    (h : Leads ds (.globalVarName x) w) : ∃ y, w = .globalVarName y := by
  obtain ⟨y, -, h1, h2⟩ := h
  cases h1 with
  | const => cases h2; exact ⟨_, rfl⟩
  | extConst => cases h2

theorem leads_fun {ds : List San.Decl} {u : Reference} {g : String}
    (h : Leads ds u (.funName g)) : ∃ f, u = .funName f := by
  obtain ⟨y, -, h1, h2⟩ := h
  cases h2 with
  | call => cases h1; exact ⟨_, rfl⟩

theorem cycles_legal {p : List SrcDecl} {ds : List San.Decl} (hf : List.Forall₂ (Front opts) p ds)
    {consts : String → Option TyBase} {sigs : String → Option Sig}
    (hL : ∀ d ∈ p, LegalItem consts sigs (meaning d.attrs) d.item) :
    (∀ u, ¬ OnCycle ds u) ↔ (∀ x, ¬ Relation.TransGen (ConstFrom p) x x) ∧
      ∀ f, ¬ Relation.TransGen (NodeFrom p) f f := by
  have hC : ∀ x y, Leads ds (.globalVarName x) (.globalVarName y) ↔ ConstFrom p x y := by
    intro x y
    constructor
    · rintro ⟨z, hz, h1, h2⟩
      obtain ⟨d, hd, hfz⟩ := front_to hf hz
      cases h2 with
      | const h2 =>
        cases h1
        cases hfz with | @const attrs c c' h =>
        have hty := ((front_legal (opts := opts) (sigs := sigs) (consts := consts)
          (.const (attrs := attrs) h)).2 (hL _ hd)).1
        refine ⟨attrs, c, hd, ?_, (const_names h hty.const y).1 h2⟩
        obtain ⟨x, s, -, -, -, rfl⟩ := const_translate h
        rfl
      | global => cases h1
    · rintro ⟨attrs, c, hd, rfl, hy⟩
      obtain ⟨z, hz, hfz⟩ := front_from hf hd
      have hm := (refers_mentions hfz (hL _ hd) ⟨rfl, rfl⟩).2 y hy
      refine ⟨z, hz, ?_, hm⟩
      have := front_entryC hfz
      exact entryC_introduces this
  have hN : ∀ f g, Leads ds (.funName f) (.funName g) ↔ NodeFrom p f g := by
    intro f g
    constructor
    · rintro ⟨z, hz, h1, h2⟩
      obtain ⟨d, hd, hfz⟩ := front_to hf hz
      have hname := front_entryN hfz
      have hLd := hL _ hd
      generalize hg : Reference.funName g = r at h2
      cases h2 with
      | const h2 => cases hg
      | global => cases hg
      | @call _ b hb =>
        cases hg
        cases h1
        cases hfz with | @node attrs src n' n'' h hc e =>
        obtain ⟨c, hc', e'⟩ := node_translate h
        have e1 : n' = built src c := e'
        subst e1
        obtain ⟨-, hs⟩ := Props.C22_node hc
        have e2 : _ = c.blocks := congrArg Node.blocks hs
        have e3 : _ = src.name := congrArg Node.name hs
        dsimp only at e2 e3
        rw [e2] at hb
        refine ⟨attrs, src, hd, e3.symm, blocks_callees hc' (fun st hst => ?_) b hb⟩
        obtain ⟨t, ht⟩ := legalStmt_ty (LegalNode.stmts hLd st hst)
        exact (hasTy_known _ ht).1
    · rintro ⟨attrs, n, hd, rfl, st, hst, hg⟩
      obtain ⟨z, hz, hfz⟩ := front_from hf hd
      have hm := (refers_mentions hfz (hL _ hd) ⟨rfl, rfl⟩).1 g (List.mem_flatMap.2 ⟨st, hst, hg⟩)
      refine ⟨z, hz, ?_, hm⟩
      exact entryN_introduces (front_entryN hfz)
  simp only [onCycle_leads]
  constructor
  · intro h
    constructor
    · intro x hx
      refine h (.globalVarName x) ?_
      exact Relation.TransGen.lift Reference.globalVarName (fun a b hab => (hC a b).2 hab) _ _ hx
    · intro x hx
      refine h (.funName x) ?_
      exact Relation.TransGen.lift Reference.funName (fun a b hab => (hN a b).2 hab) _ _ hx
  · rintro ⟨h1, h2⟩ u hu
    have kC : ∀ x v, Relation.TransGen (Leads ds) (.globalVarName x) v →
        ∃ y, v = .globalVarName y ∧ Relation.TransGen (ConstFrom p) x y := by
      intro x v h
      induction h with
      | single h =>
        obtain ⟨y, rfl⟩ := leads_global h
        exact ⟨y, rfl, .single ((hC _ _).1 h)⟩
      | tail _ h ih =>
        obtain ⟨y, rfl, h'⟩ := ih
        obtain ⟨z, rfl⟩ := leads_global h
        exact ⟨z, rfl, h'.tail ((hC _ _).1 h)⟩
    have kN : ∀ v g, Relation.TransGen (Leads ds) v (.funName g) →
        ∃ f, v = .funName f ∧ Relation.TransGen (NodeFrom p) f g := by
      intro v g h
      induction h using Relation.TransGen.head_induction_on with
      | single h =>
        obtain ⟨y, rfl⟩ := leads_fun h
        exact ⟨y, rfl, .single ((hN _ _).1 h)⟩
      | head h _ ih =>
        obtain ⟨y, rfl, h'⟩ := ih
        obtain ⟨z, rfl⟩ := leads_fun h
        exact ⟨z, rfl, .head ((hN _ _).1 h) h'⟩
    obtain ⟨v, ⟨y, -, hy, -⟩, -⟩ := Relation.TransGen.head'_iff.1 hu
    cases hy with
    | const => obtain ⟨z, e, h⟩ := kC _ _ hu; cases e; exact h1 _ h
    | extConst => obtain ⟨z, e, h⟩ := kC _ _ hu; cases e; exact h1 _ h
    | node => obtain ⟨z, e, h⟩ := kN _ _ hu; cases e; exact h2 _ h
    | extNode => obtain ⟨z, e, h⟩ := kN _ _ hu; cases e; exact h2 _ h

end Chandeliers.Den
