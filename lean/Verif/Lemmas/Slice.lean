import Verif.Lemmas.RenameNode

/-!
# Nodes of which something is removed
-/

set_option autoImplicit false

namespace Chandeliers.Rep
open Chandeliers.San Chandeliers.Spec Chandeliers.Syn Chandeliers.Spec.Static

/-- In a list without repetitions, the order of what is kept is the same. -/
theorem before_sublist {α : Type} {l r l' r' : List α} {v w : α}
    (hs : (l' ++ v :: r').Sublist (l ++ v :: r)) (hn : (l ++ v :: r).Nodup) (hw : w ∈ l)
    (hw' : w ∈ l' ++ v :: r') : w ∈ l' := by
  rw [List.mem_append, List.mem_cons] at hw'
  obtain ⟨-, n2, n3⟩ := List.nodup_append.1 hn
  rcases hw' with h | rfl | h
  · exact h
  · exact (n3 w hw w (by simp) rfl).elim
  · exfalso
    have : [v, w].Sublist (l ++ v :: r) :=
      ((List.cons_sublist_cons.2 (List.singleton_sublist.2 h)).trans
        (List.sublist_append_right l' _)).trans hs
    obtain ⟨l₁, l₂, e, h1, h2⟩ := List.sublist_append_iff.1 this
    cases l₁ with
    | nil =>
      rw [List.nil_append] at e
      subst e
      exact n3 w hw w (h2.subset (by simp)) rfl
    | cons a as =>
      simp only [List.cons_append, List.cons.injEq] at e
      exact n3 v (h1.subset (by simp [e.1])) v (by simp) rfl

theorem find_sublist {α : Type} {f : α → String} {l l' : List α} (hs : l'.Sublist l)
    (hn : (l.map f).Nodup) {x : String} (hx : x ∈ l'.map f) :
    l'.find? (fun a => decide (f a = x)) = l.find? fun a => decide (f a = x) := by
  induction hs with
  | slnil => rfl
  | @cons l' l a h ih =>
    rw [List.map_cons, List.nodup_cons] at hn
    rw [List.find?_cons_of_neg, ih hn.2 hx]
    intro hd
    exact hn.1 ((of_decide_eq_true hd) ▸ (h.map f).subset hx)
  | @cons_cons l' l a h ih =>
    rw [List.map_cons, List.nodup_cons] at hn
    by_cases ha : f a = x
    · rw [List.find?_cons_of_pos (by simp [ha]), List.find?_cons_of_pos (by simp [ha])]
    · rw [List.find?_cons_of_neg (by simp [ha]), List.find?_cons_of_neg (by simp [ha])]
      rw [List.map_cons, List.mem_cons] at hx
      rcases hx with rfl | hx
      · exact (ha rfl).elim
      · exact ih hn.2 hx

theorem clocks_declarations (n : SrcNode) (x : String) : SrcNode.clocks n x =
    match (declarations (n.inputs ++ n.outputs ++ n.locals)).find? fun d => decide (d.1 = x) with
    | some d => d.2.2
    | none => .implicit := by
  unfold SrcNode.clocks
  generalize n.inputs ++ n.outputs ++ n.locals = as
  induction as with
  | nil => rfl
  | cons a as ih =>
    have e : declarations (a :: as) = (a.ids.map fun x => (x, a.base, a.clk)) ++ declarations as := rfl
    rw [e, List.find?_append, List.find?_map]
    by_cases hx : x ∈ a.ids
    · rw [List.find?_cons_of_pos (by simpa using hx)]
      obtain ⟨y, hy⟩ : ∃ y, a.ids.find? ((fun d : String × TyBase × Clock => decide (d.1 = x)) ∘
          fun x => (x, a.base, a.clk)) = some y := by
        rw [← Option.isSome_iff_exists, List.find?_isSome]
        exact ⟨x, hx, by simp⟩
      rw [hy]
      rfl
    · rw [List.find?_cons_of_neg (by simpa using hx), ih]
      have : a.ids.find? ((fun d : String × TyBase × Clock => decide (d.1 = x)) ∘
          fun x => (x, a.base, a.clk)) = none := by
        rw [List.find?_eq_none]
        intro y hy
        simp only [Function.comp_apply, decide_eq_true_eq]
        rintro rfl
        exact hx hy
      rw [this]
      rfl

theorem declarations_names (as : List ArgsTy) : (declarations as).map (·.1) = argNames as := by
  simp [declarations, argNames, List.map_flatMap, Function.comp_def]

theorem declarations_vars (as : List ArgsTy) :
    varsOf as = (declarations as).map fun d => ⟨d.1, d.2.1, d.2.2.intoClk⟩ := by
  simp [declarations, varsOf, List.map_flatMap, Function.comp_def]

theorem declarations_append (as bs : List ArgsTy) :
    declarations (as ++ bs) = declarations as ++ declarations bs := by
  simp [declarations]

section
variable {n n' : SrcNode}

theorem sliced_all (h : SlicedNode n n') :
    (declarations (n'.inputs ++ n'.outputs ++ n'.locals)).Sublist
      (declarations (n.inputs ++ n.outputs ++ n.locals)) := by
  rw [h.inputs, h.outputs, declarations_append, declarations_append (n.inputs ++ n.outputs)]
  exact h.locals.append_left _

theorem sliced_varsOf (h : SlicedNode n n') :
    (varsOf (n'.inputs ++ n'.outputs ++ n'.locals)).Sublist
      (varsOf (n.inputs ++ n.outputs ++ n.locals)) := by
  rw [declarations_vars, declarations_vars]
  exact (sliced_all h).map _

theorem sliced_vars (h : SlicedNode n n') : ∀ x ∈ SrcNode.vars n', x ∈ SrcNode.vars n := by
  intro x hx
  rw [← vars_names] at hx ⊢
  exact ((sliced_varsOf h).map _).subset hx

theorem sliced_mem (h : SlicedNode n n') {x : String} (hx : x ∈ mentions n') :
    x ∈ SrcNode.vars n' ↔ x ∈ SrcNode.vars n :=
  ⟨sliced_vars h x, h.closed x hx⟩

theorem sliced_clocks (h : SlicedNode n n') (hn : (SrcNode.vars n).Nodup) {x : String}
    (hx : x ∈ SrcNode.vars n') : SrcNode.clocks n' x = SrcNode.clocks n x := by
  rw [clocks_declarations, clocks_declarations, find_sublist (sliced_all h)]
  · rw [declarations_names, argNames_append, argNames_append]
    exact hn
  · rw [declarations_names, argNames_append, argNames_append]
    exact hx

theorem corr_sliced {A : Arith} {g : Globals} {N : String → Option Machine}
    {S : String → Nat → Nillable Scalar} (h : SlicedNode n n') (hn : (SrcNode.vars n).Nodup) :
    CorrOn id id (· ∈ mentions n') ⟨A, SrcNode.vars n, S, g, N⟩ ⟨A, SrcNode.vars n', S, g, N⟩
      (SrcNode.clocks n) (SrcNode.clocks n') where
  arith := rfl
  nodes _ := rfl
  locals x hx := sliced_mem h hx
  X x _ _ := rfl
  glob x _ _ := rfl
  due x hx hv t := by
    show uniDue S (SrcNode.clocks n' x) t = uniDue S (SrcNode.clocks n x) t
    rw [sliced_clocks h hn (h.closed x hx hv)]

/-- The solutions of the equations of a node are solutions of what is left of it. -/
theorem answers_sliced {A : Arith} {g : Globals} {N : String → Option Machine} {u : Bool}
    (h : SlicedNode n n') (hn : (SrcNode.vars n).Nodup) {is outs : List Value}
    (ha : Answers A g N u n is outs) : Answers A g N u n' is outs := by
  obtain ⟨S, h1, h2⟩ := ha
  have hC := corr_sliced (A := A) (g := g) (N := N) (S := S) h hn
  refine ⟨S, ?_, by rw [h2]; unfold srcOutputs; rw [h.outputs]⟩
  cases u with
  | false =>
    simp only [Bool.false_eq_true, if_false] at h1 ⊢
    refine ⟨by rw [h.inputs]; exact h1.inputs, fun t ht st hst => ?_⟩
    have := h1.defs t ht st (h.defs.subset hst)
    cases st with
    | def_ p e =>
      have he := ref_rename hC.toCorr e (fun x hx => names_mentions hst hx) t
      rw [renameSrc_id] at he
      simp only [SrcHolds, he] at this ⊢
      exact this
    | assert e =>
      have he := ref_rename hC.toCorr e (fun x hx => names_mentions hst hx) t
      rw [renameSrc_id] at he
      simp only [SrcHolds, he] at this ⊢
      exact this
  | true =>
    simp only [if_true] at h1 ⊢
    refine ⟨by rw [h.inputs]; exact h1.inputs, fun t ht st hst => ?_⟩
    have := h1.defs t ht st (h.defs.subset hst)
    cases st with
    | def_ p e =>
      have he := uni_rename hC e (fun x hx => names_mentions hst hx) t
      rw [renameSrc_id] at he
      simp only [UniHolds, he] at this ⊢
      exact this
    | assert e =>
      have he := uni_rename hC e (fun x hx => names_mentions hst hx) t
      rw [renameSrc_id] at he
      simp only [UniHolds, he] at this ⊢
      exact this

/-! ## Legality -/

theorem corrS_sliced {o : NodeOptions} {consts : String → Option TyBase}
    {nodes : String → Option Sig} (h : SlicedNode n n') (hn : (SrcNode.vars n).Nodup) :
    CorrS id id (· ∈ mentions n') (scope o consts nodes n) (scope o consts nodes n') where
  pre := rfl
  nodes _ := rfl
  var x hx := by
    have e : ∀ v : Option Var, v.map (renVar id) = v := by
      intro v
      cases v <;> simp [renVar_id]
    rw [e]
    by_cases hv : x ∈ SrcNode.vars n'
    · refine find_sublist (sliced_varsOf h) ?_ ?_
      · rw [vars_names]; exact hn
      · rw [vars_names]; exact hv
    · exact (var_none.2 hv).trans (var_none.2 fun h' => hv (h.closed x hx h')).symm
  consts x _ _ := rfl

theorem defined_sublist {l l' : List SrcStmt} (h : l'.Sublist l) :
    (defined l').Sublist (defined l) := by
  induction h with
  | slnil => exact .slnil
  | @cons l' l a _ ih =>
    rw [show defined (a :: l) = _ ++ defined l from List.flatMap_cons]
    exact ih.trans (List.sublist_append_right _ _)
  | @cons_cons l' l a _ ih =>
    rw [show defined (a :: l) = _ ++ defined l from List.flatMap_cons,
      show defined (a :: l') = _ ++ defined l' from List.flatMap_cons]
    exact ih.append_left _

theorem mem_varsOf {as : List ArgsTy} {v : Var} (h : v ∈ varsOf as) : ∃ a ∈ as, v.name ∈ a.ids ∧
    v.clk = a.clk.intoClk := by
  simp only [varsOf, List.mem_flatMap, List.mem_map] at h
  obtain ⟨a, ha, x, hx, rfl⟩ := h
  exact ⟨a, ha, hx, rfl⟩

theorem legal_sliced {o : NodeOptions} {consts : String → Option TyBase}
    {nodes : String → Option Sig} (h : SlicedNode n n') (hl : LegalNode o consts nodes n) :
    LegalNode o consts nodes n' := by
  have hn : (SrcNode.vars n).Nodup := by rw [← vars_names]; exact hl.vars.distinct
  have hloc : (varsOf n'.locals).Sublist (varsOf n.locals) := by
    rw [declarations_vars, declarations_vars]
    exact h.locals.map _
  constructor
  · obtain ⟨i1, i2, i3, i4⟩ := hl.interface
    rw [h.inputs, h.outputs]
    exact ⟨i1, fun v hv => i2 v ((hloc.append_left _).subset hv), i3, i4⟩
  · refine ⟨hl.vars.distinct.sublist ((sliced_varsOf h).map _), fun l v r e x hx => ?_⟩
    have hv : v ∈ varsOf (n'.inputs ++ n'.outputs ++ n'.locals) := by rw [e]; simp
    obtain ⟨l₀, r₀, e₀⟩ := List.append_of_mem ((sliced_varsOf h).subset hv)
    obtain ⟨w, k1, k2, k3⟩ := hl.vars.clocks l₀ v r₀ e₀ x hx
    refine ⟨w, ?_, k2, k3⟩
    have hd := hl.vars.distinct
    have hs := sliced_varsOf h
    have hmx : x ∈ mentions n' := by
      obtain ⟨a, ha, -, hc⟩ := mem_varsOf hv
      cases hac : a.clk with
      | explicit b y =>
        have := clock_mentions ha hac
        rw [hac] at hc
        rw [hc] at hx
        cases b <;> simp [Clock.intoClk] at hx <;> exact hx ▸ this
      | _ => rw [hac] at hc; rw [hc] at hx; simp [Clock.intoClk] at hx
    have hw : w ∈ varsOf (n.inputs ++ n.outputs ++ n.locals) := by rw [e₀]; simp [k1]
    have hwn : w.name ∈ SrcNode.vars n := by rw [← vars_names]; exact List.mem_map_of_mem hw
    have hwn' : w.name ∈ SrcNode.vars n' := h.closed _ (k2 ▸ hmx) hwn
    rw [← vars_names, List.mem_map] at hwn'
    obtain ⟨w', j1, j2⟩ := hwn'
    have : w' = w := List.inj_on_of_nodup_map hd (hs.subset j1) hw j2
    subst this
    rw [e] at hs j1
    rw [e₀] at hs hd
    exact before_sublist hs (List.Nodup.of_map _ hd) k1 j1
  · intro st hst
    have := legalStmt_rename (corrS_sliced (o := o) (consts := consts) (nodes := nodes) h hn)
      (fun x hx => target_mentions hst hx)
      (fun x hx => names_mentions hst hx) (hl.stmts st (h.defs.subset hst))
    rw [renameStmt_id] at this
    exact this
  · rw [h.inputs]
    exact fun v hv hd => hl.inputs v hv ((defined_sublist h.defs).subset hd)
  · exact hl.once.sublist (defined_sublist h.defs)
  · intro v hv
    have hv' : v ∈ varsOf (n.outputs ++ n.locals) := by
      rw [varsOf_append] at hv ⊢
      rw [h.outputs] at hv
      exact (hloc.append_left _).subset hv
    obtain ⟨st, h1, h2⟩ := defined_mem.1 (hl.everything v hv')
    refine defined_mem.2 ⟨st, h.kept st h1 _ h2 ?_, h2⟩
    rw [← vars_names]
    refine List.mem_map_of_mem ?_
    rw [varsOf_append, varsOf_append]
    rw [varsOf_append] at hv
    rcases List.mem_append.1 hv with hv | hv <;> simp [hv]
  · intro x hx
    refine hl.causal x (Relation.TransGen.mono ?_ x x hx)
    rintro a b ⟨p, e, h1, h2⟩
    exact ⟨p, e, h.defs.subset h1, h2⟩

theorem sliced_keepsNode : KeepsNode (fun _ n n' => SlicedNode n n') where
  name h := h.name
  inputs h := by rw [h.inputs]
  outputs h := by rw [h.outputs]
  legal h hl := legal_sliced h hl
  calls h st hst g hg := ⟨st, h.defs.subset hst, hg⟩

theorem declared_clock {as : List ArgsTy} {d : String × TyBase × Clock} (h : d ∈ declarations as) :
    ∃ a ∈ as, d.2.2 = a.clk := by
  simp only [declarations, List.mem_flatMap, List.mem_map] at h
  obtain ⟨a, ha, x, -, rfl⟩ := h
  exact ⟨a, ha, rfl⟩

theorem sliced_tidy {n n' : SrcNode} (h : SlicedNode n n') (ht : Tidy n) : Tidy n' := by
  refine ⟨⟨fun a ha b x hx => ?_, fun st hst x hx => ?_⟩, fun st hst => ?_⟩
  · have : ∃ a' ∈ n.inputs ++ n.outputs ++ n.locals, a.clk = a'.clk := by
      rw [List.mem_append] at ha
      rcases ha with ha | ha
      · rw [h.inputs, h.outputs] at ha
        exact ⟨a, List.mem_append.2 (.inl ha), rfl⟩
      · obtain ⟨y, hy⟩ := List.exists_mem_of_ne_nil _ (h.written a ha)
        obtain ⟨a', h1, h2⟩ := declared_clock (h.locals.subset (List.mem_flatMap.2
          ⟨a, ha, List.mem_map_of_mem hy⟩))
        exact ⟨a', List.mem_append.2 (.inr h1), h2⟩
    obtain ⟨a', h1, h2⟩ := this
    rw [h.inputs]
    exact ht.clocks.declared a' h1 b x (h2 ▸ hx)
  · rw [h.inputs]
    exact ht.clocks.used st (h.defs.subset hst) x hx
  · exact ht.flat st (h.defs.subset hst)

/-- With the names that legality makes distinct. -/
theorem sliced_distinct {p r : SrcProg} (hl : Legal p)
    (h : List.Forall₂ (Rewritten fun _ => SlicedNode) p r) :
    List.Forall₂ (Rewritten fun _ n n' => SlicedNode n n' ∧ (SrcNode.vars n).Nodup) p r := by
  have : ∀ d ∈ p, ∀ attrs n, d = ⟨attrs, .node n⟩ → (SrcNode.vars n).Nodup := by
    rintro d hd attrs n rfl
    have := hl.items _ hd
    rw [← vars_names]
    exact this.vars.distinct
  clear hl
  induction h with
  | nil => exact .nil
  | @cons d d' _ _ hd _ ih =>
    refine .cons ?_ (ih fun d hm => this d (List.mem_cons_of_mem _ hm))
    cases hd with
    | same => exact .same
    | @node attrs n n' hr =>
      exact .node ⟨hr, this _ (List.mem_cons_self ..) attrs n rfl⟩

theorem sliced_faced : Faced (fun _ n n' => SlicedNode n n' ∧ (SrcNode.vars n).Nodup) :=
  ⟨fun h => h.1.name, fun h => by rw [h.1.outputs]⟩

end

end Chandeliers.Rep
