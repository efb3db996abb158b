import Verif.Lemmas.LegalOrder
import Verif.Props.Options

/-! Running the compiler on legal programs, and what it means that it ran. -/

set_option autoImplicit false

namespace Chandeliers.Den
open Chandeliers.San Chandeliers.Spec Chandeliers.Syn Chandeliers.Spec.Static Chandeliers.Prg
open Chandeliers.Err Chandeliers.Err.Chk

/-! ### Attributes -/

section
variable {σ : Type} {as : List Attribute} {d : Syn.Decl}

theorem none_inapplicable {k : DeclKind} :
    (∀ a ∈ as, a.action ∉ inapplicable k) ↔ hasAny as (inapplicable k) = false := by
  simp [hasAny]

theorem forConst_applies (hd : d.Holds as) (t : EAccum AttrDiag × σ) :
    (∃ o t', d.forConst t = (.some o, t')) ↔ ∀ a ∈ as, a.action ∉ inapplicable .const := by
  rw [none_inapplicable]
  obtain ⟨h1, h2, h3, h4, h5, h6, h7, h8, h9, h10⟩ := hd
  have e : hasAny as (inapplicable .const) = (hasAny as ["trace"] || (hasAny as ["main"] ||
      (hasAny as ["trait"] || (hasAny as ["test"] || (hasAny as ["generic"] ||
        hasAny as ["universal_pre"]))))) := by
    rw [Bool.eq_iff_iff]
    simp only [hasAny, inapplicable, Bool.or_eq_true, List.any_eq_true, List.mem_cons,
      List.not_mem_nil, or_false, decide_eq_true_eq, and_or_left, exists_or]
  rw [e]
  simp only [Decl.forConst, run_bind, h1.skip, h4.skip, h8.skip, h5.skip, h9.skip, h10.skip]
  cases hasAny as ["trace"] <;> cases hasAny as ["main"] <;> cases hasAny as ["trait"] <;>
    cases hasAny as ["test"] <;> cases hasAny as ["generic"] <;>
    cases hasAny as ["universal_pre"] <;> simp

theorem forExtNode_applies (hd : d.Holds as) (t : EAccum AttrDiag × σ) :
    (∃ o t', d.forExtNode t = (.some o, t')) ↔ ∀ a ∈ as, a.action ∉ inapplicable .extNode := by
  rw [none_inapplicable]
  obtain ⟨h1, h2, h3, h4, h5, h6, h7, h8, h9, h10⟩ := hd
  have e : hasAny as (inapplicable .extNode) = (hasAny as ["export", "pub"] ||
      (hasAny as ["doc"] || (hasAny as ["pub"] || (hasAny as ["trait"] || (hasAny as ["test"] ||
        hasAny as ["universal_pre"]))))) := by
    rw [Bool.eq_iff_iff]
    simp only [hasAny, inapplicable, Bool.or_eq_true, List.any_eq_true, List.mem_cons,
      List.not_mem_nil, or_false, decide_eq_true_eq, and_or_left, exists_or]
    grind
  rw [e]
  simp only [Decl.forExtNode, run_bind, h2.skip, h7.skip, h3.skip, h8.skip, h5.skip, h10.skip]
  cases hasAny as ["export", "pub"] <;> cases hasAny as ["doc"] <;> cases hasAny as ["pub"] <;>
    cases hasAny as ["trait"] <;> cases hasAny as ["test"] <;>
    cases hasAny as ["universal_pre"] <;> simp

theorem forExtConst_applies (hd : d.Holds as) (t : EAccum AttrDiag × σ) :
    (∃ o t', d.forExtConst t = (.some o, t')) ↔ ∀ a ∈ as, a.action ∉ inapplicable .extConst := by
  rw [none_inapplicable]
  obtain ⟨h1, h2, h3, h4, h5, h6, h7, h8, h9, h10⟩ := hd
  have e : hasAny as (inapplicable .extConst) = (hasAny as ["trace"] ||
      (hasAny as ["export", "pub"] || (hasAny as ["main"] || (hasAny as ["doc"] ||
      (hasAny as ["pub"] || (hasAny as ["trait"] || (hasAny as ["test"] || (hasAny as ["generic"] ||
        hasAny as ["universal_pre"])))))))) := by
    rw [Bool.eq_iff_iff]
    simp only [hasAny, inapplicable, Bool.or_eq_true, List.any_eq_true, List.mem_cons,
      List.not_mem_nil, or_false, decide_eq_true_eq, and_or_left, exists_or]
    grind
  rw [e]
  simp only [Decl.forExtConst, run_bind, h1.skip, h2.skip, h4.skip, h7.skip, h3.skip, h8.skip,
    h5.skip, h9.skip, h10.skip]
  cases hasAny as ["trace"] <;> cases hasAny as ["export", "pub"] <;> cases hasAny as ["main"] <;>
    cases hasAny as ["doc"] <;> cases hasAny as ["pub"] <;>
    cases hasAny as ["trait"] <;> cases hasAny as ["test"] <;> cases hasAny as ["generic"] <;>
    cases hasAny as ["universal_pre"] <;> simp

theorem withAll_formed {s s' : EAccum AttrDiag × Unit}
    (h : Decl.default.withAll as s = (.some d, s')) : ∀ a ∈ as, wellFormed a := by
  have hr := withAll_run as Decl.default [] Decl.spanned_default holds_default (withAll_small h) s
  by_contra hw
  have : ∃ a ∈ as, ¬ wellFormed a := by simpa using hw
  obtain ⟨a, -, -, ws, h1⟩ := hr.2 this
  rw [h] at h1
  cases h1

end

theorem mapErr_runs {E F σ α : Type} {f : E → F} {m : Chk E σ α} {s : EAccum F × σ} {x : α}
    {t : EAccum E × σ} (h : m (EAccum.default, s.2) = (.some x, t)) :
    ∃ s', mapErr f m s = (.some x, s') := by
  obtain ⟨a, s⟩ := s
  obtain ⟨b, u⟩ := t
  exact ⟨(⟨a.err ++ b.err.map f, a.warn ++ b.warn.map f⟩, u), by simp only [mapErr, h]⟩

/-- The attributes of translated declarations are right. -/
theorem decl_attributes {d : SrcDecl} {s s' : EAccum Report × Unit} {r : OptDecl}
    (h : d.translate s = (.some r, s')) : ∀ a ∈ d.attrs,
      wellFormed a ∧ smallNumbers a ∧ a.action ∉ inapplicable (Static.kind d.item) := by
  obtain ⟨attrs, item⟩ := d
  unfold SrcDecl.translate at h
  obtain ⟨options, s1, h0, g1⟩ := bind_some.1 h
  obtain ⟨t1, h1⟩ := mapErr_some h0
  dsimp only at h1 g1
  have k1 := withAll_formed h1
  have k2 := withAll_small h1
  have k3 := withAll_holds h1
  refine fun a ha => ⟨k1 a ha, k2 a ha, ?_⟩
  revert a ha
  cases item with
  | const c =>
    obtain ⟨_, s2, h2, g2⟩ := bind_some.1 g1
    obtain ⟨t2, h3⟩ := mapErr_some h2
    exact (forConst_applies k3 _).1 ⟨_, _, h3⟩
  | node n => intro a _; simp [Static.kind, inapplicable]
  | extConst x ty =>
    obtain ⟨_, s2, h2, g2⟩ := bind_some.1 g1
    obtain ⟨t2, h3⟩ := mapErr_some h2
    exact (forExtConst_applies k3 _).1 ⟨_, _, h3⟩
  | extNode f ins outs =>
    obtain ⟨_, s2, h2, g2⟩ := bind_some.1 g1
    obtain ⟨t2, h3⟩ := mapErr_some h2
    exact (forExtNode_applies k3 _).1 ⟨_, _, h3⟩

theorem decls_attributes : {ds : List SrcDecl} → {s s' : EAccum Report × Unit} → {r : List OptDecl} →
    translateDecls ds s = (.some r, s') → ∀ d ∈ ds, ∀ a ∈ d.attrs,
      wellFormed a ∧ smallNumbers a ∧ a.action ∉ inapplicable (Static.kind d.item)
  | [], s, s', r, h => fun d hd => by cases hd
  | d :: ds, s, s', r, h => by
    unfold translateDecls at h
    obtain ⟨x, s1, h1, g1⟩ := bind_some.1 h
    obtain ⟨xs, s2, h2, g2⟩ := bind_some.1 g1
    intro e he
    rcases List.mem_cons.1 he with rfl | he
    · exact decl_attributes h1
    · exact decls_attributes h2 e he

/-- The translation of a declaration runs. -/
theorem decl_translates {d : SrcDecl} (ha : ∀ a ∈ d.attrs,
      wellFormed a ∧ smallNumbers a ∧ a.action ∉ inapplicable (Static.kind d.item))
    (ht : match d.item with
      | .const c => ∃ c', c.translate = .ok c'
      | .node n => ∃ n', n.translate (meaning d.attrs).universalPre = .ok n'
      | _ => True) (s : EAccum Report × Unit) : ∃ r s', d.translate s = (.some r, s') := by
  obtain ⟨attrs, item⟩ := d
  obtain ⟨o, ws, hr, hh⟩ := (withAll_run attrs Decl.default [] Decl.spanned_default holds_default
    (fun a h => (ha a h).2.1) ((EAccum.default, s.2) : EAccum AttrDiag × Unit)).1
      (fun a h => (ha a h).1)
  rw [List.nil_append] at hh
  obtain ⟨s1, h1⟩ := mapErr_runs (f := Report.attribute) (s := s) hr
  have ha' := fun a h => (ha a h).2.2
  unfold SrcDecl.translate
  dsimp only at ht ha'
  cases item with
  | const c =>
    obtain ⟨c', hc⟩ := ht
    obtain ⟨o', t, h2⟩ := (forConst_applies hh (EAccum.default, s1.2)).2 ha'
    obtain ⟨s2, h3⟩ := mapErr_runs (f := Report.attribute) (s := s1) h2
    exact ⟨_, _, bind_some.2 ⟨_, _, h1, bind_some.2 ⟨_, _, h3, bind_some.2 ⟨c', s2, by rw [hc]; rfl, rfl⟩⟩⟩⟩
  | node n =>
    obtain ⟨n', hc⟩ := ht
    have h2 : o.forNode ((EAccum.default, s1.2) : EAccum AttrDiag × Unit) = (.some _, _) := rfl
    have e := forNode_meaning hh h2
    obtain ⟨s2, h3⟩ := mapErr_runs (f := Report.attribute) (s := s1) h2
    refine ⟨_, _, bind_some.2 ⟨_, _, h1, bind_some.2 ⟨_, _, h3,
      bind_some.2 ⟨n', s2, by rw [e, hc]; rfl, rfl⟩⟩⟩⟩
  | extConst x ty =>
    obtain ⟨o', t, h2⟩ := (forExtConst_applies hh (EAccum.default, s1.2)).2 ha'
    obtain ⟨s2, h3⟩ := mapErr_runs (f := Report.attribute) (s := s1) h2
    exact ⟨_, _, bind_some.2 ⟨_, _, h1, bind_some.2 ⟨_, _, h3, rfl⟩⟩⟩
  | extNode f ins outs =>
    obtain ⟨o', t, h2⟩ := (forExtNode_applies hh (EAccum.default, s1.2)).2 ha'
    obtain ⟨s2, h3⟩ := mapErr_runs (f := Report.attribute) (s := s1) h2
    exact ⟨_, _, bind_some.2 ⟨_, _, h1, bind_some.2 ⟨_, _, h3, rfl⟩⟩⟩

theorem decls_translates : (ds : List SrcDecl) → (∀ d ∈ ds, ∀ s : EAccum Report × Unit,
      ∃ r s', d.translate s = (.some r, s')) → (s : EAccum Report × Unit) →
    ∃ r s', translateDecls ds s = (.some r, s')
  | [], _, s => ⟨_, _, rfl⟩
  | d :: ds, h, s => by
    obtain ⟨r, s1, h1⟩ := h d (by simp) s
    obtain ⟨rs, s2, h2⟩ := decls_translates ds (fun d hd => h d (by simp [hd])) s1
    exact ⟨_, _, bind_some.2 ⟨_, _, h1, bind_some.2 ⟨_, _, h2, rfl⟩⟩⟩

/-! ### From acceptance to the rules -/

theorem printable_withClocks {clk : Nat → Expr} {st : Stmt}
    (hn : ∀ id i k, st = .initRegister id i k → k = none)
    (h : printableStmt (Stmt.withClocks clk st) = true) : printableStmt st = true := by
  cases st with
  | initRegister id i c =>
    cases hn id i c rfl
    simp only [Stmt.withClocks, printableStmt, Bool.and_eq_true] at h ⊢
    exact ⟨h.1, rfl⟩
  | _ => exact h

theorem passes_sound {opts : String → TyOpts} {d : SrcDecl} {n₂ n₃ n₄ n₅ : Node}
    (hf : Front opts d (.node n₂)) {sigs : String → Option Sig} {consts : String → Option TyBase}
    (h3 : ∃ s s' : EAccum Diag × Unit, n₂.typecheck (opts n₂.name) sigs consts s = (.some n₃, s'))
    (h4 : ∃ s s' : EAccum Diag × Unit, n₃.clockcheck s = (.some n₄, s'))
    (h5 : ∃ s s' : EAccum Diag × Unit, n₄.makePositive s = (.some n₅, s'))
    (h6 : emittable (.node n₅) = true) : Sound (.node n₂) := by
  obtain ⟨⟨a, u⟩, s', h3⟩ := h3
  obtain ⟨s1, s2, h4⟩ := h4
  obtain ⟨s3, s4, h5⟩ := h5
  obtain ⟨j1, j2, j3, a', ctx, j4, rfl, -⟩ := nodeTypecheck_some.1 h3
  have hnames : ((declared (n₂.fill ctx)).map (·.name)).Nodup := declsTyped_nodup j2
  obtain ⟨-, -, K, hK, -, clk, rfl, hclk⟩ := Clk.node_clk_sound hnames h4
  obtain ⟨⟨⟨⟩, m⟩, s5, h7, h8⟩ := bind_some.1 h5
  cases h8
  have hnone : ∀ st ∈ n₂.stmts, ∀ id i k, st = .initRegister id i k → k = none := by
    cases hf with | @node attrs src n' _ h hc e =>
    obtain ⟨c, hc', e'⟩ := node_translate h
    have e1 : n' = built src c := e'
    subst e1
    obtain ⟨hp, -⟩ := Props.C22_node hc
    intro st hst id i k e
    subst e
    exact (node_comes hc').clocks id i k (hp.mem_iff.1 hst)
  have hpos : ∃ s', checkPositiveAll (Node.withClocks clk (n₂.fill ctx)).stmts
      (s3.1, fun _ => none) = (.some (), s') := by
    unfold San.Chk.local_ at h7
    simp only at h7
    rcases hm : checkPositiveAll (Node.withClocks clk (n₂.fill ctx)).stmts (s3.1, fun _ => none)
      with ⟨r, a', m'⟩
    rw [hm] at h7
    cases r <;> cases h7
    exact ⟨_, rfl⟩
  obtain ⟨q1, q2⟩ := (Props.C20_check_exact _ _).1 hpos
  have hmem : ∀ st ∈ n₂.stmts, Stmt.withClocks clk st ∈ (Node.withClocks clk (n₂.fill ctx)).stmts :=
    fun st hst => List.mem_map.2 ⟨st, hst, rfl⟩
  refine ⟨⟨K, hK.interface, hK.declared, hK.stmts⟩, fun t x hx => q1 t x (hmem _ hx),
    fun x hx => q2 x (hmem _ hx), fun st hst => ?_⟩
  simp only [emittable, Bool.and_eq_true, List.all_eq_true] at h6
  exact printable_withClocks (hnone st hst) (h6.2 _ (hmem st hst))

theorem clocked_ext : {ds ds' : List San.Decl} → {s s' : EAccum Diag × Unit} →
    progClockcheck ds s = (.some ds', s') → ∀ n, .extNode n ∈ ds →
      ∀ v ∈ n.inputs ++ n.outputs, Always v.clk.intoClk
  | [], ds', s, s', h => fun n hn => by cases hn
  | .node n :: ds, ds', s, s', h => by
    unfold progClockcheck at h
    obtain ⟨n', s1, h1, g1⟩ := bind_some.1 h
    obtain ⟨xs, s2, h2, g2⟩ := bind_some.1 g1
    intro m hm
    rcases List.mem_cons.1 hm with e | hm
    · cases e
    · exact clocked_ext h2 m hm
  | .extNode n :: ds, ds', s, s', h => by
    unfold progClockcheck at h
    obtain ⟨_, s1, h1, g1⟩ := bind_some.1 h
    obtain ⟨xs, s2, h2, g2⟩ := bind_some.1 g1
    intro m hm
    rcases List.mem_cons.1 hm with e | hm
    · cases e
      exact (Clk.checkInterface_some.1 h1).1
    · exact clocked_ext h2 m hm
  | .const c :: ds, ds', s, s', h => by
    unfold progClockcheck at h
    obtain ⟨xs, s2, h2, g2⟩ := bind_some.1 h
    intro m hm
    rcases List.mem_cons.1 hm with e | hm
    · cases e
    · exact clocked_ext h2 m hm
  | .extConst c :: ds, ds', s, s', h => by
    unfold progClockcheck at h
    obtain ⟨xs, s2, h2, g2⟩ := bind_some.1 h
    intro m hm
    rcases List.mem_cons.1 hm with e | hm
    · cases e
    · exact clocked_ext h2 m hm

theorem all_sound {opts : String → TyOpts} {sigs : String → Option Sig}
    {consts : String → Option TyBase} {ds₂ ds₃ ds₄ ds₅ : List San.Decl}
    (hf : ∀ y ∈ ds₂, ∃ d, Front opts d y) (hc : Checked opts sigs consts ds₂ ds₃)
    (hk : List.Forall₂ Clocked ds₃ ds₄) (hx : ∀ n, .extNode n ∈ ds₃ →
      ∀ v ∈ n.inputs ++ n.outputs, Always v.clk.intoClk)
    (hp : List.Forall₂ Positive ds₄ ds₅)
    (he : ∀ y ∈ ds₅, emittable y = true) : ∀ y ∈ ds₂, Sound y := by
  induction hc generalizing ds₄ ds₅ with
  | nil => intro y hy; cases hy
  | const h hn hs ih =>
    cases hk with | cons k1 k2 =>
    cases hp with | cons p1 p2 =>
    cases k1; cases p1
    intro y hy
    rcases List.mem_cons.1 hy with rfl | hy
    · have := he _ (List.mem_cons_self ..)
      simp only [emittable, Bool.and_eq_true] at this
      exact this.2
    · exact ih (fun y hy => hf y (by simp [hy])) k2 (fun n hn => hx n (by simp [hn])) p2
        (fun y hy => he y (by simp [hy])) y hy
  | extConst hn hs ih =>
    cases hk with | cons k1 k2 =>
    cases hp with | cons p1 p2 =>
    intro y hy
    rcases List.mem_cons.1 hy with rfl | hy
    · trivial
    · exact ih (fun y hy => hf y (by simp [hy])) k2 (fun n hn => hx n (by simp [hn])) p2
        (fun y hy => he y (by simp [hy])) y hy
  | extNode h hd hn hs ih =>
    cases hk with | cons k1 k2 =>
    cases hp with | cons p1 p2 =>
    intro y hy
    rcases List.mem_cons.1 hy with rfl | hy
    · exact hx _ (List.mem_cons_self ..)
    · exact ih (fun y hy => hf y (by simp [hy])) k2 (fun n hn => hx n (by simp [hn])) p2
        (fun y hy => he y (by simp [hy])) y hy
  | node h hn hs ih =>
    cases hk with | cons k1 k2 =>
    cases hp with | cons p1 p2 =>
    intro y hy
    rcases List.mem_cons.1 hy with rfl | hy
    · obtain ⟨d, hd⟩ := hf _ (List.mem_cons_self ..)
      cases k1 with | node h4 =>
      cases p1 with | node h5 =>
      exact passes_sound hd h h4 h5 (he _ (List.mem_cons_self ..))
    · exact ih (fun y hy => hf y (by simp [hy])) k2 (fun n hn => hx n (by simp [hn])) p2
        (fun y hy => he y (by simp [hy])) y hy

theorem trans_generics {p : SrcProg} {ds : List OptDecl} (h : List.Forall₂ Trans p ds)
    (hg : DistinctGenerics p) (f : String) : (optsOf ds f).generics.Nodup := by
  unfold optsOf
  cases hd : ds.find? fun d => isFun f d.1 with
  | none => exact .nil
  | some x =>
    have hx := List.mem_of_find?_eq_some hd
    have : ∃ d ∈ p, Trans d x := by
      clear hd hg
      induction h with
      | nil => cases hx
      | cons a b ih =>
        rcases List.mem_cons.1 hx with rfl | hx
        · exact ⟨_, by simp, a⟩
        · obtain ⟨d, h1, h2⟩ := ih hx
          exact ⟨d, by simp [h1], h2⟩
    obtain ⟨d, hd, ht⟩ := this
    have := hg d hd
    cases ht with
    | const => exact .nil
    | extConst => exact .nil
    | node => exact this
    | extNode => exact this

theorem mapM_forall₂ {decls ds : List San.Decl} (h : decls.mapM San.Decl.causality = .ok ds) :
    List.Forall₂ (fun d d' => d.causality = .ok d') decls ds := by
  induction decls generalizing ds with
  | nil => simp [pure, Except.pure] at h; subst h; exact .nil
  | cons d decls ih =>
    rw [List.mapM_cons] at h
    simp only [bind, Except.bind, pure, Except.pure] at h
    cases hd : d.causality with
    | error e => simp [hd] at h
    | ok d' =>
      simp only [hd] at h
      cases hm : decls.mapM San.Decl.causality with
      | error e => simp [hm] at h
      | ok ds' =>
        simp only [hm, Except.ok.injEq] at h
        subst h
        exact .cons hd (ih hm)

theorem mapM_runs : (decls : List San.Decl) → (∀ d ∈ decls, ∃ d', d.causality = .ok d') →
    ∃ ds, decls.mapM San.Decl.causality = .ok ds
  | [], _ => ⟨[], rfl⟩
  | d :: decls, h => by
    obtain ⟨d', h1⟩ := h d (by simp)
    obtain ⟨ds, h2⟩ := mapM_runs decls fun d hd => h d (by simp [hd])
    refine ⟨d' :: ds, ?_⟩
    rw [List.mapM_cons]
    simp only [bind, Except.bind, pure, Except.pure, h1, h2]

/-- Accepted programs are legal. -/
theorem legal_of_compile {p : SrcProg} (hg : DistinctGenerics p) {p' : Prog}
    {s s' : EAccum Report × Unit} (h : compile p s = (.some p', s')) : Legal p := by
  unfold compile progPipeline at h
  obtain ⟨p₁, s1, h1, g1⟩ := bind_some.1 h
  obtain ⟨p₂, s2, h2, g2⟩ := bind_some.1 g1
  obtain ⟨p₃, s3, h3, g3⟩ := bind_some.1 g2
  obtain ⟨p₄, s4, h4, g4⟩ := bind_some.1 g3
  obtain ⟨p₅, s5, h5, g5⟩ := bind_some.1 g4
  obtain ⟨ds, t1, i1, j1⟩ := bind_some.1 h1
  cases j1
  obtain ⟨ds₂, t2, i2, j2⟩ := bind_some.1 h2
  cases j2
  obtain ⟨ds₃, t3, i3, j3⟩ := bind_some.1 h3
  cases j3
  obtain ⟨ds₄, t4, i4, j4⟩ := bind_some.1 h4
  cases j4
  obtain ⟨ds₅, t5, i5, j5⟩ := bind_some.1 h5
  cases j5
  have hemit : ∀ y ∈ ds₅, emittable y = true := by
    simp only [codegen] at g5
    split at g5
    · rename_i h; exact List.all_eq_true.1 h
    · cases g5
  have k1 := decls_translate i1
  have i2 := ofCausality_some i2
  obtain ⟨ds', hm, hsch⟩ := Props.progCausality_split i2
  have k2 : List.Forall₂ (fun d d' => d.causality = .ok d') (ds.map (·.1)) ds' := mapM_forall₂ hm
  have hperm := Props.C22_schedule_perm hsch
  have hdef := Props.C23_defined_before_use hsch
  have hS := Props.C24_accepts_iff.1 ⟨_, hsch⟩
  obtain ⟨_, i3⟩ := mapErr_some i3
  have k3 := prog_checked i3
  obtain ⟨_, i4⟩ := mapErr_some i4
  have k4 := prog_clocked i4
  have k4' := clocked_ext i4
  obtain ⟨_, i5⟩ := mapErr_some i5
  have k5 := prog_positive i5
  dsimp only at k2 k3 k4 k4' k5 hsch hperm hdef hS
  have hnames : (ds.filterMap (funName ·.1)).Nodup := by
    have n1 := (checked_names k3).1
    have n2 : (ds'.filterMap funName).Nodup := (hperm.filterMap funName).nodup_iff.1 n1
    have n3 : ds'.filterMap funName = (ds.map (·.1)).filterMap funName := by
      clear n1 n2 k1 hperm i1 hS hm hsch
      generalize ds.map (·.1) = l at k2
      induction k2 with
      | nil => rfl
      | cons a b ih =>
        rw [List.filterMap_cons, List.filterMap_cons, causality_funName a, ih]
    rw [n3, List.filterMap_map] at n2
    exact n2
  have k6 := front_all k1 k2 fun x hx f hf => optsOf_mem hnames hx hf
  have hN : NamesOk (optsOf ds) ds' := namesOk_iff.1 hS.once
  have hT := (Props.C44_program (trans_generics k1 hg)).1 ⟨_, _, i3⟩
  have hL := (items_legal k6 hperm hdef hN).1 ⟨hT, all_sound
    (fun y hy => by
      obtain ⟨d, -, hd⟩ := front_to k6 (hperm.mem_iff.1 hy)
      exact ⟨d, hd⟩) k3 k4 k4' k5 hemit⟩
  obtain ⟨c1, c2⟩ := (cycles_legal k6 hL).1 hS.acyclic
  refine ⟨decls_attributes i1, ?_, ?_, hL, c1, c2⟩
  · rw [← fronts_entryC k6]; exact hN.1
  · rw [← fronts_entryN k6]; exact hN.2

/-! ### From the rules to acceptance -/

theorem legal_translates {p : SrcProg} (h : Legal p) (s : EAccum Report × Unit) :
    ∃ r s', translateDecls p s = (.some r, s') := by
  refine decls_translates p (fun d hd => decl_translates (h.attributes d hd) ?_) s
  have hL := h.items d hd
  obtain ⟨attrs, item⟩ := d
  cases item with
  | const c =>
    obtain ⟨c', h1, -⟩ := const_of_legal hL.1 hL.2
    exact ⟨c', h1⟩
  | node n =>
    obtain ⟨c, hc⟩ := stmts_translate (S := scope (meaning attrs) _ _ n)
      (n.view (meaning attrs).universalPre) n.defs {} fun st hst => legalStmt_ty (LegalNode.stmts hL st hst)
    exact ⟨_, node_translates hc⟩
  | extConst => trivial
  | extNode => trivial

theorem trans_causal {d : SrcDecl} {r : OptDecl} (ht : Trans d r) {consts : String → Option TyBase}
    {sigs : String → Option Sig} (hL : LegalItem consts sigs (meaning d.attrs) d.item) :
    ∃ y, r.1.causality = .ok y := by
  cases ht with
  | const h => exact ⟨_, rfl⟩
  | extConst => exact ⟨_, rfl⟩
  | extNode => exact ⟨_, rfl⟩
  | @node attrs src n' h =>
    obtain ⟨c, hc', e'⟩ := node_translate h
    have e1 : n' = built src c := e'
    subst e1
    have hO := nodeOk_of_legal hc' hL
    obtain ⟨n'', hn⟩ := (Props.C24_node (n := built src c)).2
      ⟨hO.inputs, hO.once, (node_comes hc').once, hO.everything, hO.causal⟩
    exact ⟨.node n'', by simp [San.Decl.causality, hn, bind, Except.bind, pure, Except.pure]⟩

theorem clocks_run {opts : String → TyOpts} {sigs : String → Option Sig}
    {consts : String → Option TyBase} {ds₂ ds₃ : List San.Decl}
    (hf : ∀ y ∈ ds₂, ∃ d, Front opts d y) (hc : Checked opts sigs consts ds₂ ds₃)
    (hs : ∀ y ∈ ds₂, Sound y) (s : EAccum Diag × Unit) :
    ∃ ds₄ s', progClockcheck ds₃ s = (.some ds₄, s') := by
  induction hc generalizing s with
  | nil => exact ⟨_, _, rfl⟩
  | const h hn _ ih =>
    obtain ⟨ds, s', h1⟩ := ih (fun y hy => hf y (by simp [hy])) (fun y hy => hs y (by simp [hy])) s
    exact ⟨_, _, bind_some.2 ⟨_, _, h1, rfl⟩⟩
  | extConst hn _ ih =>
    obtain ⟨ds, s', h1⟩ := ih (fun y hy => hf y (by simp [hy])) (fun y hy => hs y (by simp [hy])) s
    exact ⟨_, _, bind_some.2 ⟨_, _, h1, rfl⟩⟩
  | extNode h hd hn _ ih =>
    obtain ⟨ds, s', h1⟩ := ih (fun y hy => hf y (by simp [hy])) (fun y hy => hs y (by simp [hy])) s
    have h2 := hs _ (List.mem_cons_self ..)
    exact ⟨_, _, bind_some.2 ⟨(), s, Clk.checkInterface_some.2 ⟨h2, rfl⟩, bind_some.2 ⟨_, _, h1, rfl⟩⟩⟩
  | @node _ _ n n' _ _ h hn _ ih =>
    obtain ⟨⟨a, u⟩, s0, h⟩ := h
    obtain ⟨j1, j2, j3, a', ctx, j4, rfl, -⟩ := nodeTypecheck_some.1 h
    obtain ⟨d, hd⟩ := hf _ (List.mem_cons_self ..)
    obtain ⟨⟨K, hK⟩, -⟩ := hs _ (List.mem_cons_self ..)
    have hC : ∃ b src, Props.Compiled b src (n.fill ctx) := by
      cases hd with | @node attrs src n₁ _ h1 hc e =>
      obtain ⟨hp, hsame⟩ := Props.C22_node hc
      refine ⟨_, src, ⟨n₁, h1, hp, ?_, ?_, ?_⟩, declsTyped_nodup j2⟩
      · have := congrArg Node.inputs hsame; exact this
      · have := congrArg Node.outputs hsame; exact this
      · have := congrArg Node.locals hsame; exact this
    obtain ⟨b, src, hC⟩ := hC
    obtain ⟨n'', a1, u1, h1⟩ := (Props.C46_lenient hC s.1 s.2).2
      ⟨K, hK.interface, hK.declared, hK.stmts⟩
    obtain ⟨ds, s', h2⟩ := ih (fun y hy => hf y (by simp [hy])) (fun y hy => hs y (by simp [hy]))
      (a1, u1)
    exact ⟨_, _, bind_some.2 ⟨_, _, h1, bind_some.2 ⟨_, _, h2, rfl⟩⟩⟩

theorem positive_runs {opts : String → TyOpts} {sigs : String → Option Sig}
    {consts : String → Option TyBase} {ds₂ ds₃ ds₄ : List San.Decl}
    (hc : Checked opts sigs consts ds₂ ds₃) (hk : List.Forall₂ Clocked ds₃ ds₄)
    (hs : ∀ y ∈ ds₂, Sound y) (s : EAccum Diag × Unit) :
    ∃ ds₅ s', progMakePositive ds₄ s = (.some ds₅, s') := by
  induction hc generalizing s ds₄ with
  | nil => cases hk; exact ⟨_, _, rfl⟩
  | const h hn _ ih =>
    cases hk with | cons k1 k2 =>
    cases k1
    obtain ⟨ds, s', h1⟩ := ih k2 (fun y hy => hs y (by simp [hy])) s
    exact ⟨_, _, bind_some.2 ⟨_, _, rfl, bind_some.2 ⟨_, _, h1, rfl⟩⟩⟩
  | extConst hn _ ih =>
    cases hk with | cons k1 k2 =>
    cases k1
    obtain ⟨ds, s', h1⟩ := ih k2 (fun y hy => hs y (by simp [hy])) s
    exact ⟨_, _, bind_some.2 ⟨_, _, rfl, bind_some.2 ⟨_, _, h1, rfl⟩⟩⟩
  | extNode h hd hn _ ih =>
    cases hk with | cons k1 k2 =>
    cases k1
    obtain ⟨ds, s', h1⟩ := ih k2 (fun y hy => hs y (by simp [hy])) s
    exact ⟨_, _, bind_some.2 ⟨_, _, rfl, bind_some.2 ⟨_, _, h1, rfl⟩⟩⟩
  | @node _ _ n n' _ _ h hn _ ih =>
    cases hk with | cons k1 k2 =>
    cases k1 with | @node _ n'' h4 =>
    obtain ⟨⟨a, u⟩, s0, h⟩ := h
    obtain ⟨s1, s2, h4⟩ := h4
    obtain ⟨j1, j2, j3, a', ctx, j4, rfl, -⟩ := nodeTypecheck_some.1 h
    have hnames : ((declared (n.fill ctx)).map (·.name)).Nodup := declsTyped_nodup j2
    obtain ⟨-, -, K, hK, -, clk, rfl, hclk⟩ := Clk.node_clk_sound hnames h4
    obtain ⟨-, q1, q2, -⟩ := hs _ (List.mem_cons_self ..)
    have hq : (∀ p e, .let_ p e ∈ (Node.withClocks clk (n.fill ctx)).stmts → ReadsWithin 0 e) ∧
        ∀ e, .assert e ∈ (Node.withClocks clk (n.fill ctx)).stmts → ReadsWithin 0 e := by
      constructor
      · intro p e he
        obtain ⟨st, hst, e'⟩ := List.mem_map.1 he
        cases st <;> cases e'
        exact q1 _ _ hst
      · intro e he
        obtain ⟨st, hst, e'⟩ := List.mem_map.1 he
        cases st <;> cases e'
        exact q2 _ hst
    obtain ⟨⟨a5, m5⟩, h5⟩ := (Props.C20_check_exact _ (s.1, fun _ => none)).2 hq
    have h6 : ∃ n5 s5, (Node.withClocks clk (n.fill ctx)).makePositive s = (.some n5, s5) := by
      refine ⟨_, (a5, s.2), bind_some.2 ⟨((), m5), (a5, s.2), ?_, rfl⟩⟩
      unfold San.Chk.local_
      simp only [h5]
    obtain ⟨n5, s5, h6⟩ := h6
    obtain ⟨ds, s', h7⟩ := ih k2 (fun y hy => hs y (by simp [hy])) s5
    exact ⟨_, _, bind_some.2 ⟨_, _, bind_some.2 ⟨_, _, h6, rfl⟩, bind_some.2 ⟨_, _, h7, rfl⟩⟩⟩

theorem legal_tame {p : SrcProg} (hg : DistinctGenerics p) (h : Legal p) : Tame p := by
  have hint : ∀ {ex : Bool} {gens : List String} {ins outs : List ArgsTy} {locals : List Static.Var},
      gens.Nodup → LegalInterface ex gens (varsOf ins) (varsOf outs) locals →
      GenericsFit gens (argTypes ins) (argTypes outs) := by
    intro ex gens ins outs locals hn hi
    have e : ∀ args, argTypes args = (varsOf args).map (·.ty) := by
      intro args
      rw [argTypes_eq, varsOf_eq, List.map_map]
      rfl
    rw [e, e]
    refine ⟨hn, fun g hgm => ?_, fun g hgm => ?_⟩
    · rw [← List.map_append] at hgm
      obtain ⟨v, hv, hvt⟩ := List.mem_map.1 hgm
      exact hi.declared v (by rw [List.mem_append]; exact .inl hv) g hvt
    · obtain ⟨v, hv, hvt⟩ := hi.used g hgm
      exact List.mem_map.2 ⟨v, hv, hvt⟩
  refine ⟨fun d hd a ha => (h.attributes d hd a ha).2.1, fun d hd e he l hl => ?_,
    fun d hd f ins outs hs _ => ?_⟩
  · have hL := h.items d hd
    obtain ⟨attrs, item⟩ := d
    cases item with
    | const c =>
      rw [List.mem_singleton.1 he] at hl
      exact literal_denotes ((hasTy_known _ hL.2).1 l hl)
    | node n =>
      obtain ⟨st, hst, rfl⟩ := List.mem_map.1 he
      obtain ⟨t, ht⟩ := legalStmt_ty (LegalNode.stmts hL st hst)
      exact literal_denotes ((hasTy_known _ ht).1 l hl)
    | extConst => cases he
    | extNode => cases he
  · have hL := h.items d hd
    have hn := hg d hd
    obtain ⟨attrs, item⟩ := d
    cases item with
    | const c => cases hs
    | extConst => cases hs
    | node n => cases hs; exact hint hn (LegalNode.interface hL)
    | extNode => cases hs; exact hint hn hL.1

/-- Legal programs are accepted. -/
theorem compile_of_legal {p : SrcProg} (hg : DistinctGenerics p) (h : Legal p)
    (s : EAccum Report × Unit) : ∃ p' s', compile p s = (.some p', s') := by
  obtain ⟨ds, t1, i1⟩ := legal_translates h s
  have k1 := decls_translate i1
  obtain ⟨ds', hm⟩ := mapM_runs (ds.map (·.1)) (fun y hy => by
    obtain ⟨r, hr, rfl⟩ := List.mem_map.1 hy
    have : ∃ d ∈ p, Trans d r := by
      clear i1 hy h hg
      induction k1 with
      | nil => cases hr
      | cons a b ih =>
        rcases List.mem_cons.1 hr with rfl | hr
        · exact ⟨_, by simp, a⟩
        · obtain ⟨d, h1, h2⟩ := ih hr
          exact ⟨d, by simp [h1], h2⟩
    obtain ⟨d, hd, ht⟩ := this
    exact trans_causal ht (h.items d hd))
  have k2 := mapM_forall₂ hm
  have hnames : (ds.filterMap (funName ·.1)).Nodup := by
    have e : ds.filterMap (funName ·.1) = (p.filterMap nodeSig).map (·.1) := by
      clear i1 hm k2 h hg
      induction k1 with
      | nil => rfl
      | cons a b ih =>
        cases a with
        | const => simpa [List.filterMap_cons, funName, nodeSig, signature] using ih
        | extConst => simpa [List.filterMap_cons, funName, nodeSig, signature] using ih
        | extNode => simpa [List.filterMap_cons, funName, nodeSig, signature] using ih
        | node h =>
          have := src_translate_name h
          simpa [List.filterMap_cons, funName, nodeSig, signature, this] using ih
    rw [e]; exact h.nodeNames
  have k6 := front_all k1 k2 fun x hx f hf => optsOf_mem hnames hx hf
  have hN : NamesOk (optsOf ds) ds' := by
    refine ⟨?_, ?_⟩
    · rw [fronts_entryC k6]; exact h.constNames
    · rw [fronts_entryN k6]; exact h.nodeNames
  have hS : Schedulable ([] : List Reference) ds' [] := by
    refine ⟨fun u hu => (by cases hu), namesOk_iff.2 hN, fun u hu => (by cases hu), ?_⟩
    exact (cycles_legal k6 h.items).2 ⟨h.constCycles, h.nodeCycles⟩
  obtain ⟨ds₂, hsch⟩ := Props.C24_accepts_iff.2 hS
  have hperm := Props.C22_schedule_perm hsch
  have hdef := Props.C23_defined_before_use hsch
  have i2 : progCausality (ds.map (·.1)) = .ok ds₂ := by
    simp only [progCausality, bind, Except.bind, hm]
    exact hsch
  obtain ⟨hT, hSound⟩ := (items_legal k6 hperm hdef hN).2 h.items
  obtain ⟨ds₃, t3, i3⟩ := (Props.C44_program (σ := Unit) (trans_generics k1 hg)
    (a := EAccum.default) (s := t1.2)).2 hT
  have k3 := prog_checked i3
  have hfr : ∀ y ∈ ds₂, ∃ d, Front (optsOf ds) d y := fun y hy => by
    obtain ⟨d, -, hd⟩ := front_to k6 (hperm.mem_iff.1 hy)
    exact ⟨d, hd⟩
  obtain ⟨t3', j3⟩ := mapErr_runs (f := Report.check) (s := t1) i3
  obtain ⟨ds₄, t4, i4⟩ := clocks_run hfr k3 hSound (EAccum.default, t3'.2)
  obtain ⟨t4', j4⟩ := mapErr_runs (f := Report.check) (s := t3') i4
  obtain ⟨ds₅, t5, i5⟩ := positive_runs k3 (prog_clocked i4) hSound (EAccum.default, t4'.2)
  obtain ⟨t5', j5⟩ := mapErr_runs (f := Report.check) (s := t4') i5
  have hrun : compile p s = (codegen ⟨ds₅, optsOf ds⟩, t5') := by
    have r1 : translateProg p s = (.some ⟨ds.map (·.1), optsOf ds⟩, t1) :=
      bind_some.2 ⟨_, _, i1, rfl⟩
    have r2 : Prog.pass (fun ds => ofCausality (progCausality ds)) ⟨ds.map (·.1), optsOf ds⟩ t1 =
        (.some ⟨ds₂, optsOf ds⟩, t1) :=
      bind_some.2 ⟨ds₂, t1, by dsimp only; rw [i2]; rfl, rfl⟩
    have r3 : (⟨ds₂, optsOf ds⟩ : Prog).pass
        (fun ds' => mapErr Report.check (progTypecheck (optsOf ds) ds')) t1 =
        (.some ⟨ds₃, optsOf ds⟩, t3') := bind_some.2 ⟨_, _, j3, rfl⟩
    have r4 : (⟨ds₃, optsOf ds⟩ : Prog).pass
        (fun ds => mapErr Report.check (progClockcheck ds)) t3' =
        (.some ⟨ds₄, optsOf ds⟩, t4') := bind_some.2 ⟨_, _, j4, rfl⟩
    have r5 : (⟨ds₄, optsOf ds⟩ : Prog).pass
        (fun ds => mapErr Report.check (progMakePositive ds)) t4' =
        (.some ⟨ds₅, optsOf ds⟩, t5') := bind_some.2 ⟨_, _, j5, rfl⟩
    unfold compile progPipeline
    rw [run_bind, r1]
    dsimp only
    rw [run_bind, r2]
    dsimp only
    rw [run_bind, r3]
    dsimp only
    rw [run_bind, r4]
    dsimp only
    exact (run_bind _ _ _).trans (by rw [r5])
  have hsure := (Quiet.compile_sure (legal_tame hg h) s).1
  rw [hrun] at hsure ⊢
  unfold codegen at hsure ⊢
  split at hsure
  · rename_i he
    rw [if_pos he]
    exact ⟨_, _, rfl⟩
  · exact absurd rfl hsure

end Chandeliers.Den
