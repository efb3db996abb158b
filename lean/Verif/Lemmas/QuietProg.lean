import Verif.Lemmas.QuietTranslate
import Verif.Lemmas.QuietClocks
import Verif.Lemmas.Program
import Verif.Lemmas.ClockReports
import Verif.Lemmas.ConstExpr

/-!
# The passes of the compiler on whole programs, without crash
-/

set_option autoImplicit false

namespace Chandeliers.Quiet
open Chandeliers.San Chandeliers.Spec Chandeliers.Syn Chandeliers.Err Chandeliers.Err.Chk
open Chandeliers.Prg

/-- No abort, and if there is no result there is an error. -/
def Sure {E α : Type} (m : Chk E Unit α) : Prop :=
  ∀ s, (m s).1 ≠ .abort ∧ ((m s).1 = .none → (m s).2.1.err ≠ [])

section
variable {E F α β : Type}

theorem Sure.pure (x : α) : Sure (Pure.pure x : Chk E Unit α) :=
  fun s => ⟨by simp, fun h => by simp at h⟩

theorem Sure.error (e : E) : Sure (Chk.error e : Chk E Unit α) :=
  fun s => ⟨by simp [Chk.error], fun _ => by simp [Chk.error]⟩

theorem Sure.bind {m : Chk E Unit α} {f : α → Chk E Unit β} (hm : Sure m)
    (hf : ∀ x s s', m s = (.some x, s') → Sure (f x)) : Sure (m >>= f) := by
  intro s
  obtain ⟨h1, h2⟩ := hm s
  rw [run_bind]
  rcases e : m s with ⟨r, s'⟩
  rw [e] at h1 h2
  cases r with
  | abort => exact absurd rfl h1
  | none => exact ⟨by simp, fun _ => h2 rfl⟩
  | some x => exact hf x _ _ e s'

theorem Sure.mapErr {f : E → F} {m : Chk E Unit α}
    (ha : (m (EAccum.default, ())).1 ≠ .abort)
    (hn : (m (EAccum.default, ())).1 = .none → (m (EAccum.default, ())).2.1.err ≠ []) :
    Sure (Syn.mapErr f m) := by
  rintro ⟨a, u⟩
  simp only [Syn.mapErr]
  rcases e : m (EAccum.default, ()) with ⟨r, b, u'⟩
  rw [e] at ha hn
  refine ⟨ha, fun h => ?_⟩
  have := hn h
  simp [this]

theorem Sure.ofQuiet {f : Diag → F} {m : Chk Diag Unit α} {Q : α → Prop}
    (hq : Quiet (fun _ : Unit => True) m Q) (ha : Appends m) : Sure (Syn.mapErr f m) :=
  Sure.mapErr (hq _ _ trivial).1 fun h => by
    obtain ⟨e, es, h⟩ := ha.none_err _ h
    rw [h]
    simp

end

theorem skip_sure {T : Type} (o : SetOpt T) (k : DeclKind) : Sure (o.skip k : Chk AttrDiag Unit Unit) := by
  unfold SetOpt.skip
  split
  · exact Sure.error _
  · exact Sure.pure ()

theorem Sure.start {E F α : Type} {f : E → F} {m : Chk E Unit α} (h : Sure m) :
    Sure (Syn.mapErr f m) := Sure.mapErr (h _).1 (h _).2

/-- The attributes. -/
theorem options_sure {as : List Attribute} (h : ∀ a ∈ as, smallNumbers a) :
    Sure (Decl.default.withAll as : Chk AttrDiag Unit Syn.Decl) := by
  intro s
  have hr := withAll_run as Decl.default [] Decl.spanned_default holds_default h s
  by_cases hw : ∀ a ∈ as, wellFormed a
  · obtain ⟨d', ws, h1, -⟩ := hr.1 hw
    rw [h1]
    exact ⟨by simp, fun h => by simp at h⟩
  · have : ∃ a ∈ as, ¬ wellFormed a := by simpa using hw
    obtain ⟨a, -, -, ws, h1⟩ := hr.2 this
    rw [h1]
    exact ⟨by simp, fun _ => by simp⟩

theorem ofTranslation_sure {α : Type} {x : Except TrErr α} (h : x ≠ .error .abort) :
    Sure (ofTranslation x : Chk Report Unit α) := by
  cases x with
  | ok a => exact Sure.pure a
  | error e => cases e <;> first | exact absurd rfl h | exact Sure.error _

theorem ofCausality_sure {α : Type} {x : Except (GErr Reference) α} (h : x ≠ .error .abort)
    (h' : x ≠ .error .fuel) : Sure (ofCausality x : Chk Report Unit α) := by
  cases x with
  | ok a => exact Sure.pure a
  | error e => cases e <;> first | exact absurd rfl h | exact absurd rfl h' | exact Sure.error _

theorem decl_sure {d : SrcDecl} (ha : ∀ a ∈ d.attrs, smallNumbers a)
    (hl : ∀ e ∈ expressions d.item, ∀ l ∈ literals e, Denotes l) :
    Sure (d.translate : Chk Report Unit OptDecl) := by
  unfold SrcDecl.translate
  refine (options_sure ha).start.bind fun o _ _ _ => ?_
  cases hi : d.item with
  | const c =>
    refine Sure.bind (Sure.start ?_) fun _ _ _ _ => (ofTranslation_sure (clean_const ?_).1).bind
      fun _ _ _ _ => Sure.pure _
    · exact (skip_sure _ _).bind fun _ _ _ _ => (skip_sure _ _).bind fun _ _ _ _ =>
        (skip_sure _ _).bind fun _ _ _ _ => (skip_sure _ _).bind fun _ _ _ _ =>
        (skip_sure _ _).bind fun _ _ _ _ => (skip_sure _ _).bind fun _ _ _ _ => Sure.pure _
    · rw [hi] at hl
      exact hl _ (by simp [expressions])
  | node n =>
    rw [hi] at hl
    exact Sure.bind (Sure.start (Sure.pure _)) fun _ _ _ _ =>
      (ofTranslation_sure (clean_node (F := fun _ => True) _ hl fun _ _ _ _ => trivial).1).bind
      fun _ _ _ _ => Sure.pure _
  | extConst x t =>
    refine Sure.bind (Sure.start ?_) fun _ _ _ _ => Sure.pure _
    exact (skip_sure _ _).bind fun _ _ _ _ => (skip_sure _ _).bind fun _ _ _ _ =>
        (skip_sure _ _).bind fun _ _ _ _ => (skip_sure _ _).bind fun _ _ _ _ =>
        (skip_sure _ _).bind fun _ _ _ _ => (skip_sure _ _).bind fun _ _ _ _ =>
        (skip_sure _ _).bind fun _ _ _ _ => (skip_sure _ _).bind fun _ _ _ _ =>
        (skip_sure _ _).bind fun _ _ _ _ => Sure.pure _
  | extNode f i o =>
    refine Sure.bind (Sure.start ?_) fun _ _ _ _ => Sure.pure _
    exact (skip_sure _ _).bind fun _ _ _ _ => (skip_sure _ _).bind fun _ _ _ _ =>
        (skip_sure _ _).bind fun _ _ _ _ => (skip_sure _ _).bind fun _ _ _ _ =>
        (skip_sure _ _).bind fun _ _ _ _ => (skip_sure _ _).bind fun _ _ _ _ => Sure.pure _

theorem decls_sure : (p : List SrcDecl) → (∀ d ∈ p, ∀ a ∈ d.attrs, smallNumbers a) →
    (∀ d ∈ p, ∀ e ∈ expressions d.item, ∀ l ∈ literals e, Denotes l) →
    Sure (translateDecls p : Chk Report Unit (List OptDecl))
  | [], _, _ => Sure.pure _
  | d :: p, ha, hl => by
    simp only [List.mem_cons, forall_eq_or_imp] at ha hl
    unfold translateDecls
    exact (decl_sure ha.1 hl.1).bind fun _ _ _ _ => (decls_sure p ha.2 hl.2).bind
      fun _ _ _ _ => Sure.pure _

/-! ## Causality -/

theorem schedule_sure {U Obj : Type} [DecidableEq U] [Depends Obj U] {ctx : List U}
    {objs : List Obj} {iface : List U} :
    schedule ctx objs iface ≠ .error .abort ∧ schedule ctx objs iface ≠ .error .fuel :=
  ⟨fun h => Props.C24_error_truthful h, fun h => Props.C24_error_truthful h⟩

theorem causality_sure (d : San.Decl) :
    d.causality ≠ .error .abort ∧ d.causality ≠ .error .fuel := by
  cases d with
  | node n =>
    have h := schedule_sure (ctx := n.inputs.map (fun v => Reference.localVarName v.name))
      (objs := n.stmts) (iface := n.locals.map (fun v => Reference.localVarName v.name) ++
        n.outputs.map (fun v => Reference.localVarName v.name))
    simp only [San.Decl.causality, Node.causality, bind, Except.bind]
    cases e : schedule (n.inputs.map (fun v => Reference.localVarName v.name))
      n.stmts (n.locals.map (fun v => Reference.localVarName v.name) ++
        n.outputs.map (fun v => Reference.localVarName v.name)) with
    | error t =>
      rw [e] at h
      exact ⟨fun h' => h.1 (by cases h'; rfl), fun h' => h.2 (by cases h'; rfl)⟩
    | ok s => exact ⟨fun h => (by cases h), fun h => (by cases h)⟩
  | const c => exact ⟨fun h => (by cases h), fun h => (by cases h)⟩
  | extConst c => exact ⟨fun h => (by cases h), fun h => (by cases h)⟩
  | extNode c => exact ⟨fun h => (by cases h), fun h => (by cases h)⟩

theorem progCausality_sure (ds : List San.Decl) :
    progCausality ds ≠ .error .abort ∧ progCausality ds ≠ .error .fuel := by
  have hm : ∀ ds : List San.Decl, ds.mapM San.Decl.causality ≠ .error .abort ∧
      ds.mapM San.Decl.causality ≠ .error .fuel := by
    intro ds
    induction ds with
    | nil => exact ⟨fun h => (by cases h), fun h => (by cases h)⟩
    | cons d ds ih =>
      simp only [List.mapM_cons, bind, Except.bind]
      have h := causality_sure d
      cases e : d.causality with
      | error t =>
        rw [e] at h
        exact ⟨fun h' => h.1 (by cases h'; rfl), fun h' => h.2 (by cases h'; rfl)⟩
      | ok d' =>
        cases e' : List.mapM San.Decl.causality ds with
        | error t =>
          rw [e'] at ih
          exact ⟨fun h' => ih.1 (by cases h'; rfl), fun h' => ih.2 (by cases h'; rfl)⟩
        | ok s => exact ⟨fun h => (by cases h), fun h => (by cases h)⟩
  simp only [progCausality, bind, Except.bind]
  cases e : ds.mapM San.Decl.causality with
  | error t =>
    have h := hm ds
    rw [e] at h
    exact ⟨fun h' => h.1 (by cases h'; rfl), fun h' => h.2 (by cases h'; rfl)⟩
  | ok s =>
    exact (schedule_sure : schedule [] s ([] : List Reference) ≠ .error .abort ∧
      schedule [] s ([] : List Reference) ≠ .error .fuel)

theorem causality_names {ds s : List San.Decl} (h : progCausality ds = .ok s) :
    (s.map intro').Nodup := by
  obtain ⟨ds', h1, h2⟩ := Props.progCausality_split h
  have hn : (s.flatMap Depends.provides : List Reference).Nodup :=
    (((Props.C22_schedule_perm h2).flatMap_right _).nodup_iff).2 (Props.C24_accepts_iff.1 ⟨_, h2⟩).once
  have : ∀ l : List San.Decl, (l.flatMap Depends.provides : List Reference) = l.map intro' := by
    intro l
    induction l with
    | nil => rfl
    | cons d l ih =>
      rw [List.flatMap_cons, ih, List.map_cons]
      cases d <;> rfl
  rwa [this] at hn

theorem names_funs {s : List San.Decl} (h : (s.map intro').Nodup) : (s.filterMap funName).Nodup := by
  induction s with
  | nil => exact .nil
  | cons d s ih =>
    rw [List.map_cons, List.nodup_cons] at h
    rw [List.filterMap_cons]
    cases hf : funName d with
    | none => exact ih h.2
    | some f =>
      refine List.nodup_cons.2 ⟨fun hm => h.1 ?_, ih h.2⟩
      obtain ⟨d', hd', hf'⟩ := List.mem_filterMap.1 hm
      refine List.mem_map.2 ⟨d', hd', ?_⟩
      cases d <;> cases d' <;> simp_all [funName, intro']

/-- The reordered declarations come from those of the source. -/
theorem front {p : List SrcDecl} {ds : List OptDecl} {ds₂ : List San.Decl}
    (h1 : List.Forall₂ Trans p ds) (h2 : progCausality (ds.map (·.1)) = .ok ds₂) :
    ∀ x ∈ ds₂, ∃ d ∈ p, Front (optsOf ds) d x := by
  obtain ⟨ds', hperm, k2⟩ := Props.C22_program h2
  have hnames : (ds.filterMap (funName ·.1)).Nodup := by
    have n1 := names_funs (causality_names h2)
    have n2 : (ds'.filterMap funName).Nodup := (hperm.filterMap funName).nodup_iff.1 n1
    have n3 : ds'.filterMap funName = (ds.map (·.1)).filterMap funName := by
      clear n1 n2 h1 hperm h2
      generalize ds.map (·.1) = l at k2
      induction k2 with
      | nil => rfl
      | cons a b ih =>
        rw [List.filterMap_cons, List.filterMap_cons, causality_funName a, ih]
    rw [n3, List.filterMap_map] at n2
    exact n2
  have k6 := front_all h1 k2 fun x hx f hf => optsOf_mem hnames hx hf
  intro x hx
  have hx' := hperm.mem_iff.1 hx
  clear h1 k2 hperm
  induction k6 with
  | nil => cases hx'
  | cons a b ih =>
    rcases List.mem_cons.1 hx' with rfl | hx'
    · exact ⟨_, by simp, a⟩
    · obtain ⟨d, hd, hf⟩ := ih hx'
      exact ⟨d, by simp [hd], hf⟩

/-! ## Nodes -/

/-- What the type checker relies on. -/
structure Fine (called : String → Prop) (opts : String → TyOpts) (n : Node) : Prop where
  blocks : ∀ b ∈ n.blocks, called b.name
  subs : ∀ id, .sub id ∈ slotsOf n.stmts ↔ id < n.blocks.length
  regs : ∀ id, .reg id ∈ slotsOf n.stmts ↔ id < n.registers.length
  nodup : (slotsOf n.stmts).Nodup
  inits : ∀ id ∈ initialised n.stmts, ∃ f, (id, f) ∈ n.stmts.flatMap fetchesIn
  print : ∀ st ∈ n.stmts, printableStmt st = true
  wf : called n.name → (sigOf (opts n.name).generics n.inputs n.outputs).Wf

theorem types_args (as : List ArgsTy) : (translateArgs as).map (·.ty) = argTypes as := by
  simp [translateArgs, argTypes, List.map_flatMap, Function.comp_def]

theorem flat_mem {g : String} {ts : List TyBase} :
    g ∈ tyVars (flatTuple ts) ↔ TyBase.other g ∈ ts := by
  rw [flat_vars, List.mem_flatMap]
  constructor
  · rintro ⟨t, ht, hg⟩
    cases t <;> simp [baseVars] at hg
    subst hg
    exact ht
  · exact fun h => ⟨_, h, by simp [baseVars]⟩

theorem generics_wf {gens : List String} {ins outs : List ArgsTy}
    (h : GenericsFit gens (argTypes ins) (argTypes outs)) :
    (sigOf gens (translateArgs ins) (translateArgs outs)).Wf := by
  refine ⟨h.once, fun x => ?_, fun x hx => ?_⟩
  · simp only [sigOf, types_args, flat_mem]
    exact ⟨fun hx => h.declared x (by simp [hx]), h.used x⟩
  · simp only [sigOf, types_args, flat_mem] at hx
    exact h.declared x (by simp [hx])

/-- A node of the source calls another one. -/
def Called (p : SrcProg) (f : String) : Prop := ∃ d' ∈ p, ∃ e ∈ expressions d'.item, f ∈ callees e

theorem initialised_perm {l l' : List Stmt} (h : l.Perm l') {id : Nat} :
    id ∈ initialised l ↔ id ∈ initialised l' := by
  have : ∀ l, id ∈ initialised l ↔ ∃ i k, .initRegister id i k ∈ l := by
    intro l
    induction l with
    | nil => simp [initialised]
    | cons st l ih => cases st <;> simp [initialised, ih] ; grind
  rw [this, this]
  simp [h.mem_iff]

theorem front_fine {p : SrcProg} {opts : String → TyOpts} (hp : Tame p) {d : SrcDecl} (hd : d ∈ p)
    {n : Node} (h : Front opts d (.node n)) : Fine (Called p) opts n := by
  cases h with | @node attrs src n₁ _ h1 h2 e =>
  obtain ⟨c, hc, e1⟩ := Den.node_translate h1
  obtain ⟨new, hb⟩ := Den.built_stmts hc
  have hnew : c.stmts = new := by simpa using hb.stmts
  subst hnew
  obtain ⟨hperm, hsame⟩ := Props.C22_node h2
  obtain ⟨-, hcl⟩ := clean_node (F := Called p) (meaning attrs).universalPre
    (fun e he => hp.literals _ hd e he) (fun e he f hf => ⟨_, hd, e, he, hf⟩)
  obtain ⟨k1, k2⟩ := hcl _ h1
  have hw : (slotsOf n.stmts).Perm (Den.slotsBetween {} c) := by
    refine (Den.slotsOf_perm hperm).trans ?_
    rw [e1]
    exact hb.whole
  have eb : n.blocks = n₁.blocks := by rw [← hsame]
  have er : n.registers = n₁.registers := by rw [← hsame]
  have ei : n.inputs = n₁.inputs := by rw [← hsame]
  have eo : n.outputs = n₁.outputs := by rw [← hsame]
  have en : n.name = n₁.name := by rw [← hsame]
  refine ⟨?_, fun id => ?_, fun id => ?_, ?_, fun id hid => ?_, fun st hst => ?_, fun hc => ?_⟩
  · rw [eb]; exact k2
  · rw [hw.mem_iff, eb, e1]
    simp [Den.slotsBetween, List.mem_range'_1]
  · rw [hw.mem_iff, er, e1]
    simp [Den.slotsBetween, List.mem_range'_1]
  · exact hw.nodup_iff.2 (Den.slotsBetween_nodup _ _)
  · have h1 : id ∈ initialised c.stmts := by
      rw [initialised_perm hperm, e1] at hid
      exact hid
    have h2 : id ∈ updated c.stmts := by
      rw [hb.updates.mem_iff, ← hb.inits.mem_iff]
      exact h1
    obtain ⟨f, hf⟩ : ∃ f, .updateRegister id f ∈ c.stmts := by
      revert h2
      generalize c.stmts = l
      induction l with
      | nil => simp [updated]
      | cons st l ih => cases st <;> simp [updated] <;> grind
    refine ⟨f, ?_⟩
    have := (hb.fetched id f).2 hf
    obtain ⟨st, hst, hm⟩ := List.mem_flatMap.1 this
    refine List.mem_flatMap.2 ⟨st, ?_, hm⟩
    rw [hperm.mem_iff, e1]
    exact hst
  · exact k1 st (hperm.mem_iff.1 hst)
  · rw [e, ei, eo, e1]
    refine generics_wf (hp.generics _ hd src.name _ _ rfl ?_)
    rw [en, e1] at hc
    exact hc

theorem front_extern {p : SrcProg} {opts : String → TyOpts} (hp : Tame p) {d : SrcDecl} (hd : d ∈ p)
    {n : ExtNode} (h : Front opts d (.extNode n)) :
    Called p n.name → (sigOf (opts n.name).generics n.inputs n.outputs).Wf := by
  cases h with | @extNode attrs f ins outs e =>
  intro hc
  rw [e]
  exact generics_wf (hp.generics _ hd f _ _ rfl hc)

/-! ## After type checking -/

/-- What the type checker leaves. -/
structure Typed (n : Node) : Prop where
  typed : ∃ Γ : TyEnv, Γ.vars = typeIn (n.inputs ++ n.outputs ++ n.locals) ∧
    ∀ st ∈ n.stmts, StmtTyped Γ st
  names : ((declared n).map (·.name)).Nodup
  inits : ∀ id ∈ initialised n.stmts, ∃ f, (id, f) ∈ n.stmts.flatMap fetchesIn
  print : ∀ st ∈ n.stmts, printableStmt st = true
  blocks : ∀ b ∈ n.blocks, b.generics.isSome
  regs : ∀ r ∈ n.registers, r.isSome

/-- The slot is used in the environment. -/
def Used (Γ : TyEnv) : Slot → Prop
  | .reg id => ∃ t, Γ.regs id t
  | .sub id => ∃ t u, Γ.call id t u
  | .flip _ => True

mutual
theorem typed_used {Γ : TyEnv} : {e : Expr} → {t : TyTuple} → HasType Γ e t →
    ∀ l ∈ slots e, Used Γ l
  | _, _, .lit, l, h => by simp [slots] at h
  | _, _, .global _, l, h => by simp [slots] at h
  | _, _, .var _, l, h => by simp [slots] at h
  | _, _, .dummyPre he, l, h => typed_used he l (by simpa [slots] using h)
  | _, _, .dummyParen he, l, h => typed_used he l (by simpa [slots] using h)
  | _, _, .tuple hs, l, h => typeds_used hs l (by simpa [slots] using h)
  | _, _, .bin hl hr _, l, h => by
    simp only [slots, List.mem_append] at h
    exact h.elim (typed_used hl l) (typed_used hr l)
  | _, _, .un he _, l, h => typed_used he l (by simpa [slots] using h)
  | _, _, .cmp hl hr _, l, h => by
    simp only [slots, List.mem_append] at h
    exact h.elim (typed_used hl l) (typed_used hr l)
  | _, _, .clock hl hr, l, h => by
    simp only [slots, List.mem_append] at h
    exact h.elim (typed_used hl l) (typed_used hr l)
  | _, _, .later hl hr, l, h => by
    simp only [slots, List.mem_append] at h
    exact h.elim (typed_used hl l) (typed_used hr l)
  | _, _, .flip hl hr, l, h => by
    simp only [slots, List.mem_cons, List.mem_append] at h
    rcases h with rfl | h | h
    · trivial
    · exact typed_used hl l h
    · exact typed_used hr l h
  | _, _, .ifx hb hy hn, l, h => by
    simp only [slots, List.mem_append] at h
    rcases h with h | h | h
    · exact typed_used hb l h
    · exact typed_used hy l h
    · exact typed_used hn l h
  | _, _, .merge hb hy hn, l, h => by
    simp only [slots, List.mem_append] at h
    rcases h with h | h | h
    · exact typed_used hb l h
    · exact typed_used hy l h
    · exact typed_used hn l h
  | _, _, .substep he hc, l, h => by
    simp only [slots, List.mem_cons] at h
    rcases h with rfl | h
    · exact ⟨_, _, hc⟩
    · exact typed_used he l h
  | _, _, .fetchPre he hr, l, h => by
    simp only [slots, List.mem_cons] at h
    rcases h with rfl | h
    · exact ⟨_, hr⟩
    · exact typed_used he l h
  | _, _, .fetchFby he he' hr, l, h => by
    simp only [slots, List.mem_cons, List.mem_append] at h
    rcases h with rfl | h | h
    · exact ⟨_, hr⟩
    · exact typed_used he l h
    · exact typed_used he' l h
theorem typeds_used {Γ : TyEnv} : {es : List Expr} → {ts : List TyTuple} → HasTypes Γ es ts →
    ∀ l ∈ slotsList es, Used Γ l
  | _, _, .nil, l, h => by simp [slotsList] at h
  | _, _, .cons he hs, l, h => by
    simp only [slotsList, List.mem_append] at h
    exact h.elim (typed_used he l) (typeds_used hs l)
end

theorem stmts_used {Γ : TyEnv} : (sts : List Stmt) → (∀ st ∈ sts, StmtTyped Γ st) →
    ∀ l ∈ slotsOf sts, Used Γ l
  | [], _, l, h => by simp [slotsOf] at h
  | st :: sts, ht, l, h => by
    simp only [List.mem_cons, forall_eq_or_imp] at ht
    have ih := stmts_used sts ht.2 l
    cases ht.1 with
    | let_ hx he =>
      simp only [slotsOf, List.mem_append] at h
      exact h.elim (typed_used he l) ih
    | assert he =>
      simp only [slotsOf, List.mem_append] at h
      exact h.elim (typed_used he l) ih
    | updateRegister => exact ih h
    | initRegister => exact ih h

theorem bodyCtx_wf' {sigs : String → Option Sig} {consts : String → Option TyBase} {n : Node}
    (h : ∀ b ∈ n.blocks, ∀ s, sigs b.name = some s → s.Wf) : (bodyCtx sigs consts n).Wf := by
  intro id gens o ins outs h1 h2 h3
  simp only [bodyCtx, TyCtx.withBlocks] at h1 h2 h3
  cases hb : blockSig sigs n.blocks id with
  | none => simp [hb] at h1
  | some s =>
    rw [hb] at h1 h2 h3
    simp only [Option.map_some, Option.some.injEq, Prod.mk.injEq] at h1 h2 h3
    obtain ⟨rfl, -⟩ := h1
    subst h2 h3
    unfold blockSig at hb
    obtain ⟨b, hb', hb⟩ := Option.bind_eq_some_iff.1 hb
    exact h b (List.mem_of_getElem? hb') _ hb

theorem fine_typed {called : String → Prop} {opts : String → TyOpts} {o : TyOpts}
    {sigs : String → Option Sig} {consts : String → Option TyBase} {n n' : Node}
    (hf : Fine called opts n) (hw : ∀ f s, sigs f = some s → called f → s.Wf)
    {s s' : EAccum Diag × Unit} (h : n.typecheck o sigs consts s = (.some n', s')) : Typed n' := by
  obtain ⟨a, u⟩ := s
  obtain ⟨k1, k2, k3, a', c, k4, rfl, -⟩ := nodeTypecheck_some.1 h
  obtain ⟨c', hc', f, j⟩ := stmts_sound n.stmts _ _ _ _
    (bodyCtx_wf' fun b hb s hs => hw _ _ hs (hf.blocks b hb)) k4
  cases hc'
  let Γ : TyEnv := {
    global := consts
    vars := typeIn (n.inputs ++ n.outputs ++ n.locals)
    regs := fun id t => c.registers id = some t
    call := fun id _ _ => ∃ gens θ, c.nodesGenerics id = some (gens, some (gens.map θ)) }
  have ht : ∀ st ∈ n.stmts, StmtTyped Γ st := by
    refine j Γ ⟨rfl, rfl⟩ (.inr ⟨hf.nodup, fun l _ => ?_⟩)
    cases l with
    | reg id => exact fun t ht => ht
    | sub id => exact fun gens θ ins outs h1 _ _ => ⟨gens, θ, h1⟩
    | flip id => trivial
  have hu := stmts_used n.stmts ht
  refine ⟨⟨Γ, rfl, ht⟩, Den.declsTyped_nodup k2, hf.inits, hf.print, fun b hb => ?_, fun r hr => ?_⟩
  · simp only [Node.fill, List.mem_mapIdx] at hb
    obtain ⟨i, hi, rfl⟩ := hb
    obtain ⟨_, _, gens, θ, hg⟩ := hu _ ((hf.subs i).2 hi)
    simp [hg]
  · simp only [Node.fill, List.mem_mapIdx] at hr
    obtain ⟨i, hi, rfl⟩ := hr
    obtain ⟨t, ht⟩ := hu _ ((hf.regs i).2 hi)
    have ht : c.registers i = some t := ht
    simp [ht]

/-- What is known of the declarations after type checking. -/
def TypedDecl : San.Decl → Prop
  | .node n => Typed n
  | .const c => c.value.constTokens.isSome ∧ printableExpr c.value = true
  | _ => True

theorem checked_typed {called : String → Prop} {opts : String → TyOpts} :
    {sigs : String → Option Sig} → {consts : String → Option TyBase} → {ds ds' : List San.Decl} →
    Checked opts sigs consts ds ds' → (∀ n, San.Decl.node n ∈ ds → Fine called opts n) →
    (∀ n, San.Decl.extNode n ∈ ds →
      (called n.name → (sigOf (opts n.name).generics n.inputs n.outputs).Wf)) →
    (∀ c, San.Decl.const c ∈ ds → printableExpr c.value = true) →
    (∀ f s, sigs f = some s → called f → s.Wf) → ∀ d ∈ ds', TypedDecl d := by
  intro sigs consts ds ds' h hN hX hC hw
  have ext : ∀ {sigs : String → Option Sig} {x : String} {t : Sig},
      (∀ f s, sigs f = some s → called f → s.Wf) → (called x → t.Wf) →
      ∀ f s, extend sigs x t f = some s → called f → s.Wf := by
    intro sigs x t h1 h2 f s h3 h4
    unfold extend at h3
    split at h3
    · rename_i e; cases h3; exact h2 (e ▸ h4)
    · exact h1 f s h3 h4
  induction h with
  | nil => simp
  | const h hn hs ih =>
    simp only [List.mem_cons, forall_eq_or_imp]
    refine ⟨⟨?_, hC _ (by simp)⟩, ih (fun n h => hN n (by simp [h])) (fun n h => hX n (by simp [h]))
      (fun c h => hC c (by simp [h])) hw⟩
    obtain ⟨e, he⟩ := constTokens_some h.const
    simp [he]
  | extConst hn hs ih =>
    simp only [List.mem_cons, forall_eq_or_imp]
    exact ⟨trivial, ih (fun n h => hN n (by simp [h])) (fun n h => hX n (by simp [h]))
      (fun c h => hC c (by simp [h])) hw⟩
  | extNode h hd hn hs ih =>
    simp only [List.mem_cons, forall_eq_or_imp]
    exact ⟨trivial, ih (fun n h => hN n (by simp [h])) (fun n h => hX n (by simp [h]))
      (fun c h => hC c (by simp [h])) (ext hw (hX _ (by simp)))⟩
  | node h hn hs ih =>
    simp only [List.mem_cons, forall_eq_or_imp]
    obtain ⟨s, s', h⟩ := h
    exact ⟨fine_typed (hN _ (by simp)) hw h, ih (fun n h => hN n (by simp [h]))
      (fun n h => hX n (by simp [h])) (fun c h => hC c (by simp [h]))
      (ext hw (hN _ (by simp)).wf)⟩

/-! ## After clock checking -/

theorem clockExpr_print (k : Clk) : printableExpr (clockExpr k) = true := by cases k <;> rfl

theorem initialised_mem {id : Nat} {i k : Option Expr} : {sts : List Stmt} →
    .initRegister id i k ∈ sts → id ∈ initialised sts
  | st :: sts, h => by
    rcases List.mem_cons.1 h with rfl | h
    · simp [initialised]
    · have := initialised_mem h
      cases st <;> simp [initialised, this]

theorem typed_emittable {n n' : Node} (hn : Typed n) {s s' : EAccum Diag × Unit}
    (h : n.clockcheck s = (.some n', s')) : emittable (.node n') = true := by
  obtain ⟨-, -, K, -, -, clk, rfl, hclk⟩ := Chandeliers.Clk.node_clk_sound hn.names h
  simp only [emittable, Bool.and_eq_true, List.all_eq_true]
  refine ⟨⟨⟨hn.blocks, hn.regs⟩, ?_⟩, ?_⟩
  · intro st hst
    obtain ⟨st, -, rfl⟩ := List.mem_map.1 hst
    cases st <;> rfl
  · intro st hst
    obtain ⟨st, hst', rfl⟩ := List.mem_map.1 hst
    have hp := hn.print st hst'
    cases st with
    | initRegister id i k =>
      obtain ⟨f, k', -, -, e⟩ := hclk id (initialised_mem hst')
      simp only [printableStmt, Bool.and_eq_true, Stmt.withClocks] at hp ⊢
      refine ⟨hp.1, ?_⟩
      rw [e]
      simpa using clockExpr_print k'
    | _ => exact hp

theorem clocked_emittable {ds ds' : List San.Decl} (h : List.Forall₂ Clocked ds ds')
    (ht : ∀ d ∈ ds, TypedDecl d) : ∀ d ∈ ds', emittable d = true := by
  induction h with
  | nil => simp
  | cons a b ih =>
    simp only [List.mem_cons, forall_eq_or_imp] at ht ⊢
    refine ⟨?_, ih ht.2⟩
    cases a with
    | node h => obtain ⟨s, s', h⟩ := h; exact typed_emittable ht.1 h
    | const => simpa [emittable, TypedDecl] using ht.1
    | extConst => rfl
    | extNode => rfl

theorem positive_emittable {ds ds' : List San.Decl} (h : List.Forall₂ Positive ds ds')
    (ht : ∀ d ∈ ds, emittable d = true) : ∀ d ∈ ds', emittable d = true := by
  induction h with
  | nil => simp
  | cons a b ih =>
    simp only [List.mem_cons, forall_eq_or_imp] at ht ⊢
    refine ⟨?_, ih ht.2⟩
    cases a with
    | node h =>
      obtain ⟨s, s', h⟩ := h
      obtain ⟨m, -, -, rfl⟩ := makePositive_some h
      exact ht.1
    | _ => exact ht.1

/-! ## The compiler -/

theorem compile_sure {p : SrcProg} (hp : Tame p) : Sure (compile p) := by
  unfold compile progPipeline
  refine Sure.bind ?_ fun p₁ s1 s1' h1 => ?_
  · exact (decls_sure p hp.attributes hp.literals).bind fun _ _ _ _ => Sure.pure _
  obtain ⟨ds, t1, i1, j1⟩ := bind_some.1 h1
  cases j1
  have k1 := decls_translate i1
  refine Sure.bind ?_ fun p₂ s2 s2' h2 => ?_
  · refine Sure.bind ?_ fun _ _ _ _ => Sure.pure _
    exact ofCausality_sure (progCausality_sure _).1 (progCausality_sure _).2
  obtain ⟨ds₂, t2, i2, j2⟩ := bind_some.1 h2
  cases j2
  have i2 := ofCausality_some i2
  dsimp only at i2
  have hfront := front k1 i2
  have hN : ∀ n, San.Decl.node n ∈ ds₂ → Fine (Called p) (optsOf ds) n := fun n hn => by
    obtain ⟨d, hd, hf⟩ := hfront _ hn
    exact front_fine hp hd hf
  have hX : ∀ n, San.Decl.extNode n ∈ ds₂ → Called p n.name →
      (sigOf (optsOf ds n.name).generics n.inputs n.outputs).Wf := fun n hn => by
    obtain ⟨d, hd, hf⟩ := hfront _ hn
    exact front_extern hp hd hf
  have hC : ∀ c, San.Decl.const c ∈ ds₂ → printableExpr c.value = true := fun c hc => by
    obtain ⟨d, hd, hf⟩ := hfront _ hc
    cases hf with | const ht =>
    exact (clean_const (hp.literals _ hd _ (by simp [expressions]))).2 _ ht
  refine Sure.bind ?_ fun p₃ s3 s3' h3 => ?_
  · refine Sure.bind ?_ fun _ _ _ _ => Sure.pure _
    exact Sure.ofQuiet (prog (called := Called p) (causality_names i2)
      (fun n hn => ⟨(hN n hn).blocks, fun id hi => ((hN n hn).subs id).1 hi, (hN n hn).wf⟩) hX)
      (progTypecheck_honest _ _).appends
  obtain ⟨ds₃, t3, i3, j3⟩ := bind_some.1 h3
  cases j3
  obtain ⟨_, i3⟩ := mapErr_some i3
  have k3 := checked_typed (prog_checked i3) hN hX hC (by simp)
  refine Sure.bind ?_ fun p₄ s4 s4' h4 => ?_
  · refine Sure.bind ?_ fun _ _ _ _ => Sure.pure _
    refine Sure.ofQuiet (progClk _ fun n hn => ?_) (Chandeliers.Clk.prog_appends _)
    have := k3 _ hn
    obtain ⟨Γ, hv, ht⟩ := this.typed
    exact nodeClk hv ht this.inits
  obtain ⟨ds₄, t4, i4, j4⟩ := bind_some.1 h4
  cases j4
  obtain ⟨_, i4⟩ := mapErr_some i4
  have k4 := clocked_emittable (prog_clocked i4) k3
  refine Sure.bind ?_ fun p₅ s5 s5' h5 => ?_
  · refine Sure.bind ?_ fun _ _ _ _ => Sure.pure _
    exact Sure.ofQuiet (progPositive _) (progMakePositive_honest _).appends
  obtain ⟨ds₅, t5, i5, j5⟩ := bind_some.1 h5
  cases j5
  obtain ⟨_, i5⟩ := mapErr_some i5
  have k5 := positive_emittable (prog_positive i5) k4
  intro s
  have : codegen ⟨ds₅, optsOf ds⟩ = .some ⟨ds₅, optsOf ds⟩ := by
    unfold codegen
    rw [if_pos (List.all_eq_true.2 k5)]
  dsimp only at this ⊢
  rw [this]
  exact ⟨by simp, fun h => by simp at h⟩

end Chandeliers.Quiet
