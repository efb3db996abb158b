import Verif.Spec.Program
import Verif.Lemmas.Passes
import Verif.Lemmas.Options
import Verif.Props.Schedule
import Mathlib.Data.List.Perm.Basic

/-!
# What the compiler leaves of a program
-/

set_option autoImplicit false

namespace Chandeliers.Prg
open Chandeliers.San Chandeliers.Spec Chandeliers.Syn Chandeliers.Err Chandeliers.Err.Chk

section
variable {E F σ α β : Type}

theorem mapErr_some {f : E → F} {m : Chk E σ α} {s s' : EAccum F × σ} {x : α}
    (h : mapErr f m s = (.some x, s')) : ∃ t, m (EAccum.default, s.2) = (.some x, t) := by
  obtain ⟨a, s⟩ := s
  simp only [mapErr] at h
  rcases hm : m (EAccum.default, s) with ⟨r, b, u⟩
  simp only [hm, Prod.mk.injEq] at h
  obtain ⟨rfl, -⟩ := h
  exact ⟨_, rfl⟩

theorem ofTranslation_some {x : Except TrErr α} {s s' : EAccum Report × σ} {a : α}
    (h : ofTranslation x s = (.some a, s')) : x = .ok a := by
  unfold ofTranslation at h
  split at h
  · cases h; rfl
  · cases h
  · cases h

theorem ofCausality_some {x : Except (GErr Reference) α} {s s' : EAccum Report × σ} {a : α}
    (h : ofCausality x s = (.some a, s')) : x = .ok a := by
  unfold ofCausality at h
  split at h
  · cases h; rfl
  · cases h
  · cases h
  · cases h

end

/-- What a source declaration is translated to. -/
inductive Trans : SrcDecl → OptDecl → Prop
  | const {attrs c c'} (h : c.translate = .ok c') :
    Trans ⟨attrs, .const c⟩ (.const c', ⟨false, false, []⟩)
  | extConst {attrs x ty} : Trans ⟨attrs, .extConst x ty⟩ (.extConst ⟨x, ty⟩, ⟨false, false, []⟩)
  | node {attrs n n'} (h : n.translate (meaning attrs).universalPre = .ok n') :
    Trans ⟨attrs, .node n⟩ (.node n', tyOpts (meaning attrs))
  | extNode {attrs f ins outs} :
    Trans ⟨attrs, .extNode f ins outs⟩
      (.extNode ⟨f, translateArgs ins, translateArgs outs⟩,
        ⟨(meaning attrs).main.isSome, false, (meaning attrs).generics⟩)

theorem traceFormat_small {σ : Type} {a : Attribute} {s s' : EAccum AttrDiag × σ}
    {r : TraceFormat × TraceFormat} (h : Decl.traceFormat a s = (.some r, s')) : smallNumbers a := by
  obtain ⟨action, params, targets, span⟩ := a
  unfold Decl.traceFormat at h
  rcases targets with _ | ⟨x, _ | ⟨y, _ | ⟨z, l⟩⟩⟩
  · intro n hn; cases hn
  · cases x with
    | str o => intro n hn; simp at hn
    | _ => cases h
  · cases x with
    | str o =>
      cases y with
      | str o => intro n hn; simp at hn
      | _ => cases h
    | _ => cases h
  · cases x with
    | str o => cases y <;> cases h
    | _ => cases h

theorem with_small {σ : Type} {d d' : Syn.Decl} {a : Attribute} {s s' : EAccum AttrDiag × σ}
    (h : d.with_ a s = (.some d', s')) : smallNumbers a := by
  have none_of : a.targets = [] → smallNumbers a := fun e n hn => by rw [e] at hn; cases hn
  unfold Decl.with_ at h
  rcases hx : Decl.parseAction a.action with _ | x
  · rw [hx] at h; cases h
  rw [hx] at h
  cases x
  case trace =>
    obtain ⟨_, s1, h1, g1⟩ := bind_some.1 h
    obtain ⟨_, s2, h2, g2⟩ := bind_some.1 g1
    exact traceFormat_small h2
  case generics =>
    rcases ht : a.targets with _ | ⟨x, l⟩
    · exact none_of ht
    · simp only [ht] at h; cases h
  case doc =>
    rcases hp : a.params with _ | ⟨y, ps⟩
    · rcases ht : a.targets with _ | ⟨x, _ | ⟨z, l⟩⟩
      · exact none_of ht
      · simp only [hp, ht] at h
        cases x with
        | str o => intro n hn; rw [ht] at hn; simp at hn
        | _ => cases h
      · simp only [hp, ht] at h; cases x <;> cases h
    · simp only [hp] at h; cases h
  case main =>
    rcases hp : a.params with _ | ⟨y, ps⟩
    · rcases ht : a.targets with _ | ⟨x, _ | ⟨z, l⟩⟩
      · exact none_of ht
      · simp only [hp, ht] at h
        cases x with
        | int i =>
          intro n hn
          rw [ht, List.mem_singleton, AttrLit.int.injEq] at hn
          subst hn
          obtain ⟨_, s1, h1, g1⟩ := bind_some.1 h
          obtain ⟨_, s2, h2, g2⟩ := bind_some.1 g1
          obtain ⟨_, s3, h3, g3⟩ := bind_some.1 g2
          unfold Decl.parseUsize at h3
          by_cases hn : 0 ≤ n ∧ n < 2 ^ 64
          · exact hn
          · rw [if_neg hn] at h3; cases h3
        | _ => cases h
      · simp only [hp, ht] at h; cases x <;> cases h
    · simp only [hp] at h; cases h
  case test =>
    rcases hp : a.params with _ | ⟨y, ps⟩
    · rcases ht : a.targets with _ | ⟨x, _ | ⟨z, l⟩⟩
      · exact none_of ht
      · simp only [hp, ht] at h
        cases x with
        | int i =>
          intro n hn
          rw [ht, List.mem_singleton, AttrLit.int.injEq] at hn
          subst hn
          obtain ⟨_, s1, h1, g1⟩ := bind_some.1 h
          obtain ⟨_, s2, h2, g2⟩ := bind_some.1 g1
          obtain ⟨_, s3, h3, g3⟩ := bind_some.1 g2
          unfold Decl.parseUsize at h3
          by_cases hn : 0 ≤ n ∧ n < 2 ^ 64
          · exact hn
          · rw [if_neg hn] at h3; cases h3
        | _ => cases h
      · simp only [hp, ht] at h; cases x <;> cases h
    · simp only [hp] at h; cases h
  all_goals
    rcases hp : a.params with _ | ⟨y, _ | ⟨y', ps⟩⟩ <;> rcases ht : a.targets with _ | ⟨x, l⟩ <;>
      first
      | exact none_of ht
      | (simp only [hp, ht] at h; cases h)

theorem withAll_small {σ : Type} : {as : List Attribute} → {d d' : Syn.Decl} →
    {s s' : EAccum AttrDiag × σ} → d.withAll as s = (.some d', s') → ∀ a ∈ as, smallNumbers a
  | [], _, _, _, _, _ => fun a ha => by cases ha
  | a :: as, d, d', s, s', h => by
    unfold Decl.withAll at h
    obtain ⟨d1, s1, h1, g1⟩ := bind_some.1 h
    intro b hb
    rcases List.mem_cons.1 hb with rfl | hb
    · exact with_small h1
    · exact withAll_small g1 b hb

theorem withAll_holds {as : List Attribute} {d : Syn.Decl} {s s' : EAccum AttrDiag × Unit}
    (h : Decl.default.withAll as s = (.some d, s')) : d.Holds as := by
  have hr := withAll_run as Decl.default [] Decl.spanned_default holds_default (withAll_small h) s
  by_cases hw : ∀ a ∈ as, wellFormed a
  · obtain ⟨d', ws, h1, h2⟩ := hr.1 hw
    rw [h] at h1
    cases h1
    simpa using h2
  · have : ∃ a ∈ as, ¬ wellFormed a := by simpa using hw
    obtain ⟨a, -, -, ws, h1⟩ := hr.2 this
    rw [h] at h1
    cases h1

theorem forNode_meaning {as : List Attribute} {d : Syn.Decl} (hd : d.Holds as)
    {o : NodeOptions} {t t' : EAccum AttrDiag × Unit} (h : d.forNode t = (.some o, t')) :
    o = meaning as := by
  obtain ⟨h1, h2, h3, h4, h5, h6, h7, h8, h9, h10⟩ := hd
  simp only [Decl.forNode, run_pure, h1.take, h2.take, h3.take, h4.take, h5.take, h6.take, h7.take,
    h8.take, h9.take, h10.take] at h
  cases h; rfl

theorem forExtNode_meaning {as : List Attribute} {d : Syn.Decl} (hd : d.Holds as)
    {o : ExtNodeOptions} {t t' : EAccum AttrDiag × Unit} (h : d.forExtNode t = (.some o, t')) :
    o.main = (meaning as).main ∧ o.generics = (meaning as).generics := by
  unfold Decl.forExtNode at h
  obtain ⟨_, _, -, h⟩ := bind_some.1 h
  obtain ⟨_, _, -, h⟩ := bind_some.1 h
  obtain ⟨_, _, -, h⟩ := bind_some.1 h
  obtain ⟨_, _, -, h⟩ := bind_some.1 h
  obtain ⟨_, _, -, h⟩ := bind_some.1 h
  obtain ⟨_, _, -, h⟩ := bind_some.1 h
  cases h
  exact ⟨hd.main.take, hd.generics.take⟩

theorem decl_translate {d : SrcDecl} {s s' : EAccum Report × Unit} {r : OptDecl}
    (h : d.translate s = (.some r, s')) : Trans d r := by
  obtain ⟨attrs, item⟩ := d
  unfold SrcDecl.translate at h
  obtain ⟨options, s1, h0, g1⟩ := bind_some.1 h
  obtain ⟨t1, h1⟩ := mapErr_some h0
  dsimp only at h1 g1
  cases item with
  | const c =>
    obtain ⟨_, s2, h2, g2⟩ := bind_some.1 g1
    obtain ⟨c', s3, h3, g3⟩ := bind_some.1 g2
    cases g3
    exact .const (ofTranslation_some h3)
  | node n =>
    obtain ⟨o, s2, h2, g2⟩ := bind_some.1 g1
    obtain ⟨t2, k2⟩ := mapErr_some h2
    obtain ⟨c', s3, h3, g3⟩ := bind_some.1 g2
    cases g3
    cases forNode_meaning (withAll_holds h1) k2
    exact .node (ofTranslation_some h3)
  | extConst x ty =>
    obtain ⟨_, s2, h2, g2⟩ := bind_some.1 g1
    cases g2
    exact .extConst
  | extNode f ins outs =>
    obtain ⟨o, s2, h2, g2⟩ := bind_some.1 g1
    obtain ⟨t2, k2⟩ := mapErr_some h2
    cases g2
    obtain ⟨e1, e2⟩ := forExtNode_meaning (withAll_holds h1) k2
    rw [show extTyOpts o = ⟨(meaning attrs).main.isSome, false, (meaning attrs).generics⟩ by
      rw [← e1, ← e2]; rfl]
    exact .extNode

theorem decls_translate : {ds : List SrcDecl} → {s s' : EAccum Report × Unit} → {r : List OptDecl} →
    translateDecls ds s = (.some r, s') → List.Forall₂ Trans ds r
  | [], s, s', r, h => by cases h; exact .nil
  | d :: ds, s, s', r, h => by
    unfold translateDecls at h
    obtain ⟨x, s1, h1, g1⟩ := bind_some.1 h
    obtain ⟨xs, s2, h2, g2⟩ := bind_some.1 g1
    cases g2
    exact .cons (decl_translate h1) (decls_translate h2)

/-- The name that a declaration gives to a node. -/
def funName : San.Decl → Option String
  | .node n => some n.name
  | .extNode n => some n.name
  | _ => none

/-- What the passes that look at the whole program do to its declarations. -/
inductive Checked (opts : String → TyOpts) : (String → Option Sig) → (String → Option TyBase) →
    List San.Decl → List San.Decl → Prop
  | nil {sigs consts} : Checked opts sigs consts [] []
  | const {sigs consts c ds ds'} (h : ConstTyped consts c) (hn : consts c.name = none)
    (hs : Checked opts sigs (extend consts c.name c.ty) ds ds') :
    Checked opts sigs consts (.const c :: ds) (.const c :: ds')
  | extConst {sigs consts c ds ds'} (hn : consts c.name = none)
    (hs : Checked opts sigs (extend consts c.name c.ty) ds ds') :
    Checked opts sigs consts (.extConst c :: ds) (.extConst c :: ds')
  | node {sigs consts n n' ds ds'}
    (h : ∃ s s' : EAccum Diag × Unit,
      n.typecheck (opts n.name) sigs consts s = (.some n', s')) (hn : sigs n.name = none)
    (hs : Checked opts (extend sigs n.name
      (sigOf (opts n.name).generics n.inputs n.outputs)) consts ds ds') :
    Checked opts sigs consts (.node n :: ds) (.node n' :: ds')
  | extNode {sigs consts n ds ds'} (h : SigTyped (opts n.name).main (opts n.name).generics
      n.inputs n.outputs []) (hd : DeclsTyped (n.inputs ++ n.outputs)) (hn : sigs n.name = none)
    (hs : Checked opts (extend sigs n.name
      (sigOf (opts n.name).generics n.inputs n.outputs)) consts ds ds') :
    Checked opts sigs consts (.extNode n :: ds) (.extNode n :: ds')

theorem loop_checked {opts : String → TyOpts} : (ds : List San.Decl) → {p : ProgCtx} →
    {s s' : EAccum Diag × Unit} → {ds' : List San.Decl} →
    progTypecheckLoop opts false p ds s = (.some (false, ds'), s') →
    Checked opts p.funs p.vars ds ds'
  | [], p, s, s', ds', h => by cases h; exact .nil
  | .const c :: ds, p, ⟨a, s⟩, s', ds', h => by
    simp only [progTypecheckLoop] at h
    obtain ⟨r, s1, h1, g1⟩ := bind_some.1 h
    obtain ⟨p', s2, h2, g2⟩ := bind_some.1 g1
    obtain ⟨j1, rfl, rfl⟩ := addVar_some.1 h2
    obtain ⟨⟨b, ds''⟩, s3, h3, g3⟩ := bind_some.1 g2
    cases g3
    rcases opt_none_or h1 with ⟨x, rfl, j2⟩ | ⟨rfl, -⟩
    · have := constTypecheck_state j2
      subst this
      exact .const (constTypecheck_iff.1 j2) j1 (loop_checked ds h3)
    · exact absurd (progLoop_fatal ds h3) (by simp)
  | .extConst c :: ds, p, s, s', ds', h => by
    simp only [progTypecheckLoop] at h
    obtain ⟨p', s2, h2, g2⟩ := bind_some.1 h
    obtain ⟨j1, rfl, rfl⟩ := addVar_some.1 h2
    obtain ⟨⟨b, ds''⟩, s3, h3, g3⟩ := bind_some.1 g2
    cases g3
    exact .extConst j1 (loop_checked ds h3)
  | .node n :: ds, p, s, s', ds', h => by
    simp only [progTypecheckLoop] at h
    obtain ⟨r, s1, h1, g1⟩ := bind_some.1 h
    obtain ⟨p', s2, h2, g2⟩ := bind_some.1 g1
    obtain ⟨j1, rfl, rfl⟩ := addFun_some.1 h2
    obtain ⟨⟨b, ds''⟩, s3, h3, g3⟩ := bind_some.1 g2
    cases g3
    rcases opt_none_or h1 with ⟨x, rfl, j2⟩ | ⟨rfl, -⟩
    · exact .node ⟨_, _, j2⟩ j1 (loop_checked ds h3)
    · exact absurd (progLoop_fatal ds h3) (by simp)
  | .extNode n :: ds, p, ⟨a, s⟩, s', ds', h => by
    simp only [progTypecheckLoop] at h
    obtain ⟨r, s1, h1, g1⟩ := bind_some.1 h
    obtain ⟨p', s2, h2, g2⟩ := bind_some.1 g1
    obtain ⟨j1, rfl, rfl⟩ := addFun_some.1 h2
    obtain ⟨⟨b, ds''⟩, s3, h3, g3⟩ := bind_some.1 g2
    cases g3
    rcases opt_none_or h1 with ⟨x, rfl, j2⟩ | ⟨rfl, -⟩
    · have := extNodeTypecheck_state j2
      subst this
      obtain ⟨k1, k2⟩ := extNodeTypecheck_iff.1 j2
      exact .extNode k1 k2 j1 (loop_checked ds h3)
    · exact absurd (progLoop_fatal ds h3) (by simp)

theorem prog_checked {opts : String → TyOpts} {ds ds' : List San.Decl} {s s' : EAccum Diag × Unit}
    (h : progTypecheck opts ds s = (.some ds', s')) :
    Checked opts (fun _ => none) (fun _ => none) ds ds' := by
  unfold progTypecheck at h
  obtain ⟨⟨b, ds''⟩, s1, h1, g1⟩ := bind_some.1 h
  obtain ⟨_, s2, h2, g2⟩ := bind_some.1 g1
  cases g2
  cases b with
  | false => exact loop_checked ds h1
  | true => cases h2

/-- What the clock checker does to a declaration. -/
inductive Clocked : San.Decl → San.Decl → Prop
  | node {n n'} (h : ∃ s s' : EAccum Diag × Unit, n.clockcheck s = (.some n', s')) :
    Clocked (.node n) (.node n')
  | const {c} : Clocked (.const c) (.const c)
  | extConst {c} : Clocked (.extConst c) (.extConst c)
  | extNode {n} : Clocked (.extNode n) (.extNode n)

theorem prog_clocked : {ds ds' : List San.Decl} → {s s' : EAccum Diag × Unit} →
    progClockcheck ds s = (.some ds', s') → List.Forall₂ Clocked ds ds'
  | [], ds', s, s', h => by cases h; exact .nil
  | .node n :: ds, ds', s, s', h => by
    unfold progClockcheck at h
    obtain ⟨n', s1, h1, g1⟩ := bind_some.1 h
    obtain ⟨xs, s2, h2, g2⟩ := bind_some.1 g1
    cases g2
    exact .cons (.node ⟨_, _, h1⟩) (prog_clocked h2)
  | .extNode n :: ds, ds', s, s', h => by
    unfold progClockcheck at h
    obtain ⟨_, s1, h1, g1⟩ := bind_some.1 h
    obtain ⟨xs, s2, h2, g2⟩ := bind_some.1 g1
    cases g2
    exact .cons .extNode (prog_clocked h2)
  | .const c :: ds, ds', s, s', h => by
    unfold progClockcheck at h
    obtain ⟨xs, s2, h2, g2⟩ := bind_some.1 h
    cases g2
    exact .cons .const (prog_clocked h2)
  | .extConst c :: ds, ds', s, s', h => by
    unfold progClockcheck at h
    obtain ⟨xs, s2, h2, g2⟩ := bind_some.1 h
    cases g2
    exact .cons .extConst (prog_clocked h2)

/-- What the positivity check does to a declaration. -/
inductive Positive : San.Decl → San.Decl → Prop
  | node {n n'} (h : ∃ s s' : EAccum Diag × Unit, n.makePositive s = (.some n', s')) :
    Positive (.node n) (.node n')
  | const {c} : Positive (.const c) (.const c)
  | extConst {c} : Positive (.extConst c) (.extConst c)
  | extNode {n} : Positive (.extNode n) (.extNode n)

theorem prog_positive : {ds ds' : List San.Decl} → {s s' : EAccum Diag × Unit} →
    progMakePositive ds s = (.some ds', s') → List.Forall₂ Positive ds ds'
  | [], ds', s, s', h => by cases h; exact .nil
  | d :: ds, ds', s, s', h => by
    unfold progMakePositive at h
    obtain ⟨d', s1, h1, g1⟩ := bind_some.1 h
    obtain ⟨xs, s2, h2, g2⟩ := bind_some.1 g1
    cases g2
    refine .cons ?_ (prog_positive h2)
    cases d with
    | node n =>
      obtain ⟨n', s3, h3, g3⟩ := bind_some.1 h1
      cases g3
      exact .node ⟨_, _, h3⟩
    | const c => cases h1; exact .const
    | extConst c => cases h1; exact .extConst
    | extNode c => cases h1; exact .extNode

/-- Translation followed by reordering. -/
inductive Front (opts : String → TyOpts) : SrcDecl → San.Decl → Prop
  | const {attrs c c'} (h : c.translate = .ok c') : Front opts ⟨attrs, .const c⟩ (.const c')
  | extConst {attrs x ty} : Front opts ⟨attrs, .extConst x ty⟩ (.extConst ⟨x, ty⟩)
  | node {attrs n n' n''} (h : n.translate (meaning attrs).universalPre = .ok n')
    (hc : n'.causality = .ok n'') (e : opts n''.name = tyOpts (meaning attrs)) :
    Front opts ⟨attrs, .node n⟩ (.node n'')
  | extNode {attrs f ins outs}
    (e : opts f = ⟨(meaning attrs).main.isSome, false, (meaning attrs).generics⟩) :
    Front opts ⟨attrs, .extNode f ins outs⟩ (.extNode ⟨f, translateArgs ins, translateArgs outs⟩)

/-- Distinct names. -/
theorem checked_names {opts : String → TyOpts} : {sigs : String → Option Sig} →
    {consts : String → Option TyBase} → {ds ds' : List San.Decl} → Checked opts sigs consts ds ds' →
    (ds.filterMap funName).Nodup ∧ ∀ f ∈ ds.filterMap funName, sigs f = none
  | _, _, _, _, .nil => ⟨.nil, fun f h => by cases h⟩
  | _, _, _, _, .const _ _ hs => by
    rw [List.filterMap_cons]; exact checked_names hs
  | _, _, _, _, .extConst _ hs => by
    rw [List.filterMap_cons]; exact checked_names hs
  | _, _, _, _, .node _ hn hs => by
    obtain ⟨h1, h2⟩ := checked_names hs
    have h3 : ∀ f, f ∈ List.filterMap funName _ → _ ∧ _ := fun f hf => by
      have := h2 f hf
      unfold extend at this
      split at this
      · cases this
      · rename_i hne; exact ⟨hne, this⟩
    refine ⟨?_, ?_⟩
    · simp only [List.filterMap_cons, funName, List.nodup_cons]
      exact ⟨fun h => (h3 _ h).1 rfl, h1⟩
    · intro f hf
      simp only [List.filterMap_cons, funName, List.mem_cons] at hf
      rcases hf with rfl | hf
      · exact hn
      · exact (h3 f hf).2
  | _, _, _, _, .extNode _ _ hn hs => by
    obtain ⟨h1, h2⟩ := checked_names hs
    have h3 : ∀ f, f ∈ List.filterMap funName _ → _ ∧ _ := fun f hf => by
      have := h2 f hf
      unfold extend at this
      split at this
      · cases this
      · rename_i hne; exact ⟨hne, this⟩
    refine ⟨?_, ?_⟩
    · simp only [List.filterMap_cons, funName, List.nodup_cons]
      exact ⟨fun h => (h3 _ h).1 rfl, h1⟩
    · intro f hf
      simp only [List.filterMap_cons, funName, List.mem_cons] at hf
      rcases hf with rfl | hf
      · exact hn
      · exact (h3 f hf).2

theorem optsOf_mem : {ds : List OptDecl} → {d : OptDecl} → {f : String} →
    (ds.filterMap (funName ·.1)).Nodup → d ∈ ds → funName d.1 = some f → optsOf ds f = d.2
  | e :: ds, d, f, hn, hd, hf => by
    have hi : ∀ x : San.Decl, isFun f x = true ↔ funName x = some f := by
      intro x; cases x <;> simp [isFun, funName]
    unfold optsOf
    rw [List.find?_cons]
    rw [List.filterMap_cons] at hn
    by_cases he : funName e.1 = some f
    · rw [show isFun f e.1 = true from (hi _).2 he]
      rcases List.mem_cons.1 hd with rfl | hd
      · rfl
      · rw [he] at hn
        dsimp only at hn
        exact absurd (List.mem_filterMap.2 ⟨d, hd, hf⟩) (List.nodup_cons.1 hn).1
    · rw [show isFun f e.1 = false by rw [← Bool.not_eq_true, hi]; exact he]
      dsimp only
      rcases List.mem_cons.1 hd with rfl | hd
      · exact absurd hf he
      · have : (ds.filterMap (funName ·.1)).Nodup := by
          revert hn
          cases funName e.1 <;> simp
        exact optsOf_mem this hd hf

theorem causality_funName {d d' : San.Decl} (h : d.causality = .ok d') : funName d' = funName d := by
  cases d with
  | node n =>
    simp only [San.Decl.causality, bind, Except.bind] at h
    cases hn : n.causality with
    | error e => simp [hn] at h
    | ok n' =>
      simp only [hn, pure, Except.pure, Except.ok.injEq] at h
      subst h
      have := congrArg Node.name (Props.C22_node hn).2
      exact congrArg some this
  | const c => cases h; rfl
  | extConst c => cases h; rfl
  | extNode c => cases h; rfl

theorem trans_front {opts : String → TyOpts} {d : SrcDecl} {x : OptDecl} {y : San.Decl}
    (h : Trans d x) (hc : x.1.causality = .ok y)
    (ho : ∀ f, funName x.1 = some f → opts f = x.2) : Front opts d y := by
  have hn := causality_funName hc
  cases h with
  | const h => cases hc; exact .const h
  | extConst => cases hc; exact .extConst
  | extNode => cases hc; exact .extNode (ho _ rfl)
  | @node attrs n n' h2 =>
    simp only [San.Decl.causality, bind, Except.bind] at hc
    cases hn' : n'.causality with
    | error e => simp [hn'] at hc
    | ok n'' =>
      simp only [hn', pure, Except.pure, Except.ok.injEq] at hc
      subst hc
      exact .node h2 hn' (ho _ hn.symm)

theorem front_all {opts : String → TyOpts} {p : List SrcDecl} {ds : List OptDecl}
    (h : List.Forall₂ Trans p ds) : {ds' : List San.Decl} →
    List.Forall₂ (fun d d' => d.causality = .ok d') (ds.map (·.1)) ds' →
    (∀ x ∈ ds, ∀ f, funName x.1 = some f → opts f = x.2) → List.Forall₂ (Front opts) p ds' := by
  induction h with
  | nil => intro ds' k _; cases k; exact .nil
  | cons a b ih =>
    intro ds' k hall
    cases k with | cons c d =>
    exact .cons (trans_front a c (hall _ (by simp))) (ih d fun x hx => hall x (by simp [hx]))

theorem src_translate_name {b : Bool} {src : SrcNode} {n : Node} (h : src.translate b = .ok n) :
    n.name = src.name := by
  obtain ⟨c, -, e⟩ := Den.node_translate h
  rw [e]

theorem passes_sig {b : Bool} {o : TyOpts} {sigs : String → Option Sig}
    {consts : String → Option TyBase} {src : SrcNode} {n : Node} (h : Passes b o sigs consts src n) :
    n.name = src.name ∧ n.inputs.map (·.ty) = (translateArgs src.inputs).map (·.ty) ∧
      n.outputs.map (·.ty) = (translateArgs src.outputs).map (·.ty) := by
  obtain ⟨n₁, n₂, c, ctx, clk, m, K, hf⟩ := Den.passes_final h
  rw [hf.final, hf.same, hf.start]
  simp [Node.withDepths, setDepths, Node.withClocks, Node.fill, Function.comp_def]

/-- The whole compiler. -/
theorem all_passes {opts : String → TyOpts} : {sigs : String → Option Sig} →
    {consts : String → Option TyBase} → {q : List SrcDecl} → {ds₁ ds₂ ds₃ ds₄ : List San.Decl} →
    List.Forall₂ (Front opts) q ds₁ → Checked opts sigs consts ds₁ ds₂ →
    List.Forall₂ Clocked ds₂ ds₃ → List.Forall₂ Positive ds₃ ds₄ → ProgPasses sigs consts q ds₄ := by
  intro sigs consts q ds₁ ds₂ ds₃ ds₄ hf hc hk hp
  induction hc generalizing q ds₃ ds₄ with
  | nil => cases hf; cases hk; cases hp; exact .nil
  | const h hn hs ih =>
    cases hf with | cons f1 f2 =>
    cases hk with | cons k1 k2 =>
    cases hp with | cons p1 p2 =>
    cases k1; cases p1; cases f1 with | const ht =>
    exact .const ht h hn (ih f2 k2 p2)
  | extConst hn hs ih =>
    cases hf with | cons f1 f2 =>
    cases hk with | cons k1 k2 =>
    cases hp with | cons p1 p2 =>
    cases k1; cases p1; cases f1
    exact .extConst hn (ih f2 k2 p2)
  | extNode h hd hn hs ih =>
    cases hf with | cons f1 f2 =>
    cases hk with | cons k1 k2 =>
    cases hp with | cons p1 p2 =>
    cases k1; cases p1; cases f1 with | extNode e =>
    dsimp only at h hn ih
    rw [e] at h ih
    exact .extNode h hd hn (ih f2 k2 p2)
  | @node _ _ n₂ n₃ _ _ h hn hs ih =>
    cases hf with | cons f1 f2 =>
    cases hk with | cons k1 k2 =>
    cases hp with | cons p1 p2 =>
    cases f1 with | @node attrs src n₁ _ h1 h2 e =>
    cases k1 with | @node _ n₄ h4 =>
    cases p1 with | @node _ n₅ h5 =>
    rw [e] at h ih
    have e1 : n₂.name = src.name := by
      rw [← src_translate_name h1]
      have := congrArg Node.name (Props.C22_node h2).2
      exact this
    rw [e1] at hn ih
    have hP : Passes (meaning attrs).universalPre (tyOpts (meaning attrs)) _ _ src n₅ := ⟨n₁, n₂, n₃, n₄, h1, h2, h, h4, h5⟩
    refine .node hP hn ?_
    have := ih f2 k2 p2
    have e2 : sigOf (meaning attrs).generics n₅.inputs n₅.outputs =
        sigOf (tyOpts (meaning attrs)).generics n₂.inputs n₂.outputs := by
      obtain ⟨-, p2, p3⟩ := passes_sig hP
      obtain ⟨c, -, e3⟩ := Den.node_translate h1
      have e4 := congrArg Node.inputs (Props.C22_node h2).2
      have e5 := congrArg Node.outputs (Props.C22_node h2).2
      simp only at e4 e5
      simp only [sigOf, p2, p3, e4, e5, e3, tyOpts]
    rw [e2]
    exact this

theorem compile_passes {p : SrcProg} {p' : Prog} {s s' : EAccum Report × Unit}
    (h : compile p s = (.some p', s')) :
    ∃ q, q.Perm p ∧ ProgPasses (fun _ => none) (fun _ => none) q p'.decls := by
  unfold compile progPipeline at h
  obtain ⟨p₁, s1, h1, g1⟩ := bind_some.1 h
  obtain ⟨p₂, s2, h2, g2⟩ := bind_some.1 g1
  obtain ⟨p₃, s3, h3, g3⟩ := bind_some.1 g2
  obtain ⟨p₄, s4, h4, g4⟩ := bind_some.1 g3
  obtain ⟨p₅, s5, h5, g5⟩ := bind_some.1 g4
  obtain ⟨ds, t1, i1, j1⟩ := bind_some.1 h1
  cases j1
  obtain ⟨ds₂, t2, i2, j2⟩ := bind_some.1 h2
  cases j2
  obtain ⟨ds₃, t3, i3, j3⟩ := bind_some.1 h3
  cases j3
  obtain ⟨ds₄, t4, i4, j4⟩ := bind_some.1 h4
  cases j4
  obtain ⟨ds₅, t5, i5, j5⟩ := bind_some.1 h5
  cases j5
  have e : p' = ⟨ds₅, optsOf ds⟩ := by
    simp only [codegen] at g5
    split at g5
    · cases g5; rfl
    · cases g5
  subst e
  have k1 := decls_translate i1
  obtain ⟨ds', hperm, k2⟩ := Props.C22_program (ofCausality_some i2)
  obtain ⟨_, i3⟩ := mapErr_some i3
  have k3 := prog_checked i3
  obtain ⟨_, i4⟩ := mapErr_some i4
  have k4 := prog_clocked i4
  obtain ⟨_, i5⟩ := mapErr_some i5
  have k5 := prog_positive i5
  dsimp only at k2 k3 k4 k5 ⊢
  have hnames : (ds.filterMap (funName ·.1)).Nodup := by
    have n1 := (checked_names k3).1
    have n2 : (ds'.filterMap funName).Nodup := (hperm.filterMap funName).nodup_iff.1 n1
    have n3 : ds'.filterMap funName = (ds.map (·.1)).filterMap funName := by
      clear n1 n2 k1 hperm i1
      generalize ds.map (·.1) = l at k2
      induction k2 with
      | nil => rfl
      | cons a b ih =>
        rw [List.filterMap_cons, List.filterMap_cons, causality_funName a, ih]
    rw [n3, List.filterMap_map] at n2
    exact n2
  have k6 := front_all k1 k2 fun x hx f hf => optsOf_mem hnames hx hf
  obtain ⟨q, hq1, hq2⟩ := List.perm_comp_forall₂ hperm (List.Forall₂.flip k6)
  exact ⟨q, hq2, all_passes (List.Forall₂.flip hq1) k3 k4 k5⟩

end Chandeliers.Prg
