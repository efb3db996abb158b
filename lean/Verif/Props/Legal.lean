import Verif.Lemmas.LegalRun
import Verif.Props.Program
import Verif.Props.Parse

/-! # C50: exactly the legal programs are accepted -/

set_option autoImplicit false

namespace Chandeliers.Props
open Chandeliers.Err Chandeliers.San Chandeliers.Spec Chandeliers.Syn Chandeliers.Spec.Static
open Chandeliers.Spec.Grammar

/-- The compiler emits code for the program. -/
def Accepted (p : SrcProg) : Prop := ∃ w p', decl (compile p) = .done w (some p')

theorem accepted_runs {p : SrcProg} :
    Accepted p ↔ ∃ p' s', compile p (EAccum.default, ()) = (.some p', s') := by
  unfold Accepted decl
  rcases h : compile p (EAccum.default, ()) with ⟨r, acc, u⟩
  cases r with
  | abort => simp
  | none =>
    constructor
    · rintro ⟨w, p', h⟩
      dsimp only at h
      split at h <;> cases h
    · rintro ⟨p', s', h⟩; cases h
  | some x => simp

/-- C50: code is emitted for a program exactly when the program is legal. -/
theorem C50_accepted {p : SrcProg} (hg : DistinctGenerics p) : Accepted p ↔ Legal p := by
  rw [accepted_runs]
  constructor
  · rintro ⟨p', s', h⟩; exact Den.legal_of_compile hg h
  · intro h; exact Den.compile_of_legal hg h _

/-- C50: a program that is not legal is refused, with at least one error. -/
theorem C50_refused {p : SrcProg} (ht : Tame p) (hg : DistinctGenerics p) (hl : ¬ Legal p) :
    ∃ e es, decl (compile p) = .done (e :: es) none := by
  obtain ⟨out, tokens, h1, h2⟩ := C48_no_panic ht
  cases tokens with
  | some p' => exact absurd ((C50_accepted hg).1 ⟨_, _, h1⟩) hl
  | none =>
    cases out with
    | nil => exact absurd rfl (h2 rfl)
    | cons e es => exact ⟨e, es, h1⟩

/-- C50: the macro expands an invocation to code exactly when it reads as a legal program. -/
theorem C50_text {ts : List Tok} (hg : ∀ p, Program ts p → DistinctGenerics p) :
    (∃ w p', expand ts = some (.done w (some p'))) ↔ ∃ p, Program ts p ∧ Legal p := by
  constructor
  · rintro ⟨w, p', h⟩
    by_cases hp : ∃ p, Program ts p
    · obtain ⟨p, hp⟩ := hp
      rw [(C49_expand ts).1 p hp, Option.some.injEq] at h
      exact ⟨p, hp, (C50_accepted (hg p hp)).1 ⟨_, _, h⟩⟩
    · rw [(C49_expand ts).2.2 fun p h => hp ⟨p, h⟩] at h
      cases h
  · rintro ⟨p, hp, hL⟩
    obtain ⟨w, p', h⟩ := (C50_accepted (hg p hp)).2 hL
    exact ⟨w, p', by rw [(C49_expand ts).1 p hp, h]⟩

/-! ## The order does not matter -/

/-- The same declaration with its equations in another order. -/
inductive Shuffled : SrcDecl → SrcDecl → Prop
  | same {d : SrcDecl} : Shuffled d d
  | node {attrs : List Attribute} {n : SrcNode} {defs : List SrcStmt} (h : defs.Perm n.defs) :
    Shuffled ⟨attrs, .node n⟩ ⟨attrs, .node { n with defs := defs }⟩

theorem Shuffled.symm {d d' : SrcDecl} (h : Shuffled d d') : Shuffled d' d := by
  cases h with
  | same => exact .same
  | @node attrs n defs h => exact Shuffled.node (n := { n with defs := defs }) (defs := n.defs) h.symm

theorem shuffled_legal {consts : String → Option TyBase} {nodes : String → Option Sig}
    {d d' : SrcDecl} (hs : Shuffled d d') (h : LegalItem consts nodes (meaning d.attrs) d.item) :
    LegalItem consts nodes (meaning d'.attrs) d'.item := by
  cases hs with
  | same => exact h
  | @node attrs n defs hp =>
    have h : LegalNode (meaning attrs) consts nodes n := h
    have hd : (defined defs).Perm (defined n.defs) := hp.flatMap_right _
    refine ⟨⟨h.interface.executable, h.interface.declared, h.interface.used, h.interface.present⟩, ⟨h.vars.1, h.vars.2⟩, fun st hst => h.stmts st (hp.mem_iff.1 hst),
      fun v hv hm => h.inputs v hv (hd.mem_iff.1 hm), hd.nodup_iff.2 (h.once),
      fun v hv => hd.mem_iff.2 (h.everything v hv), fun x hx => h.causal x ?_⟩
    refine Relation.TransGen.mono ?_ x x hx
    rintro a b ⟨p, e, h1, h2⟩
    exact ⟨p, e, hp.mem_iff.1 h1, h2⟩

theorem shuffled_prog {p q : SrcProg} (hs : List.Forall₂ Shuffled p q) :
    q.filterMap constant = p.filterMap constant ∧ q.filterMap nodeSig = p.filterMap nodeSig ∧
    (∀ d' ∈ q, ∃ d ∈ p, Shuffled d d') := by
  induction hs with
  | nil => simp
  | @cons a b l r hab _ ih =>
    obtain ⟨i1, i2, i3⟩ := ih
    have e1 : constant b = constant a := by cases hab <;> rfl
    have e2 : nodeSig b = nodeSig a := by cases hab <;> rfl
    refine ⟨by rw [List.filterMap_cons, List.filterMap_cons, e1, i1],
      by rw [List.filterMap_cons, List.filterMap_cons, e2, i2], fun d hd => ?_⟩
    rcases List.mem_cons.1 hd with rfl | hd
    · exact ⟨a, by simp, hab⟩
    · obtain ⟨d', h1, h2⟩ := i3 d hd
      exact ⟨d', by simp [h1], h2⟩

/-- Legality does not depend on the order of equations. -/
theorem legal_shuffled {p q : SrcProg} (hs : List.Forall₂ Shuffled p q) (h : Legal p) : Legal q := by
  obtain ⟨e1, e2, hq⟩ := shuffled_prog hs
  refine ⟨fun d hd a ha => ?_, by rw [e1]; exact h.constNames, by rw [e2]; exact h.nodeNames,
    fun d hd => ?_, fun x hx => h.constCycles x ?_, fun f hf => h.nodeCycles f ?_⟩
  · obtain ⟨d', hd', hs'⟩ := hq d hd
    cases hs' with
    | same => exact h.attributes d hd' a ha
    | node => exact h.attributes _ hd' a ha
  · obtain ⟨d', hd', hs'⟩ := hq d hd
    rw [e1, e2]
    exact shuffled_legal hs' (h.items d' hd')
  · refine Relation.TransGen.mono ?_ x x hx
    rintro a b ⟨attrs, c, h1, h2⟩
    obtain ⟨d', hd', hs'⟩ := hq _ h1
    cases hs'
    exact ⟨attrs, c, hd', h2⟩
  · refine Relation.TransGen.mono ?_ f f hf
    rintro a b ⟨attrs, n, h1, h2, st, h3, h4⟩
    obtain ⟨d', hd', hs'⟩ := hq _ h1
    cases hs' with
    | same => exact ⟨attrs, n, hd', h2, st, h3, h4⟩
    | node hp => exact ⟨attrs, _, hd', h2, st, hp.mem_iff.1 h3, h4⟩

/-- Nor on the order of declarations. -/
theorem legal_perm {p q : SrcProg} (hp : p.Perm q) (h : Legal p) : Legal q := by
  have e1 := Den.find_perm h.constNames (hp.filterMap constant)
  have e2 := Den.find_perm h.nodeNames (hp.filterMap nodeSig)
  refine ⟨fun d hd => h.attributes d (hp.mem_iff.2 hd),
    ((hp.filterMap _).map _).nodup_iff.1 h.constNames,
    ((hp.filterMap _).map _).nodup_iff.1 h.nodeNames, fun d hd => ?_, fun x hx => h.constCycles x ?_,
    fun f hf => h.nodeCycles f ?_⟩
  · rw [← e1, ← e2]; exact h.items d (hp.mem_iff.2 hd)
  · refine Relation.TransGen.mono ?_ x x hx
    rintro a b ⟨attrs, c, h1, h2⟩
    exact ⟨attrs, c, hp.mem_iff.2 h1, h2⟩
  · refine Relation.TransGen.mono ?_ f f hf
    rintro a b ⟨attrs, c, h1, h2⟩
    exact ⟨attrs, c, hp.mem_iff.2 h1, h2⟩

/-- C50: whether a program is accepted depends neither on the order of its declarations nor on that
of the equations of its nodes. -/
theorem C50_any_order {p q r : SrcProg} (hg : DistinctGenerics p) (hs : List.Forall₂ Shuffled p q)
    (hp : q.Perm r) : Accepted p ↔ Accepted r := by
  have hq : DistinctGenerics q := by
    intro d hd
    obtain ⟨d', hd', hs'⟩ := (shuffled_prog hs).2.2 d hd
    have := hg d' hd'
    cases hs' <;> exact this
  have hr : DistinctGenerics r := fun d hd => hq d (hp.mem_iff.2 hd)
  rw [C50_accepted hg, C50_accepted hr]
  constructor
  · exact fun h => legal_perm hp (legal_shuffled hs h)
  · intro h
    refine legal_shuffled ?_ (legal_perm hp.symm h)
    exact (List.Forall₂.flip hs).imp fun _ _ h => h.symm

/-! ## Examples -/

/-- `exProg` is accepted, so it is legal. -/
theorem exProg_legal : Legal exProg := by
  refine (C50_accepted exProg_generics).1 ?_
  have h : (outcome exProg).isSome = true := by decide +kernel
  obtain ⟨⟨w, p'⟩, h⟩ := Option.isSome_iff_exists.1 h
  exact ⟨w, p', outcome_some h⟩

/-- ```
const K: int = 1;
node f(x: int) returns (y: int); let y = x + K; tel
``` -/
def exSmall : SrcProg := [
  ⟨[], .const ⟨"K", .int, .lit (.int 1)⟩⟩,
  ⟨[], .node {
    name := "f"
    inputs := [⟨["x"], .int, .implicit⟩]
    outputs := [⟨["y"], .int, .implicit⟩]
    locals := []
    defs := [.def_ (.var "y") (.left (.var "x") [(.add, .var "K")])] }⟩]

theorem exSmall_generics : DistinctGenerics exSmall := by
  intro d hd
  simp only [exSmall, List.mem_cons, List.not_mem_nil, or_false] at hd
  rcases hd with rfl | rfl <;> decide

/-- It is legal: shown from the rules alone. -/
theorem exSmall_legal : Legal exSmall where
  attributes d hd a ha := by
    simp only [exSmall, List.mem_cons, List.not_mem_nil, or_false] at hd
    rcases hd with rfl | rfl <;> cases ha
  constNames := by decide
  nodeNames := by decide
  items d hd := by
    simp only [exSmall, List.mem_cons, List.not_mem_nil, or_false] at hd
    rcases hd with rfl | rfl
    · refine ⟨by simp [Constant], ?_⟩
      rw [HasTy]
      exact ⟨.int, by decide, rfl⟩
    · refine ⟨⟨by simp [meaning, lastNamed], ?_, ?_, ?_⟩, ⟨by decide, ?_⟩, ?_, ?_, by decide, ?_, ?_⟩
      · intro v hv x hx
        simp [varsOf] at hv
        rcases hv with rfl | rfl <;> cases hx
      · intro x hx; simp [meaning] at hx
      · intro v hv
        simp [varsOf, Clock.intoClk] at hv
        rcases hv with rfl | rfl <;> simp [Always]
      · intro l v r e x hx
        have : v ∈ varsOf [⟨["x"], .int, .implicit⟩, ⟨["y"], .int, .implicit⟩] := by
          have e' : varsOf [⟨["x"], .int, .implicit⟩, ⟨["y"], .int, .implicit⟩] = l ++ v :: r := e
          rw [e']; simp
        simp [varsOf, Clock.intoClk] at this
        rcases this with rfl | rfl <;> simp at hx
      · intro st hst
        rw [List.mem_singleton] at hst
        subst hst
        refine ⟨⟨.single .int, ?_, ?_⟩, ⟨.implicit, .implicit, ?_, ?_, ?_⟩, ?_⟩
        · rw [TargetTy]; exact ⟨_, rfl, rfl⟩
        · rw [HasTy]
          refine ⟨.single .int, by rw [HasTy]; rfl, ?_⟩
          rw [LeftTy]
          refine ⟨.single .int, .single .int, ?_, ⟨.int, rfl, rfl, rfl, by simp [OpTy.allowed]⟩, ?_⟩
          · rw [HasTy]; exact ⟨.int, rfl, rfl⟩
          · rw [LeftTy]
        · rw [TargetClk]; exact ⟨_, rfl, rfl⟩
        · rw [HasClk]
          refine ⟨.implicit, by rw [HasClk]; rfl, ?_⟩
          rw [LeftClk]
          refine ⟨.adaptative, by rw [HasClk]; rfl, ?_, ?_⟩
          · simp [Compatible]
          · rw [LeftClk]; rfl
        · intro _; simp [SameClk]
        · simp [Static.Ready, LeftReady]
      · intro v hv
        simp [varsOf] at hv
        subst hv
        simp [defined, targets]
      · intro v hv
        simp [varsOf] at hv
        subst hv
        simp [defined, targets]
      · intro x hx
        have key : ∀ a b, DefinedFrom [.def_ (.var "y") (.left (.var "x") [(.add, .var "K")])] a b →
            a = "y" ∧ b ≠ "y" := by
          rintro a b ⟨p, e, h1, h2, h3⟩
          simp at h1
          obtain ⟨rfl, rfl⟩ := h1
          simp [targets] at h2
          simp [instant, instantLeft] at h3
          refine ⟨h2, ?_⟩
          rcases h3 with rfl | rfl <;> decide
        obtain ⟨c, h1, h2⟩ := Relation.TransGen.head'_iff.1 hx
        obtain ⟨c', h3, h4⟩ := Relation.TransGen.tail'_iff.1 hx
        exact (key _ _ h4).2 (key _ _ h1).1
  constCycles x hx := by
    obtain ⟨c, ⟨attrs, k, h1, h2, h3⟩, -⟩ := Relation.TransGen.head'_iff.1 hx
    simp [exSmall] at h1
    obtain ⟨-, rfl⟩ := h1
    simp [names] at h3
  nodeCycles f hf := by
    obtain ⟨c, ⟨attrs, k, h1, h2, st, h3, h4⟩, -⟩ := Relation.TransGen.head'_iff.1 hf
    simp [exSmall] at h1
    obtain ⟨-, rfl⟩ := h1
    simp at h3
    subst h3
    simp [SrcStmt.expr, callees, calleesLeft] at h4

/-- So it is accepted, in any order. -/
example : Accepted exSmall ∧ Accepted exSmall.reverse :=
  have h := (C50_accepted exSmall_generics).2 exSmall_legal
  ⟨h, (C50_any_order exSmall_generics (List.forall₂_same.2 fun _ _ => .same)
    (List.reverse_perm _).symm).1 h⟩

/-- `node f(x: int) returns (y: int); let y = x; y = x; tel` -/
def exTwice : SrcProg := [
  ⟨[], .node {
    name := "f"
    inputs := [⟨["x"], .int, .implicit⟩]
    outputs := [⟨["y"], .int, .implicit⟩]
    locals := []
    defs := [.def_ (.var "y") (.var "x"), .def_ (.var "y") (.var "x")] }⟩]

/-- Non-vacuity of `C50_refused`: two equations for one variable. -/
example : ∃ e es, decl (compile exTwice) = .done (e :: es) none := by
  refine C50_refused ⟨?_, ?_, ?_⟩ ?_ ?_
  · intro d hd a ha
    rw [List.mem_singleton.1 hd] at ha
    cases ha
  · intro d hd e he l hl
    rw [List.mem_singleton.1 hd] at he
    simp [expressions, Spec.SrcStmt.expr] at he
    subst he
    simp [literals] at hl
  · rintro d hd f ins outs - ⟨d', hd', e, he, hf⟩
    rw [List.mem_singleton.1 hd'] at he
    simp [expressions, Spec.SrcStmt.expr] at he
    subst he
    simp [callees] at hf
  · intro d hd
    rw [List.mem_singleton.1 hd]
    decide
  · intro h
    have := LegalNode.once (h.items _ (List.mem_singleton.2 rfl))
    revert this
    decide

end Chandeliers.Props
