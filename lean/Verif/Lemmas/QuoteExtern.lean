import Verif.Lemmas.Quote
import Verif.Lemmas.Passes
import Verif.Lemmas.Link

/-!
# External nodes that check their arguments

rustc checks the arguments and the results of external nodes.  Here they are made to check them when
they run, so that a well-typed program can be compared with the code emitted for it.
-/

set_option autoImplicit false

namespace Chandeliers.Quo
open Chandeliers.San Chandeliers.Spec Chandeliers.Rep Chandeliers.Syn Chandeliers.Prg

/-- The machine, rejecting what does not have the right arity. -/
noncomputable def guarded (k l : Nat) (m : Machine) : Machine where
  σ := m.σ
  outTy := m.outTy
  init := m.init
  step s i :=
    if i.firstIsNil then m.step s i else
    haveI := Classical.dec (2 ≤ k ∧ ¬ Arity k i)
    if 2 ≤ k ∧ ¬ Arity k i then .error .rejected else
    match m.step s i with
    | .error p => .error p
    | .ok (o, s') =>
      haveI := Classical.dec (Arity l o)
      if Arity l o then .ok (o, s') else .error .rejected

theorem guarded_strict {k l : Nat} {m : Machine} (h : m.outTy = flatShape l) :
    Strict k l (guarded k l m) where
  type := h
  inputs := by
    intro s i hi h2 ha
    show (guarded k l m).step s i = _
    unfold guarded
    simp only [hi, h2, ha, not_false_iff, and_self, if_true, Bool.false_eq_true, if_false]
  outputs := by
    intro s i o s' hi ho
    unfold guarded at ho
    simp only [hi, Bool.false_eq_true, if_false] at ho
    split at ho
    · cases ho
    · split at ho
      · cases ho
      · split at ho
        · rename_i hl
          cases ho; exact hl
        · cases ho

theorem guarded_milder (k l : Nat) (m : Machine) :
    Milder (· = .rejected) (· = ·) (guarded k l m) m where
  type := rfl
  runs := by
    refine alike_init.2 (same_of_bisim (m := guarded k l m) (m' := m) (fun s r => s = r)
      (fun s r i hs => ?_) _ _ rfl)
    cases hs
    unfold guarded
    dsimp only
    split
    · cases m.step s i with
      | error p => exact .inr rfl
      | ok a => exact ⟨rfl, rfl⟩
    · split
      · exact fit_rej _
      · cases m.step s i with
        | error p => exact .inr rfl
        | ok a =>
          obtain ⟨o, s'⟩ := a
          dsimp only
          split
          · exact ⟨rfl, rfl⟩
          · exact fit_rej _

theorem leaves {θ : Subst} : ∀ {us : List TyBase} {l : List Value},
    ValTys (substTys θ (us.map .single)) l →
      Tup.mapList (fun _ => ()) l = List.replicate us.length (.leaf ()) ∧ l.length = us.length
  | [], [], _ => ⟨rfl, rfl⟩
  | [], _ :: _, h => by simp [substTys, ValTys] at h
  | _ :: _, [], h => by simp [substTys, ValTys] at h
  | u :: us, v :: l, h => by
    simp only [List.map_cons, substTys, substTy, ValTys] at h
    obtain ⟨h1, h2⟩ := leaves h.2
    cases v with
    | tup a t => exact h.1.elim
    | leaf x =>
      exact ⟨by simp only [Tup.mapList, Tup.map, h1, List.length_cons, List.replicate_succ],
        by simp only [List.length_cons, h2]⟩

theorem flat_value {θ : Subst} {us : List TyBase} {v : Value}
    (h : ValTy (substTy θ (flatTuple us)) v) :
    v.shape = flatShape us.length ∧ (Arity us.length v ∨ us = [] ∧ v = .leaf .nil) := by
  match us with
  | [] =>
    cases v with
    | tup a t => simp [flatTuple, substTy, substTys, ValTy] at h
    | leaf x =>
      refine ⟨rfl, ?_⟩
      simp only [flatTuple, substTy, substTys, ValTy, List.map_nil] at h
      rcases h with rfl | rfl
      · exact .inr ⟨rfl, rfl⟩
      · exact .inl rfl
  | [u] =>
    cases v with
    | tup a t => simp [flatTuple, substTy, ValTy] at h
    | leaf x => exact ⟨rfl, .inl trivial⟩
  | u :: u' :: us =>
    cases v with
    | leaf x => simp [flatTuple, substTy, substTys, ValTy] at h
    | tup a t =>
      simp only [flatTuple, List.map_cons, substTy, substTys, ValTy] at h
      have h2 := leaves (us := u' :: us) (θ := θ) (l := t)
        (by simp only [List.map_cons, substTys, substTy]; exact h.2)
      cases a with
      | tup b t => exact h.1.elim
      | leaf x =>
        refine ⟨?_, .inl ?_⟩
        · show Tup.tup _ (Tup.mapList _ t) = _
          rw [h2.1]; rfl
        · exact h2.2

theorem run_err {m : Machine} {s : m.σ} {i : Value} {p : Panic} (h : m.step s i = .error p)
    (is : List Value) : m.runFrom s (i :: is) = .error p := by
  unfold Machine.runFrom; rw [h]; rfl

theorem run_ok {m : Machine} {s s' : m.σ} {i o : Value} (h : m.step s i = .ok (o, s'))
    (is : List Value) : m.runFrom s (i :: is) = (m.runFrom s' is).map fun q => (o :: q.1, q.2) := by
  rw [Machine.runFrom, h, ok_bind]
  dsimp only
  cases m.runFrom s' is <;> rfl

/-- Well-typed histories do not see the checks. -/
theorem guarded_run {θ : Subst} {ins outs : List TyBase} {m : Machine}
    (hu : outs = [] → ∀ s i o s', i.firstIsNil = false → m.step s i = .ok (o, s') → o ≠ .leaf .nil) :
    ∀ (is : List Value) (s : m.σ),
      Safe m (substTy θ (flatTuple ins)) (substTy θ (flatTuple outs)) s →
      (∀ i ∈ is, ValTy (substTy θ (flatTuple ins)) i) →
      (guarded ins.length outs.length m).runFrom s is = m.runFrom s is
  | [], s, _, _ => rfl
  | i :: is, s, hs, hi => by
    have hf := safe_step hs (hi i List.mem_cons_self)
    have he : (guarded ins.length outs.length m).step s i = m.step s i := by
      unfold guarded
      dsimp only
      split
      · rfl
      · rename_i hp
        have hp : i.firstIsNil = false := by simpa using hp
        split
        · rename_i h2
          rcases (flat_value (hi i List.mem_cons_self)).2 with ha | ⟨rfl, -⟩
          · exact absurd ha h2.2
          · exact absurd h2.1 (by simp)
        · cases hm : m.step s i with
          | error p => rfl
          | ok a =>
            obtain ⟨o, s'⟩ := a
            dsimp only
            rw [if_pos]
            rw [hm] at hf
            rcases (flat_value hf.1).2 with ha | ⟨he, ho⟩
            · exact ha
            · exact absurd ho (hu he s i o s' hp hm)
    cases hm : m.step s i with
    | error p =>
      exact (run_err (m := guarded ins.length outs.length m) (he.trans hm) is).trans
        (run_err hm is).symm
    | ok a =>
      obtain ⟨o, s'⟩ := a
      rw [hm] at hf
      have ih := guarded_run hu is s' hf.2 fun j hj => hi j (List.mem_cons_of_mem _ hj)
      exact (run_ok (m := guarded ins.length outs.length m) (he.trans hm) is).trans
        ((congrArg (fun r : R (List Value × m.σ) => r.map fun q : List Value × m.σ => (o :: q.1, q.2)) ih).trans
          (run_ok hm is).symm)

theorem guarded_respects {θ : Subst} {ins outs : List TyBase} {m : Machine}
    (hu : outs = [] → ∀ s i o s', i.firstIsNil = false → m.step s i = .ok (o, s') → o ≠ .leaf .nil)
    (h : Respects m (substTy θ (flatTuple ins)) (substTy θ (flatTuple outs))) :
    Respects (guarded ins.length outs.length m) (substTy θ (flatTuple ins))
      (substTy θ (flatTuple outs)) where
  safe := fun is hi => by
    have := h.safe is hi
    rw [← guarded_run hu is m.init h.safe hi] at this
    exact this
  absent := h.absent

theorem respects_outTy {θ : Subst} {t : TyTuple} {outs : List TyBase} {m : Machine}
    (h : Respects m t (substTy θ (flatTuple outs))) : m.outTy = flatShape outs.length := by
  have := (flat_value h.absent).1
  rwa [Tup.shape_allNil] at this

/-- The declaration of an external node. -/
def declared (ds : List San.Decl) (f : String) : Option ExtNode :=
  ds.findSome? fun d => match d with
    | .extNode n => if n.name = f then some n else none
    | _ => none

theorem declared_mem {ds : List San.Decl} {f : String} {n : ExtNode} (h : declared ds f = some n) :
    .extNode n ∈ ds ∧ n.name = f := by
  obtain ⟨d, hd, he⟩ := List.exists_of_findSome?_eq_some h
  cases d with
  | extNode n' =>
    dsimp only at he
    split at he
    · rename_i hf
      cases he; exact ⟨hd, hf⟩
    · cases he
  | _ => cases he

/-- External nodes are declared once. -/
theorem passes_extNode {sigs : String → Option Sig} {consts : String → Option TyBase}
    {q : SrcProg} {ds : List San.Decl} (h : ProgPasses sigs consts q ds) :
    (∀ n, .extNode n ∈ ds → sigs n.name = none ∧ declared ds n.name = some n ∧
      ((n.inputs ++ n.outputs).map (·.name)).Nodup ∧ ∃ attrs ins outs,
        ⟨attrs, .extNode n.name ins outs⟩ ∈ q ∧ n.inputs = translateArgs ins ∧
          n.outputs = translateArgs outs) ∧
    ∀ attrs f ins outs, ⟨attrs, .extNode f ins outs⟩ ∈ q →
      .extNode ⟨f, translateArgs ins, translateArgs outs⟩ ∈ ds := by
  have hext : ∀ {sigs : String → Option Sig} {f g : String} {s : Sig},
      extend sigs f s g = none → g ≠ f ∧ sigs g = none := by
    intro sigs f g s h
    unfold extend at h
    split at h
    · cases h
    · rename_i hg; exact ⟨hg, h⟩
  induction h with
  | nil => exact ⟨fun n h => by simp at h, fun a f i o h => by simp at h⟩
  | const ht h hn hs ih =>
    refine ⟨fun n h => ?_, fun a f i o h => ?_⟩
    · rcases List.mem_cons.1 h with e | h
      · cases e
      · obtain ⟨k1, k2, k3, a, i, o, k4, k5⟩ := ih.1 n h
        exact ⟨k1, k2, k3, a, i, o, List.mem_cons_of_mem _ k4, k5⟩
    · rcases List.mem_cons.1 h with e | h
      · cases e
      · exact List.mem_cons_of_mem _ (ih.2 a f i o h)
  | extConst hn hs ih =>
    refine ⟨fun n h => ?_, fun a f i o h => ?_⟩
    · rcases List.mem_cons.1 h with e | h
      · cases e
      · obtain ⟨k1, k2, k3, a, i, o, k4, k5⟩ := ih.1 n h
        exact ⟨k1, k2, k3, a, i, o, List.mem_cons_of_mem _ k4, k5⟩
    · rcases List.mem_cons.1 h with e | h
      · cases e
      · exact List.mem_cons_of_mem _ (ih.2 a f i o h)
  | node h hn hs ih =>
    refine ⟨fun n h => ?_, fun a f i o h => ?_⟩
    · rcases List.mem_cons.1 h with e | h
      · cases e
      · obtain ⟨k1, k2, k3, a, i, o, k4, k5⟩ := ih.1 n h
        exact ⟨(hext k1).2, k2, k3, a, i, o, List.mem_cons_of_mem _ k4, k5⟩
    · rcases List.mem_cons.1 h with e | h
      · cases e
      · exact List.mem_cons_of_mem _ (ih.2 a f i o h)
  | @extNode sigs consts attrs f ins outs ds ds' h hd hn hs ih =>
    refine ⟨fun n h => ?_, fun a f i o h => ?_⟩
    · rcases List.mem_cons.1 h with e | h
      · cases e
        exact ⟨hn, by simp [declared], Den.declsTyped_nodup hd, attrs, ins, outs, List.mem_cons_self,
          rfl, rfl⟩
      · obtain ⟨k1, k2, k3, a, i, o, k4, k5⟩ := ih.1 n h
        refine ⟨(hext k1).2, ?_, k3, a, i, o, List.mem_cons_of_mem _ k4, k5⟩
        unfold declared at k2 ⊢
        rw [List.findSome?_cons]
        simp only [if_neg (Ne.symm (hext k1).1)]
        exact k2
    · rcases List.mem_cons.1 h with e | h
      · cases e; exact List.mem_cons_self
      · exact List.mem_cons_of_mem _ (ih.2 a f i o h)

/-- The external items, with nodes that check their arguments and results. -/
noncomputable def guardedItems (X : Extern) (ds : List San.Decl) : Extern where
  consts := X.consts
  nodes f := (X.nodes f).map fun m =>
    match declared ds f with
    | some n => guarded n.inputs.length n.outputs.length m
    | none => m

theorem guardedItems_milder (X : Extern) (ds : List San.Decl) :
    AlikeTable (· = .rejected) (· = ·) (guardedItems X ds).nodes X.nodes where
  none f := by simp [guardedItems]
  some f m m' h h' := by
    simp only [guardedItems, h', Option.map_some, Option.some.injEq] at h
    subst h
    cases declared ds f with
    | none => exact milder_refl m'
    | some n => exact guarded_milder _ _ _

theorem argTypes_length (as : List ArgsTy) : (argTypes as).length = (translateArgs as).length := by
  rw [← translateArgs_ty, List.length_map]

section
variable {X : Extern} {p q : SrcProg} {ds : List San.Decl}
  (hp : ProgPasses (fun _ => none) (fun _ => none) q ds) (hq : q.Perm p) (hX : ExternOk X p)
include hp hq hX

theorem guardedItems_fit : ExternFit (guardedItems X ds) X ds where
  none := (guardedItems_milder X ds).none
  some := (guardedItems_milder X ds).some
  names n hn := by
    have := ((passes_extNode hp).1 n hn).2.2.1
    rw [List.map_append] at this
    exact (List.nodup_append.1 this).2.1
  strict n m hn hm := by
    obtain ⟨-, h2, -, a, ins, outs, h4, h5, h6⟩ := (passes_extNode hp).1 n hn
    obtain ⟨m', k1, k2⟩ := hX.nodes a n.name ins outs (hq.mem_iff.1 h4)
    simp only [guardedItems, k1, h2, Option.map_some, Option.some.injEq] at hm
    subst hm
    refine guarded_strict ?_
    rw [respects_outTy (k2 fun _ => .int), h6, argTypes_length]

theorem guardedItems_ok (hu : UnitOutputs X p) : ExternOk (guardedItems X ds) p where
  consts := hX.consts
  nodes a f ins outs hm := by
    obtain ⟨m, k1, k2⟩ := hX.nodes a f ins outs hm
    have hd := (passes_extNode hp).2 a f ins outs (hq.mem_iff.2 hm)
    obtain ⟨-, h2, -⟩ := (passes_extNode hp).1 _ hd
    refine ⟨guarded (translateArgs ins).length (translateArgs outs).length m, ?_, fun θ => ?_⟩
    · simp only [guardedItems, k1, Option.map_some]
      dsimp only at h2
      rw [h2]
    · rw [← argTypes_length, ← argTypes_length]
      exact guarded_respects (fun he => hu a f ins outs m hm he k1) (k2 θ)

end

end Chandeliers.Quo
