import Verif.Lemmas.Replace
import Verif.Props.Std

/-!
# Replacing a node by another

C53.
-/

set_option autoImplicit false

namespace Chandeliers.Props
open Chandeliers.San Chandeliers.Spec Chandeliers.Syn Chandeliers.Err Chandeliers.Rep

/-- C53.  A node does not see how the nodes that it calls work: if each is replaced by one that behaves
the same, it behaves the same.  `E` says which panics are considered the same: all of them, or
each only like itself. -/
theorem C53_node {E : Panic → Panic → Prop} (hE : ∀ p, E p p) (A : Arith) (glob : Globals) (n : Node)
    {ms ms' : List Machine} (h : List.Forall₂ (Alike E) ms ms') :
    Alike E (n.machine A glob ms) (n.machine A glob ms') :=
  machine_same hE A glob n h

/-- C53.  The structs that are emitted around a node do not reveal how it works. -/
theorem C53_wrappers {E : Panic → Panic → Prop} {m m' : Machine} (h : Alike E m m') :
    Alike E (wrapExtern m) (wrapExtern m') ∧ Alike E (wrapExport m) (wrapExport m') :=
  ⟨alike_milder.2 (wrapExtern_alike (alike_milder.1 h)),
    alike_milder.2 (wrapExport_alike (alike_milder.1 h))⟩

/-- C53.  In a whole program: when the external items are replaced by others of the same types that
behave the same, rustc accepts the program as it did or refuses it as it did, and every item of the
program behaves the same. -/
theorem C53_program {E : Panic → Panic → Prop} (hE : ∀ p, E p p) (A : Arith) {X X' : Extern}
    (h : AlikeItems E X.consts X'.consts X.nodes X'.nodes) (ds : List San.Decl) :
    Both (· = ·) (fun I I' : Items => AlikeItems E I.consts I'.consts I.nodes I'.nodes)
      (link A X ds) (link A X' ds) := by
  unfold link
  rw [linkConsts_alike h.consts A ds]
  cases linkConsts A X' (fun _ => none) ds with
  | error p => rfl
  | ok g =>
    dsimp only
    have := linkNodes_alike hE (S := Rep.None)
      ⟨h.none, fun f m m' a b => alike_milder.1 (h.nodes f m m' a b)⟩ (SameOps.refl hE A) g ds (N := fun _ => none) (N' := fun _ => none)
      ⟨fun _ => Iff.rfl, fun f m m' h => by cases h⟩
    cases h1 : linkNodes A X g (fun _ => none) ds <;> cases h2 : linkNodes A X' g (fun _ => none) ds <;>
      rw [h1, h2] at this
    · exact this
    · exact this.elim
    · exact this.elim
    · exact ⟨rfl, this.none, fun f m m' a b => alike_milder.2 (this.some f m m' a b)⟩

/-! ## Example

An external node `next` that remembers what it has seen, and one that does not. -/

/-- Adds one, and remembers all its inputs for nothing. -/
def exHoarder : Machine where
  σ := List Value
  init := []
  outTy := .leaf ()
  step := fun s i => match i with
    | .leaf (.defined (.int x)) => .ok (.leaf (.defined (.int (x + 1))), i :: s)
    | _ => .ok (.leaf .nil, i :: s)

theorem exHoarder_alike : Alike Eq exNext exHoarder := alike_milder.2 {
  type := rfl
  runs := by
    refine alike_init.2 (same_of_bisim (m := exNext) (m' := exHoarder) (fun _ _ => True) ?_ _ _ trivial)
    intro s s' i _
    cases i with
    | tup _ _ => exact ⟨rfl, trivial⟩
    | leaf v =>
      cases v with
      | nil => exact ⟨rfl, trivial⟩
      | defined x => cases x <;> exact ⟨rfl, trivial⟩ }

/-- Non-vacuity of C53: the program of C30 with either. -/
example : ∃ w p' I, decl (compile exChoose) = .done w (some p') ∧
    link exArith exChooseExtern p'.decls = .ok I ∧ (I.nodes "choose").isSome = true ∧
    ∃ I', link exArith ⟨fun _ => none, fun f => if f = "next" then some exHoarder else none⟩ p'.decls =
      .ok I' ∧ AlikeItems Eq I.consts I'.consts I.nodes I'.nodes := by
  have h : ((itemsOf exChooseExtern exChoose).bind (·.nodes "choose")).isSome = true := by
    decide +kernel
  obtain ⟨m, h⟩ := Option.isSome_iff_exists.1 h
  obtain ⟨I, h0, hm⟩ := Option.bind_eq_some_iff.1 h
  obtain ⟨w, p', h1, hl⟩ := itemsOf_some h0
  have := C53_program (E := Eq) (fun _ => rfl) exArith (X := exChooseExtern)
    (X' := ⟨fun _ => none, fun f => if f = "next" then some exHoarder else none⟩) (by
      refine ⟨rfl, fun f => ?_, fun f m m' h h' => ?_⟩
      · by_cases hf : f = "next" <;> simp [exChooseExtern, hf]
      · by_cases hf : f = "next"
        · simp only [exChooseExtern, hf, if_true, Option.some.injEq] at h h'
          subst h h'
          exact exHoarder_alike
        · simp [exChooseExtern, hf] at h) p'.decls
  refine ⟨w, p', I, h1, hl, by rw [hm]; rfl, ?_⟩
  rw [hl] at this
  cases hl' : link exArith ⟨fun _ => none, fun f => if f = "next" then some exHoarder else none⟩
      p'.decls with
  | error p => rw [hl'] at this; exact this.elim
  | ok I' => rw [hl'] at this; exact ⟨I', rfl, this⟩

end Chandeliers.Props
