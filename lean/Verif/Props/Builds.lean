import Verif.Lemmas.Replace
import Verif.Spec.Builds
import Verif.Props.Replace

/-!
# Debug and release builds

C56.
-/

set_option autoImplicit false

namespace Chandeliers.Props
open Chandeliers.San Chandeliers.Spec Chandeliers.Syn Chandeliers.Err Chandeliers.Rep

/-- Overflow is forgiven. -/
abbrev IsArith : Panic → Prop := (· = .arith)

theorem checked_builds (A : Arith) (r : Int) :
    Upto IsArith Eq (· = ·) (checked (debugBuild A) r) (checked (releaseBuild A) r) := by
  unfold checked
  by_cases h : (Int64.ofInt r).toInt = r
  · rw [if_pos h, if_pos h]; rfl
  · rw [if_neg h, if_neg h]; rfl

theorem upto_map {α β : Type} (f : α → β) {x y : R α} (h : Upto IsArith Eq (· = ·) x y) :
    Upto IsArith Eq (· = ·) (x.map f) (y.map f) := by
  cases x <;> cases y <;> first | exact h | exact congrArg f h

theorem builds_ops (A : Arith) : SameOps IsArith Eq (debugBuild A) (releaseBuild A) where
  bin := by
    intro op x y
    have r : ∀ z : R Scalar, Upto IsArith Eq (· = ·) z z := both_refl fun _ => rfl
    cases x with
    | int a =>
      cases y with
      | int b =>
        unfold scalarBin
        refine upto_map _ ?_
        cases op <;> first | exact checked_builds A _ | exact both_refl (fun _ => rfl) _
      | _ => cases op <;> exact r _
    | _ => cases y <;> cases op <;> exact r _
  un := by
    intro op x
    have r : ∀ z : R Scalar, Upto IsArith Eq (· = ·) z z := both_refl fun _ => rfl
    cases x with
    | int a => cases op <;> first | exact upto_map _ (checked_builds A _) | exact r _
    | _ => cases op <;> exact r _
  cmp := fun _ _ _ => rfl

theorem same_builds {m m' : Machine} : SameBuilds m m' ↔ Milder IsArith Eq m m' := by
  constructor
  · rintro ⟨h1, h2⟩
    refine ⟨h1, fun is => ?_⟩
    rcases h2 is with h | h
    · rw [h]
      cases m'.run is
      · exact .inl rfl
      · rfl
    · rw [h]
      exact both_refl (fun _ => rfl) _
  · rintro ⟨h1, h2⟩
    refine ⟨h1, fun is => ?_⟩
    have := h2 is
    cases hm : m.run is <;> cases hm' : m'.run is <;> rw [hm, hm'] at this
    · rcases this with h | h
      · exact .inl (congrArg _ h)
      · exact .inr (congrArg _ h)
    · exact .inl (congrArg _ this)
    · exact this.elim
    · exact .inr (congrArg _ this)

/-- C56.  A node whose subnodes behave the same in both builds up to arithmetic errors behaves the
same in both builds up to arithmetic errors. -/
theorem C56_node (A : Arith) (glob : Globals) (n : Node) {ms ms' : List Machine}
    (h : List.Forall₂ SameBuilds ms ms') :
    SameBuilds (n.machine (debugBuild A) glob ms) (n.machine (releaseBuild A) glob ms') :=
  same_builds.2 (machine_alike (fun _ => rfl) (builds_ops A) n (h.imp fun _ _ => same_builds.1))

theorem cexpr_builds (A : Arith) (g : Globals) :
    (e : CExpr) → e.eval (debugBuild A) g = e.eval (releaseBuild A) g
  | .lit l => rfl
  | .ident x => rfl
  | .bin op l r => by
    simp only [CExpr.eval, cexpr_builds A g l, cexpr_builds A g r]; rfl
  | .un op e => by simp only [CExpr.eval, cexpr_builds A g e]; rfl
  | .cmp op l r => by
    simp only [CExpr.eval, cexpr_builds A g l, cexpr_builds A g r]; rfl
  | .tuple es => rfl
  | .ite c y n => by
    simp only [CExpr.eval, cexpr_builds A g c, cexpr_builds A g y, cexpr_builds A g n]

theorem linkConsts_builds (A : Arith) (X : Extern) : ∀ (ds : List San.Decl) (g : Globals),
    linkConsts (debugBuild A) X g ds = linkConsts (releaseBuild A) X g ds
  | [], g => rfl
  | .const c :: ds, g => by
    have : c.eval (debugBuild A) g = c.eval (releaseBuild A) g := by
      unfold Const.eval
      split
      · exact cexpr_builds A g _
      · rfl
    simp only [linkConsts, this]
    cases c.eval (releaseBuild A) g with
    | ok v => exact linkConsts_builds A X ds _
    | error p => rfl
  | .extConst c :: ds, g => by
    simp only [linkConsts]
    cases X.consts c.name with
    | some v => exact linkConsts_builds A X ds _
    | none => rfl
  | .node _ :: ds, g => by simp only [linkConsts]; exact linkConsts_builds A X ds g
  | .extNode _ :: ds, g => by simp only [linkConsts]; exact linkConsts_builds A X ds g

/-- C56.  In a whole program, linked with external items that behave the same in both builds up to
arithmetic errors: rustc refuses both builds or neither, for the same reason; the constants have the
same values; and on every history every node stops on an arithmetic error in the debug build, or does
the same in both builds. -/
theorem C56_program (A : Arith) {X X' : Extern}
    (h : SameBuildsOf X.consts X'.consts X.nodes X'.nodes) (ds : List San.Decl) :
    Both (· = ·) (fun I I' : Items => SameBuildsOf I.consts I'.consts I.nodes I'.nodes)
      (link (debugBuild A) X ds) (link (releaseBuild A) X' ds) := by
  unfold link
  rw [linkConsts_alike h.consts (debugBuild A) ds, linkConsts_builds]
  cases linkConsts (releaseBuild A) X' (fun _ => none) ds with
  | error p => rfl
  | ok g =>
    dsimp only
    have := linkNodes_alike (S := IsArith) (E := Eq) (fun _ => rfl)
      ⟨h.none, fun f m m' a b => same_builds.1 (h.nodes f m m' a b)⟩ (builds_ops A) g ds
      (N := fun _ => none) (N' := fun _ => none) ⟨fun _ => Iff.rfl, fun f m m' h => by cases h⟩
    cases h1 : linkNodes (debugBuild A) X g (fun _ => none) ds <;>
      cases h2 : linkNodes (releaseBuild A) X' g (fun _ => none) ds <;> rw [h1, h2] at this
    · exact this
    · exact this.elim
    · exact this.elim
    · exact ⟨rfl, this.none, fun f m m' a b => same_builds.2 (this.some f m m' a b)⟩

/-- C56.  What a debug build computes, the release build computes as well; and when the release build
panics, so does the debug build. -/
theorem C56_outputs {m m' : Machine} (h : SameBuilds m m') (is : List Value) :
    (∀ os, m.run is = .ok os → m'.run is = .ok os) ∧
      ∀ p, m'.run is = .error p → m.run is = .error p ∨ m.run is = .error .arith := by
  constructor
  · intro os ho
    rcases h.runs is with h | h
    · rw [h] at ho; cases ho
    · rw [← h]; exact ho
  · intro p hp
    rcases h.runs is with h | h
    · exact .inr h
    · exact .inl (h.trans hp)

/-! ## Example -/

/-- `node f(x: int) returns (y: int); let y = x + x; tel` -/
def exDouble : Node where
  name := "f"
  inputs := [⟨"x", .int, .implicit, 0⟩]
  outputs := [⟨"y", .int, .implicit, 0⟩]
  locals := []
  blocks := []
  stmts := [.let_ (.single "y") (.bin .add (.var "x" 0) (.var "x" 0))]
  registers := []
  flips := 0

/-- Non-vacuity of C56: the builds agree on 5, and differ on a history that overflows. -/
example : SameBuilds (exDouble.machine (debugBuild exArith) (fun _ => none) [])
      (exDouble.machine (releaseBuild exArith) (fun _ => none) []) ∧
    (exDouble.machine (debugBuild exArith) (fun _ => none) []).run [exInt 5] = .ok [exInt 10] ∧
    (exDouble.machine (debugBuild exArith) (fun _ => none) []).run
      [exInt 5, exInt 5000000000000000000] = .error .arith ∧
    (exDouble.machine (releaseBuild exArith) (fun _ => none) []).run
      [exInt 5, exInt 5000000000000000000] = .ok [exInt 10, exInt (-8446744073709551616)] :=
  ⟨C56_node exArith _ exDouble .nil, by rfl, by rfl, by rfl⟩

end Chandeliers.Props
