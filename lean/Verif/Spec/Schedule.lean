import Mathlib.Logic.Relation
import Verif.San.Graph

/-!
# Specification of scheduling

What a valid set of definitions and a valid execution order are, in terms of what each object
provides and requires only.
-/

namespace Chandeliers.Spec
open San

variable {Obj U : Type} [Depends Obj U]

/-- `u` directly needs `w`: some object defines `u` from `w`. -/
def Needs (objs : List Obj) (u w : U) : Prop :=
  ∃ o ∈ objs, u ∈ Depends.provides o ∧ w ∈ Depends.requires o

/-- `u` needs itself, in one or more steps. -/
def OnCycle (objs : List Obj) (u : U) : Prop := Relation.TransGen (Needs objs) u u

/-- A set of objects that has a valid execution order: nothing from the context is redefined,
nothing is defined twice, everything in the interface is defined, nothing needs itself. -/
structure Schedulable (context : List U) (objs : List Obj) (interface : List U) : Prop where
  context : ∀ u ∈ context, ∀ o ∈ objs, u ∉ Depends.provides o
  once : (objs.flatMap Depends.provides).Nodup
  declared : ∀ u ∈ interface, ∃ o ∈ objs, u ∈ Depends.provides o
  acyclic : ∀ u : U, ¬ OnCycle objs u

/-- In `s`, every object comes strictly after every object that defines something it needs. -/
def DefinedBeforeUse (s : List Obj) : Prop :=
  ∀ l₁ o l₂, s = l₁ ++ o :: l₂ →
    ∀ u ∈ Depends.requires o, ∀ o' ∈ s, u ∈ Depends.provides o' → o' ∈ l₁

/-- What an error of the scheduler claims about the input.  An internal abort or an endless
recursion is never truthful. -/
def Truthful [DecidableEq U] (ctx : List U) (objs : List Obj) (iface : List U) : GErr U → Prop
  | .undeclared u => u ∈ iface ∧ ∀ o ∈ objs, u ∉ Depends.provides o
  | .providedByContext u => u ∈ ctx ∧ ∃ o ∈ objs, u ∈ Depends.provides o
  | .declTwice u => 2 ≤ (objs.flatMap Depends.provides).count u
  | .dependsOnItself u => ∃ o ∈ objs, u ∈ Depends.provides o ∧ u ∈ Depends.requires o
  | .cycle us => 2 ≤ us.length ∧ us.Nodup ∧
      (∀ u ∈ us, ∀ w ∈ us, Relation.ReflTransGen (Needs objs) u w) ∧
      ∀ u ∈ us, ∀ w, Relation.TransGen (Needs objs) u w → Relation.TransGen (Needs objs) w u → w ∈ us
  | .abort => False
  | .fuel => False

end Chandeliers.Spec
