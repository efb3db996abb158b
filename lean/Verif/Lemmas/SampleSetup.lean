import Verif.Lemmas.SampleAdder
import Verif.Lemmas.SampleMain

/-!
# The conditions of the end-to-end theorems, for the programs that come with the project
-/

set_option autoImplicit false

namespace Chandeliers.Smp
open San Syn Err Spec Spec.Samples Props

/-- The external items are nodes without input, with one output of a basic type. -/
def Sourced (X : Extern) (p : SrcProg) : Prop :=
  ∀ d ∈ p, match d.item with
    | .extConst .. => False
    | .extNode f ins outs => ∃ ty m, Offered X f ty m ∧ argTypes ins = [] ∧ argTypes outs = [ty] ∧
        ∀ g, ty ≠ .other g
    | _ => True

theorem sourced_ok {X : Extern} {p : SrcProg} (h : Sourced X p) : ExternOk X p ∧ UnitOutputs X p := by
  refine ⟨⟨fun a x ty hm => (h _ hm).elim, fun a f ins outs hm => ?_⟩, fun a f ins outs m hm he => ?_⟩
  · obtain ⟨ty, m, ⟨hx, hr⟩, h1, h2, h3⟩ := h _ hm
    refine ⟨m, hx, fun θ => ?_⟩
    rw [h1, h2]
    have : substTy θ (flatTuple [ty]) = .single ty := by
      cases ty with
      | other g => exact absurd rfl (h3 g)
      | _ => rfl
    rw [this]
    exact hr
  · obtain ⟨ty, m, -, -, h2, -⟩ := h _ hm
    rw [he] at h2
    cases h2

theorem tidy_of {p : SrcProg} (h : p.all (fun d => !hasAny d.attrs ["universal_pre"]) = true) : TidyProg p := by
  intro attrs src hm hu
  have := List.all_eq_true.1 h _ hm
  simp [hu] at this

/-- Constants that are literals. -/
def literal (p : SrcProg) : Bool :=
  p.all fun d => match d.item with
    | .const c => match c.translate with
      | .ok c' => match c'.value.constTokens with
        | some (.lit _) => true
        | _ => false
      | .error _ => true
    | _ => true

theorem literal_computes {A : Arith} {p : SrcProg} (h : literal p = true) : Computes A p := by
  intro attrs c hm c' ht g he
  have h1 := List.all_eq_true.1 h _ hm
  simp only [ht] at h1
  unfold Const.eval at he
  split at h1
  · rename_i h2
    rw [h2] at he
    cases he
  · cases h1

/-- All the conditions that can be computed. -/
def fine (p : SrcProg) : Bool :=
  clean p && p.all (fun d => !hasAny d.attrs ["universal_pre"]) && literal p &&
    p.all fun d => decide (meaning d.attrs).generics.Nodup

theorem setup {ts : List Tok} {p : SrcProg} (uid : Nat) (A : Arith) (X : Extern)
    (hr : parseProg ts = some p) (hf : fine p = true) (hs : Sourced X p) :
    ∃ consts nodes I, Emits uid A X ts I ∧ Facts uid A X p consts nodes I := by
  simp only [fine, Bool.and_eq_true] at hf
  obtain ⟨hX, hu⟩ := sourced_ok hs
  exact facts uid A X hr hf.1.1.1 hX hu (fun d hd => by simpa using List.all_eq_true.1 hf.2 d hd)
    (tidy_of hf.1.1.2) (literal_computes hf.1.2)

theorem no_extern {X : Extern} {p : SrcProg} (h : p.all (fun d => match d.item with
    | .extConst .. => false | .extNode .. => false | _ => true) = true) : Sourced X p := by
  intro d hd
  have := List.all_eq_true.1 h d hd
  revert this
  cases d.item <;> simp

end Chandeliers.Smp
