import Verif.Lemmas.NodeTyping
import Verif.Lemmas.Clockcheck
import Verif.Spec.Blame

/-!
# What checks report
-/

set_option autoImplicit false

namespace Chandeliers.Tell
open Chandeliers.San Chandeliers.Spec Chandeliers.Err Chandeliers.Err.Chk

/-- Some messages are added to the errors, all with `P`, and no warnings. -/
def Adds {E : Type} (P : E → Prop) (a b : EAccum E) : Prop :=
  ∃ es, b = ⟨a.err ++ es, a.warn⟩ ∧ ∀ e ∈ es, P e

theorem Adds.refl {E : Type} {P : E → Prop} (a : EAccum E) : Adds P a a := ⟨[], by simp, by simp⟩

theorem Adds.trans {E : Type} {P : E → Prop} {a b c : EAccum E} (h : Adds P a b) (h' : Adds P b c) :
    Adds P a c := by
  obtain ⟨es, rfl, h1⟩ := h
  obtain ⟨es', rfl, h2⟩ := h'
  refine ⟨es ++ es', by simp, fun e he => ?_⟩
  rcases List.mem_append.1 he with he | he
  · exact h1 e he
  · exact h2 e he

theorem Adds.one {E : Type} {P : E → Prop} (a : EAccum E) {e : E} (h : P e) :
    Adds P a ⟨a.err ++ [e], a.warn⟩ := ⟨[e], rfl, by simpa using h⟩

theorem Adds.weaken {E : Type} {P P' : E → Prop} {a b : EAccum E} (h : Adds P a b)
    (hP : ∀ e, P e → P' e) : Adds P' a b := by
  obtain ⟨es, rfl, h1⟩ := h
  exact ⟨es, rfl, fun e he => hP e (h1 e he)⟩

/-- From states with `I` the computation ends in a state with `I`, only adds messages with `P`, and
its result has `Q`. -/
def Tells {E σ α : Type} (I : σ → Prop) (P : E → Prop) (m : Chk E σ α) (Q : α → Prop) : Prop :=
  ∀ a s, I s → I (m (a, s)).2.2 ∧ Adds P a (m (a, s)).2.1 ∧ ∀ x, (m (a, s)).1 = .some x → Q x

section
variable {E σ α β : Type} {I : σ → Prop} {P : E → Prop}

theorem pure {x : α} {Q : α → Prop} (h : Q x) : Tells I P (Pure.pure x : Chk E σ α) Q :=
  fun a s hs => ⟨hs, .refl a, fun y hy => by simp at hy; subst hy; exact h⟩

theorem unit {x : α} : Tells I P (Pure.pure x : Chk E σ α) (fun _ => True) := pure trivial

theorem error {e : E} {Q : α → Prop} (h : P e) : Tells I P (Chk.error e : Chk E σ α) Q :=
  fun a s hs => ⟨hs, .one a h, fun y hy => by simp [Chk.error] at hy⟩

theorem abort {Q : α → Prop} : Tells I P (Chk.abort : Chk E σ α) Q :=
  fun a s hs => ⟨hs, .refl a, fun y hy => by simp [Chk.abort] at hy⟩

theorem weaken {m : Chk E σ α} {Q R : α → Prop} (h : Tells I P m Q) (hq : ∀ x, Q x → R x) :
    Tells I P m R :=
  fun a s hs => ⟨(h a s hs).1, (h a s hs).2.1, fun x hx => hq x ((h a s hs).2.2 x hx)⟩

theorem because {P' : E → Prop} {m : Chk E σ α} {Q : α → Prop} (h : Tells I P m Q)
    (hp : ∀ e, P e → P' e) : Tells I P' m Q :=
  fun a s hs => ⟨(h a s hs).1, (h a s hs).2.1.weaken hp, (h a s hs).2.2⟩

theorem any {m : Chk E σ α} {Q : α → Prop} (h : Tells I P m Q) : Tells I P m (fun _ => True) :=
  weaken h fun _ _ => trivial

theorem bind {m : Chk E σ α} {f : α → Chk E σ β} {Q : α → Prop} {R : β → Prop} (hm : Tells I P m Q)
    (hf : ∀ x, Q x → Tells I P (f x) R) : Tells I P (m >>= f) R := by
  intro a s hs
  obtain ⟨h1, h2, h3⟩ := hm a s hs
  rw [run_bind]
  rcases hr : m (a, s) with ⟨r, a', s'⟩
  rw [hr] at h1 h2 h3
  cases r with
  | some x =>
    obtain ⟨k1, k2, k3⟩ := hf x (h3 x rfl) a' s' h1
    exact ⟨k1, h2.trans k2, k3⟩
  | none => exact ⟨h1, h2, fun y hy => by simp at hy⟩
  | abort => exact ⟨h1, h2, fun y hy => by simp at hy⟩

theorem opt {m : Chk E σ α} {Q : α → Prop} (hm : Tells I P m Q) :
    Tells I P (Chk.opt m) (fun o => ∀ x, o = some x → Q x) := by
  intro a s hs
  obtain ⟨h1, h2, h3⟩ := hm a s hs
  unfold Chk.opt
  rcases hr : m (a, s) with ⟨r, a', s'⟩
  rw [hr] at h1 h2 h3
  cases r with
  | some x =>
    refine ⟨h1, h2, fun y hy z hz => ?_⟩
    simp at hy
    subst hy
    cases hz
    exact h3 _ rfl
  | none =>
    refine ⟨h1, h2, fun y hy z hz => ?_⟩
    simp at hy
    subst hy
    cases hz
  | abort => exact ⟨h1, h2, fun y hy => by simp at hy⟩

theorem ofOption {o : Option α} {Q : α → Prop} (h : ∀ x, o = some x → Q x) :
    Tells I P (Chk.ofOption o : Chk E σ α) Q := by
  cases o with
  | none => exact fun a s hs => ⟨hs, .refl a, fun y hy => by simp [Chk.ofOption] at hy⟩
  | some x => exact pure (h x rfl)

theorem both {m : Chk E σ α} {n : Chk E σ β} {Q : α → Prop} {R : β → Prop} (hm : Tells I P m Q)
    (hn : Tells I P n R) : Tells I P (Chk.both m n) (fun p => Q p.1 ∧ R p.2) := by
  unfold Chk.both
  exact bind (opt hm) fun _ h1 => bind (opt hn) fun _ h2 => bind (ofOption h1) fun _ h3 =>
    bind (ofOption h2) fun _ h4 => pure ⟨h3, h4⟩

theorem get : Tells I P (Chk.get : Chk E σ σ) I :=
  fun a _ hs => ⟨hs, .refl a, fun y hy => by simp [Chk.get] at hy; subst hy; exact hs⟩

theorem modify {f : σ → σ} (h : ∀ s, I s → I (f s)) :
    Tells I P (Chk.modify f : Chk E σ Unit) (fun _ => True) :=
  fun a s hs => ⟨h s hs, .refl a, fun _ _ => trivial⟩

theorem inScope : (ms : List (Chk E σ Unit)) → (∀ m ∈ ms, Tells I P m fun _ => True) →
    Tells I P (Chk.inScope ms) fun _ => True
  | [], _ => by
    intro a s hs
    rw [inScope_run]
    exact ⟨by simpa [scopeLoop] using hs, by simpa [scopeLoop] using Adds.refl a, fun _ _ => trivial⟩
  | m :: ms, h => by
    intro a u hu
    rw [inScope_cons]
    obtain ⟨k1, k2, -⟩ := h m (by simp) a u hu
    have hms := inScope ms fun m hm => h m (by simp [hm])
    rcases h1 : m (a, u) with ⟨r, a1, u1⟩
    rw [h1] at k1 k2
    obtain ⟨l1, l2, -⟩ := hms a1 u1 k1
    cases r with
    | some _ => exact ⟨l1, k2.trans l2, fun _ _ => trivial⟩
    | abort => exact ⟨k1, k2, fun _ _ => trivial⟩
    | none =>
      simp only
      rcases h2 : Chk.inScope ms (a1, u1) with ⟨r2, a2, u2⟩
      rw [h2] at l1 l2
      cases r2 <;> exact ⟨l1, k2.trans l2, fun _ _ => trivial⟩

theorem scopeNil : Tells I P (Chk.inScope ([] : List (Chk E σ Unit))) fun _ => True :=
  inScope [] (by simp)

theorem scopeCons {m : Chk E σ Unit} {ms : List (Chk E σ Unit)} {Q R : Prop}
    (hm : Tells I P m fun _ => Q) (hms : Tells I P (Chk.inScope ms) fun _ => R) :
    Tells I P (Chk.inScope (m :: ms)) fun _ => Q ∧ R := by
  intro a u hu
  rw [inScope_cons]
  obtain ⟨k1, k2, k3⟩ := hm a u hu
  rcases h1 : m (a, u) with ⟨r, a1, u1⟩
  rw [h1] at k1 k2 k3
  obtain ⟨l1, l2, l3⟩ := hms a1 u1 k1
  cases r with
  | some x => exact ⟨l1, k2.trans l2, fun y hy => ⟨k3 x rfl, l3 y hy⟩⟩
  | abort => exact ⟨k1, k2, fun y hy => by simp at hy⟩
  | none =>
    simp only
    rcases h2 : Chk.inScope ms (a1, u1) with ⟨r2, a2, u2⟩
    rw [h2] at l1 l2
    cases r2 <;> exact ⟨l1, k2.trans l2, fun y hy => by simp at hy⟩

theorem ite {p : Prop} [Decidable p] {m n : Chk E σ α} {Q : α → Prop} (hm : p → Tells I P m Q)
    (hn : ¬ p → Tells I P n Q) : Tells I P (if p then m else n) Q := by
  split
  · exact hm ‹_›
  · exact hn ‹_›

end

theorem local_ {σ τ α : Type} {I : σ → Prop} {I' : τ → Prop} {P : Diag → Prop} {init : τ}
    {m : Chk Diag τ α} {Q : α → Prop} (hi : I' init) (hm : Tells I' P m Q) :
    Tells I P (San.Chk.local_ init m : Chk Diag σ (α × τ)) (fun p => Q p.1 ∧ I' p.2) := by
  intro a s hs
  obtain ⟨h1, h2, h3⟩ := hm a init hi
  rw [local_run]
  rcases hr : m (a, init) with ⟨r, a', t⟩
  rw [hr] at h1 h2 h3
  cases r with
  | some x =>
    refine ⟨hs, h2, fun y hy => ?_⟩
    simp at hy
    subst hy
    exact ⟨h3 x rfl, h1⟩
  | none => exact ⟨hs, h2, fun y hy => by simp at hy⟩
  | abort => exact ⟨hs, h2, fun y hy => by simp at hy⟩

end Chandeliers.Tell
