import Verif.Spec.Streams
import Verif.Lemmas.Denote

/-!
# What the value of an expression depends on
-/

set_option autoImplicit false

namespace Chandeliers.Den
open San Spec

theorem iter_congr {σ : Type} {f g : Nat → σ → R σ} {s : σ} {lo : Nat} : ∀ {t : Nat},
    (∀ u, u < t → f u = g u) → iter f s lo t = iter g s lo t
  | 0, _ => rfl
  | t + 1, h => by
    simp only [iter]
    rw [iter_congr fun u hu => h u (by omega), h t (by omega)]

section
variable {A : Arith} {glob : Globals} {ms : List Machine} {F F' : Flow} {V : String → Prop}

mutual
/-- The variables of an expression are among some variables. -/
def VarsIn (V : String → Prop) : Expr → Prop
  | .lit _ => True
  | .global _ => True
  | .var x _ => V x
  | .tuple es => VarsInList V es
  | .dummyPre e => VarsIn V e
  | .dummyParen e => VarsIn V e
  | .bin _ l r => VarsIn V l ∧ VarsIn V r
  | .un _ e => VarsIn V e
  | .cmp _ l r => VarsIn V l ∧ VarsIn V r
  | .clock _ e b => VarsIn V e ∧ VarsIn V b
  | .later _ b a => VarsIn V b ∧ VarsIn V a
  | .fetchPre _ f => VarsIn V f
  | .fetchFby _ i f => VarsIn V i ∧ VarsIn V f
  | .flip _ i c => VarsIn V i ∧ VarsIn V c
  | .ifx b y n => VarsIn V b ∧ VarsIn V y ∧ VarsIn V n
  | .merge b y n => VarsIn V b ∧ VarsIn V y ∧ VarsIn V n
  | .substep _ _ a => VarsIn V a
/-- All of them. -/
def VarsInList (V : String → Prop) : List Expr → Prop
  | [] => True
  | e :: es => VarsIn V e ∧ VarsInList V es
end

/-- The streams are the same at an instant. -/
structure SameAt (V : String → Prop) (F F' : Flow) (t : Nat) : Prop where
  vars : ∀ x, V x → F.X x t = F'.X x t
  clocks : ∀ id, F.C id t = F'.C id t

mutual
/-- What the expression reads at instant `t` is the same. -/
def SameNow (F F' : Flow) (t : Nat) : Expr → Prop
  | .lit _ => True
  | .global _ => True
  | .var x d => d = 0 → F.X x t = F'.X x t
  | .tuple es => SameNowList F F' t es
  | .dummyPre e => SameNow F F' t e
  | .dummyParen e => SameNow F F' t e
  | .bin _ l r => SameNow F F' t l ∧ SameNow F F' t r
  | .un _ e => SameNow F F' t e
  | .cmp _ l r => SameNow F F' t l ∧ SameNow F F' t r
  | .clock _ e b => SameNow F F' t e ∧ SameNow F F' t b
  | .later _ b a => SameNow F F' t b ∧ SameNow F F' t a
  | .fetchPre id _ => F.C id t = F'.C id t
  | .fetchFby id i _ => F.C id t = F'.C id t ∧ SameNow F F' t i
  | .flip _ i c => SameNow F F' t i ∧ SameNow F F' t c
  | .ifx b y n => SameNow F F' t b ∧ SameNow F F' t y ∧ SameNow F F' t n
  | .merge b y n => SameNow F F' t b ∧ SameNow F F' t y ∧ SameNow F F' t n
  | .substep _ _ a => SameNow F F' t a
/-- All of them. -/
def SameNowList (F F' : Flow) (t : Nat) : List Expr → Prop
  | [] => True
  | e :: es => SameNow F F' t e ∧ SameNowList F F' t es
end

mutual
theorem SameAt.now {t : Nat} (h : SameAt V F F' t) : (e : Expr) → VarsIn V e → SameNow F F' t e
  | .lit _, _ => trivial
  | .global _, _ => trivial
  | .var x _, hv => fun _ => h.vars x hv
  | .tuple es, hv => by have := h.nowList es hv; simpa [SameNow] using this
  | .dummyPre e, hv => by have := h.now e hv; simpa [SameNow] using this
  | .dummyParen e, hv => by have := h.now e hv; simpa [SameNow] using this
  | .bin _ l r, hv => ⟨h.now l hv.1, h.now r hv.2⟩
  | .un _ e, hv => by have := h.now e hv; simpa [SameNow] using this
  | .cmp _ l r, hv => ⟨h.now l hv.1, h.now r hv.2⟩
  | .clock _ e b, hv => ⟨h.now e hv.1, h.now b hv.2⟩
  | .later _ b a, hv => ⟨h.now b hv.1, h.now a hv.2⟩
  | .fetchPre id _, _ => h.clocks id
  | .fetchFby id i _, hv => ⟨h.clocks id, h.now i hv.1⟩
  | .flip _ i c, hv => ⟨h.now i hv.1, h.now c hv.2⟩
  | .ifx b y n, hv => ⟨h.now b hv.1, h.now y hv.2.1, h.now n hv.2.2⟩
  | .merge b y n, hv => ⟨h.now b hv.1, h.now y hv.2.1, h.now n hv.2.2⟩
  | .substep _ _ a, hv => by have := h.now a hv; simpa [SameNow] using this
theorem SameAt.nowList {t : Nat} (h : SameAt V F F' t) : (es : List Expr) → VarsInList V es →
    SameNowList F F' t es
  | [], _ => trivial
  | e :: es, hv => ⟨h.now e hv.1, h.nowList es hv.2⟩
end

mutual
/-- The value of an expression depends on the past and on what it reads. -/
theorem den_same (hs : F.shape = F'.shape) : (e : Expr) → ∀ {lo t : Nat},
    VarsIn V e →
    (∀ u, u < t → SameAt V F F' u) → SameNow F F' t e →
    den A glob ms F lo e t = den A glob ms F' lo e t
  | .lit _, lo, t, hv, hp, h => by simp [den]
  | .global _, lo, t, hv, hp, h => by simp [den]
  | .var x d, lo, t, hv, hp, h => by
    simp only [den]
    split
    · rfl
    · by_cases hd : d = 0
      · subst hd
        have := h rfl
        simp [this]
      · rw [(hp (t - d) (by omega)).vars x hv]
  | .tuple es, lo, t, hv, hp, h => by simp only [den]; rw [denList_same hs es hv hp h]
  | .dummyPre e, lo, t, hv, hp, h => by simp only [den]; exact den_same hs e hv hp h
  | .dummyParen e, lo, t, hv, hp, h => by simp only [den]; exact den_same hs e hv hp h
  | .bin _ l r, lo, t, hv, hp, h => by
    simp only [den]; rw [den_same hs l hv.1 hp h.1, den_same hs r hv.2 hp h.2]
  | .un _ e, lo, t, hv, hp, h => by simp only [den]; rw [den_same hs e hv hp h]
  | .cmp _ l r, lo, t, hv, hp, h => by
    simp only [den]; rw [den_same hs l hv.1 hp h.1, den_same hs r hv.2 hp h.2]
  | .clock _ e b, lo, t, hv, hp, h => by
    simp only [den]; rw [den_same hs e hv.1 hp h.1, den_same hs b hv.2 hp h.2]
  | .later _ b a, lo, t, hv, hp, h => by
    simp only [den]; rw [den_same hs b hv.1 hp h.1, den_same hs a hv.2 hp h.2]
  | .fetchPre id f, lo, t, hv, hp, h => by
    have h1 : preReg F id (den A glob ms F 0 f) t = preReg F' id (den A glob ms F' 0 f) t := by
      simp only [preReg, hs]
      refine iter_congr fun u hu => ?_
      rw [(hp u hu).clocks, den_same hs f hv (fun w hw => hp w (by omega)) ((hp u hu).now f hv)]
    simp only [den]
    rw [h1, show F.C id t = F'.C id t from h]
  | .fetchFby id i f, lo, t, hv, hp, h => by
    have h1 : fbyReg F id (den A glob ms F 0 i) (den A glob ms F 0 f) t =
        fbyReg F' id (den A glob ms F' 0 i) (den A glob ms F' 0 f) t := by
      simp only [fbyReg, hs]
      refine iter_congr fun u hu => ?_
      rw [(hp u hu).clocks, den_same hs f hv.2 (fun w hw => hp w (by omega)) ((hp u hu).now f hv.2),
        den_same hs i hv.1 (fun w hw => hp w (by omega)) ((hp u hu).now i hv.1)]
    simp only [den]
    rw [h1, h.1, den_same hs i hv.1 hp h.2]
  | .flip _ i c, lo, t, hv, hp, h => by
    have h1 : flipFresh (den A glob ms F lo i) lo t = flipFresh (den A glob ms F' lo i) lo t := by
      simp only [flipFresh]
      refine iter_congr fun u hu => ?_
      rw [den_same hs i hv.1 (fun w hw => hp w (by omega)) ((hp u hu).now i hv.1)]
    simp only [den]
    rw [h1, den_same hs i hv.1 hp h.1, den_same hs c hv.2 hp h.2]
  | .ifx b y n, lo, t, hv, hp, h => by
    simp only [den]
    rw [den_same hs b hv.1 hp h.1, den_same hs y hv.2.1 hp h.2.1, den_same hs n hv.2.2 hp h.2.2]
  | .merge b y n, lo, t, hv, hp, h => by
    simp only [den]
    rw [den_same hs b hv.1 hp h.1, den_same hs y hv.2.1 hp h.2.1, den_same hs n hv.2.2 hp h.2.2]
  | .substep d i a, lo, t, hv, hp, h => by
    have h1 : ∀ m, subState m (den A glob ms F (max lo d) a) (max lo d) t =
        subState m (den A glob ms F' (max lo d) a) (max lo d) t := by
      intro m
      simp only [subState]
      refine iter_congr fun u hu => ?_
      rw [den_same hs a hv (fun w hw => hp w (by omega)) ((hp u hu).now a hv)]
    simp only [den]
    rw [den_same hs a hv hp h]
    simp only [h1]
theorem denList_same (hs : F.shape = F'.shape) : (es : List Expr) → ∀ {lo t : Nat},
    VarsInList V es →
    (∀ u, u < t → SameAt V F F' u) → SameNowList F F' t es →
    denList A glob ms F lo es t = denList A glob ms F' lo es t
  | [], lo, t, hv, hp, h => by simp [denList]
  | e :: es, lo, t, hv, hp, h => by
    simp only [denList]; rw [den_same hs e hv.1 hp h.1, denList_same hs es hv.2 hp h.2]
end

mutual
/-- What an expression reads at an instant is in its parts. -/
theorem sameNow_of_parts {t : Nat} : (e : Expr) →
    (∀ x, Part (.var x 0) e → F.X x t = F'.X x t) →
    (∀ id f, Part (.fetchPre id f) e → F.C id t = F'.C id t) →
    (∀ id i f, Part (.fetchFby id i f) e → F.C id t = F'.C id t ∧ SameNow F F' t i) →
    SameNow F F' t e
  | .lit _, _, _, _ => trivial
  | .global _, _, _, _ => trivial
  | .var x d, h1, _, _ => fun hd => h1 x (hd ▸ .refl)
  | .tuple es, h1, h2, h3 => by
    have := sameNowList_of_parts es (fun e he x h => h1 x (h.tail (.tuple he)))
      (fun e he id f h => h2 id f (h.tail (.tuple he)))
      (fun e he id i f h => h3 id i f (h.tail (.tuple he)))
    simpa [SameNow] using this
  | .dummyPre e, h1, h2, h3 => by
    have := sameNow_of_parts e (fun x h => h1 x (h.tail .dummyPre))
      (fun id f h => h2 id f (h.tail .dummyPre)) (fun id i f h => h3 id i f (h.tail .dummyPre))
    simpa [SameNow] using this
  | .dummyParen e, h1, h2, h3 => by
    have := sameNow_of_parts e (fun x h => h1 x (h.tail .dummyParen))
      (fun id f h => h2 id f (h.tail .dummyParen)) (fun id i f h => h3 id i f (h.tail .dummyParen))
    simpa [SameNow] using this
  | .bin _ l r, h1, h2, h3 =>
    ⟨sameNow_of_parts l (fun x h => h1 x (h.tail .binL))
      (fun id f h => h2 id f (h.tail .binL)) (fun id i f h => h3 id i f (h.tail .binL)),
     sameNow_of_parts r (fun x h => h1 x (h.tail .binR))
      (fun id f h => h2 id f (h.tail .binR)) (fun id i f h => h3 id i f (h.tail .binR))⟩
  | .un _ e, h1, h2, h3 => by
    have := sameNow_of_parts e (fun x h => h1 x (h.tail .un))
      (fun id f h => h2 id f (h.tail .un)) (fun id i f h => h3 id i f (h.tail .un))
    simpa [SameNow] using this
  | .cmp _ l r, h1, h2, h3 =>
    ⟨sameNow_of_parts l (fun x h => h1 x (h.tail .cmpL))
      (fun id f h => h2 id f (h.tail .cmpL)) (fun id i f h => h3 id i f (h.tail .cmpL)),
     sameNow_of_parts r (fun x h => h1 x (h.tail .cmpR))
      (fun id f h => h2 id f (h.tail .cmpR)) (fun id i f h => h3 id i f (h.tail .cmpR))⟩
  | .clock _ e b, h1, h2, h3 =>
    ⟨sameNow_of_parts e (fun x h => h1 x (h.tail .clockInner))
      (fun id f h => h2 id f (h.tail .clockInner)) (fun id i f h => h3 id i f (h.tail .clockInner)),
     sameNow_of_parts b (fun x h => h1 x (h.tail .clockGuard))
      (fun id f h => h2 id f (h.tail .clockGuard)) (fun id i f h => h3 id i f (h.tail .clockGuard))⟩
  | .later _ b a, h1, h2, h3 =>
    ⟨sameNow_of_parts b (fun x h => h1 x (h.tail .laterBefore))
      (fun id f h => h2 id f (h.tail .laterBefore)) (fun id i f h => h3 id i f (h.tail .laterBefore)),
     sameNow_of_parts a (fun x h => h1 x (h.tail .laterAfter))
      (fun id f h => h2 id f (h.tail .laterAfter)) (fun id i f h => h3 id i f (h.tail .laterAfter))⟩
  | .fetchPre id f, _, h2, _ => h2 id f .refl
  | .fetchFby id i f, _, _, h3 => h3 id i f .refl
  | .flip _ i c, h1, h2, h3 =>
    ⟨sameNow_of_parts i (fun x h => h1 x (h.tail .flipInitial))
      (fun id f h => h2 id f (h.tail .flipInitial)) (fun id i f h => h3 id i f (h.tail .flipInitial)),
     sameNow_of_parts c (fun x h => h1 x (h.tail .flipContinued))
      (fun id f h => h2 id f (h.tail .flipContinued))
      (fun id i f h => h3 id i f (h.tail .flipContinued))⟩
  | .ifx b y n, h1, h2, h3 =>
    ⟨sameNow_of_parts b (fun x h => h1 x (h.tail .ifCond))
      (fun id f h => h2 id f (h.tail .ifCond)) (fun id i f h => h3 id i f (h.tail .ifCond)),
     sameNow_of_parts y (fun x h => h1 x (h.tail .ifYes))
      (fun id f h => h2 id f (h.tail .ifYes)) (fun id i f h => h3 id i f (h.tail .ifYes)),
     sameNow_of_parts n (fun x h => h1 x (h.tail .ifNo))
      (fun id f h => h2 id f (h.tail .ifNo)) (fun id i f h => h3 id i f (h.tail .ifNo))⟩
  | .merge b y n, h1, h2, h3 =>
    ⟨sameNow_of_parts b (fun x h => h1 x (h.tail .mergeSwitch))
      (fun id f h => h2 id f (h.tail .mergeSwitch)) (fun id i f h => h3 id i f (h.tail .mergeSwitch)),
     sameNow_of_parts y (fun x h => h1 x (h.tail .mergeOn))
      (fun id f h => h2 id f (h.tail .mergeOn)) (fun id i f h => h3 id i f (h.tail .mergeOn)),
     sameNow_of_parts n (fun x h => h1 x (h.tail .mergeOff))
      (fun id f h => h2 id f (h.tail .mergeOff)) (fun id i f h => h3 id i f (h.tail .mergeOff))⟩
  | .substep _ _ a, h1, h2, h3 => by
    have := sameNow_of_parts a (fun x h => h1 x (h.tail .arg))
      (fun id f h => h2 id f (h.tail .arg)) (fun id i f h => h3 id i f (h.tail .arg))
    simpa [SameNow] using this
theorem sameNowList_of_parts {t : Nat} : (es : List Expr) →
    (∀ e ∈ es, ∀ x, Part (.var x 0) e → F.X x t = F'.X x t) →
    (∀ e ∈ es, ∀ id f, Part (.fetchPre id f) e → F.C id t = F'.C id t) →
    (∀ e ∈ es, ∀ id i f, Part (.fetchFby id i f) e → F.C id t = F'.C id t ∧ SameNow F F' t i) →
    SameNowList F F' t es
  | [], _, _, _ => trivial
  | e :: es, h1, h2, h3 =>
    ⟨sameNow_of_parts e (h1 e (List.mem_cons_self ..)) (h2 e (List.mem_cons_self ..))
      (h3 e (List.mem_cons_self ..)),
     sameNowList_of_parts es (fun e he => h1 e (List.mem_cons_of_mem _ he))
      (fun e he => h2 e (List.mem_cons_of_mem _ he)) (fun e he => h3 e (List.mem_cons_of_mem _ he))⟩
end

end

end Chandeliers.Den
