import Verif.Lemmas.Passes

/-! What the passes leave of a node is typed and in order. -/

set_option autoImplicit false

namespace Chandeliers.Den
open Chandeliers.San Chandeliers.Spec Chandeliers.Syn Chandeliers.Err

/-! ## Everything inside an expression -/

mutual
/-- The expressions inside an expression, what feeds registers included. -/
def inside : Expr → List Expr
  | .lit l => [.lit l]
  | .global x => [.global x]
  | .var x d => [.var x d]
  | .tuple es => .tuple es :: insideList es
  | .dummyPre e => .dummyPre e :: inside e
  | .dummyParen e => .dummyParen e :: inside e
  | .bin op l r => .bin op l r :: (inside l ++ inside r)
  | .un op e => .un op e :: inside e
  | .cmp op l r => .cmp op l r :: (inside l ++ inside r)
  | .clock op e b => .clock op e b :: (inside e ++ inside b)
  | .later d e e' => .later d e e' :: (inside e ++ inside e')
  | .fetchPre id f => .fetchPre id f :: inside f
  | .fetchFby id i f => .fetchFby id i f :: (inside i ++ inside f)
  | .flip id e e' => .flip id e e' :: (inside e ++ inside e')
  | .ifx b y n => .ifx b y n :: (inside b ++ (inside y ++ inside n))
  | .merge b y n => .merge b y n :: (inside b ++ (inside y ++ inside n))
  | .substep d id e => .substep d id e :: inside e
/-- Of a list. -/
def insideList : List Expr → List Expr
  | [] => []
  | e :: es => inside e ++ insideList es
end

mutual
theorem occurrences_inside {x : String} {d : Nat} : (e : Expr) → (x, d) ∈ occurrences e →
    .var x d ∈ inside e
  | .lit _, h => by simp [occurrences] at h
  | .global _, h => by simp [occurrences] at h
  | .var _ _, h => by simpa [inside, occurrences] using h
  | .tuple es, h => by
    have := occurrences_insideList (x := x) (d := d) es
    simp only [occurrences, inside] at h ⊢; grind
  | .dummyPre e, h => by
    have := occurrences_inside (x := x) (d := d) e
    simp only [occurrences, inside] at h ⊢; grind
  | .dummyParen e, h => by
    have := occurrences_inside (x := x) (d := d) e
    simp only [occurrences, inside] at h ⊢; grind
  | .un _ e, h => by
    have := occurrences_inside (x := x) (d := d) e
    simp only [occurrences, inside] at h ⊢; grind
  | .substep _ _ e, h => by
    have := occurrences_inside (x := x) (d := d) e
    simp only [occurrences, inside] at h ⊢; grind
  | .fetchPre _ e, h => by
    have := occurrences_inside (x := x) (d := d) e
    simp only [occurrences, inside] at h ⊢; grind
  | .bin _ l r, h => by
    have := occurrences_inside (x := x) (d := d) l
    have := occurrences_inside (x := x) (d := d) r
    simp only [occurrences, inside] at h ⊢; grind
  | .cmp _ l r, h => by
    have := occurrences_inside (x := x) (d := d) l
    have := occurrences_inside (x := x) (d := d) r
    simp only [occurrences, inside] at h ⊢; grind
  | .clock _ l r, h => by
    have := occurrences_inside (x := x) (d := d) l
    have := occurrences_inside (x := x) (d := d) r
    simp only [occurrences, inside] at h ⊢; grind
  | .later _ l r, h => by
    have := occurrences_inside (x := x) (d := d) l
    have := occurrences_inside (x := x) (d := d) r
    simp only [occurrences, inside] at h ⊢; grind
  | .flip _ l r, h => by
    have := occurrences_inside (x := x) (d := d) l
    have := occurrences_inside (x := x) (d := d) r
    simp only [occurrences, inside] at h ⊢; grind
  | .fetchFby _ l r, h => by
    have := occurrences_inside (x := x) (d := d) l
    have := occurrences_inside (x := x) (d := d) r
    simp only [occurrences, inside] at h ⊢; grind
  | .ifx b y n, h => by
    have := occurrences_inside (x := x) (d := d) b
    have := occurrences_inside (x := x) (d := d) y
    have := occurrences_inside (x := x) (d := d) n
    simp only [occurrences, inside] at h ⊢; grind
  | .merge b y n, h => by
    have := occurrences_inside (x := x) (d := d) b
    have := occurrences_inside (x := x) (d := d) y
    have := occurrences_inside (x := x) (d := d) n
    simp only [occurrences, inside] at h ⊢; grind
theorem occurrences_insideList {x : String} {d : Nat} : (es : List Expr) →
    (x, d) ∈ occurrencesList es → .var x d ∈ insideList es
  | [], h => by simp [occurrencesList] at h
  | e :: es, h => by
    have := occurrences_inside (x := x) (d := d) e
    have := occurrences_insideList (x := x) (d := d) es
    simp only [occurrencesList, insideList] at h ⊢; grind
end

mutual
theorem flips_inside {i : Nat} : (e : Expr) → .flip i ∈ slots e → ∃ a b, .flip i a b ∈ inside e
  | .lit _, h => by simp [slots] at h
  | .global _, h => by simp [slots] at h
  | .var _ _, h => by simp [slots] at h
  | .tuple es, h => by
    have := flips_insideList (i := i) es
    simp only [slots, inside] at h ⊢; grind
  | .dummyPre e, h => by
    have := flips_inside (i := i) e
    simp only [slots, inside] at h ⊢; grind
  | .dummyParen e, h => by
    have := flips_inside (i := i) e
    simp only [slots, inside] at h ⊢; grind
  | .un _ e, h => by
    have := flips_inside (i := i) e
    simp only [slots, inside] at h ⊢; grind
  | .substep _ _ e, h => by
    have := flips_inside (i := i) e
    simp only [slots, inside] at h ⊢; grind
  | .fetchPre _ e, h => by
    have := flips_inside (i := i) e
    simp only [slots, inside] at h ⊢; grind
  | .bin _ l r, h => by
    have := flips_inside (i := i) l
    have := flips_inside (i := i) r
    simp only [slots, inside] at h ⊢; grind
  | .cmp _ l r, h => by
    have := flips_inside (i := i) l
    have := flips_inside (i := i) r
    simp only [slots, inside] at h ⊢; grind
  | .clock _ l r, h => by
    have := flips_inside (i := i) l
    have := flips_inside (i := i) r
    simp only [slots, inside] at h ⊢; grind
  | .later _ l r, h => by
    have := flips_inside (i := i) l
    have := flips_inside (i := i) r
    simp only [slots, inside] at h ⊢; grind
  | .flip _ l r, h => by
    have := flips_inside (i := i) l
    have := flips_inside (i := i) r
    simp only [slots, inside] at h ⊢; grind
  | .fetchFby _ l r, h => by
    have := flips_inside (i := i) l
    have := flips_inside (i := i) r
    simp only [slots, inside] at h ⊢; grind
  | .ifx b y n, h => by
    have := flips_inside (i := i) b
    have := flips_inside (i := i) y
    have := flips_inside (i := i) n
    simp only [slots, inside] at h ⊢; grind
  | .merge b y n, h => by
    have := flips_inside (i := i) b
    have := flips_inside (i := i) y
    have := flips_inside (i := i) n
    simp only [slots, inside] at h ⊢; grind
theorem flips_insideList {i : Nat} : (es : List Expr) → .flip i ∈ slotsList es →
    ∃ a b, .flip i a b ∈ insideList es
  | [], h => by simp [slotsList] at h
  | e :: es, h => by
    have := flips_inside (i := i) e
    have := flips_insideList (i := i) es
    simp only [slotsList, insideList] at h ⊢; grind
end

mutual
theorem flips_places {i : Nat} {a b : Expr} : (e : Expr) → .flip i a b ∈ parts e →
    .flip i ∈ places e
  | .lit _, h => by simp [parts] at h
  | .global _, h => by simp [parts] at h
  | .var _ _, h => by simp [parts] at h
  | .fetchPre _ _, h => by simp [parts] at h
  | .fetchFby _ _ _, h => by simp [parts] at h
  | .tuple es, h => by
    have := flips_placesList (i := i) (a := a) (b := b) es
    simp only [places, parts] at h ⊢; grind
  | .dummyPre e, h => by
    have := flips_places (i := i) (a := a) (b := b) e
    simp only [places, parts] at h ⊢; grind
  | .dummyParen e, h => by
    have := flips_places (i := i) (a := a) (b := b) e
    simp only [places, parts] at h ⊢; grind
  | .un _ e, h => by
    have := flips_places (i := i) (a := a) (b := b) e
    simp only [places, parts] at h ⊢; grind
  | .substep _ _ e, h => by
    have := flips_places (i := i) (a := a) (b := b) e
    simp only [places, parts] at h ⊢; grind
  | .bin _ l r, h => by
    have := flips_places (i := i) (a := a) (b := b) l
    have := flips_places (i := i) (a := a) (b := b) r
    simp only [places, parts] at h ⊢; grind
  | .cmp _ l r, h => by
    have := flips_places (i := i) (a := a) (b := b) l
    have := flips_places (i := i) (a := a) (b := b) r
    simp only [places, parts] at h ⊢; grind
  | .clock _ l r, h => by
    have := flips_places (i := i) (a := a) (b := b) l
    have := flips_places (i := i) (a := a) (b := b) r
    simp only [places, parts] at h ⊢; grind
  | .later _ l r, h => by
    have := flips_places (i := i) (a := a) (b := b) l
    have := flips_places (i := i) (a := a) (b := b) r
    simp only [places, parts] at h ⊢; grind
  | .flip _ l r, h => by
    have := flips_places (i := i) (a := a) (b := b) l
    have := flips_places (i := i) (a := a) (b := b) r
    simp only [places, parts] at h ⊢; grind
  | .ifx c y n, h => by
    have := flips_places (i := i) (a := a) (b := b) c
    have := flips_places (i := i) (a := a) (b := b) y
    have := flips_places (i := i) (a := a) (b := b) n
    simp only [places, parts] at h ⊢; grind
  | .merge c y n, h => by
    have := flips_places (i := i) (a := a) (b := b) c
    have := flips_places (i := i) (a := a) (b := b) y
    have := flips_places (i := i) (a := a) (b := b) n
    simp only [places, parts] at h ⊢; grind
theorem flips_placesList {i : Nat} {a b : Expr} : (es : List Expr) → .flip i a b ∈ partsList es →
    .flip i ∈ placesList es
  | [], h => by simp [partsList] at h
  | e :: es, h => by
    have := flips_places (i := i) (a := a) (b := b) e
    have := flips_placesList (i := i) (a := a) (b := b) es
    simp only [placesList, partsList] at h ⊢; grind
end

section
variable {v : View} {sts : List Stmt}

theorem mem_evaluated_update {id : Nat} {f : Expr} (h : .updateRegister id f ∈ sts) :
    f ∈ sts.flatMap evaluated := List.mem_flatMap.2 ⟨_, h, by simp [evaluated]⟩

theorem mem_evaluated_init {id : Nat} {f : Expr} {k : Option Expr}
    (h : .initRegister id (some f) k ∈ sts) : f ∈ sts.flatMap evaluated :=
  List.mem_flatMap.2 ⟨_, h, by simp [evaluated]⟩

mutual
/-- When what feeds registers is evaluated by a statement, what is inside an expression is a part of
it or of an expression that a statement evaluates. -/
theorem inside_parts (hs : ∀ e ∈ sts.flatMap evaluated, ∀ p ∈ parts e, Okay v sts p) {p : Expr} :
    (e : Expr) → (∀ p ∈ parts e, Okay v sts p) → p ∈ inside e →
      p ∈ parts e ∨ ∃ e' ∈ sts.flatMap evaluated, p ∈ parts e'
  | .lit _, _, h => .inl (by simpa [inside, parts] using h)
  | .global _, _, h => .inl (by simpa [inside, parts] using h)
  | .var _ _, _, h => .inl (by simpa [inside, parts] using h)
  | .fetchPre id f, ho, h => by
    have h1 := ho (.fetchPre id f) (by simp [parts])
    have h2 := mem_evaluated_update h1.2.1
    have := inside_parts hs (p := p) f (hs f h2)
    simp only [inside, parts] at h ⊢; grind
  | .fetchFby id i f, ho, h => by
    have h1 := ho (.fetchFby id i f) (by simp [parts])
    have h2 := mem_evaluated_update h1.2.1
    have h3 := mem_evaluated_init h1.2.2
    have := inside_parts hs (p := p) f (hs f h2)
    have := inside_parts hs (p := p) i (hs i h3)
    simp only [inside, parts] at h ⊢; grind
  | .tuple es, ho, h => by
    have := inside_partsList hs (p := p) es (fun q hq => ho q (by simp [parts, hq]))
    simp only [inside, parts] at h ⊢; grind
  | .dummyPre e, ho, h => by
    have := inside_parts hs (p := p) e (fun q hq => ho q (by simp [parts, hq]))
    simp only [inside, parts] at h ⊢; grind
  | .dummyParen e, ho, h => by
    have := inside_parts hs (p := p) e (fun q hq => ho q (by simp [parts, hq]))
    simp only [inside, parts] at h ⊢; grind
  | .un _ e, ho, h => by
    have := inside_parts hs (p := p) e (fun q hq => ho q (by simp [parts, hq]))
    simp only [inside, parts] at h ⊢; grind
  | .substep _ _ e, ho, h => by
    have := inside_parts hs (p := p) e (fun q hq => ho q (by simp [parts, hq]))
    simp only [inside, parts] at h ⊢; grind
  | .bin _ l r, ho, h => by
    have := inside_parts hs (p := p) l (fun q hq => ho q (by simp [parts, hq]))
    have := inside_parts hs (p := p) r (fun q hq => ho q (by simp [parts, hq]))
    simp only [inside, parts] at h ⊢; grind
  | .cmp _ l r, ho, h => by
    have := inside_parts hs (p := p) l (fun q hq => ho q (by simp [parts, hq]))
    have := inside_parts hs (p := p) r (fun q hq => ho q (by simp [parts, hq]))
    simp only [inside, parts] at h ⊢; grind
  | .clock _ l r, ho, h => by
    have := inside_parts hs (p := p) l (fun q hq => ho q (by simp [parts, hq]))
    have := inside_parts hs (p := p) r (fun q hq => ho q (by simp [parts, hq]))
    simp only [inside, parts] at h ⊢; grind
  | .later _ l r, ho, h => by
    have := inside_parts hs (p := p) l (fun q hq => ho q (by simp [parts, hq]))
    have := inside_parts hs (p := p) r (fun q hq => ho q (by simp [parts, hq]))
    simp only [inside, parts] at h ⊢; grind
  | .flip _ l r, ho, h => by
    have := inside_parts hs (p := p) l (fun q hq => ho q (by simp [parts, hq]))
    have := inside_parts hs (p := p) r (fun q hq => ho q (by simp [parts, hq]))
    simp only [inside, parts] at h ⊢; grind
  | .ifx b y n, ho, h => by
    have := inside_parts hs (p := p) b (fun q hq => ho q (by simp [parts, hq]))
    have := inside_parts hs (p := p) y (fun q hq => ho q (by simp [parts, hq]))
    have := inside_parts hs (p := p) n (fun q hq => ho q (by simp [parts, hq]))
    simp only [inside, parts] at h ⊢; grind
  | .merge b y n, ho, h => by
    have := inside_parts hs (p := p) b (fun q hq => ho q (by simp [parts, hq]))
    have := inside_parts hs (p := p) y (fun q hq => ho q (by simp [parts, hq]))
    have := inside_parts hs (p := p) n (fun q hq => ho q (by simp [parts, hq]))
    simp only [inside, parts] at h ⊢; grind
theorem inside_partsList (hs : ∀ e ∈ sts.flatMap evaluated, ∀ p ∈ parts e, Okay v sts p)
    {p : Expr} : (es : List Expr) → (∀ p ∈ partsList es, Okay v sts p) → p ∈ insideList es →
      p ∈ partsList es ∨ ∃ e' ∈ sts.flatMap evaluated, p ∈ parts e'
  | [], _, h => by simp [insideList] at h
  | e :: es, ho, h => by
    have := inside_parts hs (p := p) e (fun q hq => ho q (by simp [partsList, hq]))
    have := inside_partsList hs (p := p) es (fun q hq => ho q (by simp [partsList, hq]))
    simp only [insideList, partsList] at h ⊢; grind
end
end

/-! ## Types of what registers hold -/

mutual
theorem fetch_typed {Γ : TyEnv} {id : Nat} {f : Expr} : {e : Expr} → {t : TyTuple} →
    HasType Γ e t → (id, f) ∈ Spec.fetches e → ∃ u, Γ.regs id u ∧ HasType Γ f u
  | _, _, .lit, h => by simp [Spec.fetches] at h
  | _, _, .global _, h => by simp [Spec.fetches] at h
  | _, _, .var _, h => by simp [Spec.fetches] at h
  | _, _, .dummyPre h1, h => fetch_typed h1 (by simpa [Spec.fetches] using h)
  | _, _, .dummyParen h1, h => fetch_typed h1 (by simpa [Spec.fetches] using h)
  | _, _, .tuple h1, h => fetches_typed h1 (by simpa [Spec.fetches] using h)
  | _, _, .un h1 _, h => fetch_typed h1 (by simpa [Spec.fetches] using h)
  | _, _, .bin h1 h2 _, h => (List.mem_append.1 (by simpa only [Spec.fetches] using h)).elim
      (fetch_typed h1) (fetch_typed h2)
  | _, _, .cmp h1 h2 _, h => (List.mem_append.1 (by simpa only [Spec.fetches] using h)).elim
      (fetch_typed h1) (fetch_typed h2)
  | _, _, .clock h1 h2, h => (List.mem_append.1 (by simpa only [Spec.fetches] using h)).elim
      (fetch_typed h1) (fetch_typed h2)
  | _, _, .later h1 h2, h => (List.mem_append.1 (by simpa only [Spec.fetches] using h)).elim
      (fetch_typed h1) (fetch_typed h2)
  | _, _, .flip h1 h2, h => (List.mem_append.1 (by simpa only [Spec.fetches] using h)).elim
      (fetch_typed h1) (fetch_typed h2)
  | _, _, .ifx h1 h2 h3, h => (List.mem_append.1 (by simpa only [Spec.fetches] using h)).elim
      (fetch_typed h1) fun h => (List.mem_append.1 h).elim (fetch_typed h2) (fetch_typed h3)
  | _, _, .merge h1 h2 h3, h => (List.mem_append.1 (by simpa only [Spec.fetches] using h)).elim
      (fetch_typed h1) fun h => (List.mem_append.1 h).elim (fetch_typed h2) (fetch_typed h3)
  | _, _, .substep h1 _, h => fetch_typed h1 (by simpa [Spec.fetches] using h)
  | _, t, .fetchPre h1 hr, h => by
    simp only [Spec.fetches, List.mem_append, List.mem_singleton, Prod.mk.injEq] at h
    rcases h with h | ⟨rfl, rfl⟩
    · exact fetch_typed h1 h
    · exact ⟨t, hr, h1⟩
  | _, t, .fetchFby h1 h2 hr, h => by
    simp only [Spec.fetches, List.mem_append, List.mem_singleton, Prod.mk.injEq] at h
    rcases h with h | h | ⟨rfl, rfl⟩
    · exact fetch_typed h2 h
    · exact fetch_typed h1 h
    · exact ⟨t, hr, h2⟩
theorem fetches_typed {Γ : TyEnv} {id : Nat} {f : Expr} : {es : List Expr} → {ts : List TyTuple} →
    HasTypes Γ es ts → (id, f) ∈ fetchesList es → ∃ u, Γ.regs id u ∧ HasType Γ f u
  | _, _, .nil, h => by simp [fetchesList] at h
  | _, _, .cons h1 h2, h => (List.mem_append.1 (by simpa only [fetchesList] using h)).elim
      (fetch_typed h1) (fetches_typed h2)
end

mutual
theorem start_typed {Γ : TyEnv} {id : Nat} {i : Option Expr} : {e : Expr} → {t : TyTuple} →
    HasType Γ e t → (id, i) ∈ starts e → ∃ u, Γ.regs id u ∧ ∀ x, i = some x → HasType Γ x u
  | _, _, .lit, h => by simp [starts] at h
  | _, _, .global _, h => by simp [starts] at h
  | _, _, .var _, h => by simp [starts] at h
  | _, _, .dummyPre h1, h => start_typed h1 (by simpa [starts] using h)
  | _, _, .dummyParen h1, h => start_typed h1 (by simpa [starts] using h)
  | _, _, .tuple h1, h => starts_typed h1 (by simpa [starts] using h)
  | _, _, .un h1 _, h => start_typed h1 (by simpa [starts] using h)
  | _, _, .bin h1 h2 _, h => (List.mem_append.1 (by simpa only [starts] using h)).elim
      (start_typed h1) (start_typed h2)
  | _, _, .cmp h1 h2 _, h => (List.mem_append.1 (by simpa only [starts] using h)).elim
      (start_typed h1) (start_typed h2)
  | _, _, .clock h1 h2, h => (List.mem_append.1 (by simpa only [starts] using h)).elim
      (start_typed h1) (start_typed h2)
  | _, _, .later h1 h2, h => (List.mem_append.1 (by simpa only [starts] using h)).elim
      (start_typed h1) (start_typed h2)
  | _, _, .flip h1 h2, h => (List.mem_append.1 (by simpa only [starts] using h)).elim
      (start_typed h1) (start_typed h2)
  | _, _, .ifx h1 h2 h3, h => (List.mem_append.1 (by simpa only [starts] using h)).elim
      (start_typed h1) fun h => (List.mem_append.1 h).elim (start_typed h2) (start_typed h3)
  | _, _, .merge h1 h2 h3, h => (List.mem_append.1 (by simpa only [starts] using h)).elim
      (start_typed h1) fun h => (List.mem_append.1 h).elim (start_typed h2) (start_typed h3)
  | _, _, .substep h1 _, h => start_typed h1 (by simpa [starts] using h)
  | _, t, .fetchPre h1 hr, h => by
    simp only [starts, List.mem_append, List.mem_singleton, Prod.mk.injEq] at h
    rcases h with h | ⟨rfl, rfl⟩
    · exact start_typed h1 h
    · exact ⟨t, hr, fun x hx => by cases hx⟩
  | _, t, .fetchFby h1 h2 hr, h => by
    simp only [starts, List.mem_append, List.mem_singleton, Prod.mk.injEq] at h
    rcases h with h | h | ⟨rfl, rfl⟩
    · exact start_typed h2 h
    · exact start_typed h1 h
    · exact ⟨t, hr, fun x hx => by cases hx; exact h1⟩
theorem starts_typed {Γ : TyEnv} {id : Nat} {i : Option Expr} : {es : List Expr} →
    {ts : List TyTuple} → HasTypes Γ es ts → (id, i) ∈ startsList es →
      ∃ u, Γ.regs id u ∧ ∀ x, i = some x → HasType Γ x u
  | _, _, .nil, h => by simp [startsList] at h
  | _, _, .cons h1 h2, h => (List.mem_append.1 (by simpa only [startsList] using h)).elim
      (start_typed h1) (starts_typed h2)
end

/-- The clock is on a boolean variable. -/
def ClkBool (vars : String → Option TyBase) : Clk → Prop
  | .on y => vars y = some .bool
  | .off y => vars y = some .bool
  | _ => True

theorem ClkBool.meet {vars : String → Option TyBase} {k k' : Clk} (h : ClkBool vars k)
    (h' : ClkBool vars k') : ClkBool vars (Clk.meet k k') := by
  cases k <;> simp_all [Clk.meet]

theorem clkBool_expr {Γ : TyEnv} {k : Clk} (h : ClkBool Γ.vars k) :
    HasType Γ (clockExpr k) (.single .bool) := by
  cases k with
  | implicit => exact HasType.lit (l := .bool true)
  | adaptative => exact HasType.lit (l := .bool true)
  | on y => exact .var h
  | off y => exact .un (.var h) (by simp [unTypes])

theorem clkBool {Γ : TyEnv} {K : String → Option Clk} {strict : Bool}
    (hK : ∀ x k, K x = some k → ClkBool Γ.vars k) : {e : Expr} → {k : Clk} → {t : TyTuple} →
    HasClock strict K e k → HasType Γ e t → ClkBool Γ.vars k
  | _, _, _, .lit, _ => trivial
  | _, _, _, .global, _ => trivial
  | _, _, _, .var h, _ => hK _ _ h
  | _, _, _, .dummyParen h, .dummyParen h1 => clkBool hK h h1
  | _, _, _, .dummyPre h _, .dummyPre h1 => clkBool hK h h1
  | _, _, _, .bin h h' _, .bin h1 h2 _ => (clkBool hK h h1).meet (clkBool hK h' h2)
  | _, _, _, .cmp h h' _, .cmp h1 h2 _ => (clkBool hK h h1).meet (clkBool hK h' h2)
  | _, _, _, .un h, .un h1 _ => clkBool hK h h1
  | _, _, _, .later h _ _, .later h1 _ => clkBool hK h h1
  | _, _, _, .flip _ h' _, .flip _ h2 => clkBool hK h' h2
  | _, _, _, .clock (op := op) _ _ _, .clock _ (.var hb) => by cases op <;> exact hb
  | _, _, _, .substep h, .substep h1 _ => clkBool hK h h1
  | _, _, _, .empty, _ => trivial
  | _, _, _, .tuple h _, .tuple (.cons h1 _) => clkBool hK h h1
  | _, _, _, .ifx h h' h'' _ _, .ifx h1 h2 h3 =>
    ((clkBool hK h h1).meet (clkBool hK h' h2)).meet (clkBool hK h'' h3)
  | _, _, _, .merge h _ _ _ _, _ => hK _ _ h
  | _, _, _, .fetchPre h, .fetchPre h1 _ => clkBool hK h h1
  | _, _, _, .fetchFby h _ _, .fetchFby _ h2 _ => clkBool hK h h2

theorem typeIn_append {vs ws : List TyVar} {x : String} {t : TyBase} (h : typeIn vs x = some t) :
    typeIn (vs ++ ws) x = some t := by
  unfold typeIn at h ⊢
  rw [List.find?_append]
  cases hf : vs.find? (fun v => v.name = x) with
  | none => rw [hf] at h; cases h
  | some w => rw [hf] at h; simpa using h

theorem declsTyped_bool {vs : List TyVar} (h : DeclsTyped vs) {v : TyVar} (hv : v ∈ vs) :
    ClkBool (typeIn vs) v.clk.intoClk := by
  induction h with
  | nil => simp at hv
  | @snoc ws w hs hn hc ih =>
    have key : ∀ k, ClkBool (typeIn ws) k → ClkBool (typeIn (ws ++ [w])) k := by
      intro k hk
      cases k <;> first | trivial | exact typeIn_append hk
    rcases List.mem_append.1 hv with h1 | h1
    · exact key _ (ih h1)
    · simp only [List.mem_singleton] at h1
      subst h1
      refine key _ ?_
      cases he : v.clk with
      | implicit => trivial
      | adaptative => trivial
      | explicit a x => cases a <;> exact hc _ _ he

/-! ## The chain -/

section
variable {b : Bool} {o : TyOpts} {sigs : String → Option Sig}
  {consts : String → Option TyBase} {src : SrcNode} {n n₁ n₂ : Node} {c : ExprCtx} {ctx : TyCtx}
  {clk : Nat → Expr} {m : Depths} {K : String → Option Clk}

theorem evaluated_of_values {st : Stmt} {e : Expr} (h : e ∈ values st) : e ∈ evaluated st := by
  cases st with
  | initRegister id i k => cases i <;> simp_all [values, evaluated]
  | _ => exact h

/-- Everything is computed before it is read. -/
theorem Final.sorted (h : Final b o sigs consts src n n₁ n₂ c ctx clk m K) (hi : InputClocks n) :
    Sorted (n.inputs.map (·.name)) [] n.stmts := by
  have e1 : n₁.stmts = c.stmts := by rw [h.start]
  rw [h.inputs_names, h.final_stmts]
  have ok : ∀ st ∈ n₁.stmts, ∀ e ∈ values st, ∀ p, Part p e → Okay (src.view b) c.stmts p := by
    intro st hst e he p hp
    exact h.okay (e1 ▸ hst) (evaluated_of_values he) (mem_parts_of_part hp)
  refine sorted_of_schedule h.causality ?_ ?_ ?_ ?_ ?_
  · intro v hv
    obtain ⟨-, -, h3⟩ := Props.C25_exactly_one_definition h.causality
    have := h3 v (by simpa [or_comm] using hv)
    rw [assigned_binds, (h.perm.flatMap_right binds).mem_iff] at this
    obtain ⟨st, h4, h5⟩ := List.mem_flatMap.1 this
    exact ⟨st, e1 ▸ h4, h5⟩
  · intro st hst e he id f hp
    exact mem_initialised'.2 ⟨_, _, e1 ▸ (ok st hst e he _ hp).2.2⟩
  · intro st hst e he id i f hp
    exact mem_initialised'.2 ⟨_, _, e1 ▸ (ok st hst e he _ hp).2.2⟩
  · intro st hst e he x hp
    have hx := (ok st hst e he _ hp).1
    rw [← h.declared_names, h.final, declared_withDepths, h.same] at hx
    obtain ⟨v, hv, rfl⟩ := List.mem_map.1 hx
    exact ⟨v, hv, rfl⟩
  · intro id hid
    rw [e1] at hid
    have hid2 : id ∈ initialised n₂.stmts := (initialised_perm h.perm).mem_iff.2 hid
    obtain ⟨_, k, _, _, hk⟩ := h.clocks id hid2
    obtain ⟨i, k', h4⟩ := mem_initialised'.1 hid
    cases h.built.clocks id i k' h4
    have h5 := h.init_mem h4
    refine ⟨fun x hx => ?_, fun i f hf => ?_, fun i j f hf => ?_⟩
    · rw [← h.inputs_names]
      exact hi id i _ h5 x hx
    · have := mem_parts_of_part hf
      rw [hk] at this
      rcases parts_clockExpr this with ⟨_, e⟩ | ⟨_, e⟩ | ⟨_, e⟩ <;> cases e
    · have := mem_parts_of_part hf
      rw [hk] at this
      rcases parts_clockExpr this with ⟨_, e⟩ | ⟨_, e⟩ | ⟨_, e⟩ <;> cases e

theorem ordered_of_sorted : ∀ {l : List Stmt} {vs : List String} {rs : List Nat},
    Sorted vs rs l → Ordered vs l
  | [], _, _, _ => trivial
  | _ :: _, _, _, h => ⟨fun e he => (h.1 e he).1, ordered_of_sorted h.2⟩

theorem Final.regs (h : Final b o sigs consts src n n₁ n₂ c ctx clk m K) {i : Nat} {t : TyTuple}
    (hi : i < c.registers) (ht : ctx.registers i = some t) : n.registers[i]? = some (some t) := by
  have e : n₂.registers = List.replicate c.registers none := by rw [h.same, h.start]
  rw [h.final]
  simp [Node.withDepths, Node.withClocks, Node.fill, e, hi, ht]

/-- The equations are typed, with what the type checker recorded. -/
theorem Final.typed (h : Final b o sigs consts src n n₁ n₂ c ctx clk m K)
    (hs : ∀ f s, sigs f = some s → s.Wf) :
    ∀ st ∈ n₂.stmts, StmtTyped (runEnv sigs consts n) st := by
  obtain ⟨a, a', ht⟩ := h.types
  obtain ⟨ctx', e, hf, hj⟩ := stmts_sound n₂.stmts _ _ _ _ (bodyCtx_wf hs) ht
  cases e
  have hw := (slotsOf_perm h.perm).trans h.built.whole
  refine hj (runEnv sigs consts n) ⟨rfl, ?_⟩ (.inr ⟨?_, ?_⟩)
  · funext x
    have e : ∀ vs : List TyVar, (setDepths m vs).find? (fun v => v.name = x) =
        (vs.find? (fun v => v.name = x)).map fun v => { v with depth := (m v.name).getD 0 } := by
      intro vs
      induction vs with
      | nil => rfl
      | cons v vs ih =>
        simp only [setDepths, List.map_cons, List.find?_cons] at ih ⊢
        split <;> simp_all
    rw [h.final]
    simp only [runEnv, bodyCtx, TyCtx.withBlocks, TyCtx.withVars, Node.withDepths, typeIn,
      List.find?_append, e, Node.withClocks, Node.fill]
    cases n₂.inputs.find? (fun v => v.name = x) <;> cases n₂.outputs.find? (fun v => v.name = x) <;>
      cases n₂.locals.find? (fun v => v.name = x) <;> rfl
  · exact hw.nodup_iff.2 (slotsBetween_nodup _ _)
  · intro x hx
    have hx' := hw.mem_iff.1 hx
    cases x with
    | flip i => trivial
    | reg i =>
      intro t ht
      refine h.regs ?_ ht
      simp [slotsBetween] at hx'
      omega
    | sub i =>
      intro gens θ ins outs hg h1 h2
      rw [hf.nodesIn] at h1
      rw [hf.nodesOut] at h2
      have hg' := hf.gens i
      rw [hg] at hg'
      simp only [bodyCtx, TyCtx.withBlocks] at h1 h2 hg'
      cases hb : blockSig sigs n₂.blocks i with
      | none => simp [hb] at h1
      | some s =>
        obtain ⟨g, i', o'⟩ := s
        simp only [hb, Option.map_some, Option.some.injEq] at h1 h2 hg'
        subst h1 h2 hg'
        unfold blockSig at hb
        obtain ⟨bl, hb1, hb2⟩ := Option.bind_eq_some_iff.1 hb
        refine ⟨{ bl with generics := some (gens.map θ) }, gens, _, _, θ, ?_, hb2, rfl, rfl, rfl⟩
        rw [h.final]
        simp [Node.withDepths, Node.withClocks, Node.fill, hb1, hg]

theorem stmt_fetch_typed {Γ : TyEnv} {st : Stmt} (h : StmtTyped Γ st) {id : Nat} {f : Expr}
    (hf : (id, f) ∈ fetchesIn st) : ∃ u, Γ.regs id u ∧ HasType Γ f u := by
  cases h with
  | let_ _ he => exact fetch_typed he hf
  | assert he => exact fetch_typed he hf
  | _ => simp [fetchesIn] at hf

theorem stmt_start_typed {Γ : TyEnv} {st : Stmt} (h : StmtTyped Γ st) {id : Nat} {i : Option Expr}
    (hf : (id, i) ∈ startsIn st) : ∃ u, Γ.regs id u ∧ ∀ x, i = some x → HasType Γ x u := by
  cases h with
  | let_ _ he => exact start_typed he hf
  | assert he => exact start_typed he hf
  | _ => simp [startsIn] at hf

theorem typeIn_setDepths (m : Depths) (vs : List TyVar) : typeIn (setDepths m vs) = typeIn vs := by
  funext x
  unfold typeIn
  induction vs with
  | nil => rfl
  | cons v vs ih =>
    simp only [setDepths, List.map_cons, List.find?_cons] at ih ⊢
    split <;> simp_all

/-- Everything that runs is typed. -/
theorem Final.runTyped (h : Final b o sigs consts src n n₁ n₂ c ctx clk m K)
    (hs : ∀ f s, sigs f = some s → s.Wf) : ∀ st ∈ n.stmts, RunTyped (runEnv sigs consts n) st := by
  have ht := h.typed hs
  have hvars : (runEnv sigs consts n).vars = typeIn (n₂.inputs ++ n₂.outputs ++ n₂.locals) := by
    rw [h.final]
    have e : setDepths m (n₂.inputs ++ n₂.outputs ++ n₂.locals) =
        setDepths m n₂.inputs ++ setDepths m n₂.outputs ++ setDepths m n₂.locals := by
      simp [setDepths]
    rw [← typeIn_setDepths m, e]
    rfl
  have hK : ∀ x k, K x = some k → ClkBool (runEnv sigs consts n).vars k := by
    intro x k hx
    obtain ⟨v, hv, -, rfl⟩ := (h.clocked.declared x k).1 hx
    rw [hvars]
    exact declsTyped_bool h.decls hv
  intro st hst
  rw [h.final_stmts] at hst
  obtain ⟨st', h1, rfl⟩ := List.mem_map.1 hst
  cases st' with
  | let_ t e =>
    cases ht _ h1 with
    | let_ hx he => exact .let_ hx he
  | assert e =>
    cases ht _ h1 with
    | assert he => exact .assert he
  | updateRegister id f =>
    obtain ⟨st, h2, h3⟩ := List.mem_flatMap.1 ((h.built.fetched id f).2 (h.perm.mem_iff.1 h1))
    obtain ⟨u, h4, h5⟩ := stmt_fetch_typed (ht st (h.perm.mem_iff.2 h2)) h3
    exact .update h5 h4
  | initRegister id i k =>
    cases h.init_none h1
    obtain ⟨st, h2, h3⟩ := List.mem_flatMap.1 ((h.built.started id i).2 (h.perm.mem_iff.1 h1))
    obtain ⟨u, h4, h5⟩ := stmt_start_typed (ht st (h.perm.mem_iff.2 h2)) h3
    obtain ⟨f, k, h6, h7, h8⟩ := h.clocks id (mem_initialised'.2 ⟨_, _, h1⟩)
    obtain ⟨st2, h9, h10⟩ := List.mem_flatMap.1 h6
    obtain ⟨w, -, h11⟩ := stmt_fetch_typed (ht st2 h9) h10
    have hc := clkBool_expr (clkBool hK h7 h11)
    rw [← h8] at hc
    cases i with
    | none => exact .initPre h4 hc
    | some e => exact .initFby (h5 e rfl) h4 hc

theorem occurrences_clockExpr {k : Clk} {x : String} {d : Nat}
    (h : (x, d) ∈ occurrences (clockExpr k)) : d = 0 := by
  cases k <;> simp [clockExpr, occurrences] at h <;> exact h.2

theorem slots_clockExpr (k : Clk) : slots (clockExpr k) = [] := by cases k <;> rfl

theorem Final.inside (h : Final b o sigs consts src n n₁ n₂ c ctx clk m K) {st : Stmt}
    (hst : st ∈ c.stmts) {e : Expr} (he : e ∈ Spec.evaluated st) {p : Expr} (hp : p ∈ Den.inside e) :
    ∃ st' ∈ c.stmts, ∃ e' ∈ Spec.evaluated st', p ∈ parts e' := by
  rcases inside_parts h.built.parts e (fun q hq => h.okay hst he hq) hp with h1 | ⟨e', h1, h2⟩
  · exact ⟨st, hst, e, he, h1⟩
  · obtain ⟨st', h3, h4⟩ := List.mem_flatMap.1 h1
    exact ⟨st', h3, e', h4, h2⟩

/-- Code can be generated. -/
theorem Final.ready (h : Final b o sigs consts src n n₁ n₂ c ctx clk m K)
    (hs : ∀ f s, sigs f = some s → s.Wf) (hi : InputClocks n) (hf : FlatRegisters n) :
    CodegenReady sigs consts n where
  names := h.wired.names
  typed := h.runTyped hs
  ordered := ordered_of_sorted (h.sorted hi)
  defined := h.defined
  deep := by
    intro st hst e he x d hx
    rcases h.evaluated hst he with ⟨st', h1, h2⟩ | ⟨id, h1, k, rfl, h2⟩
    · have h3 := occurrences_inside e hx
      obtain ⟨st2, h4, e2, h5, h6⟩ := h.inside h1 h2 h3
      exact h.deep_parts h4 h5 h6
    · rw [h2] at hx
      have := occurrences_clockExpr hx
      omega
  flips := by
    intro st hst e he i hx
    rcases h.evaluated hst he with ⟨st', h1, h2⟩ | ⟨id, h1, k, rfl, h2⟩
    · obtain ⟨a, b, h3⟩ := flips_inside e hx
      obtain ⟨st2, h4, e2, h5, h6⟩ := h.inside h1 h2 h3
      have h7 := flips_places e2 h6
      have h8 : Slot.flip i ∈ c.stmts.flatMap placesIn :=
        List.mem_flatMap.2 ⟨st2, h4, List.mem_flatMap.2 ⟨e2, h5, h7⟩⟩
      have h9 := h.built.slots.mem_iff.1 h8
      have e : n.flips = c.flips := by rw [h.final, h.same, h.start]; rfl
      simp [slotsBetween] at h9
      omega
    · rw [h2, slots_clockExpr] at hx
      cases hx
  shapes := hf

end

end Chandeliers.Den
