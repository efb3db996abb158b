import Verif.Spec.Grammar

/-!
# The parser follows the grammar: words, repetitions
-/

set_option autoImplicit false

namespace Chandeliers.Grm
open Chandeliers.San Chandeliers.Syn Chandeliers.Spec.Grammar

/-! ## Sizes -/

theorem sizes_append (a b : List Tok) : Tok.sizes (a ++ b) = Tok.sizes a + Tok.sizes b := by
  induction a with
  | nil => simp [Tok.sizes]
  | cons x a ih => simp only [List.cons_append, Tok.sizes, ih]; omega

theorem size_pos (t : Tok) : 1 ≤ t.size := by
  cases t <;> simp [Tok.size]

theorem sizes_pos {ts : List Tok} (h : ts ≠ []) : 1 ≤ Tok.sizes ts := by
  cases ts with
  | nil => exact absurd rfl h
  | cons t ts => have := size_pos t; simp only [Tok.sizes]; omega

/-! ## What may follow an expression -/

/-- Not an opening parenthesis. -/
def NoGroup (ts : List Tok) : Prop := ∀ u r, ts ≠ .group .paren u :: r

/-- No operator of that level or a tighter one. -/
def StopClock (ts : List Tok) : Prop := clockOp ts = none
/-- Same. -/
def StopMul (ts : List Tok) : Prop := mulOp ts = none ∧ StopClock ts
/-- Same. -/
def StopAdd (ts : List Tok) : Prop := addOp ts = none ∧ StopMul ts
/-- Same. -/
def StopArrow (ts : List Tok) : Prop := arrowOp ts = none ∧ StopAdd ts
/-- Same. -/
def StopFby (ts : List Tok) : Prop := fbyOp ts = none ∧ StopArrow ts
/-- Same. -/
def StopCmp (ts : List Tok) : Prop := cmpOp ts = none ∧ StopFby ts
/-- Same. -/
def StopAnd (ts : List Tok) : Prop := andOp ts = none ∧ StopCmp ts
/-- Same. -/
def StopOr (ts : List Tok) : Prop := orOp ts = none ∧ StopAnd ts

/-- Every reading is found, when `stop` holds of what follows. -/
def Fits (stop : List Tok → Prop) (R : List Tok → Src → Prop) (item : P Src) (n : Nat) : Prop :=
  ∀ t e rest, Tok.sizes t ≤ n → R t e → stop rest → NoGroup rest → (EndsOpen e → StopOr rest) →
    item (t ++ rest) = some (e, rest)

/-- What is found is a reading, and `stop` holds of what follows. -/
def Sound (stop : List Tok → Prop) (R : List Tok → Src → Prop) (item : P Src) : Prop :=
  ∀ ts e rest, item ts = some (e, rest) →
    ∃ t, ts = t ++ rest ∧ R t e ∧ stop rest ∧ (EndsOpen e → StopOr rest)

/-- The first word is not that of a binary operator, except perhaps `-`. -/
def Starts (t : List Tok) : Prop := ∃ x t', t = x :: t' ∧ ∀ c j, x = .punct c j → c = '-'

theorem Starts.append {t : List Tok} (h : Starts t) (u : List Tok) : Starts (t ++ u) := by
  obtain ⟨x, t', rfl, hx⟩ := h
  exact ⟨x, t' ++ u, rfl, hx⟩

theorem Starts.ne {t : List Tok} (h : Starts t) : t ≠ [] := by
  obtain ⟨x, t', rfl, _⟩ := h
  simp

/-! ## Chains of operators -/

/-- The last operand ends with a conditional. -/
def LastOpen {α : Type} (e : Src) (r : List (α × Src)) : Prop :=
  (r = [] ∧ EndsOpen e) ∨ ∃ r' o e', r = r' ++ [(o, e')] ∧ EndsOpen e'

theorem LastOpen.cons {α : Type} {f e : Src} {o : α} {r : List (α × Src)} (h : LastOpen e r) :
    LastOpen f ((o, e) :: r) := by
  rcases h with ⟨rfl, h⟩ | ⟨r', o', e', rfl, h⟩
  · exact .inr ⟨[], o, e, rfl, h⟩
  · exact .inr ⟨(o, e) :: r', o', e', rfl, h⟩

theorem LastOpen.uncons {α : Type} {f e : Src} {o : α} {r : List (α × Src)}
    (h : LastOpen f ((o, e) :: r)) : LastOpen e r := by
  rcases h with ⟨h, _⟩ | ⟨r', o', e', h, he⟩
  · cases h
  · cases r' with
    | nil =>
      simp only [List.nil_append, List.cons.injEq, Prod.mk.injEq] at h
      obtain ⟨⟨rfl, rfl⟩, rfl⟩ := h
      exact .inl ⟨rfl, he⟩
    | cons p r' =>
      simp only [List.cons_append, List.cons.injEq] at h
      exact .inr ⟨r', o', e', h.2, he⟩

theorem more_eq {α β : Type} (item : P β) (op : P α) (n : Nat) (ts : List Tok) :
    more item op n ts = (match op ts with
    | none => some ([], ts)
    | some (o, ts) =>
      match n with
      | 0 => none
      | n + 1 => do
        let (e, ts) ← item ts
        let (r, ts) ← more item op n ts
        some ((o, e) :: r, ts)) := by
  cases n <;> rw [more] <;> split <;> simp_all

section
variable {α : Type} {word : α → List Tok → Prop} {R : List Tok → Src → Prop} {item : P Src} {op : P α}
  {stop : List Tok → Prop} {n : Nat}

theorem tail_fits (hi : Fits stop R item n) (hs : ∀ t e, R t e → Starts t)
    (hop : ∀ o w x, word o w → Starts x → op (w ++ x) = some (o, x))
    (hw : ∀ o w x, word o w → Starts x → stop (w ++ x) ∧ NoGroup (w ++ x) ∧ w ≠ [])
    {u : List Tok} {r : List (α × Src)} (h : Tail word R u r) :
    ∀ (k : Nat) (f : Src) (rest : List Tok), Tok.sizes u ≤ n → Tok.sizes u ≤ k → op rest = none →
      stop rest → NoGroup rest → (LastOpen f r → StopOr rest) →
      more item op k (u ++ rest) = some (r, rest) := by
  induction h with
  | nil =>
    intro k f rest _ _ ho _ _ _
    rw [more_eq]
    simp only [List.nil_append, ho]
  | @cons o w t e u r hwd ht htail hopen ih =>
    intro k f rest hn hk ho hst hng hlast
    have hst' := hs t e ht
    have hx : w ++ (t ++ u) ++ rest = w ++ (t ++ (u ++ rest)) := by simp
    have hsx : Starts (t ++ (u ++ rest)) := hst'.append _
    rw [more_eq, hx, hop o w _ hwd hsx]
    simp only [sizes_append] at hn hk
    have hwpos := sizes_pos (hw o w _ hwd hsx).2.2
    obtain ⟨k, rfl⟩ : ∃ m, k = m + 1 := ⟨k - 1, by omega⟩
    have hitem : item (t ++ (u ++ rest)) = some (e, u ++ rest) := by
      refine hi t e (u ++ rest) (by omega) ht ?_ ?_ ?_
      all_goals cases htail with
        | nil => first | exact hst | exact hng | (intro he; exact hlast (.inr ⟨[], o, e, rfl, he⟩))
        | @cons o' w' t' e' u' r' hw' ht' _ _ =>
          have h3 := hw o' w' (t' ++ (u' ++ rest)) hw' ((hs _ _ ht').append _)
          have hx' : w' ++ (t' ++ u') ++ rest = w' ++ (t' ++ (u' ++ rest)) := by simp
          rw [hx']
          first | exact h3.1 | exact h3.2.1 | (intro he; exact absurd he (hopen (by simp)))
    simp only [hitem, Option.bind_eq_bind, Option.bind_some]
    rw [ih k e rest (by omega) (by omega) ho hst hng (fun h => hlast h.cons)]
    rfl

theorem chain_fits (mk : Src → List (α × Src) → Src) (hi : Fits stop R item n)
    (hs : ∀ t e, R t e → Starts t)
    (hop : ∀ o w x, word o w → Starts x → op (w ++ x) = some (o, x))
    (hw : ∀ o w x, word o w → Starts x → stop (w ++ x) ∧ NoGroup (w ++ x) ∧ w ≠ [])
    {t : List Tok} {e : Src} {r : List (α × Src)} (h : Chain word R t e r) (rest : List Tok)
    (hn : Tok.sizes t ≤ n) (ho : op rest = none) (hst : stop rest) (hng : NoGroup rest)
    (hlast : LastOpen e r → StopOr rest) :
    chain mk item op n (t ++ rest) = some (mk e r, rest) := by
  cases h with
  | @mk t _ u _ ht htail hopen =>
    simp only [sizes_append] at hn
    have hitem : item (t ++ (u ++ rest)) = some (e, u ++ rest) := by
      refine hi t e (u ++ rest) (by omega) ht ?_ ?_ ?_
      all_goals cases htail with
        | nil => first | exact hst | exact hng | (intro he; exact hlast (.inl ⟨rfl, he⟩))
        | @cons o' w' t' e' u' r' hw' ht' _ _ =>
          have h3 := hw o' w' (t' ++ (u' ++ rest)) hw' ((hs _ _ ht').append _)
          have hx' : w' ++ (t' ++ u') ++ rest = w' ++ (t' ++ (u' ++ rest)) := by simp
          rw [hx']
          first | exact h3.1 | exact h3.2.1 | (intro he; exact absurd he (hopen (by simp)))
    rw [chain, List.append_assoc, hitem]
    simp only [Option.bind_eq_bind, Option.bind_some]
    rw [tail_fits hi hs hop hw htail n e rest (by omega) (by omega) ho hst hng hlast]
    rfl

theorem chain_starts (hs : ∀ t e, R t e → Starts t) {t : List Tok} {e : Src} {r : List (α × Src)}
    (h : Chain word R t e r) : Starts t := by
  cases h with
  | mk ht _ _ => exact (hs _ _ ht).append _

/-- The continuation of a chain: soundness. -/
theorem tail_sound (hi : Sound stop R item)
    (hop : ∀ ts o x, op ts = some (o, x) → ∃ w, ts = w ++ x ∧ word o w)
    (hstop : ∀ ts, StopOr ts → op ts = none) :
    ∀ (k : Nat) (f : Src) (ts : List Tok) (r : List (α × Src)) (rest : List Tok),
      stop ts → (EndsOpen f → StopOr ts) → more item op k ts = some (r, rest) →
      ∃ u, ts = u ++ rest ∧ Tail word R u r ∧ op rest = none ∧ stop rest ∧
        (LastOpen f r → StopOr rest) ∧ (r ≠ [] → ¬ EndsOpen f) := by
  intro k
  induction k with
  | zero =>
    intro f ts r rest hst hf h
    rw [more_eq] at h
    split at h
    · rename_i ho
      simp only [Option.some.injEq, Prod.mk.injEq] at h
      obtain ⟨rfl, rfl⟩ := h
      refine ⟨[], rfl, .nil, ho, hst, ?_, by simp⟩
      rintro (⟨_, he⟩ | ⟨r', o, e', h, _⟩)
      · exact hf he
      · simp at h
    · cases h
  | succ k ih =>
    intro f ts r rest hst hf h
    rw [more_eq] at h
    split at h
    · rename_i ho
      simp only [Option.some.injEq, Prod.mk.injEq] at h
      obtain ⟨rfl, rfl⟩ := h
      refine ⟨[], rfl, .nil, ho, hst, ?_, by simp⟩
      rintro (⟨_, he⟩ | ⟨r', o, e', h, _⟩)
      · exact hf he
      · simp at h
    · rename_i o x ho
      obtain ⟨w, rfl, hwd⟩ := hop _ _ _ ho
      simp only [Option.bind_eq_bind, Option.bind_eq_some_iff] at h
      obtain ⟨⟨e, ts₁⟩, h1, ⟨r', ts₂⟩, h2, h3⟩ := h
      simp only [Option.some.injEq, Prod.mk.injEq] at h3
      obtain ⟨rfl, rfl⟩ := h3
      obtain ⟨t, rfl, ht, hst₁, he₁⟩ := hi _ _ _ h1
      obtain ⟨u, rfl, hu, ho', hst', hl', hc'⟩ := ih e _ _ _ hst₁ he₁ h2
      refine ⟨w ++ (t ++ u), by simp, .cons hwd ht hu hc', ho', hst', fun h => hl' h.uncons, ?_⟩
      intro _ hopen
      have := hstop _ (hf hopen)
      rw [ho] at this
      cases this

theorem chain_sound (mk : Src → List (α × Src) → Src) (hi : Sound stop R item)
    (hop : ∀ ts o x, op ts = some (o, x) → ∃ w, ts = w ++ x ∧ word o w)
    (hstop : ∀ ts, StopOr ts → op ts = none) {ts : List Tok} {s : Src} {rest : List Tok}
    (h : chain mk item op n ts = some (s, rest)) :
    ∃ t e r, ts = t ++ rest ∧ s = mk e r ∧ Chain word R t e r ∧ op rest = none ∧ stop rest ∧
      (LastOpen e r → StopOr rest) := by
  simp only [chain, Option.bind_eq_bind, Option.bind_eq_some_iff] at h
  obtain ⟨⟨e, ts₁⟩, h1, ⟨r, ts₂⟩, h2, h3⟩ := h
  simp only [Option.some.injEq, Prod.mk.injEq] at h3
  obtain ⟨rfl, rfl⟩ := h3
  obtain ⟨t, rfl, ht, hst₁, he₁⟩ := hi _ _ _ h1
  obtain ⟨u, rfl, hu, ho', hst', hl', hc'⟩ := tail_sound hi hop hstop n e _ _ _ hst₁ he₁ h2
  exact ⟨t ++ u, e, r, by simp, rfl, .mk ht hu hc', ho', hst', hl'⟩

end

/-! ## Lists -/

/-- What follows an element of a list. -/
def Follows (sep : Char) (rest : List Tok) : Prop := rest = [] ∨ ∃ j r, rest = .punct sep j :: r

section
variable {α : Type} {R : List Tok → α → Prop} {item : P α} {sep : Char} {n : Nat}

theorem listed_fits
    (hi : ∀ t x rest, Tok.sizes t ≤ n → R t x → Follows sep rest → item (t ++ rest) = some (x, rest))
    (hne : ∀ t x, R t x → t ≠ []) {u : List Tok} {xs : List α} {b : Bool}
    (h : Listed sep R u xs b) :
    ∀ k, Tok.sizes u ≤ n → Tok.sizes u ≤ k → terminated item sep k u = some (xs, b) := by
  induction h with
  | none => intro k _ _; cases k <;> rfl
  | @one t x ht =>
    intro k hn hk
    have hpos := sizes_pos (hne _ _ ht)
    have h1 := hi t x [] hn ht (.inl rfl)
    obtain ⟨k, rfl⟩ : ∃ m, k = m + 1 := ⟨k - 1, by omega⟩
    have hnt := hne _ _ ht
    cases t with
    | nil => exact absurd rfl hnt
    | cons a t =>
      rw [List.append_nil] at h1
      simp [terminated, h1]
  | @trailing t x j ht =>
    intro k hn hk
    rw [sizes_append] at hn hk
    have hpos := sizes_pos (hne _ _ ht)
    have h1 := hi t x [.punct sep j] (by omega) ht (.inr ⟨j, [], rfl⟩)
    obtain ⟨k, rfl⟩ : ∃ m, k = m + 1 := ⟨k - 1, by omega⟩
    have hnt := hne _ _ ht
    cases t with
    | nil => exact absurd rfl hnt
    | cons a t =>
      rw [List.cons_append] at h1 ⊢
      simp [terminated, h1, sign]
  | @more t x j u xs b ht hu hxs ih =>
    intro k hn hk
    rw [sizes_append] at hn hk
    simp only [Tok.sizes] at hn hk
    have hpos := sizes_pos (hne _ _ ht)
    have h1 := hi t x (.punct sep j :: u) (by omega) ht (.inr ⟨j, u, rfl⟩)
    obtain ⟨k, rfl⟩ : ∃ m, k = m + 1 := ⟨k - 1, by omega⟩
    have hnt := hne _ _ ht
    have h2 := ih k (by omega) (by omega)
    have hu' : u ≠ [] := by
      rintro rfl
      generalize hv : ([] : List Tok) = v at hu
      cases hu with
      | none => exact hxs rfl
      | one h => exact hne _ _ h hv.symm
      | trailing h => simp at hv
      | more h _ _ => simp at hv
    cases t with
    | nil => exact absurd rfl hnt
    | cons a t =>
      rw [List.cons_append] at h1 ⊢
      simp [terminated, h1, sign, hu', h2]

theorem listed_sound
    (hi : ∀ ts x rest, item ts = some (x, rest) → ∃ t, ts = t ++ rest ∧ R t x) :
    ∀ (k : Nat) (u : List Tok) (xs : List α) (b : Bool), terminated item sep k u = some (xs, b) →
      Listed sep R u xs b ∧ (u ≠ [] → xs ≠ []) := by
  intro k
  induction k with
  | zero =>
    intro u xs b h
    cases u with
    | nil =>
      simp only [terminated, Option.some.injEq, Prod.mk.injEq] at h
      obtain ⟨rfl, rfl⟩ := h
      exact ⟨.none, by simp⟩
    | cons a u => simp [terminated] at h
  | succ k ih =>
    intro u xs b h
    cases u with
    | nil =>
      simp only [terminated, Option.some.injEq, Prod.mk.injEq] at h
      obtain ⟨rfl, rfl⟩ := h
      exact ⟨.none, by simp⟩
    | cons a u =>
      simp only [terminated, Option.bind_eq_bind, Option.bind_eq_some_iff] at h
      obtain ⟨⟨x, ts₁⟩, h1, h2⟩ := h
      obtain ⟨t, ht, hx⟩ := hi _ _ _ h1
      rw [ht]
      simp only at h2
      split at h2
      · rename_i he
        rw [List.isEmpty_iff] at he
        subst he
        simp only [Option.some.injEq, Prod.mk.injEq] at h2
        obtain ⟨rfl, rfl⟩ := h2
        rw [List.append_nil]
        exact ⟨.one hx, by simp⟩
      · simp only [Option.bind_eq_some_iff] at h2
        obtain ⟨⟨_, ts₂⟩, h3, h4⟩ := h2
        have hsep : ∃ j, ts₁ = .punct sep j :: ts₂ := by
          cases ts₁ with
          | nil => simp [sign] at h3
          | cons y ts₁ =>
            cases y with
            | punct c j =>
              simp only [sign] at h3
              split at h3
              · rename_i hc
                subst hc
                simp only [Option.some.injEq, Prod.mk.injEq, true_and] at h3
                exact ⟨j, by rw [h3]⟩
              · cases h3
            | _ => simp [sign] at h3
        obtain ⟨j, rfl⟩ := hsep
        simp only at h4
        split at h4
        · rename_i he
          rw [List.isEmpty_iff] at he
          subst he
          simp only [Option.some.injEq, Prod.mk.injEq] at h4
          obtain ⟨rfl, rfl⟩ := h4
          exact ⟨.trailing hx, by simp⟩
        · rename_i he
          simp only [Option.bind_eq_some_iff] at h4
          obtain ⟨⟨ys, c⟩, h5, h6⟩ := h4
          simp only [Option.some.injEq, Prod.mk.injEq] at h6
          obtain ⟨rfl, rfl⟩ := h6
          have := ih _ _ _ h5
          exact ⟨.more hx this.1 (this.2 (by simpa [List.isEmpty_iff] using he)), by simp⟩

end

end Chandeliers.Grm
