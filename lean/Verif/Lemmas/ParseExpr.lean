import Verif.Lemmas.ParseWords

/-!
# The parser follows the grammar: expressions
-/

set_option autoImplicit false

namespace Chandeliers.Grm
open Chandeliers.San Chandeliers.Syn Chandeliers.Spec.Grammar

/-! ## First words -/

theorem name_reserved {x : String} : Name x ↔ x ∉ reserved := by
  simp only [Name, reserved, List.mem_cons, List.not_mem_nil, or_false]
  grind

theorem literal_starts {t : List Tok} {l : Syn.Lit} (h : Literal t l) : Starts t := by
  cases h <;> exact ⟨_, _, rfl, by simp⟩

theorem atom_starts (t : List Tok) (e : Src) (h : Reads .atom t e) : Starts t := by
  cases h with
  | paren _ => exact ⟨_, _, rfl, by simp⟩
  | lit h => exact literal_starts h
  | var _ => exact ⟨_, _, rfl, by simp⟩

theorem prefixed_starts (t : List Tok) (e : Src) (h : Reads .prefixed t e) : Starts t := by
  cases h with
  | atom h _ => exact atom_starts _ _ h
  | neg _ => exact ⟨_, _, rfl, by simp⟩
  | _ => exact ⟨_, _, rfl, by simp⟩

theorem clock_starts (t : List Tok) (e : Src) (h : Reads .clock t e) : Starts t := by
  cases h with | clock h => exact chain_starts prefixed_starts h
theorem mul_starts (t : List Tok) (e : Src) (h : Reads .mul t e) : Starts t := by
  cases h with | mul h => exact chain_starts clock_starts h
theorem add_starts (t : List Tok) (e : Src) (h : Reads .add t e) : Starts t := by
  cases h with | add h => exact chain_starts mul_starts h
theorem arrow_starts (t : List Tok) (e : Src) (h : Reads .arrow t e) : Starts t := by
  cases h with | arrow h => exact chain_starts add_starts h
theorem fby_starts (t : List Tok) (e : Src) (h : Reads .fby t e) : Starts t := by
  cases h with | fby h => exact chain_starts arrow_starts h
theorem cmp_starts (t : List Tok) (e : Src) (h : Reads .cmp t e) : Starts t := by
  cases h with | cmp h => exact chain_starts fby_starts h
theorem and_starts (t : List Tok) (e : Src) (h : Reads .and t e) : Starts t := by
  cases h with | and h => exact chain_starts cmp_starts h
theorem or_starts (t : List Tok) (e : Src) (h : Reads .or t e) : Starts t := by
  cases h with | or h => exact chain_starts and_starts h

/-! ## Last operands -/

theorem lastOpen_left {e : Src} {r : List (LOp × Src)} : EndsOpen (.left e r) ↔ LastOpen e r := by
  constructor
  · intro h
    cases h with
    | left₁ h => exact .inl ⟨rfl, h⟩
    | left h => exact .inr ⟨_, _, _, rfl, h⟩
  · rintro (⟨rfl, h⟩ | ⟨r', o, e', rfl, h⟩)
    · exact .left₁ h
    · exact .left h

theorem lastOpen_cmp {e : Src} {r : List (CmpOp × Src)} : EndsOpen (.cmp e r) ↔ LastOpen e r := by
  constructor
  · intro h
    cases h with
    | cmp₁ h => exact .inl ⟨rfl, h⟩
    | cmp h => exact .inr ⟨_, _, _, rfl, h⟩
  · rintro (⟨rfl, h⟩ | ⟨r', o, e', rfl, h⟩)
    · exact .cmp₁ h
    · exact .cmp h

theorem map_last {r : List (Unit × Src)} {s : List Src} {e : Src}
    (h : s ++ [e] = r.map (·.2)) : ∃ r' o, r = r' ++ [(o, e)] := by
  have h1 := List.map_eq_append_iff.1 h.symm
  obtain ⟨l₁, l₂, rfl, _, h2⟩ := h1
  simp only [List.map_eq_singleton_iff] at h2
  obtain ⟨⟨o, e'⟩, rfl, rfl⟩ := h2
  exact ⟨l₁, o, rfl⟩

theorem lastOpen_fby {e : Src} {r : List (Unit × Src)} :
    EndsOpen (.fby e (r.map (·.2))) ↔ LastOpen e r := by
  constructor
  · generalize hs : r.map (·.2) = s
    intro h
    cases h with
    | fby₁ h => exact .inl ⟨by simpa using hs, h⟩
    | fby h =>
      obtain ⟨r', o, rfl⟩ := map_last hs.symm
      exact .inr ⟨_, _, _, rfl, h⟩
  · rintro (⟨rfl, h⟩ | ⟨r', o, e', rfl, h⟩)
    · exact .fby₁ h
    · rw [List.map_append]; exact .fby h

theorem lastOpen_arrow {e : Src} {r : List (Unit × Src)} :
    EndsOpen (.arrow e (r.map (·.2))) ↔ LastOpen e r := by
  constructor
  · generalize hs : r.map (·.2) = s
    intro h
    cases h with
    | arrow₁ h => exact .inl ⟨by simpa using hs, h⟩
    | arrow h =>
      obtain ⟨r', o, rfl⟩ := map_last hs.symm
      exact .inr ⟨_, _, _, rfl, h⟩
  · rintro (⟨rfl, h⟩ | ⟨r', o, e', rfl, h⟩)
    · exact .arrow₁ h
    · rw [List.map_append]; exact .arrow h

/-! ## Binary operators: every reading is found -/

section
variable {n : Nat} {pos : P Src} (hp : Fits (fun _ => True) (Reads .prefixed) pos n)
include hp

theorem clock_fits : Fits StopClock (Reads .clock) (clockOf n pos) n := by
  intro t e rest hn h hs hg ho
  cases h with
  | clock h =>
    exact chain_fits .left hp prefixed_starts clockOp_fits clock_word h rest hn hs trivial hg
      (fun hl => ho (lastOpen_left.2 hl))

theorem mul_fits : Fits StopMul (Reads .mul) (mulOf n pos) n := by
  intro t e rest hn h hs hg ho
  cases h with
  | mul h =>
    exact chain_fits .left (clock_fits hp) clock_starts mulOp_fits mul_word h rest hn hs.1 hs.2 hg
      (fun hl => ho (lastOpen_left.2 hl))

theorem add_fits : Fits StopAdd (Reads .add) (addOf n pos) n := by
  intro t e rest hn h hs hg ho
  cases h with
  | add h =>
    exact chain_fits .left (mul_fits hp) mul_starts addOp_fits add_word h rest hn hs.1 hs.2 hg
      (fun hl => ho (lastOpen_left.2 hl))

theorem arrow_fits : Fits StopArrow (Reads .arrow) (thenOf n pos) n := by
  intro t e rest hn h hs hg ho
  cases h with
  | arrow h =>
    exact chain_fits _ (add_fits hp) add_starts arrowOp_fits arrow_word h rest hn hs.1 hs.2 hg
      (fun hl => ho (lastOpen_arrow.2 hl))

theorem fby_fits : Fits StopFby (Reads .fby) (fbyOf n pos) n := by
  intro t e rest hn h hs hg ho
  cases h with
  | fby h =>
    exact chain_fits _ (arrow_fits hp) arrow_starts fbyOp_fits fby_word h rest hn hs.1 hs.2 hg
      (fun hl => ho (lastOpen_fby.2 hl))

theorem cmp_fits : Fits StopCmp (Reads .cmp) (cmpOf n pos) n := by
  intro t e rest hn h hs hg ho
  cases h with
  | cmp h =>
    exact chain_fits .cmp (fby_fits hp) fby_starts cmpOp_fits cmp_word h rest hn hs.1 hs.2 hg
      (fun hl => ho (lastOpen_cmp.2 hl))

theorem and_fits : Fits StopAnd (Reads .and) (andOf n pos) n := by
  intro t e rest hn h hs hg ho
  cases h with
  | and h =>
    exact chain_fits .left (cmp_fits hp) cmp_starts andOp_fits and_word h rest hn hs.1 hs.2 hg
      (fun hl => ho (lastOpen_left.2 hl))

theorem or_fits : Fits StopOr (Reads .or) (exprOf n pos) n := by
  intro t e rest hn h hs hg ho
  cases h with
  | or h =>
    exact chain_fits .left (and_fits hp) and_starts orOp_fits or_word h rest hn hs.1 hs.2 hg
      (fun hl => ho (lastOpen_left.2 hl))

theorem expr_fits {t : List Tok} {e : Src} (rest : List Tok) (hn : Tok.sizes t ≤ n)
    (h : Reads .or t e) (hs : StopOr rest) (hg : NoGroup rest) :
    exprOf n pos (t ++ rest) = some (e, rest) :=
  or_fits hp t e rest hn h hs hg fun _ => hs

end

theorem stopOr_nil : StopOr [] := by
  simp [StopOr, StopAnd, StopCmp, StopFby, StopArrow, StopAdd, StopMul, StopClock, clockOp, keyword,
    mulOp, addOp, arrowOp, fbyOp, cmpOp, sign, sign2, andOp, orOp]

theorem stopOr_ident {s : String} (h : s ∉ ["or", "and", "fby", "when", "whenot"]) (r : List Tok) :
    StopOr (.ident s :: r) := by
  simp only [List.mem_cons, List.not_mem_nil, or_false, not_or] at h
  obtain ⟨h1, h2, h3, h4, h5⟩ := h
  simp [StopOr, StopAnd, StopCmp, StopFby, StopArrow, StopAdd, StopMul, StopClock, clockOp, keyword,
    mulOp, addOp, arrowOp, fbyOp, cmpOp, sign, sign2, andOp, orOp, h1, h2, h3, h4, h5]

theorem stopOr_sign {c : Char} (h : c = ',' ∨ c = ';') (j : Bool) (r : List Tok) :
    StopOr (.punct c j :: r) := by
  have h2 : ∀ d e, d ≠ c → sign2 d e (.punct c j :: r) = none := by
    intro d e hd
    cases hh : sign2 d e (.punct c j :: r) with
    | none => rfl
    | some p =>
      obtain ⟨i, hi⟩ := sign2_some (a := p.1) (r := p.2) hh
      simp only [List.cons.injEq, Tok.punct.injEq] at hi
      exact absurd hi.1.1.symm hd
  rcases h with rfl | rfl <;>
  simp [StopOr, StopAnd, StopCmp, StopFby, StopArrow, StopAdd, StopMul, StopClock, clockOp, keyword,
    mulOp, addOp, arrowOp, fbyOp, cmpOp, sign, h2, andOp, orOp]

theorem follows_stop {rest : List Tok} (h : Follows ',' rest) : StopOr rest ∧ NoGroup rest := by
  rcases h with rfl | ⟨j, r, rfl⟩
  · exact ⟨stopOr_nil, by simp [NoGroup]⟩
  · exact ⟨stopOr_sign (.inl rfl) j r, by simp [NoGroup]⟩

/-! ## Atoms and prefix operators: every reading is found -/

theorem parseIdent_name {x : String} (h : Name x) (r : List Tok) :
    parseIdent (.ident x :: r) = some (x, r) := by
  simp [parseIdent, name_reserved.1 h]

theorem parseIdent_some {ts : List Tok} {x : String} {r : List Tok}
    (h : parseIdent ts = some (x, r)) : Name x ∧ ts = .ident x :: r := by
  cases ts with
  | nil => simp [parseIdent] at h
  | cons a ts =>
    cases a with
    | ident s =>
      simp only [parseIdent] at h
      split at h
      · cases h
      · rename_i hs
        simp only [Option.some.injEq, Prod.mk.injEq] at h
        obtain ⟨rfl, rfl⟩ := h
        exact ⟨name_reserved.2 hs, rfl⟩
    | _ => simp [parseIdent] at h

theorem name_ne {x k : String} (h : Name x) (hk : k ∈ reserved) : x ≠ k := by
  rintro rfl
  exact name_reserved.1 h hk

theorem literal_fits {t : List Tok} {l : Syn.Lit} (h : Literal t l) (rest : List Tok) :
    parseLit (t ++ rest) = some (l, rest) := by
  cases h <;> simp [parseLit, TokLit.lit, TokLit.negated]

theorem parseLit_name {x : String} (h : Name x) (r : List Tok) :
    parseLit (.ident x :: r) = none := by
  have h1 : x ≠ "true" := name_ne h (by simp [reserved])
  have h2 : x ≠ "false" := name_ne h (by simp [reserved])
  simp [parseLit, h1, h2]

theorem atom_fits {n : Nat} {pos : P Src} (hp : Fits (fun _ => True) (Reads .prefixed) pos n)
    {t : List Tok} {e : Src} (h : Reads .atom t e) (hn : Tok.sizes t ≤ n + 1) (rest : List Tok) :
    atomicOf n pos (t ++ rest) = some (e, rest) := by
  cases h with
  | @paren u es b hl =>
    have h1 : Tok.sizes u ≤ n := by simp [Tok.sizes, Tok.size] at hn; omega
    have h2 := listed_fits (item := exprOf n pos) (n := n)
      (fun t x rest ht hr hf => expr_fits hp rest ht hr (follows_stop hf).1 (follows_stop hf).2)
      (fun t x hr => (or_starts t x hr).ne) hl n h1 h1
    simp [atomicOf, h2]
  | lit hl =>
    have h1 := literal_fits hl rest
    cases hl <;> simp only [List.cons_append, List.nil_append] at h1 ⊢ <;> simp [atomicOf, h1]
  | var hx => simp [atomicOf, parseLit_name hx, parseIdent_name hx]

theorem prefixed_fits (n : Nat) : Fits (fun _ => True) (Reads .prefixed) (parsePositive n) n := by
  induction n with
  | zero =>
    intro t e rest hn h _ _ _
    have := sizes_pos (prefixed_starts t e h).ne
    omega
  | succ n ih =>
    intro t e rest hn h _ hg ho
    cases h with
    | @ifx tc c ty y tn no hc hy hno =>
      simp only [Tok.sizes, Tok.size, sizes_append] at hn
      have h0 : ∀ r, parseIdent (.ident "if" :: r) = none := by
        intro r; simp [parseIdent, reserved]
      have h1 := expr_fits ih (.ident "then" :: (ty ++ .ident "else" :: (tn ++ rest))) (by omega) hc
        (stopOr_ident (by simp) _) (by simp [NoGroup])
      have h2 := expr_fits ih (.ident "else" :: (tn ++ rest)) (by omega) hy
        (stopOr_ident (by simp) _) (by simp [NoGroup])
      have h3 := expr_fits ih rest (by omega) hno (ho .ifx) hg
      simp only [List.cons_append, List.append_assoc, parsePositive, h0, keyword_self, h1, h2, h3,
        Option.bind_eq_bind, Option.bind_some]
    | @merge tc c ty y tn no hc hy hno =>
      simp only [Tok.sizes, Tok.size, sizes_append] at hn
      have h0 : ∀ r, parseIdent (.ident "merge" :: r) = none := by
        intro r; simp [parseIdent, reserved]
      have h1 := atom_fits ih hc (by omega) (ty ++ (tn ++ rest))
      have h2 := atom_fits ih hy (by omega) (tn ++ rest)
      have h3 := atom_fits ih hno (by omega) rest
      have hk : ∀ r, keyword "if" (.ident "merge" :: r) = none := fun r => keyword_ne (by simp) r
      simp only [List.cons_append, List.append_assoc, parsePositive, h0, hk, keyword_self, h1, h2, h3,
        Option.bind_eq_bind, Option.bind_some]
    | @pre t e h =>
      simp only [Tok.sizes, Tok.size] at hn
      have h0 : ∀ r, parseIdent (.ident "pre" :: r) = none := by
        intro r; simp [parseIdent, reserved]
      have h1 := ih t e rest (by omega) h trivial hg (fun h => ho (.pre h))
      have hk : ∀ r, keyword "if" (.ident "pre" :: r) = none := fun r => keyword_ne (by simp) r
      have hm : ∀ r, keyword "merge" (.ident "pre" :: r) = none := fun r => keyword_ne (by simp) r
      simp only [List.cons_append, parsePositive, h0, hk, hm, keyword_self, h1,
        Option.bind_eq_bind, Option.bind_some]
    | @neg t e j h =>
      simp only [Tok.sizes, Tok.size] at hn
      have h1 := ih t e rest (by omega) h trivial hg (fun h => ho (.neg h))
      simp only [List.cons_append, parsePositive, parseIdent, keyword, sign_self, h1,
        Option.bind_eq_bind, Option.bind_some]
    | @not t e h =>
      simp only [Tok.sizes, Tok.size] at hn
      have h0 : ∀ r, parseIdent (.ident "not" :: r) = none := by
        intro r; simp [parseIdent, reserved]
      have h1 := ih t e rest (by omega) h trivial hg (fun h => ho (.not h))
      have hk : ∀ r, keyword "if" (.ident "not" :: r) = none := fun r => keyword_ne (by simp) r
      have hm : ∀ r, keyword "merge" (.ident "not" :: r) = none := fun r => keyword_ne (by simp) r
      have hq : ∀ r, keyword "pre" (.ident "not" :: r) = none := fun r => keyword_ne (by simp) r
      have hs : ∀ r, sign '-' (.ident "not" :: r) = none := fun r => by simp [sign]
      simp only [List.cons_append, parsePositive, h0, hk, hm, hq, hs, keyword_self, h1,
        Option.bind_eq_bind, Option.bind_some]
    | @call f u es b hf hl =>
      simp only [Tok.sizes, Tok.size] at hn
      have h1 : Tok.sizes u ≤ n := by omega
      have h2 := listed_fits (item := exprOf n (parsePositive n)) (n := n)
        (fun t x rest ht hr hf => expr_fits ih rest ht hr (follows_stop hf).1 (follows_stop hf).2)
        (fun t x hr => (or_starts t x hr).ne) hl n h1 h1
      simp only [List.cons_append, List.nil_append, parsePositive, parseIdent_name hf, h2,
        Option.bind_eq_bind, Option.bind_some]
    | atom ha hm =>
      have h1 := atom_fits ih ha hn rest
      cases ha with
      | paren hl =>
        simp only [List.cons_append, List.nil_append] at h1 ⊢
        simp only [parsePositive, parseIdent, keyword, sign, h1]
      | lit hl =>
        cases hl with
        | minus n j => exact absurd rfl (hm _ _)
        | opposite n j => exact absurd rfl (hm _ _)
        | yes => simpa [parsePositive, parseIdent, keyword, sign, reserved] using h1
        | no => simpa [parsePositive, parseIdent, keyword, sign, reserved] using h1
        | _ =>
          simp only [List.cons_append, List.nil_append] at h1 ⊢
          simp only [parsePositive, parseIdent, keyword, sign, h1]
      | @var x hx =>
        simp only [List.cons_append, List.nil_append] at h1 ⊢
        have k1 : x ≠ "if" := name_ne hx (by simp [reserved])
        have k2 : x ≠ "merge" := name_ne hx (by simp [reserved])
        have k3 : x ≠ "pre" := name_ne hx (by simp [reserved])
        have k4 : x ≠ "not" := name_ne hx (by simp [reserved])
        have hi := parseIdent_name hx rest
        cases rest with
        | nil => simp [parsePositive, hi, keyword, sign, k1, k2, k3, k4, h1]
        | cons a rest =>
          cases a with
          | group d u =>
            cases d with
            | paren => exact absurd rfl (hg u rest)
            | _ => simp [parsePositive, hi, keyword, sign, k1, k2, k3, k4, h1]
          | _ => simp [parsePositive, hi, keyword, sign, k1, k2, k3, k4, h1]

/-! ## Binary operators: what is found is a reading -/

section
variable {n : Nat} {pos : P Src} (hp : Sound (fun _ => True) (Reads .prefixed) pos)
include hp

theorem clock_sound : Sound StopClock (Reads .clock) (clockOf n pos) := by
  intro ts e rest h
  obtain ⟨t, e', r, rfl, rfl, hc, ho, _, hl⟩ := chain_sound .left hp clockOp_sound
    (fun _ hs => hs.2.2.2.2.2.2.2) h
  exact ⟨t, rfl, .clock hc, ho, fun h => hl (lastOpen_left.1 h)⟩

theorem mul_sound : Sound StopMul (Reads .mul) (mulOf n pos) := by
  intro ts e rest h
  obtain ⟨t, e', r, rfl, rfl, hc, ho, hs, hl⟩ := chain_sound .left (clock_sound hp) mulOp_sound
    (fun _ hs => hs.2.2.2.2.2.2.1) h
  exact ⟨t, rfl, .mul hc, ⟨ho, hs⟩, fun h => hl (lastOpen_left.1 h)⟩

theorem add_sound : Sound StopAdd (Reads .add) (addOf n pos) := by
  intro ts e rest h
  obtain ⟨t, e', r, rfl, rfl, hc, ho, hs, hl⟩ := chain_sound .left (mul_sound hp) addOp_sound
    (fun _ hs => hs.2.2.2.2.2.1) h
  exact ⟨t, rfl, .add hc, ⟨ho, hs⟩, fun h => hl (lastOpen_left.1 h)⟩

theorem arrow_sound : Sound StopArrow (Reads .arrow) (thenOf n pos) := by
  intro ts e rest h
  obtain ⟨t, e', r, rfl, rfl, hc, ho, hs, hl⟩ := chain_sound _ (add_sound hp) arrowOp_sound
    (fun _ hs => hs.2.2.2.2.1) h
  exact ⟨t, rfl, .arrow hc, ⟨ho, hs⟩, fun h => hl (lastOpen_arrow.1 h)⟩

theorem fby_sound : Sound StopFby (Reads .fby) (fbyOf n pos) := by
  intro ts e rest h
  obtain ⟨t, e', r, rfl, rfl, hc, ho, hs, hl⟩ := chain_sound _ (arrow_sound hp) fbyOp_sound
    (fun _ hs => hs.2.2.2.1) h
  exact ⟨t, rfl, .fby hc, ⟨ho, hs⟩, fun h => hl (lastOpen_fby.1 h)⟩

theorem cmp_sound : Sound StopCmp (Reads .cmp) (cmpOf n pos) := by
  intro ts e rest h
  obtain ⟨t, e', r, rfl, rfl, hc, ho, hs, hl⟩ := chain_sound .cmp (fby_sound hp) cmpOp_sound
    (fun _ hs => hs.2.2.1) h
  exact ⟨t, rfl, .cmp hc, ⟨ho, hs⟩, fun h => hl (lastOpen_cmp.1 h)⟩

theorem and_sound : Sound StopAnd (Reads .and) (andOf n pos) := by
  intro ts e rest h
  obtain ⟨t, e', r, rfl, rfl, hc, ho, hs, hl⟩ := chain_sound .left (cmp_sound hp) andOp_sound
    (fun _ hs => hs.2.1) h
  exact ⟨t, rfl, .and hc, ⟨ho, hs⟩, fun h => hl (lastOpen_left.1 h)⟩

theorem or_sound : Sound StopOr (Reads .or) (exprOf n pos) := by
  intro ts e rest h
  obtain ⟨t, e', r, rfl, rfl, hc, ho, hs, hl⟩ := chain_sound .left (and_sound hp) orOp_sound
    (fun _ hs => hs.1) h
  exact ⟨t, rfl, .or hc, ⟨ho, hs⟩, fun h => hl (lastOpen_left.1 h)⟩

end

/-! ## Atoms and prefix operators: what is found is a reading -/

theorem literal_sound {ts : List Tok} {l : Syn.Lit} {rest : List Tok}
    (h : parseLit ts = some (l, rest)) : ∃ t, ts = t ++ rest ∧ Literal t l := by
  unfold parseLit at h
  split at h
  · rename_i k ts
    simp only [Option.some.injEq, Prod.mk.injEq] at h
    obtain ⟨rfl, rfl⟩ := h
    refine ⟨[.lit k], rfl, ?_⟩
    cases k
    · exact .int _
    · exact .float _
    · exact .str _
    · exact .other
  · rename_i s ts
    split at h
    · rename_i hs
      subst hs
      simp only [Option.some.injEq, Prod.mk.injEq] at h
      obtain ⟨rfl, rfl⟩ := h
      exact ⟨[_], rfl, .yes⟩
    · split at h
      · rename_i hs
        subst hs
        simp only [Option.some.injEq, Prod.mk.injEq] at h
        obtain ⟨rfl, rfl⟩ := h
        exact ⟨[_], rfl, .no⟩
      · cases h
  · rename_i c j k ts
    split at h
    · rename_i hc
      subst hc
      simp only [Option.map_eq_some_iff, Prod.mk.injEq] at h
      obtain ⟨l', h1, rfl, rfl⟩ := h
      refine ⟨[_, _], rfl, ?_⟩
      cases k with
      | int n =>
        simp only [TokLit.negated, Option.some.injEq] at h1
        subst h1
        exact .minus _ _
      | float f =>
        simp only [TokLit.negated, Option.some.injEq] at h1
        subst h1
        exact .opposite _ _
      | _ => simp [TokLit.negated] at h1
    · cases h
  · cases h

theorem atom_sound {n : Nat} {pos : P Src} (hp : Sound (fun _ => True) (Reads .prefixed) pos)
    {ts : List Tok} {e : Src} {rest : List Tok} (h : atomicOf n pos ts = some (e, rest)) :
    ∃ t, ts = t ++ rest ∧ Reads .atom t e ∧ ¬ EndsOpen e := by
  unfold atomicOf at h
  split at h
  · rename_i inner ts
    simp only [Option.bind_eq_bind, Option.bind_eq_some_iff] at h
    obtain ⟨⟨es, b⟩, h1, h2⟩ := h
    simp only [Option.some.injEq, Prod.mk.injEq] at h2
    obtain ⟨rfl, rfl⟩ := h2
    refine ⟨[_], rfl, .paren (listed_sound ?_ n _ _ _ h1).1, by intro h; cases h⟩
    intro ts x rest hx
    obtain ⟨t, rfl, ht, _⟩ := or_sound hp _ _ _ hx
    exact ⟨t, rfl, ht⟩
  · split at h
    · rename_i l ts' h1
      simp only [Option.some.injEq, Prod.mk.injEq] at h
      obtain ⟨rfl, rfl⟩ := h
      obtain ⟨t, rfl, ht⟩ := literal_sound h1
      exact ⟨t, rfl, .lit ht, by intro h; cases h⟩
    · simp only [Option.bind_eq_bind, Option.bind_eq_some_iff] at h
      obtain ⟨⟨x, ts'⟩, h1, h2⟩ := h
      simp only [Option.some.injEq, Prod.mk.injEq] at h2
      obtain ⟨rfl, rfl⟩ := h2
      obtain ⟨hx, rfl⟩ := parseIdent_some h1
      exact ⟨[_], rfl, .var hx, by intro h; cases h⟩

theorem prefixed_sound (n : Nat) : Sound (fun _ => True) (Reads .prefixed) (parsePositive n) := by
  induction n with
  | zero => intro ts e rest h; simp [parsePositive] at h
  | succ n ih =>
    intro ts e rest h
    rw [parsePositive] at h
    split at h
    · rename_i f inner ts' h0
      obtain ⟨hf, rfl⟩ := parseIdent_some h0
      simp only [Option.bind_eq_bind, Option.bind_eq_some_iff] at h
      obtain ⟨⟨es, b⟩, h1, h2⟩ := h
      simp only [Option.some.injEq, Prod.mk.injEq] at h2
      obtain ⟨rfl, rfl⟩ := h2
      refine ⟨[_, _], rfl, .call hf (listed_sound ?_ n _ _ _ h1).1, trivial, by intro h; cases h⟩
      intro ts x rest hx
      obtain ⟨t, rfl, ht, _⟩ := or_sound ih _ _ _ hx
      exact ⟨t, rfl, ht⟩
    · split at h
      · rename_i h0
        obtain rfl := keyword_some h0
        simp only [Option.bind_eq_bind, Option.bind_eq_some_iff] at h
        obtain ⟨⟨c, ts₁⟩, h1, ⟨_, ts₂⟩, h2, ⟨y, ts₃⟩, h3, ⟨_, ts₄⟩, h4, ⟨o, ts₅⟩, h5, h6⟩ := h
        simp only [Option.some.injEq, Prod.mk.injEq] at h6
        obtain ⟨rfl, rfl⟩ := h6
        obtain ⟨t₁, rfl, ht₁, _⟩ := or_sound ih _ _ _ h1
        obtain rfl := keyword_some h2
        obtain ⟨t₂, rfl, ht₂, _⟩ := or_sound ih _ _ _ h3
        obtain rfl := keyword_some h4
        obtain ⟨t₃, rfl, ht₃, hs, _⟩ := or_sound ih _ _ _ h5
        exact ⟨_, by simp, .ifx ht₁ ht₂ ht₃, trivial, fun _ => hs⟩
      · rename_i h0 _
        obtain rfl := keyword_some h0
        simp only [Option.bind_eq_bind, Option.bind_eq_some_iff] at h
        obtain ⟨⟨c, ts₁⟩, h1, ⟨y, ts₃⟩, h3, ⟨o, ts₅⟩, h5, h6⟩ := h
        simp only [Option.some.injEq, Prod.mk.injEq] at h6
        obtain ⟨rfl, rfl⟩ := h6
        obtain ⟨t₁, rfl, ht₁, _⟩ := atom_sound ih h1
        obtain ⟨t₂, rfl, ht₂, _⟩ := atom_sound ih h3
        obtain ⟨t₃, rfl, ht₃, _⟩ := atom_sound ih h5
        exact ⟨.ident "merge" :: (t₁ ++ (t₂ ++ t₃)), by simp, .merge ht₁ ht₂ ht₃, trivial,
          by intro h; cases h⟩
      · obtain rfl := keyword_some ‹keyword "pre" ts = some _›
        simp only [Option.bind_eq_bind, Option.bind_eq_some_iff] at h
        obtain ⟨⟨c, ts₁⟩, h1, h6⟩ := h
        simp only [Option.some.injEq, Prod.mk.injEq] at h6
        obtain ⟨rfl, rfl⟩ := h6
        obtain ⟨t₁, rfl, ht₁, _, ho⟩ := ih _ _ _ h1
        exact ⟨_ :: t₁, rfl, .pre ht₁, trivial, by intro h; cases h; exact ho ‹_›⟩
      · obtain ⟨j, rfl⟩ := sign_some ‹sign '-' ts = some _›
        simp only [Option.bind_eq_bind, Option.bind_eq_some_iff] at h
        obtain ⟨⟨c, ts₁⟩, h1, h6⟩ := h
        simp only [Option.some.injEq, Prod.mk.injEq] at h6
        obtain ⟨rfl, rfl⟩ := h6
        obtain ⟨t₁, rfl, ht₁, _, ho⟩ := ih _ _ _ h1
        exact ⟨_ :: t₁, rfl, .neg ht₁, trivial, by intro h; cases h; exact ho ‹_›⟩
      · obtain rfl := keyword_some ‹keyword "not" ts = some _›
        simp only [Option.bind_eq_bind, Option.bind_eq_some_iff] at h
        obtain ⟨⟨c, ts₁⟩, h1, h6⟩ := h
        simp only [Option.some.injEq, Prod.mk.injEq] at h6
        obtain ⟨rfl, rfl⟩ := h6
        obtain ⟨t₁, rfl, ht₁, _, ho⟩ := ih _ _ _ h1
        exact ⟨_ :: t₁, rfl, .not ht₁, trivial, by intro h; cases h; exact ho ‹_›⟩
      · obtain ⟨t, rfl, ht, ho⟩ := atom_sound ih h
        refine ⟨t, rfl, .atom ht ?_, trivial, fun h => absurd h ho⟩
        rintro j u rfl
        simp_all [sign_self]

theorem expr_sound {n : Nat} {ts : List Tok} {e : Src} {rest : List Tok}
    (h : parseExpr n ts = some (e, rest)) : ∃ t, ts = t ++ rest ∧ Expression t e := by
  obtain ⟨t, rfl, ht, _⟩ := or_sound (prefixed_sound n) _ _ _ h
  exact ⟨t, rfl, ht⟩

theorem expression_fits {n : Nat} {t : List Tok} {e : Src} (rest : List Tok)
    (hn : Tok.sizes t ≤ n) (h : Expression t e) (hs : StopOr rest) (hg : NoGroup rest) :
    parseExpr n (t ++ rest) = some (e, rest) :=
  expr_fits (prefixed_fits n) rest hn h hs hg

end Chandeliers.Grm
