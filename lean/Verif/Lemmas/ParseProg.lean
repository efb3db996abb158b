import Verif.Lemmas.ParseExpr

/-!
# The parser follows the grammar: statements, declarations, programs
-/

set_option autoImplicit false

namespace Chandeliers.Grm
open Chandeliers.San Chandeliers.Syn Chandeliers.Spec.Grammar

/-- What is found is a reading. -/
def Finds {α : Type} (R : List Tok → α → Prop) (item : P α) : Prop :=
  ∀ ts x rest, item ts = some (x, rest) → ∃ t, ts = t ++ rest ∧ R t x

/-! ## Targets -/

theorem targets_ne (t : List Tok) (x : Target) (h : Targets t x) : t ≠ [] := by
  cases h <;> simp

theorem target_fits (n : Nat) : ∀ (t : List Tok) (x : Target) (rest : List Tok),
    Tok.sizes t ≤ n → Targets t x → parseTarget n (t ++ rest) = some (x, rest) := by
  induction n with
  | zero =>
    intro t x rest hn h
    have := sizes_pos (targets_ne t x h)
    omega
  | succ n ih =>
    intro t x rest hn h
    cases h with
    | var hx => simp [parseTarget, parseIdent_name hx]
    | @tuple u xs b hl =>
      simp only [Tok.sizes, Tok.size] at hn
      have h1 : Tok.sizes u ≤ n := by omega
      have h2 := listed_fits (item := parseTarget n) (n := n)
        (fun t x rest ht hr _ => ih t x rest ht hr) targets_ne hl n h1 h1
      simp [parseTarget, h2]

theorem target_sound (n : Nat) : Finds Targets (parseTarget n) := by
  induction n with
  | zero => intro ts x rest h; simp [parseTarget] at h
  | succ n ih =>
    intro ts x rest h
    unfold parseTarget at h
    split at h
    · simp only [Option.bind_eq_bind, Option.bind_eq_some_iff] at h
      obtain ⟨⟨es, b⟩, h1, h2⟩ := h
      simp only [Option.some.injEq, Prod.mk.injEq] at h2
      obtain ⟨rfl, rfl⟩ := h2
      exact ⟨[_], rfl, .tuple (listed_sound ih n _ _ _ h1).1⟩
    · simp only [Option.bind_eq_bind, Option.bind_eq_some_iff] at h
      obtain ⟨⟨x, ts'⟩, h1, h2⟩ := h
      simp only [Option.some.injEq, Prod.mk.injEq] at h2
      obtain ⟨rfl, rfl⟩ := h2
      obtain ⟨hx, rfl⟩ := parseIdent_some h1
      exact ⟨[_], rfl, .var hx⟩

theorem target_head {t : List Tok} {x : Target} (h : Targets t x) (k : String) (hk : k ∈ reserved)
    (r : List Tok) : keyword k (t ++ r) = none := by
  cases h with
  | var hx => exact keyword_ne (name_ne hx hk) _
  | tuple _ => simp [keyword]

/-! ## Statements -/

theorem stmt_fits {n : Nat} {t : List Tok} {s : SrcStmt} (h : Statement t s) (hn : Tok.sizes t ≤ n)
    (j : Bool) (r : List Tok) :
    parseStmt n (t ++ .punct ';' j :: r) = some (s, .punct ';' j :: r) := by
  have hs := stopOr_sign (c := ';') (.inr rfl) j r
  cases h with
  | @equation t x u e w ht hw hu =>
    obtain ⟨i, rfl⟩ := hw
    simp only [sizes_append, Tok.sizes, Tok.size] at hn
    have h0 := target_head ht "assert" (by simp [reserved]) ([.punct '=' i] ++ u ++ .punct ';' j :: r)
    have h1 := target_fits n t x ([.punct '=' i] ++ u ++ .punct ';' j :: r) (by omega) ht
    have h2 := expression_fits (n := n) (.punct ';' j :: r) (by omega) hu hs (by simp [NoGroup])
    simp only [List.append_assoc, List.cons_append, List.nil_append] at h0 h1 ⊢
    simp only [parseStmt, h0, h1, Option.bind_eq_bind, Option.bind_some, sign_self, h2]
  | @assertion u e hu =>
    simp only [Tok.sizes, Tok.size] at hn
    have h2 := expression_fits (n := n) (.punct ';' j :: r) (by omega) hu hs (by simp [NoGroup])
    simp only [parseStmt, List.cons_append, keyword_self, h2, Option.bind_eq_bind, Option.bind_some]

theorem stmt_sound (n : Nat) : Finds Statement (parseStmt n) := by
  intro ts x rest h
  unfold parseStmt at h
  split at h
  · rename_i h0
    obtain rfl := keyword_some h0
    simp only [Option.bind_eq_bind, Option.bind_eq_some_iff] at h
    obtain ⟨⟨e, ts'⟩, h1, h2⟩ := h
    simp only [Option.some.injEq, Prod.mk.injEq] at h2
    obtain ⟨rfl, rfl⟩ := h2
    obtain ⟨t, rfl, ht⟩ := expr_sound h1
    exact ⟨_ :: t, rfl, .assertion ht⟩
  · simp only [Option.bind_eq_bind, Option.bind_eq_some_iff] at h
    obtain ⟨⟨x, ts₁⟩, h1, ⟨_, ts₂⟩, h2, ⟨e, ts₃⟩, h3, h4⟩ := h
    simp only [Option.some.injEq, Prod.mk.injEq] at h4
    obtain ⟨rfl, rfl⟩ := h4
    obtain ⟨t, rfl, ht⟩ := target_sound n _ _ _ h1
    obtain ⟨j, rfl⟩ := sign_some h2
    obtain ⟨u, rfl, hu⟩ := expr_sound h3
    exact ⟨t ++ ([.punct '=' j] ++ u), by simp, .equation ht ⟨j, rfl⟩ hu⟩

theorem stmt_head {t : List Tok} {s : SrcStmt} (h : Statement t s) (k : String) (hk : k ∈ reserved)
    (hk' : k ≠ "assert") (r : List Tok) : keyword k (t ++ r) = none := by
  cases h with
  | @equation t x u e w ht hw hu =>
    rw [List.append_assoc]
    exact target_head ht k hk _
  | assertion hu => exact keyword_ne (fun h => hk' h.symm) _

/-! ## Elements followed by semicolons -/

section
variable {α : Type} {R : List Tok → α → Prop} {item : P α} {n : Nat} {stop : String}

theorem untilKeyword_eq (k : Nat) (ts : List Tok) :
    untilKeyword item stop k ts = (match keyword stop ts with
    | some _ => some ([], ts)
    | none =>
      match k with
      | 0 => none
      | k + 1 => do
        let (x, ts) ← item ts
        let (_, ts) ← sign ';' ts
        let (xs, ts) ← untilKeyword item stop k ts
        some (x :: xs, ts)) := by
  cases k <;> rw [untilKeyword] <;> split <;> simp_all

theorem each_fits
    (hi : ∀ t x j r, Tok.sizes t ≤ n → R t x →
      item (t ++ .punct ';' j :: r) = some (x, .punct ';' j :: r))
    (hh : ∀ t x r, R t x → keyword stop (t ++ r) = none) {u : List Tok} {xs : List α}
    (h : Each R u xs) (rest : List Tok) : ∀ k, Tok.sizes u ≤ n → Tok.sizes u ≤ k →
      untilKeyword item stop k (u ++ .ident stop :: rest) = some (xs, .ident stop :: rest) := by
  induction h with
  | nil =>
    intro k _ _
    rw [untilKeyword_eq, List.nil_append, keyword_self]
  | @cons t x w u xs ht hw hu ih =>
    intro k hn hk
    obtain ⟨j, rfl⟩ := hw
    simp only [sizes_append, Tok.sizes, Tok.size] at hn hk
    obtain ⟨k, rfl⟩ : ∃ m, k = m + 1 := ⟨k - 1, by omega⟩
    have h1 := hi t x j (u ++ .ident stop :: rest) (by omega) ht
    have h0 := hh t x (.punct ';' j :: (u ++ .ident stop :: rest)) ht
    have h2 := ih k (by omega) (by omega)
    rw [untilKeyword_eq]
    simp only [List.append_assoc, List.cons_append, List.nil_append, h0, h1, Option.bind_eq_bind,
      Option.bind_some, sign_self, h2]

theorem each_sound (hi : Finds R item) : ∀ (k : Nat) (ts : List Tok) (xs : List α) (rest : List Tok),
    untilKeyword item stop k ts = some (xs, rest) →
    ∃ u, ts = u ++ rest ∧ Each R u xs := by
  intro k
  induction k with
  | zero =>
    intro ts xs rest h
    rw [untilKeyword_eq] at h
    split at h
    · simp only [Option.some.injEq, Prod.mk.injEq] at h
      obtain ⟨rfl, rfl⟩ := h
      exact ⟨[], rfl, .nil⟩
    · cases h
  | succ k ih =>
    intro ts xs rest h
    rw [untilKeyword_eq] at h
    split at h
    · simp only [Option.some.injEq, Prod.mk.injEq] at h
      obtain ⟨rfl, rfl⟩ := h
      exact ⟨[], rfl, .nil⟩
    · simp only [Option.bind_eq_bind, Option.bind_eq_some_iff] at h
      obtain ⟨⟨x, ts₁⟩, h1, ⟨_, ts₂⟩, h2, ⟨ys, ts₃⟩, h3, h4⟩ := h
      simp only [Option.some.injEq, Prod.mk.injEq] at h4
      obtain ⟨rfl, rfl⟩ := h4
      obtain ⟨t, rfl, ht⟩ := hi _ _ _ h1
      obtain ⟨j, rfl⟩ := sign_some h2
      obtain ⟨u, rfl, hu⟩ := ih _ _ _ h3
      exact ⟨t ++ ([.punct ';' j] ++ u), by simp, .cons ht ⟨j, rfl⟩ hu⟩

end

/-! ## Bindings -/

theorem typeName_fits {t : List Tok} {ty : TyBase} (h : TypeName t ty) (rest : List Tok) :
    parseBase (t ++ rest) = some (ty, rest) := by
  cases h with
  | @other x hx hb =>
    simp only [List.mem_cons, List.not_mem_nil, or_false, not_or] at hb
    simp [parseBase, keyword, hb.1, hb.2.1, hb.2.2, parseIdent_name hx]
  | _ => simp [parseBase, keyword]

theorem typeName_sound : Finds TypeName parseBase := by
  intro ts x rest h
  unfold parseBase at h
  split at h
  · obtain rfl := keyword_some ‹keyword "int" ts = some _›
    simp only [Option.some.injEq, Prod.mk.injEq] at h
    obtain ⟨rfl, rfl⟩ := h
    exact ⟨[_], rfl, .int⟩
  · obtain rfl := keyword_some ‹keyword "bool" ts = some _›
    simp only [Option.some.injEq, Prod.mk.injEq] at h
    obtain ⟨rfl, rfl⟩ := h
    exact ⟨[_], rfl, .bool⟩
  · obtain rfl := keyword_some ‹keyword "float" ts = some _›
    simp only [Option.some.injEq, Prod.mk.injEq] at h
    obtain ⟨rfl, rfl⟩ := h
    exact ⟨[_], rfl, .float⟩
  · rename_i h1 h2 h3
    simp only [Option.map_eq_some_iff, Prod.mk.injEq] at h
    obtain ⟨⟨y, r⟩, h0, rfl, rfl⟩ := h
    obtain ⟨hy, rfl⟩ := parseIdent_some h0
    refine ⟨[_], rfl, .other hy ?_⟩
    simp only [List.mem_cons, List.not_mem_nil, or_false, not_or]
    refine ⟨?_, ?_, ?_⟩ <;> rintro rfl
    · exact h1 _ _ (keyword_self _ _)
    · exact h2 _ _ (keyword_self _ _)
    · exact h3 _ _ (keyword_self _ _)

/-- What follows a type: not a clock. -/
def NoClock (ts : List Tok) : Prop := keyword "when" ts = none ∧ keyword "whenot" ts = none

theorem noClock_sign (c : Char) (j : Bool) (r : List Tok) : NoClock (.punct c j :: r) := by
  simp [NoClock, keyword]

theorem noClock_nil : NoClock [] := by simp [NoClock, keyword]

theorem clock_suffix_fits {t : List Tok} {c : Clock} (h : ClockSuffix t c) (rest : List Tok)
    (hr : NoClock rest) : parseClock (t ++ rest) = some (c, rest) := by
  cases h with
  | none => simp [parseClock, hr.1, hr.2]
  | when hx => simp [parseClock, keyword, parseIdent_name hx]
  | whenot hx => simp [parseClock, keyword, parseIdent_name hx]

theorem clock_suffix_sound : Finds ClockSuffix parseClock := by
  intro ts x rest h
  unfold parseClock at h
  split at h
  · obtain rfl := keyword_some ‹keyword "when" ts = some _›
    simp only [Option.map_eq_some_iff, Prod.mk.injEq] at h
    obtain ⟨⟨y, r⟩, h0, rfl, rfl⟩ := h
    obtain ⟨hy, rfl⟩ := parseIdent_some h0
    exact ⟨[_, _], rfl, .when hy⟩
  · obtain rfl := keyword_some ‹keyword "whenot" ts = some _›
    simp only [Option.map_eq_some_iff, Prod.mk.injEq] at h
    obtain ⟨⟨y, r⟩, h0, rfl, rfl⟩ := h
    obtain ⟨hy, rfl⟩ := parseIdent_some h0
    exact ⟨[_, _], rfl, .whenot hy⟩
  · simp only [Option.some.injEq, Prod.mk.injEq] at h
    obtain ⟨rfl, rfl⟩ := h
    exact ⟨[], rfl, .none⟩

theorem names_fits {t : List Tok} {xs : List String} (h : Names t xs) (rest : List Tok)
    (hr : sign ',' rest = none) : ∀ k, Tok.sizes t ≤ k → ∃ x r ts', parseIdent (t ++ rest) = some (x, ts') ∧
      more parseIdent (sign ',') k ts' = some (r, rest) ∧ xs = x :: r.map (·.2) := by
  induction h with
  | @one x hx =>
    intro k hk
    refine ⟨x, [], rest, parseIdent_name hx rest, ?_, rfl⟩
    rw [more_eq, hr]
  | @more x j u xs hx hu ih =>
    intro k hk
    simp only [Tok.sizes, Tok.size] at hk
    obtain ⟨k, rfl⟩ : ∃ m, k = m + 1 := ⟨k - 1, by omega⟩
    obtain ⟨y, r, ts', h1, h2, rfl⟩ := ih k (by omega)
    refine ⟨x, ((), y) :: r, .punct ',' j :: (u ++ rest), parseIdent_name hx _, ?_, rfl⟩
    rw [more_eq, sign_self]
    simp only [h1, h2, Option.bind_eq_bind, Option.bind_some]

theorem names_sound : ∀ (k : Nat) (x : String) (ts : List Tok) (r : List (Unit × String))
    (rest : List Tok), Name x → more parseIdent (sign ',') k ts = some (r, rest) →
    ∃ t, .ident x :: ts = t ++ rest ∧ Names t (x :: r.map (·.2)) := by
  intro k
  induction k with
  | zero =>
    intro x ts r rest hx h
    rw [more_eq] at h
    split at h
    · simp only [Option.some.injEq, Prod.mk.injEq] at h
      obtain ⟨rfl, rfl⟩ := h
      exact ⟨[_], rfl, .one hx⟩
    · cases h
  | succ k ih =>
    intro x ts r rest hx h
    rw [more_eq] at h
    split at h
    · simp only [Option.some.injEq, Prod.mk.injEq] at h
      obtain ⟨rfl, rfl⟩ := h
      exact ⟨[_], rfl, .one hx⟩
    · rename_i h0
      obtain ⟨j, rfl⟩ := sign_some h0
      simp only [Option.bind_eq_bind, Option.bind_eq_some_iff] at h
      obtain ⟨⟨y, ts₁⟩, h1, ⟨r', ts₂⟩, h2, h3⟩ := h
      simp only [Option.some.injEq, Prod.mk.injEq] at h3
      obtain ⟨rfl, rfl⟩ := h3
      obtain ⟨hy, rfl⟩ := parseIdent_some h1
      obtain ⟨t, ht, hn⟩ := ih y ts₁ r' _ hy h2
      exact ⟨.ident x :: .punct ',' j :: t, by rw [ht]; rfl, .more hx hn⟩

theorem args_fits {n : Nat} {t : List Tok} {a : ArgsTy} (h : Binding t a) (hn : Tok.sizes t ≤ n)
    (rest : List Tok) (hr : NoClock rest) : parseArgs n (t ++ rest) = some (a, rest) := by
  cases h with
  | @mk t xs w u ty v c ht hw hu hv =>
    obtain ⟨j, rfl⟩ := hw
    simp only [sizes_append, Tok.sizes, Tok.size] at hn
    obtain ⟨x, r, ts', h1, h2, rfl⟩ := names_fits ht (.punct ':' j :: (u ++ (v ++ rest)))
      (by simp [sign]) n (by omega)
    simp only [List.append_assoc, List.cons_append, List.nil_append, parseArgs, chain, h1, h2,
      Option.bind_eq_bind, Option.bind_some, sign_self, typeName_fits hu, clock_suffix_fits hv rest hr]

theorem args_sound (n : Nat) : Finds Binding (parseArgs n) := by
  intro ts a rest h
  simp only [parseArgs, chain, Option.bind_eq_bind, Option.bind_eq_some_iff] at h
  obtain ⟨⟨xs, ts₁⟩, ⟨⟨x, ts₀⟩, h0, ⟨r, ts₀'⟩, h0', h1⟩, ⟨_, ts₂⟩, h2, ⟨ty, ts₃⟩, h3, ⟨c, ts₄⟩, h4, h5⟩ := h
  simp only [Option.some.injEq, Prod.mk.injEq] at h1 h5
  obtain ⟨rfl, rfl⟩ := h1
  obtain ⟨rfl, rfl⟩ := h5
  obtain ⟨hx, rfl⟩ := parseIdent_some h0
  obtain ⟨t, ht, hn⟩ := names_sound n x _ r _ hx h0'
  obtain ⟨j, rfl⟩ := sign_some h2
  obtain ⟨u, rfl, hu⟩ := typeName_sound _ _ _ h3
  obtain ⟨v, rfl, hv⟩ := clock_suffix_sound _ _ _ h4
  exact ⟨t ++ ([.punct ':' j] ++ (u ++ v)), by rw [ht]; simp, .mk hn ⟨j, rfl⟩ hu hv⟩

theorem names_head {t : List Tok} {xs : List String} (h : Names t xs) : ∃ x t', t = .ident x :: t' ∧ Name x := by
  cases h with
  | one hx => exact ⟨_, _, rfl, hx⟩
  | more hx _ => exact ⟨_, _, rfl, hx⟩

theorem binding_head {t : List Tok} {a : ArgsTy} (h : Binding t a) : ∃ x t', t = .ident x :: t' ∧ Name x := by
  cases h with
  | mk ht _ _ _ =>
    obtain ⟨x, t', rfl, hx⟩ := names_head ht
    exact ⟨x, _, rfl, hx⟩

theorem params_fits {n : Nat} {t : List Tok} {as : List ArgsTy} (h : Parameters t as)
    (hn : Tok.sizes t ≤ n) (rest : List Tok) : parseParams n (t ++ rest) = some (as, rest) := by
  cases h with
  | @mk u as b hl =>
    simp only [Tok.sizes, Tok.size] at hn
    have h2 := listed_fits (item := parseArgs n) (n := n)
      (fun t x rest ht hr hf => args_fits hr ht rest (by
        rcases hf with rfl | ⟨j, r, rfl⟩
        · exact noClock_nil
        · exact noClock_sign _ _ _))
      (fun t x hr => by obtain ⟨y, t', rfl, _⟩ := binding_head hr; simp) hl n (by omega) (by omega)
    simp [parseParams, h2]

theorem params_sound (n : Nat) : Finds Parameters (parseParams n) := by
  intro ts a rest h
  unfold parseParams at h
  split at h
  · simp only [Option.bind_eq_bind, Option.bind_eq_some_iff] at h
    obtain ⟨⟨es, b⟩, h1, h2⟩ := h
    simp only [Option.some.injEq, Prod.mk.injEq] at h2
    obtain ⟨rfl, rfl⟩ := h2
    exact ⟨[_], rfl, .mk (listed_sound (args_sound n) n _ _ _ h1).1⟩
  · cases h

theorem locals_fits {n : Nat} {t : List Tok} {as : List ArgsTy} (h : Locals t as)
    (hn : Tok.sizes t ≤ n) (rest : List Tok) :
    parseLocals n (t ++ .ident "let" :: rest) = some (as, .ident "let" :: rest) := by
  cases h with
  | none => simp [parseLocals, keyword]
  | @var u as hu =>
    simp only [Tok.sizes, Tok.size] at hn
    have := each_fits (item := parseArgs n) (n := n) (stop := "let")
      (fun t x j r ht hr => args_fits hr ht _ (noClock_sign _ _ _))
      (fun t x r hr => by
        obtain ⟨y, t', rfl, hy⟩ := binding_head hr
        exact keyword_ne (name_ne hy (by simp [reserved])) _) hu rest n (by omega) (by omega)
    simp only [parseLocals, List.cons_append, keyword_self, this]

theorem locals_sound (n : Nat) : Finds Locals (parseLocals n) := by
  intro ts a rest h
  unfold parseLocals at h
  split at h
  · rename_i h0
    obtain rfl := keyword_some h0
    obtain ⟨u, rfl, hu⟩ := each_sound (args_sound n) n _ _ _ h
    exact ⟨_ :: u, rfl, .var hu⟩
  · simp only [Option.some.injEq, Prod.mk.injEq] at h
    obtain ⟨rfl, rfl⟩ := h
    exact ⟨[], rfl, .none⟩

/-! ## Attributes -/

theorem attrLit_fits {t : List Tok} {l : AttrLit} (h : AttrLiteral t l) (rest : List Tok) :
    parseAttrLit (t ++ rest) = some (l, rest) := by
  cases h with
  | str s => rfl
  | int hl =>
    have h1 := literal_fits hl rest
    cases hl <;> simp only [List.cons_append, List.nil_append] at h1 ⊢ <;> simp [parseAttrLit, h1]
  | bool hl =>
    have h1 := literal_fits hl rest
    cases hl <;> simp only [List.cons_append, List.nil_append] at h1 ⊢ <;> simp [parseAttrLit, h1]
  | float hl =>
    have h1 := literal_fits hl rest
    cases hl <;> simp only [List.cons_append, List.nil_append] at h1 ⊢ <;> simp [parseAttrLit, h1]
  | other => rfl

theorem attrLit_sound : Finds AttrLiteral parseAttrLit := by
  intro ts l rest h
  unfold parseAttrLit at h
  split at h
  · simp only [Option.some.injEq, Prod.mk.injEq] at h
    obtain ⟨rfl, rfl⟩ := h
    exact ⟨[_], rfl, .str _⟩
  · rename_i hns
    split at h
    · rename_i h1
      simp only [Option.some.injEq, Prod.mk.injEq] at h
      obtain ⟨rfl, rfl⟩ := h
      obtain ⟨t, rfl, ht⟩ := literal_sound h1
      exact ⟨t, rfl, .int ht⟩
    · rename_i k ts' hni h1
      simp only [Option.some.injEq, Prod.mk.injEq] at h
      obtain ⟨rfl, rfl⟩ := h
      obtain ⟨t, rfl, ht⟩ := literal_sound h1
      refine ⟨t, rfl, ?_⟩
      cases ht with
      | yes => exact .bool .yes
      | no => exact .bool .no
      | int n => exact (hni _ rfl).elim
      | float f => exact .float (.float f)
      | str s => exact absurd rfl (hns s _)
      | other => exact .other
      | minus n j => exact (hni _ rfl).elim
      | opposite f j => exact .float (.opposite f j)
    · cases h

theorem attrParams_fits {n : Nat} {t : List Tok} {ps : List String} (h : AttrParams t ps)
    (hn : Tok.sizes t ≤ n) (rest : List Tok) (hr : ∀ u r, rest ≠ .group .bracket u :: r) :
    parseAttrParams n (t ++ rest) = some (ps, rest) := by
  cases h with
  | none =>
    cases rest with
    | nil => rfl
    | cons a rest =>
      cases a with
      | group d u =>
        cases d with
        | bracket => exact absurd rfl (hr u rest)
        | _ => rfl
      | _ => rfl
  | @some u ps b hl =>
    simp only [Tok.sizes, Tok.size] at hn
    have h2 := listed_fits (item := parseIdent) (n := n)
      (fun t x rest ht hr hf => by rw [hr.2]; exact parseIdent_name hr.1 rest)
      (fun t x hr => by rw [hr.2]; simp) hl n (by omega) (by omega)
    simp [parseAttrParams, h2]

theorem attrParams_sound (n : Nat) : Finds AttrParams (parseAttrParams n) := by
  intro ts ps rest h
  unfold parseAttrParams at h
  split at h
  · simp only [Option.bind_eq_bind, Option.bind_eq_some_iff] at h
    obtain ⟨⟨es, b⟩, h1, h2⟩ := h
    simp only [Option.some.injEq, Prod.mk.injEq] at h2
    obtain ⟨rfl, rfl⟩ := h2
    refine ⟨[_], rfl, .some (listed_sound ?_ n _ _ _ h1).1⟩
    intro ts x rest hx
    obtain ⟨hn, rfl⟩ := parseIdent_some hx
    exact ⟨[_], rfl, hn, rfl⟩
  · simp only [Option.some.injEq, Prod.mk.injEq] at h
    obtain ⟨rfl, rfl⟩ := h
    exact ⟨[], rfl, .none⟩

theorem attrTargets_fits {n : Nat} {t : List Tok} {ls : List AttrLit} (h : AttrTargets t ls)
    (hn : Tok.sizes t ≤ n) : parseAttrTargets n t = some (ls, []) := by
  cases h with
  | none => rfl
  | @some u ls b hl =>
    simp only [Tok.sizes, Tok.size] at hn
    have h2 := listed_fits (item := parseAttrLit) (n := n)
      (fun t x rest ht hr hf => attrLit_fits hr rest)
      (fun t x hr => by
        cases hr with
        | str s => simp
        | other => simp
        | int h => exact (literal_starts h).ne
        | bool h => exact (literal_starts h).ne
        | float h => exact (literal_starts h).ne) hl n (by omega) (by omega)
    simp [parseAttrTargets, h2]

theorem attrTargets_sound (n : Nat) : Finds AttrTargets (parseAttrTargets n) := by
  intro ts ps rest h
  unfold parseAttrTargets at h
  split at h
  · simp only [Option.bind_eq_bind, Option.bind_eq_some_iff] at h
    obtain ⟨⟨es, b⟩, h1, h2⟩ := h
    simp only [Option.some.injEq, Prod.mk.injEq] at h2
    obtain ⟨rfl, rfl⟩ := h2
    exact ⟨[_], rfl, .some (listed_sound attrLit_sound n _ _ _ h1).1⟩
  · simp only [Option.some.injEq, Prod.mk.injEq] at h
    obtain ⟨rfl, rfl⟩ := h
    exact ⟨[], rfl, .none⟩

theorem attribute_fits {n : Nat} {t : List Tok} {a : Attribute} (h : AttributeText t a)
    (hn : Tok.sizes t ≤ n) (rest : List Tok) : parseAttribute n (t ++ rest) = some (a, rest) := by
  cases h with
  | @mk w x t ps u ls hw hx ht hu =>
    obtain ⟨j, rfl⟩ := hw
    simp only [sizes_append, Tok.sizes, Tok.size] at hn
    have h1 := attrParams_fits (n := n) ht (by omega) u (by
      intro v r hv
      cases hu with
      | none => simp at hv
      | some _ => simp at hv)
    have h2 := attrTargets_fits (n := n) hu (by omega)
    simp [parseAttribute, sign_self, parseIdent_name hx, h1, h2]

theorem attribute_sound (n : Nat) : Finds AttributeText (parseAttribute n) := by
  intro ts a rest h
  simp only [parseAttribute, Option.bind_eq_bind, Option.bind_eq_some_iff] at h
  obtain ⟨⟨_, ts₁⟩, h1, h2⟩ := h
  obtain ⟨j, rfl⟩ := sign_some h1
  simp only at h2
  split at h2
  · simp only [Option.bind_eq_some_iff] at h2
    obtain ⟨⟨x, i₁⟩, h3, ⟨ps, i₂⟩, h4, ⟨ls, i₃⟩, h5, h6⟩ := h2
    simp only at h6
    split at h6
    · rename_i he
      rw [List.isEmpty_iff] at he
      subst he
      simp only [Option.some.injEq, Prod.mk.injEq] at h6
      obtain ⟨rfl, rfl⟩ := h6
      obtain ⟨hx, rfl⟩ := parseIdent_some h3
      obtain ⟨t, rfl, ht⟩ := attrParams_sound n _ _ _ h4
      obtain ⟨u, rfl, hu⟩ := attrTargets_sound n _ _ _ h5
      rw [List.append_nil]
      exact ⟨[.punct '#' j] ++ [_], by simp, .mk ⟨j, rfl⟩ hx ht hu⟩
    · cases h6
  · cases h2

/-! ## Declarations -/

theorem item_fits {n : Nat} {t : List Tok} {i : SrcItem} (h : Item t i) (hn : Tok.sizes t ≤ n)
    (rest : List Tok) (hf : Follows ';' rest) : parseItem n (t ++ rest) = some (i, rest) := by
  cases h with
  | @node f i is o os w l ls b ss hf hi ho hw hl hb =>
    obtain ⟨j, rfl⟩ := hw
    simp only [sizes_append, Tok.sizes, Tok.size] at hn
    have h5 := each_fits (item := parseStmt n) (n := n) (stop := "tel")
      (fun t x j r ht hr => stmt_fits hr ht j r)
      (fun t x r hr => stmt_head hr "tel" (by simp [reserved]) (by simp) r) hb rest n (by omega) (by omega)
    have hk1 : ∀ r, keyword "extern" (.ident "node" :: r) = none := fun r => keyword_ne (by simp) r
    have hk2 : ∀ r, keyword "const" (.ident "node" :: r) = none := fun r => keyword_ne (by simp) r
    have h2 := fun r => params_fits (n := n) hi (by omega) r
    have h3 := fun r => params_fits (n := n) ho (by omega) r
    have h4 := fun r => locals_fits (n := n) hl (by omega) r
    simp only [List.append_assoc, List.cons_append, List.nil_append, parseItem, hk1, hk2, parseNode,
      keyword_self, parseIdent_name hf, h2, h3, h4, h5, sign_self, Option.bind_eq_bind,
      Option.bind_some, Option.map_some]
  | @const x w t ty v u e hx hw ht hv hu =>
    obtain ⟨j, rfl⟩ := hw
    obtain ⟨j', rfl⟩ := hv
    simp only [sizes_append, Tok.sizes, Tok.size] at hn
    have h1 := expression_fits (n := n) rest (by omega) hu
      (by
        rcases hf with rfl | ⟨j, r, rfl⟩
        · exact stopOr_nil
        · exact stopOr_sign (.inr rfl) _ _)
      (by rcases hf with rfl | ⟨j, r, rfl⟩ <;> simp [NoGroup])
    have hk1 : ∀ r, keyword "extern" (.ident "const" :: r) = none := fun r => keyword_ne (by simp) r
    simp only [List.append_assoc, List.cons_append, List.nil_append, parseItem, hk1, parseConst,
      keyword_self, parseIdent_name hx, sign_self, typeName_fits ht, h1, Option.bind_eq_bind,
      Option.bind_some, Option.map_some]
  | @extNode f i is o os hf hi ho =>
    simp only [sizes_append, Tok.sizes, Tok.size] at hn
    have hk2 : ∀ r, keyword "const" (.ident "node" :: r) = none := fun r => keyword_ne (by simp) r
    have h2 := fun r => params_fits (n := n) hi (by omega) r
    have h3 := fun r => params_fits (n := n) ho (by omega) r
    simp only [List.append_assoc, List.cons_append, parseItem, parseExtern, hk2,
      keyword_self, parseIdent_name hf, h2, h3, Option.bind_eq_bind, Option.bind_some]
  | @extConst x w t ty u c hx hw ht hu =>
    obtain ⟨j, rfl⟩ := hw
    have hc : NoClock rest := by
      rcases hf with rfl | ⟨j, r, rfl⟩
      · exact noClock_nil
      · exact noClock_sign _ _ _
    simp only [List.append_assoc, List.cons_append, List.nil_append, parseItem, parseExtern,
      keyword_self, parseIdent_name hx, sign_self, typeName_fits ht, clock_suffix_fits hu rest hc,
      Option.bind_eq_bind, Option.bind_some]

theorem item_sound (n : Nat) : Finds Item (parseItem n) := by
  intro ts i rest h
  unfold parseItem at h
  split at h
  · obtain rfl := keyword_some ‹keyword "extern" ts = some _›
    unfold parseExtern at h
    split at h
    · rename_i h0
      obtain rfl := keyword_some h0
      simp only [Option.bind_eq_bind, Option.bind_eq_some_iff] at h
      obtain ⟨⟨x, ts₁⟩, h1, ⟨_, ts₂⟩, h2, ⟨ty, ts₃⟩, h3, ⟨c, ts₄⟩, h4, h5⟩ := h
      simp only [Option.some.injEq, Prod.mk.injEq] at h5
      obtain ⟨rfl, rfl⟩ := h5
      obtain ⟨hx, rfl⟩ := parseIdent_some h1
      obtain ⟨j, rfl⟩ := sign_some h2
      obtain ⟨t, rfl, ht⟩ := typeName_sound _ _ _ h3
      obtain ⟨u, rfl, hu⟩ := clock_suffix_sound _ _ _ h4
      exact ⟨_, by simp, .extConst hx ⟨j, rfl⟩ ht hu⟩
    · simp only [Option.bind_eq_bind, Option.bind_eq_some_iff] at h
      obtain ⟨⟨_, ts₀⟩, h0, ⟨x, ts₁⟩, h1, ⟨is, ts₂⟩, h2, ⟨_, ts₃⟩, h3, ⟨os, ts₄⟩, h4, h5⟩ := h
      simp only [Option.some.injEq, Prod.mk.injEq] at h5
      obtain ⟨rfl, rfl⟩ := h5
      obtain rfl := keyword_some h0
      obtain ⟨hx, rfl⟩ := parseIdent_some h1
      obtain ⟨t, rfl, ht⟩ := params_sound n _ _ _ h2
      obtain rfl := keyword_some h3
      obtain ⟨u, rfl, hu⟩ := params_sound n _ _ _ h4
      exact ⟨_, by simp, .extNode hx ht hu⟩
  · simp only [Option.map_eq_some_iff, Prod.mk.injEq] at h
    obtain ⟨⟨c, r⟩, h, rfl, rfl⟩ := h
    simp only [parseConst, Option.bind_eq_bind, Option.bind_eq_some_iff] at h
    obtain ⟨⟨_, ts₀⟩, h0, ⟨x, ts₁⟩, h1, ⟨_, ts₂⟩, h2, ⟨ty, ts₃⟩, h3, ⟨_, ts₄⟩, h4, ⟨e, ts₅⟩, h5, h6⟩ := h
    simp only [Option.some.injEq, Prod.mk.injEq] at h6
    obtain ⟨rfl, rfl⟩ := h6
    obtain rfl := keyword_some h0
    obtain ⟨hx, rfl⟩ := parseIdent_some h1
    obtain ⟨j, rfl⟩ := sign_some h2
    obtain ⟨t, rfl, ht⟩ := typeName_sound _ _ _ h3
    obtain ⟨j', rfl⟩ := sign_some h4
    obtain ⟨u, rfl, hu⟩ := expr_sound h5
    exact ⟨_, by simp, .const hx ⟨j, rfl⟩ ht ⟨j', rfl⟩ hu⟩
  · simp only [Option.map_eq_some_iff, Prod.mk.injEq] at h
    obtain ⟨⟨c, r⟩, h, rfl, rfl⟩ := h
    simp only [parseNode, Option.bind_eq_bind, Option.bind_eq_some_iff] at h
    obtain ⟨⟨_, ts₀⟩, h0, ⟨x, ts₁⟩, h1, ⟨is, ts₂⟩, h2, ⟨_, ts₃⟩, h3, ⟨os, ts₄⟩, h4, ⟨_, ts₅⟩, h5,
      ⟨ls, ts₆⟩, h6, ⟨_, ts₇⟩, h7, ⟨ss, ts₈⟩, h8, ⟨_, ts₉⟩, h9, h10⟩ := h
    simp only [Option.some.injEq, Prod.mk.injEq] at h10
    obtain ⟨rfl, rfl⟩ := h10
    obtain rfl := keyword_some h0
    obtain ⟨hx, rfl⟩ := parseIdent_some h1
    obtain ⟨t, rfl, ht⟩ := params_sound n _ _ _ h2
    obtain rfl := keyword_some h3
    obtain ⟨u, rfl, hu⟩ := params_sound n _ _ _ h4
    obtain ⟨j, rfl⟩ := sign_some h5
    obtain ⟨l, rfl, hl⟩ := locals_sound n _ _ _ h6
    obtain rfl := keyword_some h7
    obtain ⟨b, rfl, hb⟩ := each_sound (stmt_sound n) n _ _ _ h8
    obtain rfl := keyword_some h9
    exact ⟨_, by simp, .node hx ht hu ⟨j, rfl⟩ hl hb⟩

theorem item_head {t : List Tok} {i : SrcItem} (h : Item t i) (rest : List Tok) :
    t ≠ [] ∧ sign '#' (t ++ rest) = none := by
  cases h <;> simp [sign]

theorem parseDecl_eq (m k : Nat) (ts : List Tok) :
    parseDecl m k ts = (match sign '#' ts with
    | none => (parseItem m ts).map fun r => (⟨[], r.1⟩, r.2)
    | some _ =>
      match k with
      | 0 => none
      | k + 1 => do
        let (a, ts) ← parseAttribute m ts
        let (d, ts) ← parseDecl m k ts
        some ({ d with attrs := a :: d.attrs }, ts)) := by
  cases k <;> rw [parseDecl] <;> split <;> simp_all

theorem decl_ne (t : List Tok) (d : SrcDecl) (h : Declaration t d) : t ≠ [] := by
  cases h with
  | plain h => exact (item_head h []).1
  | tagged h _ =>
    cases h with
    | mk hw _ _ _ =>
      obtain ⟨j, rfl⟩ := hw
      simp

theorem decl_fits {n : Nat} {t : List Tok} {d : SrcDecl} (h : Declaration t d) (rest : List Tok)
    (hf : Follows ';' rest) : ∀ k, Tok.sizes t ≤ n → Tok.sizes t ≤ k →
    parseDecl n k (t ++ rest) = some (d, rest) := by
  induction h with
  | plain h =>
    intro k hn _
    rw [parseDecl_eq, (item_head h rest).2]
    simp only [item_fits h hn rest hf, Option.map_some]
  | @tagged t a u as i ht hu ih =>
    intro k hn hk
    rw [sizes_append] at hn hk
    have hs : ∃ j t', t = .punct '#' j :: t' := by
      cases ht with
      | mk hw _ _ _ =>
        obtain ⟨j, rfl⟩ := hw
        exact ⟨j, _, rfl⟩
    obtain ⟨j, t', rfl⟩ := hs
    have hp : 1 ≤ Tok.sizes (.punct '#' j :: t') := sizes_pos (by simp)
    obtain ⟨k, rfl⟩ : ∃ m, k = m + 1 := ⟨k - 1, by omega⟩
    have h1 := attribute_fits (n := n) ht (by omega) (u ++ rest)
    have h2 := ih k (by omega) (by omega)
    rw [parseDecl_eq, List.append_assoc]
    have h0 : sign '#' (.punct '#' j :: t' ++ (u ++ rest)) = some ((), t' ++ (u ++ rest)) := sign_self _ _ _
    rw [h0]
    simp only [h1, h2, Option.bind_eq_bind, Option.bind_some]

theorem decl_sound (n : Nat) : ∀ k, Finds Declaration (parseDecl n k) := by
  intro k
  induction k with
  | zero =>
    intro ts d rest h
    rw [parseDecl_eq] at h
    split at h
    · simp only [Option.map_eq_some_iff, Prod.mk.injEq] at h
      obtain ⟨⟨i, r⟩, h, rfl, rfl⟩ := h
      obtain ⟨t, rfl, ht⟩ := item_sound n _ _ _ h
      exact ⟨t, rfl, .plain ht⟩
    · cases h
  | succ k ih =>
    intro ts d rest h
    rw [parseDecl_eq] at h
    split at h
    · simp only [Option.map_eq_some_iff, Prod.mk.injEq] at h
      obtain ⟨⟨i, r⟩, h, rfl, rfl⟩ := h
      obtain ⟨t, rfl, ht⟩ := item_sound n _ _ _ h
      exact ⟨t, rfl, .plain ht⟩
    · simp only [Option.bind_eq_bind, Option.bind_eq_some_iff] at h
      obtain ⟨⟨a, ts₁⟩, h1, ⟨⟨as, i⟩, ts₂⟩, h2, h3⟩ := h
      simp only [Option.some.injEq, Prod.mk.injEq] at h3
      obtain ⟨rfl, rfl⟩ := h3
      obtain ⟨t, rfl, ht⟩ := attribute_sound n _ _ _ h1
      obtain ⟨u, rfl, hu⟩ := ih _ _ _ h2
      exact ⟨t ++ u, by simp, .tagged ht hu⟩

theorem parseProg_iff (ts : List Tok) (p : SrcProg) : parseProg ts = some p ↔ Program ts p := by
  constructor
  · intro h
    simp only [parseProg, Option.map_eq_some_iff] at h
    obtain ⟨⟨q, b⟩, h, rfl⟩ := h
    exact ⟨b, (listed_sound (decl_sound _ _) _ _ _ _ h).1⟩
  · rintro ⟨b, h⟩
    have := listed_fits (item := parseDecl (Tok.sizes ts) (Tok.sizes ts)) (n := Tok.sizes ts)
      (fun t x rest ht hr hf => decl_fits hr rest hf _ ht ht) decl_ne h (Tok.sizes ts)
      (Nat.le_refl _) (Nat.le_refl _)
    simp [parseProg, this]

end Chandeliers.Grm
