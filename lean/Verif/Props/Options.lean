import Verif.Lemmas.Options
import Verif.San.Names
import Std.Data.String.ToNat

/-! # Attributes, options and names: C33, C34, C39 -/

set_option autoImplicit false
set_option linter.unusedSectionVars false

namespace Chandeliers.Props
open Chandeliers.Err Chandeliers.Err.Chk Chandeliers.San Chandeliers.Syn Chandeliers.Spec

variable {σ : Type}

/-! ## C33 -/

/-- C33: a node with well-formed attributes gets exactly the options they stand for: the last
`trace`, `main`, `test` wins, `pub` implies `export`, lists collect everything in order, what is
absent has its default (see `Spec.meaning`).  No error is recorded. -/
theorem C33_node_options (as : List Attribute) (small : ∀ a ∈ as, smallNumbers a)
    (wf : ∀ a ∈ as, wellFormed a) (s : EAccum AttrDiag × σ) :
    ∃ ws, (Decl.default.withAll as >>= fun d => d.forNode) s
      = (.some (meaning as), (⟨s.1.err, s.1.warn ++ ws⟩, s.2)) := by
  obtain ⟨d, ws, hr, hh⟩ := (withAll_run as Decl.default [] Decl.spanned_default holds_default
    small s).1 wf
  refine ⟨ws, ?_⟩
  rw [run_bind, hr]
  obtain ⟨h1, h2, h3, h4, h5, h6, h7, h8, h9, h10⟩ := hh
  simp only [List.nil_append] at *
  simp only [Decl.forNode, run_pure, h1.take, h2.take, h3.take, h4.take, h5.take, h6.take, h7.take,
    h8.take, h9.take, h10.take]

/-- C33: a misspelt or ill-formed attribute is reported, whatever the others and whatever the
declaration; nothing panics. -/
theorem C33_malformed_reported (as : List Attribute) (small : ∀ a ∈ as, smallNumbers a)
    (bad : ∃ a ∈ as, ¬ wellFormed a) (s : EAccum AttrDiag × σ) :
    ∃ a ∈ as, ¬ wellFormed a ∧ ∃ ws, Decl.default.withAll as s
      = (.none, (⟨s.1.err ++ [.malformed a.action], s.1.warn ++ ws⟩, s.2)) :=
  (withAll_run as Decl.default [] Decl.spanned_default holds_default small s).2 bad

theorem lastNamed_last (as bs : List Attribute) (a : Attribute)
    (hbs : ∀ b ∈ bs, b.action ≠ a.action) :
    lastNamed (as ++ a :: bs) a.action = some a := by
  simp only [lastNamed, List.filter_append, List.filter_cons]
  have hnil : bs.filter (fun b => decide (b.action = a.action)) = [] :=
    List.filter_eq_nil_iff.2 fun b hb => by simpa using hbs b hb
  rw [hnil]
  simp

/-- C33: of several `#[main(n)]` or `#[test(n)]` the last one wins. -/
theorem C33_last_wins (as bs : List Attribute) (name : String) (n span : Nat)
    (hname : name = "main" ∨ name = "test")
    (small : ∀ a ∈ as ++ ⟨name, [], [.int n], span⟩ :: bs, smallNumbers a)
    (wf : ∀ a ∈ as ++ ⟨name, [], [.int n], span⟩ :: bs, wellFormed a)
    (hbs : ∀ b ∈ bs, b.action ≠ name) (s : EAccum AttrDiag × σ) :
    ∃ o s', (Decl.default.withAll (as ++ ⟨name, [], [.int n], span⟩ :: bs) >>=
        fun d => d.forNode) s = (.some o, s') ∧
      (name = "main" → o.main = some n) ∧ (name = "test" → o.test = some n) := by
  obtain ⟨ws, h⟩ := C33_node_options _ small wf s
  have hl := lastNamed_last as bs ⟨name, [], [.int n], span⟩ hbs
  refine ⟨_, _, h, ?_, ?_⟩ <;> intro hn <;> subst hn <;> simp [meaning, hl, steps]

/-- C33: `#[pub]` implies `#[export]`. -/
theorem C33_pub_implies_export (as : List Attribute) (small : ∀ a ∈ as, smallNumbers a)
    (wf : ∀ a ∈ as, wellFormed a) (hpub : ∃ a ∈ as, a.action = "pub") (s : EAccum AttrDiag × σ) :
    ∃ o s', (Decl.default.withAll as >>= fun d => d.forNode) s = (.some o, s') ∧
      o.isPub = true ∧ o.export_ = true := by
  obtain ⟨ws, h⟩ := C33_node_options as small wf s
  obtain ⟨a, ha, hpa⟩ := hpub
  refine ⟨_, _, h, ?_, ?_⟩
  · simp only [meaning, hasAny, List.any_eq_true]; exact ⟨a, ha, by simp [hpa]⟩
  · simp only [meaning, hasAny, List.any_eq_true]; exact ⟨a, ha, by simp [hpa]⟩

theorem hasAny_false {as : List Attribute} {ns ms : List String} (h : hasAny as ns = false)
    (hsub : ∀ n ∈ ms, n ∈ ns) : hasAny as ms = false := by
  simp only [hasAny, List.any_eq_false, decide_eq_true_eq] at h ⊢
  exact fun a ha hm => h a ha (hsub _ hm)

theorem hasAny_true {as : List Attribute} {ns ms : List String} (h : hasAny as ms = true)
    (hsub : ∀ n ∈ ms, n ∈ ns) : hasAny as ns = true := by
  simp only [hasAny, List.any_eq_true, decide_eq_true_eq] at h ⊢
  obtain ⟨a, ha, hm⟩ := h
  exact ⟨a, ha, hsub _ hm⟩

/-- C33: on a `const` the attributes `export`, `pub`, `rustc_allow`, `clippy_allow` and `doc` are
taken and any other is an error. -/
theorem C33_const_options (as : List Attribute) (small : ∀ a ∈ as, smallNumbers a)
    (wf : ∀ a ∈ as, wellFormed a) (s : EAccum AttrDiag × σ) :
    ((∀ a ∈ as, a.action ∉ inapplicable .const) →
      ∃ ws, (Decl.default.withAll as >>= fun d => d.forConst) s
        = (.some { export_ := (meaning as).export_, rustcAllow := (meaning as).rustcAllow,
                   doc := (meaning as).doc, isPub := (meaning as).isPub },
          (⟨s.1.err, s.1.warn ++ ws⟩, s.2))) ∧
    ((∃ a ∈ as, a.action ∈ inapplicable .const) →
      ∃ o ws, (Decl.default.withAll as >>= fun d => d.forConst) s
        = (.none, (⟨s.1.err ++ [.inapplicable o .const], s.1.warn ++ ws⟩, s.2))) := by
  obtain ⟨d, ws, hr, hh⟩ := (withAll_run as Decl.default [] Decl.spanned_default holds_default
    small s).1 wf
  rw [run_bind, hr]
  obtain ⟨h1, h2, h3, h4, h5, h6, h7, h8, h9, h10⟩ := hh
  simp only [List.nil_append] at *
  constructor
  · intro h
    have hf : hasAny as (inapplicable .const) = false := by
      simp only [hasAny, List.any_eq_false, decide_eq_true_eq]; exact h
    refine ⟨ws, ?_⟩
    simp only [Decl.forConst, run_bind, h1.skip, h4.skip, h8.skip, h5.skip, h9.skip, h10.skip,
      hasAny_false hf (ms := ["trace"]) (by decide), hasAny_false hf (ms := ["main"]) (by decide),
      hasAny_false hf (ms := ["trait"]) (by decide), hasAny_false hf (ms := ["test"]) (by decide),
      hasAny_false hf (ms := ["generic"]) (by decide),
      hasAny_false hf (ms := ["universal_pre"]) (by decide),
      h2.take, h3.take, h6.take, h7.take]
    simp
  · intro h
    have hcase : hasAny as ["trace"] = true ∨ hasAny as ["main"] = true ∨
        hasAny as ["trait"] = true ∨ hasAny as ["test"] = true ∨ hasAny as ["generic"] = true ∨
        hasAny as ["universal_pre"] = true := by
      obtain ⟨a, ha, hm⟩ := h
      have key : ∀ n, a.action = n → hasAny as [n] = true := by
        intro n hn; simp only [hasAny, List.any_eq_true]; exact ⟨a, ha, by simp [hn]⟩
      simp only [inapplicable, List.mem_cons, List.not_mem_nil, or_false] at hm
      rcases hm with h | h | h | h | h | h <;> have := key _ h <;> simp [this]
    simp only [Decl.forConst, run_bind, h1.skip, h4.skip, h8.skip, h5.skip, h9.skip, h10.skip]
    cases hE : hasAny as ["trace"]
    case true => exact ⟨_, ws, rfl⟩
    cases hE : hasAny as ["main"]
    case true => exact ⟨_, ws, rfl⟩
    cases hE : hasAny as ["trait"]
    case true => exact ⟨_, ws, rfl⟩
    cases hE : hasAny as ["test"]
    case true => exact ⟨_, ws, rfl⟩
    cases hE : hasAny as ["generic"]
    case true => exact ⟨_, ws, rfl⟩
    cases hE : hasAny as ["universal_pre"]
    case true => exact ⟨_, ws, rfl⟩
    simp_all

/-- C33: on an `extern node` the attributes `trace`, `main`, `rustc_allow`, `clippy_allow` and
`generic` are taken and any other is an error. -/
theorem C33_extern_node_options (as : List Attribute) (small : ∀ a ∈ as, smallNumbers a)
    (wf : ∀ a ∈ as, wellFormed a) (s : EAccum AttrDiag × σ) :
    ((∀ a ∈ as, a.action ∉ inapplicable .extNode) →
      ∃ ws, (Decl.default.withAll as >>= fun d => d.forExtNode) s
        = (.some { trace := (meaning as).trace, main := (meaning as).main,
                   rustcAllow := (meaning as).rustcAllow, generics := (meaning as).generics },
          (⟨s.1.err, s.1.warn ++ ws⟩, s.2))) ∧
    ((∃ a ∈ as, a.action ∈ inapplicable .extNode) →
      ∃ o ws, (Decl.default.withAll as >>= fun d => d.forExtNode) s
        = (.none, (⟨s.1.err ++ [.inapplicable o .extNode], s.1.warn ++ ws⟩, s.2))) := by
  obtain ⟨d, ws, hr, hh⟩ := (withAll_run as Decl.default [] Decl.spanned_default holds_default
    small s).1 wf
  rw [run_bind, hr]
  obtain ⟨h1, h2, h3, h4, h5, h6, h7, h8, h9, h10⟩ := hh
  simp only [List.nil_append] at *
  constructor
  · intro h
    have hf : hasAny as (inapplicable .extNode) = false := by
      simp only [hasAny, List.any_eq_false, decide_eq_true_eq]; exact h
    refine ⟨ws, ?_⟩
    simp only [Decl.forExtNode, run_bind, h2.skip, h7.skip, h3.skip, h8.skip, h5.skip, h10.skip,
      hasAny_false hf (ms := ["export", "pub"]) (by decide),
      hasAny_false hf (ms := ["doc"]) (by decide),
      hasAny_false hf (ms := ["pub"]) (by decide),
      hasAny_false hf (ms := ["trait"]) (by decide), hasAny_false hf (ms := ["test"]) (by decide),
      hasAny_false hf (ms := ["universal_pre"]) (by decide),
      h1.take, h4.take, h6.take, h9.take]
    simp
  · intro h
    have hcase : hasAny as ["export", "pub"] = true ∨ hasAny as ["doc"] = true ∨
        hasAny as ["pub"] = true ∨ hasAny as ["trait"] = true ∨ hasAny as ["test"] = true ∨
        hasAny as ["universal_pre"] = true := by
      obtain ⟨a, ha, hm⟩ := h
      have key : ∀ n, a.action = n → hasAny as [n] = true := by
        intro n hn; simp only [hasAny, List.any_eq_true]; exact ⟨a, ha, by simp [hn]⟩
      simp only [inapplicable, List.mem_cons, List.not_mem_nil, or_false] at hm
      rcases hm with h | h | h | h | h | h <;> have := key _ h
      · exact .inl (hasAny_true this (by simp))
      all_goals simp [this]
    simp only [Decl.forExtNode, run_bind, h2.skip, h7.skip, h3.skip, h8.skip, h5.skip, h10.skip]
    cases hE : hasAny as ["export", "pub"]
    case true => exact ⟨_, ws, rfl⟩
    cases hE : hasAny as ["doc"]
    case true => exact ⟨_, ws, rfl⟩
    cases hE : hasAny as ["pub"]
    case true => exact ⟨_, ws, rfl⟩
    cases hE : hasAny as ["trait"]
    case true => exact ⟨_, ws, rfl⟩
    cases hE : hasAny as ["test"]
    case true => exact ⟨_, ws, rfl⟩
    cases hE : hasAny as ["universal_pre"]
    case true => exact ⟨_, ws, rfl⟩
    simp_all

/-- C33: on an `extern const` only `rustc_allow` and `clippy_allow` are taken and any other is an
error. -/
theorem C33_extern_const_options (as : List Attribute) (small : ∀ a ∈ as, smallNumbers a)
    (wf : ∀ a ∈ as, wellFormed a) (s : EAccum AttrDiag × σ) :
    ((∀ a ∈ as, a.action ∉ inapplicable .extConst) →
      ∃ ws, (Decl.default.withAll as >>= fun d => d.forExtConst) s
        = (.some { rustcAllow := (meaning as).rustcAllow }, (⟨s.1.err, s.1.warn ++ ws⟩, s.2))) ∧
    ((∃ a ∈ as, a.action ∈ inapplicable .extConst) →
      ∃ o ws, (Decl.default.withAll as >>= fun d => d.forExtConst) s
        = (.none, (⟨s.1.err ++ [.inapplicable o .extConst], s.1.warn ++ ws⟩, s.2))) := by
  obtain ⟨d, ws, hr, hh⟩ := (withAll_run as Decl.default [] Decl.spanned_default holds_default
    small s).1 wf
  rw [run_bind, hr]
  obtain ⟨h1, h2, h3, h4, h5, h6, h7, h8, h9, h10⟩ := hh
  simp only [List.nil_append] at *
  constructor
  · intro h
    have hf : hasAny as (inapplicable .extConst) = false := by
      simp only [hasAny, List.any_eq_false, decide_eq_true_eq]; exact h
    refine ⟨ws, ?_⟩
    simp only [Decl.forExtConst, run_bind, h1.skip, h2.skip, h4.skip, h7.skip, h3.skip, h8.skip,
      h5.skip, h9.skip, h10.skip,
      hasAny_false hf (ms := ["trace"]) (by decide),
      hasAny_false hf (ms := ["export", "pub"]) (by decide),
      hasAny_false hf (ms := ["main"]) (by decide),
      hasAny_false hf (ms := ["doc"]) (by decide),
      hasAny_false hf (ms := ["pub"]) (by decide),
      hasAny_false hf (ms := ["trait"]) (by decide), hasAny_false hf (ms := ["test"]) (by decide),
      hasAny_false hf (ms := ["generic"]) (by decide),
      hasAny_false hf (ms := ["universal_pre"]) (by decide), h6.take]
    simp
  · intro h
    have hcase : hasAny as ["trace"] = true ∨ hasAny as ["export", "pub"] = true ∨
        hasAny as ["main"] = true ∨ hasAny as ["doc"] = true ∨
        hasAny as ["pub"] = true ∨ hasAny as ["trait"] = true ∨ hasAny as ["test"] = true ∨
        hasAny as ["generic"] = true ∨ hasAny as ["universal_pre"] = true := by
      obtain ⟨a, ha, hm⟩ := h
      have key : ∀ n, a.action = n → hasAny as [n] = true := by
        intro n hn; simp only [hasAny, List.any_eq_true]; exact ⟨a, ha, by simp [hn]⟩
      simp only [inapplicable, List.mem_cons, List.not_mem_nil, or_false] at hm
      rcases hm with h | h | h | h | h | h | h | h | h <;> have := key _ h
      · simp [this]
      · exact .inr (.inl (hasAny_true this (by simp)))
      all_goals simp [this]
    simp only [Decl.forExtConst, run_bind, h1.skip, h2.skip, h4.skip, h7.skip, h3.skip, h8.skip,
      h5.skip, h9.skip, h10.skip]
    cases hE : hasAny as ["trace"]
    case true => exact ⟨_, ws, rfl⟩
    cases hE : hasAny as ["export", "pub"]
    case true => exact ⟨_, ws, rfl⟩
    cases hE : hasAny as ["main"]
    case true => exact ⟨_, ws, rfl⟩
    cases hE : hasAny as ["doc"]
    case true => exact ⟨_, ws, rfl⟩
    cases hE : hasAny as ["pub"]
    case true => exact ⟨_, ws, rfl⟩
    cases hE : hasAny as ["trait"]
    case true => exact ⟨_, ws, rfl⟩
    cases hE : hasAny as ["test"]
    case true => exact ⟨_, ws, rfl⟩
    cases hE : hasAny as ["generic"]
    case true => exact ⟨_, ws, rfl⟩
    cases hE : hasAny as ["universal_pre"]
    case true => exact ⟨_, ws, rfl⟩
    simp_all

/-- Attributes that meet the hypotheses; the second `main` wins and the duplicate is only a
warning. -/
example :
    let as : List Attribute := [⟨"main", [], [.int 15], 1⟩, ⟨"pub", [], [], 2⟩,
      ⟨"doc", [], [.str "hello"], 3⟩, ⟨"main", [], [], 4⟩, ⟨"generic", ["T", "U"], [], 5⟩]
    (∀ a ∈ as, smallNumbers a) ∧ (∀ a ∈ as, wellFormed a) ∧
    (Decl.default.withAll as >>= fun d => d.forNode) (EAccum.default, ())
      = (.some ⟨none, true, some 100, [], ["hello"], true, false, none, ["T", "U"], false⟩,
        (⟨[], [.duplicate .main]⟩, ())) := by
  refine ⟨?_, ?_, rfl⟩
  · simp [smallNumbers]
  · simp [wellFormed]

/-- The same attributes are refused on a constant. -/
example : ((Decl.default.withAll [⟨"pub", [], [], 2⟩, ⟨"main", [], [], 4⟩] >>=
      fun d => d.forConst) (EAccum.default, ())).2.1.err = [.inapplicable .main .const] := rfl

/-- C33: repeated generics are noticed within one attribute but not across two attributes. -/
theorem C33_duplicate_generics_undetected :
    (Decl.default.withAll [⟨"generic", ["T", "T"], [], 1⟩] (EAccum.default, ())).1 = .none ∧
    ∃ d, (Decl.default.withAll [⟨"generic", ["T"], [], 1⟩, ⟨"generic", ["T"], [], 2⟩]
        (EAccum.default, ())) = (.some d, (EAccum.default, ())) ∧ d.generics.take = ["T", "T"] :=
  ⟨rfl, _, rfl, rfl⟩

/-! ## C34 -/

theorem record_spec (use : Site) : ∀ (u : Sites), (u.map (·.1)).Nodup → use ∈ u.map (·.1) →
    ∃ u', u.record use = some u' ∧ u'.map (·.1) = u.map (·.1) ∧
      ∀ s b, (s, b) ∈ u' ↔ (s = use ∧ b = true) ∨ (s ≠ use ∧ (s, b) ∈ u)
  | [], _, h => by simp at h
  | (h0, b0) :: tl, hn, h => by
    simp only [List.map_cons, List.nodup_cons] at hn
    unfold Sites.record
    by_cases he : h0 = use
    · subst he
      refine ⟨(h0, true) :: tl, by simp, by simp, ?_⟩
      intro s b
      simp only [List.mem_cons, Prod.mk.injEq]
      constructor
      · rintro (h | h)
        · exact .inl h
        · refine .inr ⟨?_, .inr h⟩
          rintro rfl; exact hn.1 (List.mem_map.2 ⟨(_, _), ‹_ ∈ tl›, rfl⟩)
      · rintro (h | ⟨h1, h2 | h2⟩)
        · exact .inl h
        · exact absurd h2.1 h1
        · exact .inr h2
    · have h' : use ∈ tl.map (·.1) := by
        simp only [List.map_cons, List.mem_cons] at h
        exact h.resolve_left (fun h => he h.symm)
      obtain ⟨u', h1, h2, h3⟩ := record_spec use tl hn.2 h'
      refine ⟨(h0, b0) :: u', by simp [he, h1], by simp [h2], ?_⟩
      intro s b
      simp only [List.mem_cons, Prod.mk.injEq, h3]
      constructor
      · rintro (⟨rfl, rfl⟩ | h | h)
        · exact .inr ⟨he, .inl ⟨rfl, rfl⟩⟩
        · exact .inl h
        · exact .inr ⟨h.1, .inr h.2⟩
      · rintro (h | ⟨h, h4 | h4⟩)
        · exact .inr (.inl h)
        · exact .inl h4
        · exact .inr (.inr ⟨h, h4⟩)

/-- Fetch an option at several sites, one after the other. -/
def fetchAll {T : Type} (o : UseOpt T) : List Site → Option (UseOpt T)
  | [] => some o
  | s :: ss => (o.fetch s).bind fun (_, o) => fetchAll o ss

theorem assertUsed_iff (u : Sites) : u.assertUsed = true ↔ ∀ s b, (s, b) ∈ u → b = true := by
  induction u with
  | nil => simp [Sites.assertUsed]
  | cons h t ih =>
    obtain ⟨s, b⟩ := h
    simp only [Sites.assertUsed, Bool.and_eq_true, ih, List.mem_cons, Prod.mk.injEq]
    constructor
    · rintro ⟨rfl, h⟩ s' b' (⟨_, rfl⟩ | h')
      · rfl
      · exact h s' b' h'
    · intro h
      exact ⟨h s b (.inl ⟨rfl, rfl⟩), fun s' b' h' => h s' b' (.inr h')⟩

/-- C34: fetching an option at declared sites always works and never changes its value; then
`assert_used` passes if and only if every declared site was among them. -/
theorem C34_assert_used_iff {T : Type} (declared : List Site) (hd : declared.Nodup) (data : T)
    (used : List Site) (hu : ∀ s ∈ used, s ∈ declared) :
    ∃ o, fetchAll (UseOpt.new declared data) used = some o ∧ o.data = data ∧
      (o.assertUsed = true ↔ ∀ s ∈ declared, s ∈ used) := by
  have key : ∀ (used : List Site) (o : UseOpt T), (o.usage.map (·.1)).Nodup →
      (∀ s ∈ used, s ∈ o.usage.map (·.1)) →
      ∃ o', fetchAll o used = some o' ∧ o'.data = o.data ∧
        (o'.assertUsed = true ↔ ∀ s b, (s, b) ∈ o.usage → b = true ∨ s ∈ used) := by
    intro used
    induction used with
    | nil =>
      intro o _ _
      exact ⟨o, rfl, rfl, by simp [UseOpt.assertUsed, assertUsed_iff]⟩
    | cons x xs ih =>
      intro o hn hm
      obtain ⟨u', h1, h2, h3⟩ := record_spec x o.usage hn (hm x (List.mem_cons_self ..))
      obtain ⟨o', h4, h5, h6⟩ := ih { o with usage := u' } (by simpa [h2] using hn)
        (fun s hs => by simpa [h2] using hm s (List.mem_cons_of_mem _ hs))
      refine ⟨o', ?_, h5, ?_⟩
      · simp only [fetchAll, UseOpt.fetch, h1, Option.map_some, Option.bind_some]
        exact h4
      · rw [h6]
        simp only [h3, List.mem_cons]
        constructor
        · intro h s b hsb
          by_cases hsx : s = x
          · exact .inr (.inl hsx)
          · rcases h s b (.inr ⟨hsx, hsb⟩) with h | h
            · exact .inl h
            · exact .inr (.inr h)
        · rintro h s b (⟨_, rfl⟩ | ⟨hsx, hsb⟩)
          · exact .inl rfl
          · rcases h s b hsb with h | h | h
            · exact .inl h
            · exact absurd h hsx
            · exact .inr h
  have hm : (Sites.ofDecl declared).map (·.1) = declared := by
    simp only [Sites.ofDecl, List.map_map]; exact List.map_id' declared
  obtain ⟨o, h1, h2, h3⟩ := key used (UseOpt.new declared data) (by simpa [UseOpt.new, hm] using hd)
    (fun s hs => by simpa [UseOpt.new, hm] using hu s hs)
  refine ⟨o, h1, h2, ?_⟩
  rw [h3]
  simp only [UseOpt.new, Sites.ofDecl, List.mem_map, Prod.mk.injEq]
  constructor
  · intro h s hs
    rcases h s false ⟨s, hs, rfl, rfl⟩ with h | h
    · simp at h
    · exact h
  · rintro h s b ⟨s', hs', rfl, rfl⟩
    exact .inr (h s' hs')

/-- C34: fetching at a site that was not declared does not compile. -/
theorem C34_undeclared_rejected {T : Type} (declared : List Site) (data : T) (s : Site)
    (h : s ∉ declared) : (UseOpt.new declared data).fetch s = none := by
  have : ∀ (u : Sites), s ∉ u.map (·.1) → u.record s = none := by
    intro u
    induction u with
    | nil => intro _; rfl
    | cons x xs ih =>
      intro hx
      obtain ⟨y, b⟩ := x
      simp only [List.map_cons, List.mem_cons, not_or] at hx
      simp [Sites.record, Ne.symm hx.1, ih hx.2]
  unfold UseOpt.fetch
  rw [UseOpt.new]
  simp only
  rw [this]
  · rfl
  · simp only [Sites.ofDecl, List.map_map]
    exact fun h' => h (by simpa using h')

example : fetchAll (UseOpt.new (usageOfOption .main) (some 10)) [.typecheck, .codegen, .codegen]
    = some ⟨some 10, [(.typecheck, true), (.codegen, true)]⟩ := rfl
example : (fetchAll (UseOpt.new (usageOfOption .main) (some 10)) [.codegen]).map
    (·.assertUsed) = some false := rfl

/-- C34: for each kind of declaration the compiler fetches its options only where they are
declared, and a declaration that goes through parsing, type checking and code generation passes
its `assert_used`. -/
theorem C34_declarations_use_all_options (k : DeclKind) :
    ∃ r, (fetches k).foldlM OptRecords.fetch (OptRecords.new k) = some r ∧
      r.assertUsed = true := by
  cases k <;> exact ⟨_, rfl, rfl⟩

/-! ## C39 -/

theorem split_at_char {x : Char} : ∀ {l1 l2 a b : List Char}, x ∉ l1 → x ∉ l2 →
    l1 ++ x :: a = l2 ++ x :: b → l1 = l2 ∧ a = b
  | [], [], _, _, _, _, h => by simpa using h
  | [], c :: l2, a, b, _, h2, h => by
    simp only [List.nil_append, List.cons_append, List.cons.injEq] at h
    exact absurd (h.1 ▸ List.mem_cons_self ..) h2
  | c :: l1, [], a, b, h1, _, h => by
    simp only [List.nil_append, List.cons_append, List.cons.injEq] at h
    exact absurd (h.1 ▸ List.mem_cons_self ..) h1
  | c :: l1, d :: l2, a, b, h1, h2, h => by
    simp only [List.cons_append, List.cons.injEq] at h
    obtain ⟨h3, h4⟩ := split_at_char (fun hx => h1 (List.mem_cons_of_mem _ hx))
      (fun hx => h2 (List.mem_cons_of_mem _ hx)) h.2
    exact ⟨by rw [h.1, h3], h4⟩

theorem with_uid_inj {n m : String} {u v : Nat}
    (h : (toString u).toList.reverse ++ ("__lus_".toList.reverse ++ n.toList.reverse)
      = (toString v).toList.reverse ++ ("__lus_".toList.reverse ++ m.toList.reverse)) :
    n = m ∧ u = v := by
  have hd : ∀ k : Nat, '_' ∉ (toString k).toList.reverse := by
    intro k
    rw [List.mem_reverse, Nat.toString_eq_repr, Nat.toList_repr]
    exact Nat.underscore_not_in_toDigits
  obtain ⟨h1, h2⟩ := split_at_char (x := '_') (hd u) (hd v) h
  refine ⟨?_, ?_⟩
  · have : n.toList = m.toList := by simpa using h2
    exact String.toList_inj.1 this
  · have : toString u = toString v := String.toList_inj.1 (List.reverse_inj.1 h1)
    rw [Nat.toString_eq_repr, Nat.toString_eq_repr] at this
    exact Nat.repr_injective this

/-- C39: sanitised identifiers are pairwise distinct: two entities with the same identifier are
the same entity, of the same kind, with the same source name, in the same invocation. -/
theorem C39_sanitized_injective (a b : Entity) (h : a.sanitized = b.sanitized) : a = b := by
  have h' := congrArg (fun s : String => s.toList.reverse) h
  cases a <;> cases b <;>
    simp only [Entity.sanitized, String.toList_append, List.reverse_append, List.append_assoc] at h'
  case node.node n u m v => 
    obtain ⟨rfl, rfl⟩ := with_uid_inj (List.append_cancel_left h'); rfl
  case glob.glob n u m v =>
    obtain ⟨rfl, rfl⟩ := with_uid_inj (List.append_cancel_left h'); rfl
  case loc.loc n m =>
    have := List.append_cancel_left h'
    rw [List.reverse_inj, String.toList_inj] at this
    rw [this]
  all_goals exfalso; revert h'; simp

/-- C39: identifiers of one invocation of the macro never meet those of another one in the same
compilation. -/
theorem C39_uids_distinct (c n : Nat) : (runUids c n).Nodup := by
  have key : ∀ n c, ∀ u ∈ runUids c n, c ≤ u := by
    intro n
    induction n with
    | zero => intro c u hu; simp [runUids] at hu
    | succ n ih =>
      intro c u hu
      simp only [runUids, newRunUid, List.mem_cons] at hu
      rcases hu with rfl | hu
      · exact Nat.le_refl _
      · have := ih (c + 1) u hu; omega
  induction n generalizing c with
  | zero => simp [runUids]
  | succ n ih =>
    simp only [runUids, newRunUid, List.nodup_cons]
    exact ⟨fun h => by have := key n (c + 1) c h; omega, ih (c + 1)⟩

/-- C39: two nodes with the same name in different invocations, and a constant, a node and a
local of the same name, all get different identifiers. -/
example : (Entity.node "f" 0).sanitized ≠ (Entity.node "f" 1).sanitized ∧
    (Entity.node "x" 0).sanitized ≠ (Entity.glob "x" 0).sanitized :=
  ⟨fun h => absurd (C39_sanitized_injective _ _ h) (by decide),
   fun h => absurd (C39_sanitized_injective _ _ h) (by decide)⟩

/-- C39 does not extend to the raw names of exported items: the public wrapper of a node named
`f__lus_0_node` has the same Rust name as the hidden implementation of a node named `f`. -/
theorem C39_raw_clash_counterexample :
    ∃ a b : Entity, a ≠ b ∧ a.raw = b.sanitized :=
  ⟨.node "f__lus_0_node" 0, .node "f" 0, by decide, rfl⟩

end Chandeliers.Props
