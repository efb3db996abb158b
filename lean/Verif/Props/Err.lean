import Verif.Err.Pipeline
import Verif.Err.Span
import Verif.Lemmas.Chk

/-! # Diagnostics: C37, C41 -/

set_option autoImplicit false
set_option linter.unusedSectionVars false

namespace Chandeliers.Spec
open Chandeliers.Err

/-- Every computation of the list is run once, in order, each on what the previous one left:
the results, and the final state. -/
def runAll {E σ : Type} : List (Chk E σ Unit) → EAccum E × σ → List (Res Unit) × (EAccum E × σ)
  | [], s => ([], s)
  | m :: ms, s => let (rs, s') := runAll ms (m s).2; ((m s).1 :: rs, s')

/-- A diagnostic. -/
inductive Diag (E : Type) where
  | err (e : E)
  | warn (e : E)

/-- Only the errors, in order. -/
def Diag.errors {E : Type} (ds : List (Diag E)) : List E :=
  ds.filterMap fun | .err e => some e | .warn _ => none

/-- Only the warnings, in order. -/
def Diag.warnings {E : Type} (ds : List (Diag E)) : List E :=
  ds.filterMap fun | .err _ => none | .warn e => some e

end Chandeliers.Spec

namespace Chandeliers.Props
open Chandeliers.Err Chandeliers.Err.Chk Chandeliers.Spec

variable {E σ α T : Type}

/-- C37: a scope runs all its computations, in order and whether or not earlier ones failed;
it closes successfully if and only if all of them succeeded. -/
theorem C37_scope_runs_all (ms : List (Chk E σ Unit)) (s : EAccum E × σ)
    (noPanic : ∀ r ∈ (runAll ms s).1, r ≠ .abort) :
    (inScope ms s).2 = (runAll ms s).2 ∧
    ((inScope ms s).1 = .some () ↔ ∀ r ∈ (runAll ms s).1, r = .some ()) ∧
    ((inScope ms s).1 = .none ↔ ∃ r ∈ (runAll ms s).1, r = .none) := by
  induction ms generalizing s with
  | nil =>
    refine ⟨rfl, ?_, ?_⟩
    · simp [runAll, inScope_some_nil.2 (rfl : s = s)]
    · simp [runAll, inScope_some_nil.2 (rfl : s = s)]
  | cons m ms ih =>
    simp only [runAll, List.mem_cons, forall_eq_or_imp] at noPanic
    obtain ⟨ih1, ih2, ih3⟩ := ih (m s).2 noPanic.2
    rw [inScope_cons]
    simp only [runAll, List.mem_cons, forall_eq_or_imp, exists_eq_or_imp]
    rcases hs : m s with ⟨r, s1⟩
    rw [hs] at ih1 ih2 ih3 noPanic
    cases r with
    | some u => cases u; simp_all
    | abort => simp at noPanic
    | none =>
      rcases hs' : inScope ms s1 with ⟨r', s2⟩
      rw [hs'] at ih1 ih2 ih3
      cases r' with
      | some u => simp_all
      | none => simp_all
      | abort =>
        exfalso
        have key : ∀ r ∈ (runAll ms s1).1, r = .some () := by
          intro r hr
          cases r with
          | some u => rfl
          | none => exact absurd (ih3.2 ⟨_, hr, rfl⟩) (by simp)
          | abort => exact absurd rfl (noPanic.2 _ hr)
        exact absurd (ih2.2 key) (by simp)

/-- Three computations, the second of which fails: the third is still run and the scope fails. -/
example : inScope [warning "w", error "a", error "b"] ((⟨[], []⟩ : EAccum String), ())
    = (.none, (⟨["a", "b"], ["w"]⟩, ())) := rfl

/-- C37: diagnostics given to a scope are kept in order, errors apart from warnings, after
those already there; the scope fails exactly if there is an error, so never for warnings. -/
theorem C37_reports_in_order (ds : List (Diag E)) (acc : EAccum E) (s : σ) :
    inScope (ds.map fun | .err e => error e | .warn e => warning e) (acc, s)
      = (if Diag.errors ds = [] then .some () else .none,
        (⟨acc.err ++ Diag.errors ds, acc.warn ++ Diag.warnings ds⟩, s)) := by
  induction ds generalizing acc with
  | nil => simp [Diag.errors, Diag.warnings, inScope_some_nil.2 (rfl : (acc, s) = (acc, s))]
  | cons d ds ih =>
    rw [List.map_cons, inScope_cons]
    cases d with
    | err e =>
      have h1 : Diag.errors (.err e :: ds) = e :: Diag.errors ds := rfl
      have h2 : Diag.warnings (.err e :: ds) = Diag.warnings ds := rfl
      simp only [error]
      rw [ih, h1, h2]
      by_cases h : Diag.errors ds = [] <;> simp [h]
    | warn e =>
      have h1 : Diag.errors (.warn e :: ds) = Diag.errors ds := rfl
      have h2 : Diag.warnings (.warn e :: ds) = e :: Diag.warnings ds := rfl
      simp only [warning]
      rw [ih, h1, h2]
      simp

/-- C37: `is_fatal` holds exactly when an error was recorded; warnings do not count. -/
theorem C37_fatal_iff (ds : List (Diag E)) :
    ((inScope (ds.map fun | .err e => error e | .warn e => warning e)
      (EAccum.default, ())).2.1.isFatal = true) ↔ ∃ e, Diag.err e ∈ ds := by
  rw [C37_reports_in_order]
  simp only [EAccum.default, EAccum.isFatal, List.nil_append, Bool.not_eq_true',
    List.isEmpty_eq_false_iff, ne_eq]
  rw [← List.length_eq_zero_iff, Diag.errors]
  constructor
  · intro h
    have : Diag.errors ds ≠ [] := by intro h'; rw [Diag.errors] at h'; exact h (by rw [h']; rfl)
    obtain ⟨e, he⟩ := List.exists_mem_of_ne_nil _ this
    simp only [Diag.errors, List.mem_filterMap] at he
    obtain ⟨d, hd, hde⟩ := he
    cases d with
    | err e' => exact ⟨e', hd⟩
    | warn e' => simp at hde
  · rintro ⟨e, he⟩ h
    have : e ∈ Diag.errors ds := by
      simp only [Diag.errors, List.mem_filterMap]; exact ⟨_, he, rfl⟩
    rw [Diag.errors] at this
    rw [List.length_eq_zero_iff] at h
    rw [h] at this; simp at this

/-- C37: what `decl!` does with a pipeline that appends to the accumulator and reports an error
exactly when it fails: it does not panic on its own account; it emits all errors and no program,
or all warnings and the program; and it gives no program exactly when an error was recorded. -/
theorem C37_decl (pipeline : Chk E Unit T) (honest : Honest pipeline) (r : Res T) (es ws : List E)
    (h : pipeline (EAccum.default, ()) = (r, (⟨es, ws⟩, ()))) :
    (r = .abort → decl pipeline = .panic) ∧
    (r = .none → decl pipeline = .done es none) ∧
    (∀ prog, r = .some prog → decl pipeline = .done ws (some prog)) ∧
    (r ≠ .abort → (r = .none ↔ es ≠ [])) := by
  have hn := honest.none_err (EAccum.default, ())
  have hs := honest.some_err (EAccum.default, ())
  rw [h] at hn hs
  refine ⟨?_, ?_, ?_, ?_⟩
  · rintro rfl; unfold decl; rw [h]
  · rintro rfl
    obtain ⟨e, es', he⟩ := hn rfl
    simp only [EAccum.default, List.nil_append] at he
    subst he
    unfold decl; rw [h]; rfl
  · rintro prog rfl; unfold decl; rw [h]; rfl
  · intro ha
    cases r with
    | abort => simp at ha
    | some p =>
      have := hs p rfl
      simp only [EAccum.default] at this
      simp [this]
    | none =>
      obtain ⟨e, es', he⟩ := hn rfl
      simp only [EAccum.default, List.nil_append] at he
      simp [he]

/-- A pipeline that meets the hypotheses and fails with two errors. -/
example : Honest (inScope [warning "w", error "a", error "b"] : Chk String Unit Unit) ∧
    decl (inScope [warning "w", error "a", error "b"]) = .done ["a", "b"] none :=
  ⟨honest_inScope _ (by
    intro m hm
    simp only [List.mem_cons, List.not_mem_nil, or_false] at hm
    rcases hm with rfl | rfl | rfl
    · exact honest_warning _
    · exact honest_error _
    · exact honest_error _), rfl⟩

/-- C37: a pass whose recorded errors do not make it fail has its errors dropped. -/
theorem C37_lost_errors (pipeline : Chk E Unit T) (prog : T) (es ws : List E)
    (h : pipeline (EAccum.default, ()) = (.some prog, (⟨es, ws⟩, ()))) :
    decl pipeline = .done ws (some prog) := by
  unfold decl; rw [h]; rfl

example : decl (do let _ ← opt (error "lost" : Chk String Unit Unit); Chk.pure 1)
    = .done [] (some 1) := rfl

/-! ## C41 -/

variable {P K V : Type} [DecidableEq K] [Feed K]

/-- C41: two spanned values are equal exactly when their payloads are, whatever the spans. -/
theorem C41_eq_ignores_spans (a b : Sp P K) : (a == b) = true ↔ a.t = b.t := by
  show (a.t == b.t && true) = true ↔ _
  simp

/-- C41: spans contribute nothing to the hash, so equal values have equal hashes. -/
theorem C41_hash_ignores_spans (a b : Sp P K) (h : (a == b) = true) (st : List UInt64) :
    Feed.feed a st = Feed.feed b st := by
  rw [C41_eq_ignores_spans] at h
  show Feed.feed a.t st = Feed.feed b.t st
  rw [h]

theorem HashMap.get_insert (finish : List UInt64 → Nat) (m : HashMap (Sp P K) V)
    (k k' : Sp P K) (v : V) :
    (m.insert finish k v).get finish k' = if k.t = k'.t then some v else m.get finish k' := by
  by_cases h : k.t = k'.t
  · have e : (k == k') = true := (C41_eq_ignores_spans k k').2 h
    have hi : HashMap.index finish k' = HashMap.index finish k :=
      congrArg finish (C41_hash_ignores_spans k k' e []).symm
    simp [HashMap.get, HashMap.insert, hi, e, h]
  · have e : (k == k') = false := by
      rw [Bool.eq_false_iff]; intro h'; exact h ((C41_eq_ignores_spans k k').1 h')
    rw [if_neg h]
    unfold HashMap.get HashMap.insert
    simp only
    split
    · rw [List.find?_cons, e, List.find?_filter]
      congr 1
      show List.find? _ _ = List.find? _ _
      congr 1
      funext x
      by_cases hx : (x.1 == k') = true
      · have : (x.1 == k) = false := by
          rw [Bool.eq_false_iff]
          intro h'
          rw [C41_eq_ignores_spans] at hx h'
          exact h (h' ▸ hx)
        simp [this]
      · simp only [Bool.not_eq_true] at hx
        simp [hx]
    · rfl

/-- C41: looking a name up in a hash map keyed by spanned names finds the entry inserted last
under the same name: the answer is the one of a plain association list with the spans erased,
for every map, every hash function and every choice of spans. -/
theorem C41_lookup_ignores_spans (finish : List UInt64 → Nat) (kvs : List (Sp P K × V))
    (k : Sp P K) :
    (HashMap.build finish kvs).get finish k
      = ((kvs.map fun e => (e.1.t, e.2)).find? fun e => e.1 == k.t).map (·.2) := by
  induction kvs with
  | nil => rfl
  | cons kv kvs ih =>
    obtain ⟨k0, v0⟩ := kv
    rw [HashMap.build, HashMap.get_insert, ih, List.map_cons, List.find?_cons]
    by_cases h : k0.t = k.t
    · simp [h]
    · have : (k0.t == k.t) = false := by simpa using h
      simp [h, this]

/-- C41: respanning a program's table and the name looked up changes nothing. -/
theorem C41_respan (finish : List UInt64 → Nat) (kvs : List (Sp P K × V)) (k : Sp P K)
    (f g : Sp P K → Span P) :
    (HashMap.build finish (kvs.map fun e => (e.1.withSpan (f e.1), e.2))).get finish
        (k.withSpan (g k))
      = (HashMap.build finish kvs).get finish k := by
  rw [C41_lookup_ignores_spans, C41_lookup_ignores_spans, List.map_map]
  rfl

/-- C41: the only way to look at transparent data panics exactly when it was forged. -/
theorem C41_unwrap (x : Transparent T) :
    x.unwrap = .abort ↔ ∃ loc, x = Transparent.forge loc := by
  rcases x with ⟨e | t⟩
  · simp [Transparent.unwrap, Transparent.forge]
  · simp [Transparent.unwrap, Transparent.forge]

/-- C41: mapping keeps the span, and span-carrying wrappers lose no payload. -/
theorem C41_map_keeps_span {U : Type} (x : Sp P T) (f : Span P → T → U) :
    (x.map f).span = x.span ∧ (x.map f).t = f x.span x.t := ⟨rfl, rfl⟩

instance : Feed Nat := ⟨fun n h => h ++ [n.toUInt64]⟩

example :
    let m : HashMap (Sp Nat Nat) String :=
      HashMap.build (fun l => l.length) [(⟨7, .of 3⟩, "x"), (⟨8, .forge "test"⟩, "y")]
    m.get (fun l => l.length) ⟨8, .of 100⟩ = some "y" := rfl

end Chandeliers.Props
