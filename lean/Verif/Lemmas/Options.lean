import Verif.Syn.Options
import Verif.Spec.Attributes
import Verif.Lemmas.Chk
import Verif.Lemmas.List
import Mathlib.Tactic.SplitIfs

/-! Lemmas on attributes. -/

set_option autoImplicit false
set_option linter.unusedSectionVars false

namespace Chandeliers.Syn
open Chandeliers.Err Chandeliers.Err.Chk Chandeliers.San Chandeliers.Spec

variable {σ T U : Type}

/-- A set option has a span. -/
def SetOpt.Spanned (o : SetOpt T) : Prop := o.value.isSome → o.span.isSome

structure Decl.Spanned (d : Decl) : Prop where
  trace : d.trace.Spanned
  export_ : d.export_.Spanned
  isPub : d.isPub.Spanned
  main : d.main.Spanned
  test : d.test.Spanned
  rustcAllow : d.rustcAllow.Spanned
  doc : d.doc.Spanned
  implTrait : d.implTrait.Spanned
  generics : d.generics.Spanned
  universalPre : d.universalPre.Spanned

theorem Decl.spanned_default : Decl.default.Spanned := by
  constructor <;> simp [SetOpt.Spanned, Decl.default, SetOpt.create]

def dupW (o : SetOpt T) : List AttrDiag := if o.value.isSome then [.duplicate o.message] else []

def confW (o : SetOpt T) (p : SetOpt U) : List AttrDiag :=
  if p.value.isSome then [.conflicting o.message p.message] else []

theorem duplicate_run (o : SetOpt T) (h : o.Spanned) (s : EAccum AttrDiag × σ) :
    Decl.duplicate o s = (.some (), (⟨s.1.err, s.1.warn ++ dupW o⟩, s.2)) := by
  unfold Decl.duplicate dupW
  split
  · rename_i hv
    have := h hv
    rcases hs : o.span with _ | n
    · rw [hs] at this; simp at this
    · rfl
  · simp

theorem conflicting_run (o : SetOpt T) (p : SetOpt U) (h : p.Spanned) (s : EAccum AttrDiag × σ) :
    Decl.conflicting o p s = (.some (), (⟨s.1.err, s.1.warn ++ confW o p⟩, s.2)) := by
  unfold Decl.conflicting confW
  split
  · rename_i hv
    have := h hv
    rcases hs : p.span with _ | n
    · rw [hs] at this; simp at this
    · rfl
  · simp

/-- The update an attribute makes, without diagnostics. -/
def Decl.apply (d : Decl) (a : Attribute) : Decl :=
  match Decl.parseAction a.action with
  | some .trace => { d with trace := d.trace.some_ (tracing a) a.span }
  | some .exported => { d with export_ := d.export_.set true a.span }
  | some .isPub =>
    { d with isPub := d.isPub.set true a.span, export_ := d.export_.set true a.span }
  | some .implTrait => { d with implTrait := d.implTrait.set true a.span }
  | some .universalPre =>
    { d with universalPre := d.universalPre.set true a.span }
  | some .main => { d with main := d.main.some_ (steps a) a.span }
  | some .test => { d with test := d.test.some_ (steps a) a.span }
  | some .rustcAllow =>
    match a.params with
    | [inner] => { d with rustcAllow := d.rustcAllow.push (.rustc inner) a.span }
    | _ => d
  | some .clippyAllow =>
    match a.params with
    | [inner] => { d with rustcAllow := d.rustcAllow.push (.clippy inner) a.span }
    | _ => d
  | some .doc =>
    match a.targets with
    | [.str s] => { d with doc := d.doc.push s a.span }
    | _ => d
  | some .generics => { d with generics := d.generics.extend a.params a.span }
  | none => d

theorem spanned_set (o : SetOpt Bool) (b : Bool) (n : Nat) : (o.set b n).Spanned := by
  simp [SetOpt.Spanned, SetOpt.set]
theorem spanned_some (o : SetOpt (Option T)) (b : T) (n : Nat) : (o.some_ b n).Spanned := by
  simp [SetOpt.Spanned, SetOpt.some_]
theorem spanned_push (o : SetOpt (List T)) (h : o.Spanned) (b : T) (n : Nat) :
    (o.push b n).Spanned := by
  rcases ho : o.value with _ | v
  · simp [SetOpt.Spanned, SetOpt.push, ho]
  · simp_all [SetOpt.Spanned, SetOpt.push]
theorem spanned_extend (o : SetOpt (List T)) (h : o.Spanned) (b : List T) (n : Nat) :
    (o.extend b n).Spanned := by
  rcases ho : o.value with _ | v
  · simp [SetOpt.Spanned, SetOpt.extend, ho]
  · simp_all [SetOpt.Spanned, SetOpt.extend]

theorem Decl.spanned_apply (d : Decl) (h : d.Spanned) (a : Attribute) : (d.apply a).Spanned := by
  obtain ⟨h1, h2, h3, h4, h5, h6, h7, h8, h9, h10⟩ := h
  unfold Decl.apply
  rcases Decl.parseAction a.action with _ | x
  · constructor <;> assumption
  cases x
  all_goals simp only []
  all_goals try split
  all_goals constructor
  all_goals first
    | assumption
    | exact spanned_set _ _ _
    | exact spanned_some _ _ _
    | exact spanned_push _ ‹_› _ _
    | exact spanned_extend _ ‹_› _ _

theorem checkGenerics_run (action : String) (ts : List String) :
    ∀ (already : List String) (s : EAccum AttrDiag × σ),
    ((ts.Nodup ∧ (∀ t ∈ ts, t ∉ already) ∧ ∀ t ∈ ts, t ∉ ["int", "float", "bool"]) →
      Decl.checkGenerics action already ts s = (.some (), s)) ∧
    (¬ (ts.Nodup ∧ (∀ t ∈ ts, t ∉ already) ∧ ∀ t ∈ ts, t ∉ ["int", "float", "bool"]) →
      Decl.checkGenerics action already ts s = Chk.error (.malformed action) s) := by
  induction ts with
  | nil => intro already s; simp [Decl.checkGenerics]
  | cons t ts ih =>
    intro already s
    unfold Decl.checkGenerics
    by_cases h1 : t = "int" ∨ t = "float" ∨ t = "bool"
    · rw [if_pos h1]
      refine ⟨?_, fun _ => rfl⟩
      rintro ⟨_, _, h⟩
      exact (h t (List.mem_cons_self ..) (by simpa using h1)).elim
    · rw [if_neg h1]
      by_cases h2 : t ∈ already
      · rw [if_pos h2]
        refine ⟨?_, fun _ => rfl⟩
        rintro ⟨_, h, _⟩
        exact absurd h2 (h t (List.mem_cons_self ..))
      · rw [if_neg h2]
        have key : ((t :: ts).Nodup ∧ (∀ x ∈ t :: ts, x ∉ already) ∧
            ∀ x ∈ t :: ts, x ∉ ["int", "float", "bool"]) ↔
            (ts.Nodup ∧ (∀ x ∈ ts, x ∉ t :: already) ∧
              ∀ x ∈ ts, x ∉ ["int", "float", "bool"]) := by
          simp only [List.nodup_cons, List.mem_cons, forall_eq_or_imp, List.not_mem_nil, or_false,
            not_or]
          simp only [not_or] at h1
          constructor
          · rintro ⟨⟨a, b⟩, ⟨c, e⟩, ⟨f, g⟩⟩
            exact ⟨b, fun x hx => ⟨fun h => a (h ▸ hx), e x hx⟩, g⟩
          · rintro ⟨b, e, g⟩
            exact ⟨⟨fun h => (e t h).1 rfl, b⟩, ⟨h2, fun x hx => (e x hx).2⟩, ⟨h1, g⟩⟩
        rw [key]
        exact ih (t :: already) s

/-- The spelling of an action. -/
def Decl.Action.spelling : Decl.Action → String
  | .trace => "trace"
  | .exported => "export"
  | .isPub => "pub"
  | .implTrait => "trait"
  | .universalPre => "universal_pre"
  | .main => "main"
  | .test => "test"
  | .rustcAllow => "rustc_allow"
  | .clippyAllow => "clippy_allow"
  | .doc => "doc"
  | .generics => "generic"

theorem parseAction_spelling (x : Decl.Action) : Decl.parseAction x.spelling = some x := by
  cases x <;> rfl

theorem parseAction_some {s : String} {x : Decl.Action} (h : Decl.parseAction s = some x) :
    s = x.spelling := by
  unfold Decl.parseAction at h
  repeat' split at h
  all_goals cases h
  all_goals assumption

theorem parseAction_iff (s : String) (x : Decl.Action) :
    Decl.parseAction s = some x ↔ s = x.spelling :=
  ⟨parseAction_some, fun h => h ▸ parseAction_spelling x⟩

theorem parseAction_none {s : String} (h : Decl.parseAction s = none) (x : Decl.Action) :
    s ≠ x.spelling := by
  intro h'
  rw [h', parseAction_spelling] at h
  cases h

/-- What it means for an attribute of a known name to be well formed. -/
def wellFormedAs (a : Attribute) : Decl.Action → Prop
  | .trace => a.params ∈ [[], ["stdout"], ["stderr"]] ∧
    (a.targets = [] ∨ (∃ o, a.targets = [.str o]) ∨ ∃ i o, a.targets = [.str i, .str o])
  | .exported | .isPub | .implTrait | .universalPre => a.params = [] ∧ a.targets = []
  | .main | .test => a.params = [] ∧ (a.targets = [] ∨ ∃ n, a.targets = [.int n])
  | .rustcAllow | .clippyAllow => (∃ x, a.params = [x]) ∧ a.targets = []
  | .doc => a.params = [] ∧ ∃ s, a.targets = [.str s]
  | .generics => a.targets = [] ∧ a.params.Nodup ∧ ∀ t ∈ a.params, t ∉ ["int", "float", "bool"]

theorem wellFormed_iff (a : Attribute) (x : Decl.Action) (h : a.action = x.spelling) :
    wellFormed a ↔ wellFormedAs a x := by
  cases x <;> simp [wellFormed, wellFormedAs, h, Decl.Action.spelling]

theorem not_wellFormed_of_none (a : Attribute) (h : Decl.parseAction a.action = none) :
    ¬ wellFormed a := by
  have hn := parseAction_none h
  have h1 := hn .trace; have h2 := hn .exported; have h3 := hn .isPub; have h4 := hn .implTrait
  have h5 := hn .universalPre; have h6 := hn .main; have h7 := hn .test
  have h8 := hn .rustcAllow; have h9 := hn .clippyAllow; have h10 := hn .doc
  have h11 := hn .generics
  simp only [Decl.Action.spelling] at h1 h2 h3 h4 h5 h6 h7 h8 h9 h10 h11
  simp [wellFormed, h1, h2, h3, h4, h5, h6, h7, h8, h9, h10, h11]

theorem with_run (d : Decl) (hd : d.Spanned) (a : Attribute) (ha : smallNumbers a)
    (s : EAccum AttrDiag × σ) :
    (wellFormed a ∧ ∃ ws, d.with_ a s = (.some (d.apply a), (⟨s.1.err, s.1.warn ++ ws⟩, s.2))) ∨
    (¬ wellFormed a ∧
      d.with_ a s = (.none, (⟨s.1.err ++ [.malformed a.action], s.1.warn⟩, s.2))) := by
  obtain ⟨h1, h2, h3, h4, h5, h6, h7, h8, h9, h10⟩ := hd
  rcases hx : Decl.parseAction a.action with _ | x
  · refine .inr ⟨not_wellFormed_of_none a hx, ?_⟩
    simp only [Decl.with_, hx]; rfl
  · rw [wellFormed_iff a x (parseAction_some hx)]
    have hsome := parseAction_some hx
    rcases a with ⟨action, params, targets, span⟩
    simp only [] at hx hsome
    cases x <;> simp only [Decl.with_, hx, wellFormedAs, Decl.apply]
    case trace =>
      have hf : ∀ (s : EAccum AttrDiag × σ),
          (params ∈ [[], ["stdout"], ["stderr"]] ∧
            Decl.traceFile ⟨action, params, targets, span⟩ s
              = (.some (tracing ⟨action, params, targets, span⟩).1, s)) ∨
          (params ∉ [[], ["stdout"], ["stderr"]] ∧
            Decl.traceFile ⟨action, params, targets, span⟩ s
              = (.none, (⟨s.1.err ++ [.malformed action], s.1.warn⟩, s.2))) := by
        intro s
        rcases params with _ | ⟨p, _ | ⟨p', ps⟩⟩
        · exact .inl ⟨by simp, rfl⟩
        · by_cases hp : p = "stdout"
          · subst hp; exact .inl ⟨by simp, by simp [Decl.traceFile, tracing]⟩
          · by_cases hp' : p = "stderr"
            · subst hp'; exact .inl ⟨by simp, by simp [Decl.traceFile, tracing]⟩
            · exact .inr ⟨by simp [hp, hp'], by simp [Decl.traceFile, hp, hp', Chk.error]⟩
        · exact .inr ⟨by simp, rfl⟩
      have ht : ∀ (s : EAccum AttrDiag × σ),
          ((targets = [] ∨ (∃ o, targets = [.str o]) ∨ ∃ i o, targets = [.str i, .str o]) ∧
            Decl.traceFormat ⟨action, params, targets, span⟩ s
              = (.some (tracing ⟨action, params, targets, span⟩).2, s)) ∨
          (¬ (targets = [] ∨ (∃ o, targets = [.str o]) ∨ ∃ i o, targets = [.str i, .str o]) ∧
            Decl.traceFormat ⟨action, params, targets, span⟩ s
              = (.none, (⟨s.1.err ++ [.malformed action], s.1.warn⟩, s.2))) := by
        intro s
        rcases targets with _ | ⟨t, _ | ⟨t', _ | ⟨t'', ts⟩⟩⟩
        · exact .inl ⟨by simp, rfl⟩
        · cases t
          case str x => exact .inl ⟨by simp, rfl⟩
          all_goals exact .inr ⟨by simp, rfl⟩
        · cases t <;> cases t'
          case str.str x y => exact .inl ⟨by simp, rfl⟩
          all_goals exact .inr ⟨by simp, rfl⟩
        · exact .inr ⟨by simp, by cases t <;> cases t' <;> rfl⟩
      rcases hf s with ⟨hp, hf⟩ | ⟨hp, hf⟩
      · rcases ht s with ⟨hq, ht⟩ | ⟨hq, ht⟩
        · refine .inl ⟨⟨hp, hq⟩, ?_⟩
          simp only [run_bind, hf, ht, duplicate_run _ h1]
          exact ⟨_, rfl⟩
        · refine .inr ⟨fun h => hq h.2, ?_⟩
          simp only [run_bind, hf, ht]
      · refine .inr ⟨fun h => hp h.1, ?_⟩
        simp only [run_bind, hf]
    case generics =>
      rcases targets with _ | ⟨t, ts⟩
      · obtain ⟨hg1, hg2⟩ := checkGenerics_run action params [] s
        by_cases hg : params.Nodup ∧ ∀ t ∈ params, t ∉ ["int", "float", "bool"]
        · refine .inl ⟨⟨rfl, hg⟩, [], ?_⟩
          simp only [run_bind, hg1 ⟨hg.1, by simp, hg.2⟩]
          simp
        · refine .inr ⟨fun h => hg h.2, ?_⟩
          simp only [run_bind, hg2 (fun h => hg ⟨h.1, h.2.2⟩)]
          rfl
      · exact .inr ⟨by simp, rfl⟩
    case main =>
      rcases params with _ | ⟨p, ps⟩
      · rcases targets with _ | ⟨t, _ | ⟨t', ts⟩⟩
        · refine .inl ⟨by simp, ?_⟩
          simp only [run_bind, conflicting_run _ _ h5, duplicate_run _ h4]
          exact ⟨_, by simp [steps, List.append_assoc]; rfl⟩
        · cases t
          case int n =>
            refine .inl ⟨by simp, ?_⟩
            have : 0 ≤ n ∧ n < 2 ^ 64 := ha n (by simp)
            simp only [run_bind, conflicting_run _ _ h5, duplicate_run _ h4, Decl.parseUsize, if_pos this]
            exact ⟨_, by simp [steps, List.append_assoc]; rfl⟩
          all_goals exact .inr ⟨by simp, rfl⟩
        · exact .inr ⟨by simp, by cases t <;> rfl⟩
      · exact .inr ⟨by simp, rfl⟩
    case test =>
      rcases params with _ | ⟨p, ps⟩
      · rcases targets with _ | ⟨t, _ | ⟨t', ts⟩⟩
        · refine .inl ⟨by simp, ?_⟩
          simp only [run_bind, conflicting_run _ _ h4, conflicting_run _ _ h3, conflicting_run _ _ h2,
            duplicate_run _ h5]
          exact ⟨_, by simp [steps, List.append_assoc]; rfl⟩
        · cases t
          case int n =>
            refine .inl ⟨by simp, ?_⟩
            have : 0 ≤ n ∧ n < 2 ^ 64 := ha n (by simp)
            simp only [run_bind, conflicting_run _ _ h4, duplicate_run _ h5, Decl.parseUsize, if_pos this]
            exact ⟨_, by simp [steps, List.append_assoc]; rfl⟩
          all_goals exact .inr ⟨by simp, rfl⟩
        · exact .inr ⟨by simp, by cases t <;> rfl⟩
      · exact .inr ⟨by simp, rfl⟩
    case doc =>
      rcases params with _ | ⟨p, ps⟩
      · rcases targets with _ | ⟨t, _ | ⟨t', ts⟩⟩
        · exact .inr ⟨by simp, rfl⟩
        · cases t
          case str n => exact .inl ⟨by simp, [], by simp⟩
          all_goals exact .inr ⟨by simp, rfl⟩
        · exact .inr ⟨by simp, by cases t <;> rfl⟩
      · exact .inr ⟨by simp, rfl⟩
    case rustcAllow =>
      rcases params with _ | ⟨p, _ | ⟨p', ps⟩⟩
      · exact .inr ⟨by simp, rfl⟩
      · rcases targets with _ | ⟨t, ts⟩
        · exact .inl ⟨by simp, [], by simp⟩
        · exact .inr ⟨by simp, rfl⟩
      · exact .inr ⟨by simp, rfl⟩
    case clippyAllow =>
      rcases params with _ | ⟨p, _ | ⟨p', ps⟩⟩
      · exact .inr ⟨by simp, rfl⟩
      · rcases targets with _ | ⟨t, ts⟩
        · exact .inl ⟨by simp, [], by simp⟩
        · exact .inr ⟨by simp, rfl⟩
      · exact .inr ⟨by simp, rfl⟩
    all_goals
      rcases params with _ | ⟨p, ps⟩
      · rcases targets with _ | ⟨t, ts⟩
        · refine .inl ⟨by simp, ?_⟩
          simp only [run_bind, conflicting_run _ _ h5, duplicate_run _ h2, duplicate_run _ h3,
            duplicate_run _ h8, duplicate_run _ h10]
          exact ⟨_, by simp [List.append_assoc]; rfl⟩
        · exact .inr ⟨by simp, rfl⟩
      · exact .inr ⟨by simp, rfl⟩

end Chandeliers.Syn

namespace Chandeliers.Syn
open Chandeliers.Err Chandeliers.Err.Chk Chandeliers.San Chandeliers.Spec

/-- What is known of one option of a declaration. -/
structure SetOpt.Is {T : Type} (o : SetOpt T) (msg : Opt) (dflt : T) (isSet : Bool) (v : T) :
    Prop where
  message : o.message = msg
  default : o.default = dflt
  isSet : o.value.isSome = isSet
  take : o.take = v

theorem SetOpt.Is.skip {T σ : Type} {o : SetOpt T} {msg : Opt} {dflt : T} {b : Bool} {v : T}
    (h : o.Is msg dflt b v) (k : DeclKind) (s : EAccum AttrDiag × σ) :
    o.skip k s = if b then (.none, (⟨s.1.err ++ [.inapplicable msg k], s.1.warn⟩, s.2))
      else (.some (), s) := by
  unfold SetOpt.skip
  rw [h.isSet, h.message]
  cases b <;> rfl

theorem is_set {o : SetOpt Bool} {msg : Opt} {b v : Bool} (h : o.Is msg false b v) (n : Nat) :
    (o.set true n).Is msg false true true := ⟨h.message, h.default, rfl, rfl⟩

theorem is_some {T : Type} {o : SetOpt (Option T)} {msg : Opt} {b : Bool} {v : Option T}
    (h : o.Is msg none b v) (t : T) (n : Nat) :
    (o.some_ t n).Is msg none true (some t) := ⟨h.message, h.default, rfl, rfl⟩

theorem is_push {T : Type} {o : SetOpt (List T)} {msg : Opt} {b : Bool} {v : List T}
    (h : o.Is msg [] b v) (t : T) (n : Nat) :
    (o.push t n).Is msg [] true (v ++ [t]) := by
  obtain ⟨h1, h2, h3, h4⟩ := h
  unfold SetOpt.push
  simp only [SetOpt.take] at h4
  rcases hv : o.value with _ | w
  · rw [hv, h2] at h4; exact ⟨h1, h2, rfl, by simp at h4; simp [SetOpt.take, ← h4]⟩
  · rw [hv] at h4; exact ⟨h1, h2, rfl, by simp at h4; simp [SetOpt.take, h4]⟩

theorem is_extend {T : Type} {o : SetOpt (List T)} {msg : Opt} {b : Bool} {v : List T}
    (h : o.Is msg [] b v) (t : List T) (n : Nat) :
    (o.extend t n).Is msg [] true (v ++ t) := by
  obtain ⟨h1, h2, h3, h4⟩ := h
  unfold SetOpt.extend
  simp only [SetOpt.take] at h4
  rcases hv : o.value with _ | w
  · rw [hv, h2] at h4; exact ⟨h1, h2, rfl, by simp at h4; simp [SetOpt.take, ← h4]⟩
  · rw [hv] at h4; exact ⟨h1, h2, rfl, by simp at h4; simp [SetOpt.take, h4]⟩

/-- A declaration holds exactly what its attributes say. -/
structure Decl.Holds (d : Decl) (as : List Attribute) : Prop where
  trace : d.trace.Is .trace none (hasAny as ["trace"]) (meaning as).trace
  export_ : d.export_.Is .exported false (hasAny as ["export", "pub"]) (meaning as).export_
  isPub : d.isPub.Is .isPub false (hasAny as ["pub"]) (meaning as).isPub
  main : d.main.Is .main none (hasAny as ["main"]) (meaning as).main
  test : d.test.Is .test none (hasAny as ["test"]) (meaning as).test
  rustcAllow : d.rustcAllow.Is .rustcAllow [] (hasAny as ["rustc_allow", "clippy_allow"])
    (meaning as).rustcAllow
  doc : d.doc.Is .doc [] (hasAny as ["doc"]) (meaning as).doc
  implTrait : d.implTrait.Is .implTrait false (hasAny as ["trait"]) (meaning as).implTrait
  generics : d.generics.Is .generics [] (hasAny as ["generic"]) (meaning as).generics
  universalPre : d.universalPre.Is .universalPre false (hasAny as ["universal_pre"])
    (meaning as).universalPre

theorem holds_default : Decl.default.Holds [] := by
  constructor <;> constructor <;> rfl

theorem hasAny_snoc (as : List Attribute) (a : Attribute) (ns : List String) :
    hasAny (as ++ [a]) ns = (hasAny as ns || decide (a.action ∈ ns)) := by
  simp [hasAny]

theorem lastNamed_snoc (as : List Attribute) (a : Attribute) (n : String) :
    lastNamed (as ++ [a]) n = if a.action = n then some a else lastNamed as n := by
  by_cases h : a.action = n <;> simp [lastNamed, List.filter_append, h]

theorem holds_apply (d : Decl) (as : List Attribute) (a : Attribute) (h : d.Holds as)
    (wf : wellFormed a) : (d.apply a).Holds (as ++ [a]) := by
  rcases hx : Decl.parseAction a.action with _ | x
  · exact absurd wf (not_wellFormed_of_none a hx)
  have hs := parseAction_some hx
  rw [wellFormed_iff a x hs] at wf
  obtain ⟨h1, h2, h3, h4, h5, h6, h7, h8, h9, h10⟩ := h
  cases x
  case rustcAllow =>
    obtain ⟨⟨p, hp⟩, ht⟩ := wf
    simp only [Decl.Action.spelling] at hs
    simp only [Decl.apply, hx, hp]
    constructor
    all_goals
      simp only [hasAny_snoc, meaning, lastNamed_snoc, hs, List.filter_append, List.filterMap_append,
        List.flatMap_append, hp]
    all_goals first
      | (simp [docText, hs]; assumption)
      | (simp [hs, hp, allowed]; exact is_push h6 _ _)
  case clippyAllow =>
    obtain ⟨⟨p, hp⟩, ht⟩ := wf
    simp only [Decl.Action.spelling] at hs
    simp only [Decl.apply, hx, hp]
    constructor
    all_goals
      simp only [hasAny_snoc, meaning, lastNamed_snoc, hs, List.filter_append, List.filterMap_append,
        List.flatMap_append, hp]
    all_goals first
      | (simp [docText, hs]; assumption)
      | (simp [hs, hp, allowed]; exact is_push h6 _ _)
  case doc =>
    obtain ⟨hp, t, ht⟩ := wf
    simp only [Decl.Action.spelling] at hs
    simp only [Decl.apply, hx, ht]
    constructor
    all_goals
      simp only [hasAny_snoc, meaning, lastNamed_snoc, hs, List.filter_append, List.filterMap_append,
        List.flatMap_append, ht]
    all_goals first
      | (simp [allowed, hs]; assumption)
      | (simp [hs, ht, docText]; exact is_push h7 _ _)
  case generics =>
    simp only [Decl.Action.spelling] at hs
    simp only [Decl.apply, hx]
    constructor
    all_goals
      simp only [hasAny_snoc, meaning, lastNamed_snoc, hs, List.filter_append, List.filterMap_append,
        List.flatMap_append]
    all_goals first
      | (simp [allowed, docText, hs]; assumption)
      | (simp [hs]; exact is_extend h9 _ _)
  all_goals
    simp only [Decl.Action.spelling] at hs
    simp only [Decl.apply, hx]
    constructor
  all_goals
    simp only [hasAny_snoc, meaning, lastNamed_snoc, hs, List.filter_append, List.filterMap_append,
        List.flatMap_append]
  all_goals first
    | (simp [allowed, docText, hs]; assumption)
    | (simp; exact is_set ‹_› _)
    | (simp; exact is_some ‹_› _ _)

theorem withAll_run (as : List Attribute) : ∀ {σ : Type} (d : Decl) (pre : List Attribute)
    (_ : d.Spanned) (_ : d.Holds pre) (_ : ∀ a ∈ as, smallNumbers a) (s : EAccum AttrDiag × σ),
    ((∀ a ∈ as, wellFormed a) → ∃ d' ws, d.withAll as s
        = (.some d', (⟨s.1.err, s.1.warn ++ ws⟩, s.2)) ∧ d'.Holds (pre ++ as)) ∧
    ((∃ a ∈ as, ¬ wellFormed a) → ∃ a ∈ as, ¬ wellFormed a ∧ ∃ ws, d.withAll as s
        = (.none, (⟨s.1.err ++ [.malformed a.action], s.1.warn ++ ws⟩, s.2))) := by
  induction as with
  | nil =>
    intro σ d pre hd hh _ s
    refine ⟨fun _ => ⟨d, [], ?_, by simpa using hh⟩, by simp⟩
    simp [Decl.withAll]
  | cons a as ih =>
    intro σ d pre hd hh hsm s
    have hsm' := fun b hb => hsm b (List.mem_cons_of_mem _ hb)
    have e : d.withAll (a :: as) s = (d.with_ a >>= fun d => d.withAll as) s := rfl
    rw [e, run_bind]
    rcases with_run d hd a (hsm a (List.mem_cons_self ..)) s with ⟨wf, ws, hr⟩ | ⟨nwf, hr⟩
    · rw [hr]
      have hh' := holds_apply d pre a hh wf
      obtain ⟨ih1, ih2⟩ := ih (d.apply a) (pre ++ [a]) (d.spanned_apply hd a) hh' hsm'
        (⟨s.1.err, s.1.warn ++ ws⟩, s.2)
      constructor
      · intro hall
        obtain ⟨d', ws', h1, h2⟩ := ih1 (fun b hb => hall b (List.mem_cons_of_mem _ hb))
        exact ⟨d', ws ++ ws', by simp only [h1, List.append_assoc], by simpa using h2⟩
      · rintro ⟨b, hb, hnb⟩
        rcases List.mem_cons.1 hb with rfl | hb
        · exact absurd wf hnb
        · obtain ⟨c, hc, hnc, ws', h1⟩ := ih2 ⟨b, hb, hnb⟩
          exact ⟨c, List.mem_cons_of_mem _ hc, hnc, ws ++ ws',
            by simp only [h1, List.append_assoc]⟩
    · rw [hr]
      constructor
      · intro hall; exact absurd (hall a (List.mem_cons_self ..)) nwf
      · intro _; exact ⟨a, List.mem_cons_self .., nwf, [], by simp⟩

end Chandeliers.Syn
