import Verif.Lemmas.QuietProg
import Verif.Props.Program

/-!
# When the compiler does not panic

C48.
-/

set_option autoImplicit false

namespace Chandeliers.Props
open Chandeliers.San Chandeliers.Spec Chandeliers.Syn Chandeliers.Err Chandeliers.Prg

/-- C48.  `decl!` does not panic on a tame program, and emits either code or an error. -/
theorem C48_no_panic {p : SrcProg} (h : Tame p) : ∃ out tokens,
    decl (compile p) = .done out tokens ∧ (tokens = none → out ≠ []) := by
  obtain ⟨h1, h2⟩ := Quiet.compile_sure h (EAccum.default, ())
  unfold decl
  rcases e : compile p (EAccum.default, ()) with ⟨r, acc, u⟩
  rw [e] at h1 h2
  cases r with
  | abort => exact absurd rfl h1
  | none =>
    have h2 := h2 rfl
    refine ⟨acc.fetch.1, none, ?_, fun _ => by simpa [EAccum.fetch] using h2⟩
    have : acc.isFatal = true := by
      simp only [EAccum.isFatal]
      cases he : acc.err with
      | nil => exact absurd he h2
      | cons _ _ => rfl
    simp [this]
  | some x => exact ⟨_, some x, rfl, by simp⟩

/-- Whether the compiler panics on a program. -/
def panics (p : SrcProg) : Bool :=
  match decl (compile p) with
  | .panic => true
  | .done _ _ => false

theorem panics_eq {p : SrcProg} (h : panics p = true) : decl (compile p) = .panic := by
  unfold panics at h
  split at h
  · assumption
  · cases h

/-- A program with one constant. -/
def exConstant (t : TyBase) (l : Syn.Lit) : SrcProg := [⟨[], .const ⟨"K", t, .lit l⟩⟩]

/-- C48, the conditions are needed: `const K : int = 9223372036854775808;`. -/
theorem C48_counterexample_int :
    decl (compile (exConstant .int (.int (2 ^ 63)))) = .panic := panics_eq (by decide +kernel)

/-- C48, the conditions are needed: `const K : float = 1e999;`. -/
theorem C48_counterexample_float :
    decl (compile (exConstant .float (.float (some ⟨0x7ff0000000000000⟩)))) = .panic :=
  panics_eq (by decide +kernel)

/-- C48, the conditions are needed: `#[main(18446744073709551616)] node f() returns (); let tel`. -/
theorem C48_counterexample_attribute : decl (compile
    [⟨[⟨"main", [], [.int (2 ^ 64)], 0⟩], .node ⟨"f", [], [], [], []⟩⟩]) = .panic :=
  panics_eq (by decide +kernel)

/-- C48, the conditions are needed: `#[main(-1)] node f() returns (); let tel`. -/
theorem C48_counterexample_negative : decl (compile
    [⟨[⟨"main", [], [.int (-1)], 0⟩], .node ⟨"f", [], [], [], []⟩⟩]) = .panic :=
  panics_eq (by decide +kernel)

/-- `node f(x : ti) returns (y : tu); let y = x; tel` and a node that calls it on an integer. -/
def exCaller (generics : List (List String)) (ti tu : TyBase) : SrcProg :=
  [⟨generics.map fun gs => ⟨"generic", gs, [], 0⟩,
    .node ⟨"f", [⟨["x"], ti, .implicit⟩], [⟨["y"], tu, .implicit⟩], [],
      [.def_ (.var "y") (.var "x")]⟩⟩,
   ⟨[], .node ⟨"g", [⟨["x"], .int, .implicit⟩], [⟨["y"], .int, .implicit⟩], [],
      [.def_ (.var "y") (.call "f" [.var "x"] false)]⟩⟩]

/-- C48, the conditions are needed: `T` is declared twice. -/
theorem C48_counterexample_twice :
    decl (compile (exCaller [["T"], ["T"]] (.other "T") (.other "T"))) = .panic :=
  panics_eq (by decide +kernel)

/-- C48, the conditions are needed: `T` is not declared. -/
theorem C48_counterexample_undeclared :
    decl (compile (exCaller [] (.other "T") (.other "T"))) = .panic :=
  panics_eq (by decide +kernel)

/-- C48, the conditions are needed: `T` is not used. -/
theorem C48_counterexample_unused : decl (compile (exCaller [["T"]] .int .int)) = .panic :=
  panics_eq (by decide +kernel)

/-- Non-vacuity of C48: the generic program is tame, and accepted. -/
example : Tame (exCaller [["T"]] (.other "T") (.other "T")) ∧
    (outcome (exCaller [["T"]] (.other "T") (.other "T"))).isSome = true := by
  refine ⟨⟨?_, ?_, ?_⟩, by decide +kernel⟩
  · intro d hd a ha
    simp only [exCaller, List.mem_cons, List.not_mem_nil, or_false] at hd
    rcases hd with rfl | rfl
    · simp only [List.map_cons, List.map_nil, List.mem_cons, List.not_mem_nil, or_false] at ha
      subst ha
      intro n hn
      simp at hn
    · simp at ha
  · intro d hd e he l hl
    simp only [exCaller, List.mem_cons, List.not_mem_nil, or_false] at hd
    rcases hd with rfl | rfl <;> simp [expressions, Spec.SrcStmt.expr] at he <;> subst he <;>
      simp [literals, literalsList] at hl
  · rintro d hd f ins outs hs -
    simp only [exCaller, List.mem_cons, List.not_mem_nil, or_false] at hd
    rcases hd with rfl | rfl <;> simp only [signature, Option.some.injEq, Prod.mk.injEq] at hs <;>
      obtain ⟨-, rfl, rfl⟩ := hs
    · exact ⟨by decide, by simp [argTypes]; decide, by intro g hg; revert g; decide⟩
    · exact ⟨by decide, by simp [argTypes], by intro g hg; revert g; decide⟩

/-- Non-vacuity of C48: a tame program that is refused, with an error. -/
example : Tame (exConstant .int (.bool true)) ∧
    (∃ e es, decl (compile (exConstant .int (.bool true))) = .done (e :: es) none) := by
  have ht : Tame (exConstant .int (.bool true)) := by
    refine ⟨?_, ?_, ?_⟩
    · intro d hd a ha
      simp only [exConstant, List.mem_cons, List.not_mem_nil, or_false] at hd
      subst hd
      simp at ha
    · intro d hd e he l hl
      simp only [exConstant, List.mem_cons, List.not_mem_nil, or_false] at hd
      subst hd
      simp [expressions] at he
      subst he
      simp [literals] at hl
      subst hl
      trivial
    · rintro d hd f ins outs hs -
      simp only [exConstant, List.mem_cons, List.not_mem_nil, or_false] at hd
      subst hd
      simp [signature] at hs
  refine ⟨ht, ?_⟩
  obtain ⟨out, tokens, h1, h2⟩ := C48_no_panic ht
  have hr : outcome (exConstant .int (.bool true)) = none := by
    have : (outcome (exConstant .int (.bool true))).isNone = true := by decide +kernel
    simpa using this
  cases tokens with
  | some t => simp [outcome, h1] at hr
  | none =>
    obtain ⟨e, es, rfl⟩ := List.exists_cons_of_ne_nil (h2 rfl)
    exact ⟨e, es, h1⟩

end Chandeliers.Props
