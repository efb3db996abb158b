import Verif.Spec.Reads

/-! `requires` and `provides` compute exactly what is read and written. -/

namespace Chandeliers.San
open Spec

set_option autoImplicit false

/-- Direct contribution of one expression to `requires`. -/
inductive Own : Expr → Reference → Prop
  | var {x} : Own (.var x 0) (.localVarName x)
  | global {x} : Own (.global x) (.globalVarName x)
  | fetchPre {id f} : Own (.fetchPre id f) (.initRegister id)
  | fetchFby {id i f} : Own (.fetchFby id i f) (.initRegister id)

theorem mem_requiresList {r : Reference} {es : List Expr} :
    r ∈ Expr.requiresList es ↔ ∃ e ∈ es, r ∈ e.requires := by
  induction es with
  | nil => simp [Expr.requiresList]
  | cons e es ih => simp [Expr.requiresList, ih]

theorem requires_of_operand {r : Reference} {c e : Expr} (h : Operand c e)
    (hr : r ∈ c.requires) : r ∈ e.requires := by
  cases h with
  | tuple he => rw [Expr.requires]; exact mem_requiresList.2 ⟨c, he, hr⟩
  | _ => simp [Expr.requires, hr]

theorem requires_of_part {r : Reference} {c e : Expr} (h : Part c e)
    (hr : r ∈ c.requires) : r ∈ e.requires := by
  induction h with
  | refl => exact hr
  | tail _ h ih => exact requires_of_operand h ih

theorem own_requires {r : Reference} {c : Expr} (h : Own c r) : r ∈ c.requires := by
  cases h <;> simp [Expr.requires]

mutual
theorem part_of_requires {r : Reference} : (e : Expr) → r ∈ e.requires →
    ∃ c, Own c r ∧ Part c e
  | .lit _, h => by simp [Expr.requires] at h
  | .global x, h => by
      simp only [Expr.requires, List.mem_singleton] at h
      subst h; exact ⟨_, .global, .refl⟩
  | .var x 0, h => by
      simp only [Expr.requires, List.mem_singleton] at h
      subst h; exact ⟨_, .var, .refl⟩
  | .var _ (_ + 1), h => by simp [Expr.requires] at h
  | .tuple es, h => by
      obtain ⟨e, c, he, h1, h2⟩ := part_of_requiresList es h
      exact ⟨c, h1, h2.tail (.tuple he)⟩
  | .dummyPre e, h => by
      obtain ⟨c, h1, h2⟩ := part_of_requires e h
      exact ⟨c, h1, h2.tail .dummyPre⟩
  | .dummyParen e, h => by
      obtain ⟨c, h1, h2⟩ := part_of_requires e h
      exact ⟨c, h1, h2.tail .dummyParen⟩
  | .un _ e, h => by
      obtain ⟨c, h1, h2⟩ := part_of_requires e h
      exact ⟨c, h1, h2.tail .un⟩
  | .substep _ _ e, h => by
      obtain ⟨c, h1, h2⟩ := part_of_requires e h
      exact ⟨c, h1, h2.tail .arg⟩
  | .bin _ a b, h => by
      rcases List.mem_append.1 h with h | h
      · obtain ⟨c, h1, h2⟩ := part_of_requires a h
        exact ⟨c, h1, h2.tail .binL⟩
      · obtain ⟨c, h1, h2⟩ := part_of_requires b h
        exact ⟨c, h1, h2.tail .binR⟩
  | .cmp _ a b, h => by
      rcases List.mem_append.1 h with h | h
      · obtain ⟨c, h1, h2⟩ := part_of_requires a h
        exact ⟨c, h1, h2.tail .cmpL⟩
      · obtain ⟨c, h1, h2⟩ := part_of_requires b h
        exact ⟨c, h1, h2.tail .cmpR⟩
  | .clock _ a b, h => by
      rcases List.mem_append.1 h with h | h
      · obtain ⟨c, h1, h2⟩ := part_of_requires a h
        exact ⟨c, h1, h2.tail .clockInner⟩
      · obtain ⟨c, h1, h2⟩ := part_of_requires b h
        exact ⟨c, h1, h2.tail .clockGuard⟩
  | .later _ a b, h => by
      rcases List.mem_append.1 h with h | h
      · obtain ⟨c, h1, h2⟩ := part_of_requires a h
        exact ⟨c, h1, h2.tail .laterBefore⟩
      · obtain ⟨c, h1, h2⟩ := part_of_requires b h
        exact ⟨c, h1, h2.tail .laterAfter⟩
  | .flip _ a b, h => by
      rcases List.mem_append.1 h with h | h
      · obtain ⟨c, h1, h2⟩ := part_of_requires a h
        exact ⟨c, h1, h2.tail .flipInitial⟩
      · obtain ⟨c, h1, h2⟩ := part_of_requires b h
        exact ⟨c, h1, h2.tail .flipContinued⟩
  | .fetchPre _ _, h => by
      simp only [Expr.requires, List.mem_singleton] at h
      subst h; exact ⟨_, .fetchPre, .refl⟩
  | .fetchFby _ _ _, h => by
      simp only [Expr.requires, List.mem_singleton] at h
      subst h; exact ⟨_, .fetchFby, .refl⟩
  | .ifx a b d, h => by
      rcases List.mem_append.1 h with h | h
      · obtain ⟨c, h1, h2⟩ := part_of_requires a h
        exact ⟨c, h1, h2.tail .ifCond⟩
      · rcases List.mem_append.1 h with h | h
        · obtain ⟨c, h1, h2⟩ := part_of_requires b h
          exact ⟨c, h1, h2.tail .ifYes⟩
        · obtain ⟨c, h1, h2⟩ := part_of_requires d h
          exact ⟨c, h1, h2.tail .ifNo⟩
  | .merge a b d, h => by
      rcases List.mem_append.1 h with h | h
      · obtain ⟨c, h1, h2⟩ := part_of_requires a h
        exact ⟨c, h1, h2.tail .mergeSwitch⟩
      · rcases List.mem_append.1 h with h | h
        · obtain ⟨c, h1, h2⟩ := part_of_requires b h
          exact ⟨c, h1, h2.tail .mergeOn⟩
        · obtain ⟨c, h1, h2⟩ := part_of_requires d h
          exact ⟨c, h1, h2.tail .mergeOff⟩
theorem part_of_requiresList {r : Reference} : (es : List Expr) → r ∈ Expr.requiresList es →
    ∃ e c, e ∈ es ∧ Own c r ∧ Part c e
  | [], h => by simp [Expr.requiresList] at h
  | e :: es, h => by
      rcases List.mem_append.1 h with h | h
      · obtain ⟨c, h1, h2⟩ := part_of_requires e h
        exact ⟨e, c, by simp, h1, h2⟩
      · obtain ⟨e', c, h0, h1, h2⟩ := part_of_requiresList es h
        exact ⟨e', c, by simp [h0], h1, h2⟩
end

theorem mem_requires {r : Reference} {e : Expr} : r ∈ e.requires ↔ ∃ c, Own c r ∧ Part c e :=
  ⟨part_of_requires e, fun ⟨_, h1, h2⟩ => requires_of_part h2 (own_requires h1)⟩

theorem reads_iff {st : Stmt} {r : Reference} :
    Reads st r ↔ ∃ e ∈ values st, r ∈ e.requires := by
  constructor
  · intro h
    cases h with
    | local_ h1 h2 => exact ⟨_, h1, mem_requires.2 ⟨_, .var, h2⟩⟩
    | global h1 h2 => exact ⟨_, h1, mem_requires.2 ⟨_, .global, h2⟩⟩
    | fetchPre h1 h2 => exact ⟨_, h1, mem_requires.2 ⟨_, .fetchPre, h2⟩⟩
    | fetchFby h1 h2 => exact ⟨_, h1, mem_requires.2 ⟨_, .fetchFby, h2⟩⟩
  · rintro ⟨e, h1, h2⟩
    obtain ⟨c, h3, h4⟩ := mem_requires.1 h2
    cases h3 with
    | var => exact .local_ h1 h4
    | global => exact .global h1 h4
    | fetchPre => exact .fetchPre h1 h4
    | fetchFby => exact .fetchFby h1 h4

/-- The compiler's `requires` on statements. -/
theorem stmt_requires {st : Stmt} {r : Reference} :
    r ∈ st.requires ↔ Reads st r ∨ ∃ id v, st = .updateRegister id v ∧ r = .updateRegister id := by
  rw [reads_iff]
  cases st with
  | let_ t e => simp [Stmt.requires, values]
  | assert e => simp [Stmt.requires, values]
  | initRegister id v c => cases v <;> simp [Stmt.requires, values]
  | updateRegister id v =>
    simp only [Stmt.requires, values, List.mem_cons, List.not_mem_nil, or_false, exists_eq_left,
      Stmt.updateRegister.injEq]
    constructor
    · rintro (h | h)
      · exact .inr ⟨id, v, ⟨rfl, rfl⟩, h⟩
      · exact .inl h
    · rintro (h | ⟨_, _, ⟨rfl, rfl⟩, h⟩)
      · exact .inr h
      · exact .inl h

theorem stmt_provides {st : Stmt} {r : Reference} : r ∈ st.provides ↔ Writes st r := by
  cases st with
  | let_ t e =>
    simp only [Stmt.provides, List.mem_map]
    constructor
    · rintro ⟨x, h, rfl⟩; exact .local_ h
    · intro h; cases h with | local_ h => exact ⟨_, h, rfl⟩
  | assert e => simp only [Stmt.provides, List.not_mem_nil, false_iff]; intro h; cases h
  | updateRegister id v =>
    simp only [Stmt.provides, List.not_mem_nil, false_iff]; intro h; cases h
  | initRegister id v c =>
    simp only [Stmt.provides, List.mem_singleton]
    constructor
    · rintro rfl; exact .register
    · intro h; cases h; rfl

theorem decl_provides {d : Decl} {r : Reference} : r ∈ d.provides ↔ Introduces d r := by
  cases d <;> simp only [Decl.provides, List.mem_singleton] <;>
    exact ⟨fun h => by subst h; constructor, fun h => by cases h; rfl⟩

theorem decl_requires {d : Decl} {r : Reference} (h : Mentions d r) : r ∈ d.requires := by
  cases h with
  | const h => exact mem_requires.2 ⟨_, .global, h⟩
  | call h => exact List.mem_append_left _ (List.mem_map.2 ⟨_, h, rfl⟩)
  | global h1 h2 =>
    exact List.mem_append_right _ (List.mem_flatMap.2 ⟨_, h1, stmt_requires.2 (.inl h2)⟩)

/-- Conversely, a declaration requires nothing else that a declaration can introduce. -/
theorem mentions_of_requires {d d' : Decl} {r : Reference} (h : r ∈ d.requires)
    (h' : Introduces d' r) : Mentions d r := by
  cases d with
  | const c =>
    obtain ⟨e, h1, h2⟩ := mem_requires.1 h
    cases h1 with
    | var => cases h'
    | global => exact .const h2
    | fetchPre => cases h'
    | fetchFby => cases h'
  | node n =>
    rcases List.mem_append.1 h with h | h
    · obtain ⟨b, hb, rfl⟩ := List.mem_map.1 h
      exact .call hb
    · obtain ⟨st, hst, h⟩ := List.mem_flatMap.1 h
      rcases stmt_requires.1 h with h | ⟨_, _, _, rfl⟩
      · cases h' with
        | const => exact .global hst h
        | extConst => exact .global hst h
        | node => cases h
        | extNode => cases h
      · cases h'
  | extConst c => simp [Decl.requires] at h
  | extNode n => simp [Decl.requires] at h

end Chandeliers.San
