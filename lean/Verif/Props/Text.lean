import Verif.Props.Legal

/-!
# From the tokens to the runs

C47, from one end of the compiler to the other.
-/

set_option autoImplicit false

namespace Chandeliers.Props
open Chandeliers.Err Chandeliers.San Chandeliers.Spec Chandeliers.Syn Chandeliers.Spec.Static
open Chandeliers.Spec.Grammar

/-- C47.  An invocation of the macro that reads as a legal program, without registers, with external
items that are what the program says: the macro expands to code, and unless a constant has an arithmetic
error, rustc accepts it; the items include every node of the program, with the types of the
program; the node returns `os` on a history exactly when `os` are the outputs of a solution of its
equations; and the other items are the constants, and the external ones. -/
theorem C47_text (A : Arith) (X : Extern) {ts : List Tok} {p : SrcProg} (hp : Program ts p)
    (hL : Legal p) (hg : DistinctGenerics p) (hX : ExternOk X p)
    (hu : ∀ d ∈ p, hasAny d.attrs ["universal_pre"] = false) :
    ∃ w p', expand ts = some (.done w (some p')) ∧
      (link A X p'.decls = .error .arith ∨ ∃ I, link A X p'.decls = .ok I ∧
        (∀ attrs src, ⟨attrs, .node src⟩ ∈ p → ∃ m, I.nodes src.name = some m ∧
          (∀ θ, Respects m (substTy θ (flatTuple (argTypes src.inputs)))
            (substTy θ (flatTuple (argTypes src.outputs)))) ∧
          ∀ is os, m.run is = .ok os ↔
            ∃ S, SrcSolution ⟨A, SrcNode.vars src, S, I.consts, I.nodes⟩ src (is.filter present) ∧
              os = spread (flatShape (argNames src.outputs).length) is
                (srcOutputs S src (is.filter present).length)) ∧
        (∀ attrs c, ⟨attrs, .const c⟩ ∈ p → ∃ v, I.consts c.name = some v ∧ ScalarTy c.ty v ∧
          ∀ v', ref ⟨A, [], fun _ _ => .nil, I.consts, I.nodes⟩ c.value 0 =
            some (.leaf (.defined v')) → v' = v) ∧
        (∀ attrs x ty, ⟨attrs, .extConst x ty⟩ ∈ p → I.consts x = X.consts x) ∧
        ∀ attrs f ins outs, ⟨attrs, .extNode f ins outs⟩ ∈ p →
          I.nodes f = (X.nodes f).map wrapExtern) := by
  obtain ⟨w, p', h⟩ := (C50_accepted hg).2 hL
  refine ⟨w, p', by rw [(C49_expand ts).1 p hp, h], ?_⟩
  rcases C28_program_default A X h hX hg hu with he | ⟨I, hl, h1, h2⟩
  · exact .inl he
  refine .inr ⟨I, hl, fun attrs src hm => ?_, fun attrs c hm => ?_, fun attrs x ty hm => ?_,
    fun attrs f ins outs hm => ?_⟩
  · obtain ⟨m, k1, k2⟩ := h1 attrs src hm
    obtain ⟨m', k3, k4⟩ := C47_program A X h hl hm (hu _ hm)
    rw [k1] at k3
    cases k3
    exact ⟨m, k1, k2, k4⟩
  · obtain ⟨v, k1, k2⟩ := h2 attrs c hm
    refine ⟨v, k1, k2, fun v' hv => ?_⟩
    have := C47_constants A X h hX hl hm hv
    rw [k1] at this
    exact (Option.some.inj this).symm
  · obtain ⟨v, k1, k2⟩ := (C47_items A X h hl).2.1 attrs x ty hm
    rw [k1, k2]
  · obtain ⟨v, k1, k2⟩ := (C47_items A X h hl).2.2 attrs f ins outs hm
    rw [k1, k2]
    rfl

/-- Non-vacuity: a program with an attribute. -/
example : ∃ p w p', Program exProgram p ∧ Legal p ∧ expand exProgram = some (.done w (some p')) ∧
    ∃ I, link exArith ⟨fun _ => none, fun _ => none⟩ p'.decls = .ok I ∧
      (I.nodes "f").isSome = true := by
  have h : (match parseProg exProgram with
      | some p => p.all (fun d => (meaning d.attrs).generics.isEmpty) &&
          ((itemsOf ⟨fun _ => none, fun _ => none⟩ p).bind (·.nodes "f")).isSome
      | none => false) = true := by decide +kernel
  cases hp : parseProg exProgram with
  | none => rw [hp] at h; cases h
  | some p =>
    rw [hp] at h
    simp only [Bool.and_eq_true, List.all_eq_true] at h
    obtain ⟨m, h2⟩ := Option.isSome_iff_exists.1 h.2
    obtain ⟨I, h2, h3⟩ := Option.bind_eq_some_iff.1 h2
    obtain ⟨w, p', h4, h5⟩ := itemsOf_some h2
    have hp := (C49_grammar _ _).1 hp
    refine ⟨p, w, p', hp, (C50_accepted fun d hd => ?_).1 ⟨w, p', h4⟩, ?_, I, h5, by rw [h3]; rfl⟩
    · have := h.1 d hd
      rw [List.isEmpty_iff] at this
      rw [this]
      exact List.nodup_nil
    · rw [(C49_expand _).1 p hp, h4]

end Chandeliers.Props
