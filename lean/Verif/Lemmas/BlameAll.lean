import Verif.Lemmas.BlameFront
import Verif.Lemmas.BlameCausal
import Verif.Lemmas.BlameClocks

/-!
# Messages of the compiler
-/

set_option autoImplicit false

namespace Chandeliers.Tell
open Chandeliers.San Chandeliers.Syn Chandeliers.Spec Chandeliers.Err Chandeliers.Err.Chk

theorem translated_node {p : List SrcDecl} {ds : List OptDecl} (h : List.Forall₂ Prg.Trans p ds)
    {n : Node} (hn : San.Decl.node n ∈ ds.map (·.1)) : ∃ m b, SrcNode.translate b m = .ok n := by
  induction h with
  | nil => simp at hn
  | cons hd _ ih =>
    rcases List.mem_cons.1 hn with e | hn
    · cases hd with
      | node h => cases e; exact ⟨_, _, h⟩
      | _ => cases e
    · exact ih hn

theorem ofCausality_notes {α σ : Type} {P : Report → Prop} {r : Except (GErr Reference) α}
    (h : ∀ x, r = .error x → P (.causality x)) : Notes P (ofCausality r : Chk Report σ α) := by
  cases r with
  | ok a => exact .pure
  | error x =>
    cases x with
    | abort => exact .abort
    | fuel => exact .abort
    | _ => exact .error (h _ rfl)

theorem pass_some {p p' : Prog} {f : List San.Decl → Chk Report Unit (List San.Decl)}
    {s s' : EAccum Report × Unit} (h : p.pass f s = (.some p', s')) :
    ∃ ds s'', f p.decls s = (.some ds, s'') ∧ p' = { p with decls := ds } := by
  obtain ⟨ds, s1, h1, h2⟩ := bind_some.1 h
  cases h2
  exact ⟨ds, _, h1, rfl⟩

theorem compile_true (p : SrcProg) : ∃ es ws,
    (compile p (EAccum.default, ())).2.1 = ⟨es, ws⟩ ∧ (∀ e ∈ es, ReportTrue p e) ∧
      ∀ w ∈ ws, ReportTrue p w := by
  unfold compile progPipeline
  rw [run_bind]
  obtain ⟨es, ws, h1, h2, h3⟩ := translateProg_notes p (EAccum.default, ())
  rcases hr : translateProg p (EAccum.default, ()) with ⟨r, a, u⟩
  rw [hr] at h1
  cases r with
  | none => exact ⟨es, ws, h1, h2, h3⟩
  | abort => exact ⟨es, ws, h1, h2, h3⟩
  | some q =>
    have hq : Translates p q := ⟨_, hr⟩
    obtain ⟨ds, s1, h4, h5⟩ := bind_some.1 hr
    cases h5
    have ht := Prg.decls_translate h4
    have rest : Notes (ReportTrue p) (do
        let p ← Prog.pass (fun ds => ofCausality (progCausality ds)) ⟨ds.map (·.1), optsOf ds⟩
        let p ← p.pass fun ds => Syn.mapErr .check (progTypecheck p.opts ds)
        let p ← p.pass fun ds => Syn.mapErr .check (progClockcheck ds)
        let p ← p.pass fun ds => Syn.mapErr .check (progMakePositive ds)
        (fun s => (codegen p, s) : Chk Report Unit Prog)) := by
      refine .bind (.bind (ofCausality_notes fun x hx => .causality hq (causal_blame ?_ hx))
        fun _ _ _ _ => .pure) fun p₂ s₂ s₂' k₂ => ?_
      · intro n hn
        obtain ⟨m, b, hm⟩ := translated_node ht hn
        exact translate_inits hm
      obtain ⟨ds₂, _, k₂', rfl⟩ := pass_some k₂
      have hc := Prg.ofCausality_some k₂'
      refine .bind (.bind (.mapErr (Notes.of_tells (I := fun _ => True)
        (typecheck_blame hc (optsOf ds) ?_) fun _ => trivial) fun e he => .check hq he)
        fun _ _ _ _ => .pure) fun p₃ s₃ s₃' k₃ => ?_
      · intro n hn
        obtain ⟨m, b, hm⟩ := translated_node ht hn
        exact translate_kept hm
      obtain ⟨ds₃, _, k₃', rfl⟩ := pass_some k₃
      obtain ⟨_, k₃⟩ := Prg.mapErr_some k₃'
      have hk := Prg.prog_checked k₃
      refine .bind (.bind (.mapErr (Notes.of_tells (I := fun _ => True)
        (clockcheck_blame hc (optsOf ds) hk) fun _ => trivial) fun e he => .check hq he)
        fun _ _ _ _ => .pure) fun p₄ s₄ s₄' k₄ => ?_
      obtain ⟨ds₄, _, k₄', rfl⟩ := pass_some k₄
      obtain ⟨_, k₄⟩ := Prg.mapErr_some k₄'
      have hl := Prg.prog_clocked k₄
      refine .bind (.bind (.mapErr (Notes.of_tells (I := fun _ => True)
        (positive_blame hc (optsOf ds) hk hl) fun _ => trivial) fun e he => .check hq he)
        fun _ _ _ _ => .pure) fun p₅ s₅ s₅' k₅ => ?_
      exact .same fun _ => rfl
    obtain ⟨es', ws', k1, k2, k3⟩ := rest (a, u)
    simp only at h1 k1
    subst h1
    refine ⟨es ++ es', ws ++ ws', ?_, ?_, ?_⟩
    · simpa [EAccum.default] using k1
    · intro e he
      rcases List.mem_append.1 he with he | he
      · exact h2 e he
      · exact k2 e he
    · intro e he
      rcases List.mem_append.1 he with he | he
      · exact h3 e he
      · exact k3 e he

end Chandeliers.Tell
