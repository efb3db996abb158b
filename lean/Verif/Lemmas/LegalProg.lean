import Verif.Lemmas.LegalEnv
import Verif.Lemmas.Program
import Verif.Props.Types
import Verif.Props.Clocks
import Verif.Props.Presence
import Verif.Props.Panics

/-! Legal programs are those that go through all the passes. -/

set_option autoImplicit false

namespace Chandeliers.Den
open Chandeliers.San Chandeliers.Spec Chandeliers.Syn Chandeliers.Spec.Static Chandeliers.Prg

/-- The declaration is well typed. -/
def DeclTyped (opts : String → TyOpts) (sigs : String → Option Sig)
    (consts : String → Option TyBase) : San.Decl → Prop
  | .const c => ConstTyped consts c
  | .extConst _ => True
  | .node n => NodeTyped ((opts n.name).main || (opts n.name).test) (opts n.name).generics sigs
      consts n
  | .extNode n => SigTyped (opts n.name).main (opts n.name).generics n.inputs n.outputs [] ∧
      DeclsTyped (n.inputs ++ n.outputs)

/-- The declaration is well clocked, initialised, and can be printed. -/
def Sound : San.Decl → Prop
  | .const c => printableExpr c.value = true
  | .extConst _ => True
  | .node n => (∃ K, NodeClocked false n K) ∧ (∀ t x, .let_ t x ∈ n.stmts → ReadsWithin 0 x) ∧
      (∀ x, .assert x ∈ n.stmts → ReadsWithin 0 x) ∧ ∀ st ∈ n.stmts, printableStmt st = true
  | .extNode n => ∀ v ∈ n.inputs ++ n.outputs, Always v.clk.intoClk

theorem nodeTyped_stmts {ex : Bool} {gens : List String} {sigs : String → Option Sig}
    {consts : String → Option TyBase} {n : Node} {sts : List Stmt} (h : sts.Perm n.stmts) :
    NodeTyped ex gens sigs consts { n with stmts := sts } ↔ NodeTyped ex gens sigs consts n := by
  constructor
  · intro k; exact ⟨k.sig, k.decls, k.blocks, fun st hst => k.stmts st (h.mem_iff.2 hst)⟩
  · intro k; exact ⟨k.sig, k.decls, k.blocks, fun st hst => k.stmts st (h.mem_iff.1 hst)⟩

theorem nodeClocked_stmts {b : Bool} {K : String → Option Clk} {n : Node} {sts : List Stmt}
    (h : sts.Perm n.stmts) : NodeClocked b { n with stmts := sts } K ↔ NodeClocked b n K := by
  constructor
  · intro k; exact ⟨k.interface, k.declared, fun st hst => k.stmts st (h.mem_iff.2 hst)⟩
  · intro k; exact ⟨k.interface, k.declared, fun st hst => k.stmts st (h.mem_iff.1 hst)⟩

/-- A declaration passes the checks exactly when its source is legal. -/
theorem front_legal {opts : String → TyOpts} {sigs : String → Option Sig}
    {consts : String → Option TyBase} {d : SrcDecl} {y : San.Decl} (hf : Front opts d y) :
    (DeclTyped opts sigs consts y ∧ Sound y) ↔ LegalItem consts sigs (meaning d.attrs) d.item := by
  cases hf with
  | @const attrs c c' h =>
    simp only [DeclTyped, Sound, LegalItem]
    constructor
    · rintro ⟨h1, h2⟩; exact legal_of_const h h1 h2
    · rintro ⟨h1, h2⟩
      obtain ⟨c'', h3, h4⟩ := const_of_legal h1 h2
      rw [h] at h3
      cases h3
      refine ⟨h4, (Quiet.clean_const fun l hl => literal_denotes ((hasTy_known _ h2).1 l hl)).2 _ h⟩
  | extConst => simp [DeclTyped, Sound, LegalItem]
  | @extNode attrs f ins outs e =>
    simp only [DeclTyped, Sound, LegalItem, e]
    rw [varsOf_eq, varsOf_eq, varsOf_eq, translateArgs_append, legalVars_iff]
    have := legalInterface_iff (ex := (meaning attrs).main.isSome) (gens := (meaning attrs).generics)
      (ins := translateArgs ins) (outs := translateArgs outs) (locals := [])
    rw [List.map_nil] at this
    rw [this]
    tauto
  | @node attrs src n' n'' h hc e =>
    obtain ⟨c, hc', e'⟩ := node_translate h
    have e1 : n' = built src c := e'
    subst e1
    obtain ⟨hp, hs⟩ := Props.C22_node hc
    have e2 : n'' = { built src c with stmts := n''.stmts } := by rw [← hs]
    obtain ⟨g1, g2, -, g4, g5⟩ := Props.C24_node.1 ⟨_, hc⟩
    simp only [DeclTyped, Sound, LegalItem, e]
    have hT := fun ex gens => nodeTyped_stmts (ex := ex) (gens := gens) (sigs := sigs)
      (consts := consts) hp
    have hK := fun K => nodeClocked_stmts (b := false) (K := K) hp
    rw [← e2] at hT hK
    simp only [hK, hT, hp.mem_iff]
    constructor
    · rintro ⟨h1, h2, h3, h4, h5⟩
      exact legal_of_nodeOk hc' h5 ⟨g1, g2, g4, g5, h1, h2, h3, h4⟩
    · intro hL
      have hO := nodeOk_of_legal hc' hL
      refine ⟨hO.typed, hO.clocked, hO.lets, hO.asserts, ?_⟩
      refine ((Quiet.clean_node (F := fun _ => True) (meaning attrs).universalPre ?_
        (fun _ _ _ _ => trivial)).2 _ h).1
      intro x hx l hl
      obtain ⟨st, hst, rfl⟩ := List.mem_map.1 hx
      obtain ⟨t, ht⟩ := legalStmt_ty (hL.stmts st hst)
      exact literal_denotes ((hasTy_known _ ht).1 l hl)

end Chandeliers.Den
