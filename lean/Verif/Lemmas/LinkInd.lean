import Verif.Lemmas.Link

/-! An induction over the nodes of a program, in the order in which they are put together. -/

set_option autoImplicit false

namespace Chandeliers.Prg
open Chandeliers.San Chandeliers.Spec Chandeliers.Syn

/-- A node in its program: the nodes that it calls come before and have the property. -/
structure InProg (Q : Machine → Sig → Prop) (g : Globals) (sigs : String → Option Sig)
    (consts : String → Option TyBase) (attrs : List Attribute) (src : SrcNode) (n : Node)
    (ms : List Machine) : Prop where
  passes : Passes (meaning attrs).universalPre (tyOpts (meaning attrs)) sigs consts src n
  wf : ∀ f s, sigs f = some s → s.Wf
  constsOk : ConstsOk consts g
  len : ms.length = n.blocks.length
  subs : ∀ (i : Nat) b, n.blocks[i]? = some b → ∃ m s, ms[i]? = some m ∧ sigs b.name = some s ∧ Q m s
  nodes : ∃ N, Linked ms N n.blocks ∧ ∀ f s, sigs f = some s → ∃ m, N f = some m ∧ Q m s

section
variable {A : Arith} {X : Extern}

theorem blocks_known {b : Bool} {o : TyOpts} {sigs : String → Option Sig}
    {consts : String → Option TyBase} {src : SrcNode} {n : Node} (h : Passes b o sigs consts src n) :
    ∀ b ∈ n.blocks, ∃ s, sigs b.name = some s := by
  obtain ⟨n₁, n₂, c, ctx, clk, m, K, hf⟩ := Den.passes_final h
  intro b hb
  have hnames : n.blocks.map (·.name) = n₂.blocks.map (·.name) := by
    rw [hf.final]
    simp only [Node.withDepths, Node.withClocks, Node.fill]
    apply List.ext_getElem?
    intro i
    simp
    cases n₂.blocks[i]? <;> rfl
  have : b.name ∈ n₂.blocks.map (·.name) := by
    rw [← hnames]; exact List.mem_map_of_mem hb
  obtain ⟨b', hb', e⟩ := List.mem_map.1 this
  rw [← e]
  exact hf.blocks b' hb'

theorem sigOf_passes {b : Bool} {a : List Attribute} {sigs : String → Option Sig}
    {consts : String → Option TyBase} {src : SrcNode} {n : Node}
    (h : Passes b (tyOpts (meaning a)) sigs consts src n) (hg : (meaning a).generics.Nodup) :
    Sig.Wf (sigOf (meaning a).generics n.inputs n.outputs) ∧
    sigOf (meaning a).generics n.inputs n.outputs =
      ((meaning a).generics, argTypes src.inputs, argTypes src.outputs) := by
  obtain ⟨p1, p2, p3⟩ := passes_sig h
  obtain ⟨n₁, n₂, c, ctx, clk, m, K, hf⟩ := Den.passes_final h
  refine ⟨?_, by simp only [sigOf, p2, p3, translateArgs_ty]⟩
  have hsig := hf.sig
  have := sigOf_wf hg hsig
  have e : sigOf (meaning a).generics n.inputs n.outputs =
      sigOf (tyOpts (meaning a)).generics n₂.inputs n₂.outputs := by
    rw [hf.final]
    simp [sigOf, Node.withDepths, setDepths, Node.withClocks, Node.fill, Function.comp_def, tyOpts]
  rw [e]; exact this

theorem linkNodes_ind (Q : Machine → Sig → Prop) {g : Globals} {sigs : String → Option Sig}
    {consts : String → Option TyBase} {q : List SrcDecl} {ds : List San.Decl}
    (h : ProgPasses sigs consts q ds) : DistinctGenerics q →
    (∀ attrs f ins outs m, ⟨attrs, .extNode f ins outs⟩ ∈ q → X.nodes f = some m →
      Q (wrapExtern m) ((meaning attrs).generics, argTypes ins, argTypes outs)) →
    (∀ sigs consts attrs src n ms, ⟨attrs, .node src⟩ ∈ q → .node n ∈ ds →
      InProg Q g sigs consts attrs src n ms →
      Q (n.machine A g ms) ((meaning attrs).generics, argTypes src.inputs, argTypes src.outputs)) →
    ConstsOk consts g → (∀ c, .const c ∈ ds → ConstOk g c.name c.ty) →
    (∀ c, .extConst c ∈ ds → ConstOk g c.name c.ty) →
    {N N' : String → Option Machine} → Within N sigs →
    (∀ f s, sigs f = some s → s.Wf ∧ ∃ m, N f = some m ∧ Q m s) → linkNodes A X g N ds = .ok N' →
    ∀ attrs src, ⟨attrs, .node src⟩ ∈ q → ∃ sigs' consts' n ms, .node n ∈ ds ∧
      InProg Q g sigs' consts' attrs src n ms ∧ N' src.name = some (n.machine A g ms) ∧
      Linked ms N' n.blocks := by
  have lift : ∀ {sigs : String → Option Sig} {f : String} {s : Sig} {N : String → Option Machine}
      {m : Machine}, (∀ f s, sigs f = some s → s.Wf ∧ ∃ m, N f = some m ∧ Q m s) → s.Wf → Q m s →
      ∀ f' s', extend sigs f s f' = some s' →
        s'.Wf ∧ ∃ m', (fun y => if y = f then some m else N y) f' = some m' ∧ Q m' s' := by
    intro sigs f s N m h1 h2 h3 f' s' he
    unfold extend at he
    by_cases e : f' = f
    · rw [if_pos e] at he
      cases he
      exact ⟨h2, m, if_pos e, h3⟩
    · rw [if_neg e] at he
      obtain ⟨k1, m', k2, k3⟩ := h1 f' s' he
      exact ⟨k1, m', (if_neg e).trans k2, k3⟩
  have ext : ∀ {consts : String → Option TyBase} {x : String} {t : TyBase},
      ConstsOk consts g → ConstOk g x t → ConstsOk (extend consts x t) g := by
    intro consts x t h1 h2 y u hy
    unfold extend at hy
    by_cases e : y = x
    · rw [if_pos e] at hy; cases hy; rw [e]; exact h2
    · rw [if_neg e] at hy; exact h1 y u hy
  induction h with
  | nil => intro _ _ _ _ _ _ N N' _ _ _; simp
  | @const sigs consts attrs c c' ds ds' ht h hn hs ih =>
    intro hd hX hq hc h1 h2 N N' hw hN hl
    unfold linkNodes at hl
    intro a src hm
    rcases List.mem_cons.1 hm with e | hm
    · cases e
    · obtain ⟨s', k', n, ms, r1, r2⟩ := ih (fun d hm => hd d (List.mem_cons_of_mem _ hm))
        (fun a f i o m hm => hX a f i o m (List.mem_cons_of_mem _ hm))
        (fun s c a src n ms hm hn => hq s c a src n ms (List.mem_cons_of_mem _ hm)
          (List.mem_cons_of_mem _ hn)) (ext hc (h1 c' (List.mem_cons_self ..)))
        (fun c hm => h1 c (List.mem_cons_of_mem _ hm))
        (fun c hm => h2 c (List.mem_cons_of_mem _ hm)) hw hN hl a src hm
      exact ⟨s', k', n, ms, List.mem_cons_of_mem _ r1, r2⟩
  | @extConst sigs consts attrs x ty ds ds' hn hs ih =>
    intro hd hX hq hc h1 h2 N N' hw hN hl
    unfold linkNodes at hl
    intro a src hm
    rcases List.mem_cons.1 hm with e | hm
    · cases e
    · obtain ⟨s', k', n, ms, r1, r2⟩ := ih (fun d hm => hd d (List.mem_cons_of_mem _ hm))
        (fun a f i o m hm => hX a f i o m (List.mem_cons_of_mem _ hm))
        (fun s c a src n ms hm hn => hq s c a src n ms (List.mem_cons_of_mem _ hm)
          (List.mem_cons_of_mem _ hn)) (ext hc (h2 ⟨x, ty⟩ (List.mem_cons_self ..)))
        (fun c hm => h1 c (List.mem_cons_of_mem _ hm))
        (fun c hm => h2 c (List.mem_cons_of_mem _ hm)) hw hN hl a src hm
      exact ⟨s', k', n, ms, List.mem_cons_of_mem _ r1, r2⟩
  | @node sigs consts attrs src n ds ds' h hn hs ih =>
    intro hd hX hq hc h1 h2 N N' hw hN hl
    have hname := (passes_sig h).1
    have hg : (meaning attrs).generics.Nodup := hd _ (List.mem_cons_self ..)
    obtain ⟨w1, w2⟩ := sigOf_passes h hg
    unfold linkNodes at hl
    split at hl
    · rename_i ms hms
      rw [hname] at hl
      obtain ⟨l1, l2⟩ := subnodes_linked hms
      have hin : InProg Q g sigs consts attrs src n ms := by
        refine ⟨h, fun f s h => (hN f s h).1, hc, subnodes_length hms, fun i b hb => ?_,
          N, l1, fun f s h => (hN f s h).2⟩
        obtain ⟨s, hs⟩ := blocks_known h b (List.mem_of_getElem? hb)
        obtain ⟨-, m, e1, e2⟩ := hN _ _ hs
        exact ⟨m, s, (l1 i b hb).trans e1, hs, e2⟩
      have hQ := hq sigs consts attrs src n ms (List.mem_cons_self ..) (List.mem_cons_self ..) hin
      rw [← w2] at hQ
      have hkeep : ∀ x, N x ≠ none → N' x = N x := by
        intro x hx
        have hne : x ≠ src.name := by
          rintro rfl
          exact hx (hw _ hn)
        have := (linkNodes_values hs (within_extend hw) hl).1 x (by rw [if_neg hne]; exact hx)
        rw [this, if_neg hne]
      intro a src' hm
      rcases List.mem_cons.1 hm with e | hm
      · cases e
        refine ⟨sigs, consts, n, ms, List.mem_cons_self .., hin, ?_, ?_⟩
        · have := (linkNodes_values hs (within_extend hw) hl).1 src.name (by simp)
          rw [this, if_pos rfl]
        · intro i b hb
          rw [l1 i b hb, hkeep b.name (l2 b (List.mem_of_getElem? hb))]
      · obtain ⟨s', k', n', ms', r1, r2⟩ := ih (fun d hm => hd d (List.mem_cons_of_mem _ hm))
          (fun a f i o m hm => hX a f i o m (List.mem_cons_of_mem _ hm))
          (fun s c a src n ms hm hn => hq s c a src n ms (List.mem_cons_of_mem _ hm)
            (List.mem_cons_of_mem _ hn)) hc
          (fun c hm => h1 c (List.mem_cons_of_mem _ hm))
          (fun c hm => h2 c (List.mem_cons_of_mem _ hm)) (within_extend hw) (lift hN w1 hQ) hl a src' hm
        exact ⟨s', k', n', ms', List.mem_cons_of_mem _ r1, r2⟩
    · cases hl
  | @extNode sigs consts attrs f ins outs ds ds' h hdt hn hs ih =>
    intro hd hX hq hc h1 h2 N N' hw hN hl
    have hg : (meaning attrs).generics.Nodup := hd _ (List.mem_cons_self ..)
    unfold linkNodes at hl
    split at hl
    · rename_i m hm
      have hQ := hX attrs f ins outs m (List.mem_cons_self ..) hm
      intro a src hm
      rcases List.mem_cons.1 hm with e | hm
      · cases e
      · obtain ⟨s', k', n, ms, r1, r2⟩ := ih (fun d hm => hd d (List.mem_cons_of_mem _ hm))
          (fun a f i o m hm => hX a f i o m (List.mem_cons_of_mem _ hm))
          (fun s c a src n ms hm hn => hq s c a src n ms (List.mem_cons_of_mem _ hm)
            (List.mem_cons_of_mem _ hn)) hc
          (fun c hm => h1 c (List.mem_cons_of_mem _ hm))
          (fun c hm => h2 c (List.mem_cons_of_mem _ hm)) (within_extend hw)
          (lift hN (sigOf_wf hg h) (by simp only [sigOf, translateArgs_ty]; exact hQ)) hl a src hm
        exact ⟨s', k', n, ms, List.mem_cons_of_mem _ r1, r2⟩
    · cases hl

end
end Chandeliers.Prg
