import Verif.Lemmas.AnyOrder
import Verif.Props.Universal

/-!
# Programs whose nodes are replaced one by one
-/

set_option autoImplicit false

namespace Chandeliers.Rep
open Chandeliers.San Chandeliers.Spec Chandeliers.Syn Chandeliers.Err Chandeliers.Prg Chandeliers.Props

/-- What the other nodes of the program are known to be. -/
abbrev Flat (m : Machine) (s : Sig) : Prop := m.outTy = flatShape s.2.2.length

/-- A relation between machines that nodes preserve. -/
structure Congr (A : Arith) (T : Machine → Machine → Prop) : Prop where
  refl : ∀ m, T m m
  trans : ∀ {m₁ m₂ m₃}, T m₁ m₂ → T m₂ m₃ → T m₁ m₃
  nodes : ∀ g (n : Node) {ms ms'}, List.Forall₂ T ms ms' → T (n.machine A g ms) (n.machine A g ms')

theorem congr_alike (A : Arith) : Congr A (Alike Any) :=
  ⟨alike_refl, alike_trans, fun g n _ _ h => machine_same (fun _ => trivial) A g n h⟩

/-- The second may return where the first panics. -/
theorem congr_milder (A : Arith) : Congr A (Milder (fun _ => True) Any) where
  refl := fun m => ⟨rfl, fun is => by cases m.run is <;> simp [Upto]⟩
  trans := by
    intro m₁ m₂ m₃ h h'
    refine ⟨h.type.trans h'.type, fun is => ?_⟩
    have h1 := h.runs is
    have h2 := h'.runs is
    cases e1 : m₁.run is with
    | error p => cases e3 : m₃.run is <;> simp [Upto]
    | ok a =>
      rw [e1] at h1
      cases e2 : m₂.run is with
      | error p => rw [e2] at h1; exact h1.elim
      | ok b =>
        rw [e2] at h1 h2
        have h1 : a = b := h1
        subst h1
        exact h2
  nodes := fun g n _ _ h =>
    machine_alike (fun _ => trivial) (SameOps.refl (fun _ => trivial) A) n h

/-- A relation between the sources of two nodes, in a mode: they have the same name, and as many
outputs. -/
structure Faced (R : Bool → SrcNode → SrcNode → Prop) : Prop where
  name : ∀ {u n n'}, R u n n' → n'.name = n.name
  outs : ∀ {u n n'}, R u n n' → (argTypes n'.outputs).length = (argTypes n.outputs).length

section
variable {A : Arith} {X : Extern} {T : Machine → Machine → Prop}
  {R : Bool → SrcNode → SrcNode → Prop}

/-- Nodes that are related in the source are related when they are compiled, if they call the same
nodes. -/
def Lifts (A : Arith) (g : Globals) (N : String → Option Machine) (T : Machine → Machine → Prop)
    (R : Bool → SrcNode → SrcNode → Prop) : Prop :=
  ∀ attrs src src' n n' ms ms' sigs sigs' consts consts', R (meaning attrs).universalPre src src' →
    InProg Flat g sigs consts attrs src n ms → InProg Flat g sigs' consts' attrs src' n' ms' →
    ((meaning attrs).universalPre = true → BoundBeforeUse n ∧ BoundBeforeUse n') →
    Linked ms N n.blocks → Linked ms' N n'.blocks → T (n.machine A g ms) (n'.machine A g ms')

/-- The nodes of the other program. -/
structure Other (A : Arith) (X : Extern) (R : Bool → SrcNode → SrcNode → Prop) (g : Globals)
    (N₂ : String → Option Machine) (q : List SrcDecl) : Prop where
  nodes : ∀ attrs src, ⟨attrs, .node src⟩ ∈ q → ∃ src' n₂ ms₂ sigs' consts',
    R (meaning attrs).universalPre src src' ∧ InProg Flat g sigs' consts' attrs src' n₂ ms₂ ∧
    ((meaning attrs).universalPre = true → BoundBeforeUse n₂) ∧
    N₂ src.name = some (n₂.machine A g ms₂) ∧ Linked ms₂ N₂ n₂.blocks
  externs : ∀ attrs f ins outs, ⟨attrs, .extNode f ins outs⟩ ∈ q → ∃ m, X.nodes f = some m ∧
    N₂ f = some (wrapExtern m) ∧ Flat (wrapExtern m) ((meaning attrs).generics, argTypes ins, argTypes outs)

theorem Other.tail {g : Globals} {N₂ : String → Option Machine} {d : SrcDecl} {q : List SrcDecl}
    (h : Other A X R g N₂ (d :: q)) : Other A X R g N₂ q :=
  ⟨fun a c hm => h.nodes a c (List.mem_cons_of_mem _ hm),
    fun a f i o hm => h.externs a f i o (List.mem_cons_of_mem _ hm)⟩

theorem subnodes_rel {N N' : String → Option Machine}
    (h : ∀ f m m', N f = some m → N' f = some m' → T m m') : ∀ {bs : List NodeInstance}
    {ms ms' : List Machine}, subnodes N bs = some ms → subnodes N' bs = some ms' →
    List.Forall₂ T ms ms'
  | [], ms, ms', h1, h2 => by cases h1; cases h2; exact .nil
  | b :: bs, ms, ms', h1, h2 => by
    unfold subnodes at h1 h2
    split at h1
    · rename_i m ms₁ e1 e2
      cases h1
      split at h2
      · rename_i m' ms₂ e3 e4
        cases h2
        exact .cons (h _ _ _ e1 e3) (subnodes_rel h e2 e4)
      · cases h2
    · cases h1

theorem rel_set {N N₂ : String → Option Machine} {f : String} {m m₂ : Machine}
    (h : ∀ f m m', N f = some m → N₂ f = some m' → T m m') (hf : N₂ f = some m₂)
    (hm : T m m₂) : ∀ f' a b, (if f' = f then some m else N f') = some a →
      N₂ f' = some b → T a b := by
  intro f' a b h1 h2
  by_cases e : f' = f
  · subst e
    rw [if_pos rfl] at h1
    rw [hf] at h2
    cases h1
    cases h2
    exact hm
  · rw [if_neg e] at h1
    exact h f' a b h1 h2

theorem flat_set {sigs : String → Option Sig} {N₂ : String → Option Machine} {f : String} {s : Sig}
    {m : Machine} (h : ∀ f s, sigs f = some s → s.Wf ∧ ∃ m, N₂ f = some m ∧ Flat m s)
    (hf : N₂ f = some m) (hs : s.Wf) (hm : Flat m s) :
    ∀ f' s', extend sigs f s f' = some s' → s'.Wf ∧ ∃ m, N₂ f' = some m ∧ Flat m s' := by
  intro f' s' h1
  unfold extend at h1
  by_cases e : f' = f
  · subst e
    rw [if_pos rfl] at h1
    cases h1
    exact ⟨hs, m, hf, hm⟩
  · rw [if_neg e] at h1
    exact h f' s' h1

theorem machine_flat {u : Bool} {o : TyOpts} {g : Globals} {sigs : String → Option Sig}
    {consts : String → Option TyBase} {src : SrcNode} {n : Node} {ms : List Machine}
    (h : Passes u o sigs consts src n) (gs : List String) (ins : List TyBase) :
    Flat (n.machine A g ms) (gs, ins, argTypes src.outputs) := by
  obtain ⟨-, -, p3⟩ := passes_sig h
  rw [translateArgs_ty] at p3
  simp only [Flat, Node.machine, Node.outTy, ← p3, List.length_map]

theorem linkNodes_other (hT : Congr A T) (hF : Faced R) {g : Globals}
    {N₁ N₂ : String → Option Machine} (hR : Lifts A g N₂ T R) {sigs : String → Option Sig}
    {consts : String → Option TyBase} {q : List SrcDecl} {ds : List San.Decl}
    (h : ProgPasses sigs consts q ds) : DistinctGenerics q → Other A X R g N₂ q →
    ConstsOk consts g → (∀ c, .const c ∈ ds → ConstOk g c.name c.ty) →
    (∀ c, .extConst c ∈ ds → ConstOk g c.name c.ty) →
    (∀ attrs src n, ⟨attrs, .node src⟩ ∈ q → .node n ∈ ds →
      (meaning attrs).universalPre = true → BoundBeforeUse n) →
    {N : String → Option Machine} →
    (∀ f s, sigs f = some s → s.Wf ∧ ∃ m, N₂ f = some m ∧ Flat m s) →
    (∀ f m m', N f = some m → N₂ f = some m' → T m m') → linkNodes A X g N ds = .ok N₁ →
    ∀ f m m', N₁ f = some m → N₂ f = some m' → T m m' := by
  have ext : ∀ {consts : String → Option TyBase} {x : String} {t : TyBase},
      ConstsOk consts g → ConstOk g x t → ConstsOk (extend consts x t) g := by
    intro consts x t h1 h2 y u hy
    unfold extend at hy
    by_cases e : y = x
    · rw [if_pos e] at hy; cases hy; rw [e]; exact h2
    · rw [if_neg e] at hy; exact h1 y u hy
  induction h with
  | nil => intro _ _ _ _ _ _ N _ h hl; cases hl; exact h
  | @const sigs consts attrs c c' ds ds' ht h hn hs ih =>
    intro hd hM hc h1 h2 hb N hk hN hl
    unfold linkNodes at hl
    exact ih (fun d hm => hd d (List.mem_cons_of_mem _ hm)) hM.tail
      (ext hc (h1 c' (List.mem_cons_self ..)))
      (fun c hm => h1 c (List.mem_cons_of_mem _ hm)) (fun c hm => h2 c (List.mem_cons_of_mem _ hm))
      (fun a s n hm hn => hb a s n (List.mem_cons_of_mem _ hm) (List.mem_cons_of_mem _ hn)) hk hN hl
  | @extConst sigs consts attrs x ty ds ds' hn hs ih =>
    intro hd hM hc h1 h2 hb N hk hN hl
    unfold linkNodes at hl
    exact ih (fun d hm => hd d (List.mem_cons_of_mem _ hm)) hM.tail
      (ext hc (h2 ⟨x, ty⟩ (List.mem_cons_self ..)))
      (fun c hm => h1 c (List.mem_cons_of_mem _ hm)) (fun c hm => h2 c (List.mem_cons_of_mem _ hm))
      (fun a s n hm hn => hb a s n (List.mem_cons_of_mem _ hm) (List.mem_cons_of_mem _ hn)) hk hN hl
  | @node sigs consts attrs src n ds ds' h hn hs ih =>
    intro hd hM hc h1 h2 hb N hk hN hl
    obtain ⟨src', n₂, ms₂, sigs', consts', k1, k2, kb, k3, k4⟩ :=
      hM.nodes attrs src (List.mem_cons_self ..)
    have hg : (meaning attrs).generics.Nodup := hd _ (List.mem_cons_self ..)
    obtain ⟨w1, w2⟩ := sigOf_passes h hg
    unfold linkNodes at hl
    split at hl
    · rename_i ms hms
      have hb' : ∀ b ∈ n.blocks, N₂ b.name ≠ none := by
        intro b hb
        obtain ⟨s, hs⟩ := blocks_known h b hb
        obtain ⟨-, m, e, -⟩ := hk _ _ hs
        rw [e]; simp
      obtain ⟨ms', hms'⟩ := subnodes_some hb'
      obtain ⟨l1, l2⟩ := subnodes_linked hms'
      have hname : n.name = src.name := (passes_sig h).1
      have hin : InProg Flat g sigs consts attrs src n ms' := by
        refine ⟨h, fun f s h => (hk f s h).1, hc, subnodes_length hms', fun i b hb => ?_,
          N₂, l1, fun f s h => (hk f s h).2⟩
        obtain ⟨s, hs⟩ := blocks_known h b (List.mem_of_getElem? hb)
        obtain ⟨-, m, e1, e2⟩ := hk _ _ hs
        exact ⟨m, s, (l1 i b hb).trans e1, hs, e2⟩
      have t1 : T (n.machine A g ms) (n.machine A g ms') := hT.nodes g n (subnodes_rel hN hms hms')
      have t2 : T (n.machine A g ms') (n₂.machine A g ms₂) :=
        hR attrs src src' n n₂ ms' ms₂ _ _ _ _ k1 hin k2
          (fun hu => ⟨hb attrs src n (List.mem_cons_self ..) (List.mem_cons_self ..) hu, kb hu⟩) l1 k4
      rw [hname] at hl
      refine ih (fun d hm => hd d (List.mem_cons_of_mem _ hm)) hM.tail hc
        (fun c hm => h1 c (List.mem_cons_of_mem _ hm)) (fun c hm => h2 c (List.mem_cons_of_mem _ hm))
        (fun a s n hm hn => hb a s n (List.mem_cons_of_mem _ hm) (List.mem_cons_of_mem _ hn))
        (flat_set hk k3 w1 ?_) (rel_set hN k3 (hT.trans t1 t2)) hl
      rw [w2]
      have := machine_flat (A := A) (g := g) (ms := ms₂) k2.passes (meaning attrs).generics
        (argTypes src.inputs)
      simp only [Flat, hF.outs k1] at this ⊢
      exact this
    · cases hl
  | @extNode sigs consts attrs f ins outs ds ds' h hdt hn hs ih =>
    intro hd hM hc h1 h2 hb N hk hN hl
    obtain ⟨m, k1, k2, k3⟩ := hM.externs attrs f ins outs (List.mem_cons_self ..)
    have hg : (meaning attrs).generics.Nodup := hd _ (List.mem_cons_self ..)
    unfold linkNodes at hl
    split at hl
    · rename_i m' hm'
      rw [k1] at hm'
      cases hm'
      refine ih (fun d hm => hd d (List.mem_cons_of_mem _ hm)) hM.tail hc
        (fun c hm => h1 c (List.mem_cons_of_mem _ hm)) (fun c hm => h2 c (List.mem_cons_of_mem _ hm))
        (fun a s n hm hn => hb a s n (List.mem_cons_of_mem _ hm) (List.mem_cons_of_mem _ hn))
        (flat_set hk k2 (sigOf_wf hg h) ?_) (rel_set hN k2 (hT.refl _)) hl
      simp only [sigOf, translateArgs_ty]
      exact k3
    · cases hl

/-! ## Programs -/

/-- The declarations of one program are among those of another, but for their nodes. -/
def Redone (R : Bool → SrcNode → SrcNode → Prop) (p r : SrcProg) : Prop := ∀ d ∈ p,
  match d with
  | ⟨attrs, .node n⟩ => ∃ n', R (meaning attrs).universalPre n n' ∧ ⟨attrs, .node n'⟩ ∈ r
  | d => d ∈ r

/-- The nodes of an accepted program. -/
theorem linked_in {p : SrcProg} {p' : Prog} {w : List Report} {I : Items}
    (h : decl (compile p) = .done w (some p')) (hl : link A X p'.decls = .ok I)
    (hX : ExternOk X p) (hg : DistinctGenerics p) {attrs : List Attribute} {src : SrcNode}
    (hs : ⟨attrs, .node src⟩ ∈ p) : ∃ sigs' consts' n ms, .node n ∈ p'.decls ∧
      InProg Flat I.consts sigs' consts' attrs src n ms ∧
      I.nodes src.name = some (n.machine A I.consts ms) ∧ Linked ms I.nodes n.blocks := by
  obtain ⟨q, hq, hp⟩ := accepted_passes h
  obtain ⟨hl1, hl2⟩ := link_ok hl
  rcases linkConsts_typed (A := A) (X := X) hp
      (fun a x t hm => hX.consts a x t (hq.mem_iff.1 hm)) (g := fun _ => none)
      (fun x t h => by cases h) with he | ⟨g, h1, -, h3, h4⟩
  · rw [hl1] at he; cases he
  · rw [hl1] at h1
    cases h1
    exact linkNodes_ind (A := A) (X := X) Flat hp (fun d hm => hg d (hq.mem_iff.1 hm)) (by
        intro a f ins outs m hm hx
        obtain ⟨m', e1, e2⟩ := hX.nodes a f ins outs (hq.mem_iff.1 hm)
        rw [hx] at e1
        cases e1
        exact extern_shape (m := m) e2)
      (fun sigs consts a src n ms hm hn hin => machine_flat hin.passes _ _)
      (fun x t h => by cases h) h3 h4 (N := fun _ => none) (fun _ _ => rfl)
      (fun f s h => by cases h) hl2 attrs src (hq.mem_iff.2 hs)

/-- The converse relation. -/
abbrev Back (R : Bool → SrcNode → SrcNode → Prop) : Bool → SrcNode → SrcNode → Prop :=
  fun u n n' => R u n' n

theorem redone_const {p r : SrcProg} (h : Redone R p r) {attrs : List Attribute} {c : SrcConst}
    (hm : ⟨attrs, .const c⟩ ∈ p) : ⟨attrs, .const c⟩ ∈ r := h _ hm

theorem redone_extConst {p r : SrcProg} (h : Redone R p r) {attrs : List Attribute} {x : String}
    {ty : TyBase} (hm : ⟨attrs, .extConst x ty⟩ ∈ p) : ⟨attrs, .extConst x ty⟩ ∈ r := h _ hm

theorem redone_extNode {p r : SrcProg} (h : Redone R p r) {attrs : List Attribute} {f : String}
    {ins outs : List ArgsTy} (hm : ⟨attrs, .extNode f ins outs⟩ ∈ p) :
    ⟨attrs, .extNode f ins outs⟩ ∈ r := h _ hm

theorem redone_node {p r : SrcProg} (h : Redone R p r) {attrs : List Attribute} {n : SrcNode}
    (hm : ⟨attrs, .node n⟩ ∈ p) :
    ∃ n', R (meaning attrs).universalPre n n' ∧ ⟨attrs, .node n'⟩ ∈ r := h _ hm

theorem redone_extern {p r : SrcProg} (h : Redone R r p) (hX : ExternOk X p) : ExternOk X r :=
  ⟨fun _ _ _ hm => hX.consts _ _ _ (redone_extConst h hm),
    fun _ _ _ _ hm => hX.nodes _ _ _ _ (redone_extNode h hm)⟩

theorem redone_attrs {p r : SrcProg} (h : Redone R r p) {P : List Attribute → Prop}
    (hp : ∀ d ∈ p, P d.attrs) : ∀ d ∈ r, P d.attrs := by
  intro d hd
  have := h d hd
  match d, this with
  | ⟨a, .node n⟩, ⟨n', _, hm⟩ => exact (hp ⟨a, .node n'⟩ hm : P a)
  | ⟨a, .const _⟩, hm => exact hp _ hm
  | ⟨a, .extConst _ _⟩, hm => exact hp _ hm
  | ⟨a, .extNode _ _ _⟩, hm => exact hp _ hm

/-- Two sets of items with the same constants and related nodes. -/
structure RelItems (T : Machine → Machine → Prop) (I I' : Items) : Prop where
  consts : I.consts = I'.consts
  none : ∀ f, I.nodes f = none ↔ I'.nodes f = none
  nodes : ∀ f m m', I.nodes f = some m → I'.nodes f = some m' → T m m'

theorem link_consts_redone {R' : Bool → SrcNode → SrcNode → Prop} {p r : SrcProg} {p' r' : Prog}
    {w w' : List Report} {I : Items} (hrp : Redone R' r p)
    (h : decl (compile p) = .done w (some p')) (h' : decl (compile r) = .done w' (some r'))
    (hX : ExternOk X p) (hg : DistinctGenerics p) (ht' : TidyProg r)
    (hl : link A X p'.decls = .ok I) : ∃ I', link A X r'.decls = .ok I' ∧
      ∀ x v, I'.consts x = some v → I.consts x = some v := by
  obtain ⟨q₂, hq₂, hp₂⟩ := accepted_passes h'
  have hX' : ExternOk X r := redone_extern hrp hX
  have hg' : DistinctGenerics r := redone_attrs (P := fun a => (meaning a).generics.Nodup) hrp hg
  obtain ⟨i1, i2, i3⟩ := C47_items A X h hl
  have hS : Satisfies A X I.consts q₂ :=
    ⟨fun a c hm => i1 a c (redone_const hrp (hq₂.mem_iff.1 hm)),
      fun a x t hm => i2 a x t (redone_extConst hrp (hq₂.mem_iff.1 hm))⟩
  obtain ⟨l1, l2⟩ := linkConsts_same hp₂ hS (g := fun _ => none) (fun _ _ h => by cases h)
  rcases C28_program_tidy A X h' hX' hg' ht' with he | ⟨I', h1, -⟩
  · exfalso
    unfold link at he
    split at he
    · rename_i e hc'; cases he; exact l1 hc'
    · split at he
      · rename_i e hn'
        cases he
        cases linkNodes_error hn'
      · cases he
  · exact ⟨I', h1, l2 _ (link_ok h1).1⟩

theorem link_redone_half (hT : Congr A T) (hF : Faced R) (hR : ∀ g N, Lifts A g N T R)
    {p r : SrcProg} {p' r' : Prog} {w w' : List Report} {I : Items}
    (hpr : Redone R p r) (hrp : Redone (Back R) r p) (h : decl (compile p) = .done w (some p'))
    (h' : decl (compile r) = .done w' (some r')) (hX : ExternOk X p) (hg : DistinctGenerics p)
    (ht : TidyProg p) (ht' : TidyProg r) (hl : link A X p'.decls = .ok I) :
    ∃ I', link A X r'.decls = .ok I' ∧ RelItems T I I' := by
  have hX' : ExternOk X r := redone_extern hrp hX
  have hg' : DistinctGenerics r := redone_attrs (P := fun a => (meaning a).generics.Nodup) hrp hg
  obtain ⟨I', hl', hle⟩ := link_consts_redone hrp h h' hX hg ht' hl
  obtain ⟨J, hJ, hge⟩ := link_consts_redone hpr h' h hX' hg' ht hl'
  rw [hl] at hJ
  cases hJ
  have heq : I.consts = I'.consts := by
    funext x
    cases h1 : I.consts x with
    | some v => exact (hge x v h1).symm
    | none =>
      cases h2 : I'.consts x with
      | none => rfl
      | some v => rw [hle x v h2] at h1; cases h1
  obtain ⟨q₁, hq₁, hp₁⟩ := accepted_passes h
  obtain ⟨q₂, hq₂, hp₂⟩ := accepted_passes h'
  obtain ⟨hc, hn⟩ := link_ok hl
  obtain ⟨hc', hn'⟩ := link_ok hl'
  obtain ⟨-, m1, m2⟩ := linkNodes_values hp₂ (fun _ _ => rfl) hn'
  have hO : Other A X R I.consts I'.nodes q₁ := by
    refine ⟨fun a src hm => ?_, fun a f i o hm => ?_⟩
    · obtain ⟨src', k1, k2⟩ := redone_node hpr (hq₁.mem_iff.1 hm)
      obtain ⟨sigs', consts', n₂, ms₂, n1, n2, n3, n4⟩ := linked_in h' hl' hX' hg' k2
      rw [hF.name k1] at n3
      rw [← heq] at n2 n3
      exact ⟨src', n₂, ms₂, sigs', consts', k1, n2,
        fun _ => (C59_tidy h' hg' ht' n₂ n1).2.2, n3, n4⟩
    · have hm' := hq₁.mem_iff.1 hm
      obtain ⟨m, k1, k2⟩ := m2 a f i o (hq₂.mem_iff.2 (redone_extNode hpr hm'))
      obtain ⟨m', e1, e2⟩ := hX.nodes a f i o hm'
      rw [k1] at e1
      cases e1
      exact ⟨m, k1, k2, extern_shape (m := m) e2⟩
  refine ⟨I', hl', heq, fun f => ?_, ?_⟩
  · rw [declared_none hp₁ hn, declared_none hp₂ hn']
    constructor
    · rintro ⟨h1, h2⟩
      refine ⟨fun a src hm e => ?_, fun a i o hm => h2 a i o ?_⟩
      · obtain ⟨src', k1, k⟩ := redone_node hrp (hq₂.mem_iff.1 hm)
        exact h1 a _ (hq₁.mem_iff.2 k) ((hF.name k1).symm.trans e)
      · exact hq₁.mem_iff.2 (redone_extNode hrp (hq₂.mem_iff.1 hm))
    · rintro ⟨h1, h2⟩
      refine ⟨fun a src hm e => ?_, fun a i o hm => h2 a i o ?_⟩
      · obtain ⟨src', k1, k⟩ := redone_node hpr (hq₁.mem_iff.1 hm)
        exact h1 a _ (hq₂.mem_iff.2 k) ((hF.name k1).trans e)
      · exact hq₂.mem_iff.2 (redone_extNode hpr (hq₁.mem_iff.1 hm))
  · rcases linkConsts_typed (A := A) (X := X) hp₁
        (fun a x t hm => hX.consts a x t (hq₁.mem_iff.1 hm)) (g := fun _ => none)
        (fun x t h => by cases h) with he | ⟨g, h1, -, h3, h4⟩
    · rw [hc] at he; cases he
    · rw [hc] at h1
      cases h1
      exact linkNodes_other hT hF (hR _ _) hp₁ (fun d hm => hg d (hq₁.mem_iff.1 hm)) hO
        (fun x t h => by cases h) h3 h4
        (fun a s n hm hn hu => (C59_tidy h hg ht n hn).2.2)
        (fun f s h => by cases h) (fun f m m' h => by cases h) hn

/-- Two accepted programs whose nodes are related. -/
theorem link_redone (hT : Congr A T) (hF : Faced R) (hR : ∀ g N, Lifts A g N T R)
    {p r : SrcProg} {p' r' : Prog} {w w' : List Report}
    (hpr : Redone R p r) (hrp : Redone (Back R) r p) (h : decl (compile p) = .done w (some p'))
    (h' : decl (compile r) = .done w' (some r')) (hX : ExternOk X p) (hg : DistinctGenerics p)
    (ht : TidyProg p) (ht' : TidyProg r) :
    Both (· = ·) (RelItems T) (link A X p'.decls) (link A X r'.decls) := by
  have hX' : ExternOk X r := redone_extern hrp hX
  have hg' : DistinctGenerics r := redone_attrs (P := fun a => (meaning a).generics.Nodup) hrp hg
  rcases C28_program_tidy A X h hX hg ht with he | ⟨I, h1, -⟩
  · rcases C28_program_tidy A X h' hX' hg' ht' with he' | ⟨I', h2, -⟩
    · rw [he, he']; rfl
    · obtain ⟨I, h3, -⟩ := link_consts_redone hpr h' h hX' hg' ht h2
      rw [he] at h3
      cases h3
  · obtain ⟨I', h2, h3⟩ := link_redone_half hT hF hR hpr hrp h h' hX hg ht ht' h1
    rw [h1, h2]
    exact h3

/-! ## Nodes with the same solutions -/

/-- The outputs of the solutions of the equations of a node. -/
def Answers (A : Arith) (g : Globals) (N : String → Option Machine) (u : Bool) (src : SrcNode)
    (is outs : List Value) : Prop :=
  ∃ S, (if u = true then
      UniSolution ⟨A, SrcNode.vars src, S, g, N⟩ (SrcNode.clocks src) src is
    else SrcSolution ⟨A, SrcNode.vars src, S, g, N⟩ src is) ∧ outs = srcOutputs S src is.length

theorem runs_answers {g : Globals} {N : String → Option Machine} {attrs : List Attribute}
    {src : SrcNode} {n : Node} {ms : List Machine} {sigs : String → Option Sig}
    {consts : String → Option TyBase} (h : InProg Flat g sigs consts attrs src n ms)
    (hb : (meaning attrs).universalPre = true → BoundBeforeUse n) (hL : Linked ms N n.blocks)
    (is os : List Value) : (n.machine A g ms).run is = .ok os ↔
      ∃ outs, Answers A g N (meaning attrs).universalPre src (is.filter present) outs ∧
        os = spread (flatShape (argNames src.outputs).length) is outs := by
  have hp := h.passes
  cases hu : (meaning attrs).universalPre with
  | false =>
    rw [hu] at hp
    rw [C47_node A g hp hL]
    constructor
    · rintro ⟨S, h1, h2⟩; exact ⟨_, ⟨S, h1, rfl⟩, h2⟩
    · rintro ⟨_, ⟨S, h1, rfl⟩, h2⟩; exact ⟨S, h1, h2⟩
  | true =>
    rw [hu] at hp
    rw [C59_node A g hp (hb hu) h.wf h.subs hL]
    constructor
    · rintro ⟨S, h1, h2⟩; exact ⟨_, ⟨S, h1, rfl⟩, h2⟩
    · rintro ⟨_, ⟨S, h1, rfl⟩, h2⟩; exact ⟨S, h1, h2⟩

theorem arg_lengths (as : List ArgsTy) : (argNames as).length = (argTypes as).length := by
  simp only [argNames, argTypes, List.length_flatMap, List.length_map]

theorem machine_type {g : Globals} {attrs attrs' : List Attribute}
    {src src' : SrcNode} {n n' : Node} {ms ms' : List Machine} {sigs sigs' : String → Option Sig}
    {consts consts' : String → Option TyBase} (h : InProg Flat g sigs consts attrs src n ms)
    (h' : InProg Flat g sigs' consts' attrs' src' n' ms')
    (ho : (argTypes src'.outputs).length = (argTypes src.outputs).length) :
    (n.machine A g ms).outTy = (n'.machine A g ms').outTy := by
  rw [show (n.machine A g ms).outTy = _ from machine_flat h.passes [] [],
    show (n'.machine A g ms').outTy = _ from machine_flat h'.passes [] []]
  simp only [ho]

/-- With the same solutions, nodes are alike. -/
theorem lifts_alike (hF : Faced R)
    (hA : ∀ (attrs : List Attribute) (src src' : SrcNode) (n n' : Node) (ms ms' : List Machine) sigs
      sigs' consts consts' (g : Globals) (N : String → Option Machine),
      R (meaning attrs).universalPre src src' → InProg Flat g sigs consts attrs src n ms →
      InProg Flat g sigs' consts' attrs src' n' ms' → Linked ms N n.blocks → Linked ms' N n'.blocks →
      ∀ is outs, Answers A g N (meaning attrs).universalPre src is outs ↔
        Answers A g N (meaning attrs).universalPre src' is outs) :
    ∀ g N, Lifts A g N (Alike Any) R := by
  intro g N attrs src src' n n' ms ms' sigs sigs' consts consts' hr h h' hb hL hL'
  refine ⟨machine_type h h' (hF.outs hr), fun is => both_any fun os => ?_⟩
  rw [runs_answers h (fun hu => (hb hu).1) hL, runs_answers h' (fun hu => (hb hu).2) hL',
    arg_lengths, arg_lengths, hF.outs hr]
  exact exists_congr fun outs => and_congr_left fun _ =>
    hA attrs src src' n n' ms ms' sigs sigs' consts consts' g N hr h h' hL hL' _ _

/-- With fewer solutions, a node may panic where the other does not. -/
theorem lifts_milder (hF : Faced R)
    (hA : ∀ (attrs : List Attribute) (src src' : SrcNode) (n n' : Node) (ms ms' : List Machine) sigs
      sigs' consts consts' (g : Globals) (N : String → Option Machine),
      R (meaning attrs).universalPre src src' → InProg Flat g sigs consts attrs src n ms →
      InProg Flat g sigs' consts' attrs src' n' ms' → Linked ms N n.blocks → Linked ms' N n'.blocks →
      ∀ is outs, Answers A g N (meaning attrs).universalPre src is outs →
        Answers A g N (meaning attrs).universalPre src' is outs) :
    ∀ g N, Lifts A g N (Milder (fun _ => True) Any) R := by
  intro g N attrs src src' n n' ms ms' sigs sigs' consts consts' hr h h' hb hL hL'
  refine ⟨machine_type h h' (hF.outs hr), fun is => ?_⟩
  cases e : (n.machine A g ms).run is with
  | error p => cases e' : (n'.machine A g ms').run is <;> simp [Upto]
  | ok os =>
    have : (n'.machine A g ms').run is = .ok os := by
      rw [runs_answers h' (fun hu => (hb hu).2) hL', arg_lengths, hF.outs hr, ← arg_lengths]
      obtain ⟨outs, h1, h2⟩ := (runs_answers h (fun hu => (hb hu).1) hL is os).1 e
      exact ⟨outs, hA attrs src src' n n' ms ms' sigs sigs' consts consts' g N hr h h' hL hL' _ _ h1, h2⟩
    rw [this]
    rfl

end

end Chandeliers.Rep
