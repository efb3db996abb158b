import Verif.Lemmas.AnyOrder
import Verif.Props.Legal
import Verif.Props.Replace

/-!
# The order of declarations and equations

C26 for whole programs.
-/

set_option autoImplicit false

namespace Chandeliers.Props
open Chandeliers.San Chandeliers.Spec Chandeliers.Syn Chandeliers.Err Chandeliers.Rep Chandeliers.Prg

section
variable {A : Arith} {X : Extern}

/-- The declarations of one program are those of another up to the order of their equations. -/
def Covers (p r : SrcProg) : Prop := ∀ d ∈ p, ∃ d' ∈ r, Shuffled d d'

theorem covers_prog {p q r : SrcProg} (hs : List.Forall₂ Shuffled p q) (hp : q.Perm r) :
    Covers p r ∧ Covers r p := by
  constructor
  · intro d hd
    obtain ⟨d', h1, h2⟩ := (shuffled_prog ((List.Forall₂.flip hs).imp fun _ _ h => h.symm)).2.2 d hd
    exact ⟨d', hp.mem_iff.1 h1, h2.symm⟩
  · intro d hd
    obtain ⟨d', h1, h2⟩ := (shuffled_prog hs).2.2 d (hp.mem_iff.2 hd)
    exact ⟨d', h1, h2.symm⟩

theorem covers_const {p r : SrcProg} (h : Covers p r) {attrs : List Attribute} {c : SrcConst}
    (hm : ⟨attrs, .const c⟩ ∈ p) : ⟨attrs, .const c⟩ ∈ r := by
  obtain ⟨d', h1, h2⟩ := h _ hm
  cases h2
  exact h1

theorem covers_extConst {p r : SrcProg} (h : Covers p r) {attrs : List Attribute} {x : String}
    {ty : TyBase} (hm : ⟨attrs, .extConst x ty⟩ ∈ p) : ⟨attrs, .extConst x ty⟩ ∈ r := by
  obtain ⟨d', h1, h2⟩ := h _ hm
  cases h2
  exact h1

theorem covers_extNode {p r : SrcProg} (h : Covers p r) {attrs : List Attribute} {f : String}
    {ins outs : List ArgsTy} (hm : ⟨attrs, .extNode f ins outs⟩ ∈ p) :
    ⟨attrs, .extNode f ins outs⟩ ∈ r := by
  obtain ⟨d', h1, h2⟩ := h _ hm
  cases h2
  exact h1

theorem covers_node {p r : SrcProg} (h : Covers p r) {attrs : List Attribute} {n : SrcNode}
    (hm : ⟨attrs, .node n⟩ ∈ p) : ∃ defs, defs.Perm n.defs ∧ ⟨attrs, .node { n with defs := defs }⟩ ∈ r := by
  obtain ⟨d', h1, h2⟩ := h _ hm
  cases h2 with
  | same => exact ⟨n.defs, .refl _, h1⟩
  | node hp => exact ⟨_, hp, h1⟩

theorem covers_extern {p r : SrcProg} (h : Covers r p) (hX : ExternOk X p) : ExternOk X r :=
  ⟨fun _ _ _ hm => hX.consts _ _ _ (covers_extConst h hm),
    fun _ _ _ _ hm => hX.nodes _ _ _ _ (covers_extNode h hm)⟩

theorem covers_attrs {p r : SrcProg} (h : Covers r p) {P : List Attribute → Prop}
    (hp : ∀ d ∈ p, P d.attrs) : ∀ d ∈ r, P d.attrs := by
  intro d hd
  obtain ⟨d', h1, h2⟩ := h d hd
  have := hp d' h1
  cases h2 <;> exact this

theorem link_half {p r : SrcProg} {p' r' : Prog} {w w' : List Report} {I : Items}
    (hpr : Covers p r) (hrp : Covers r p) (h : decl (compile p) = .done w (some p'))
    (h' : decl (compile r) = .done w' (some r')) (hX : ExternOk X p) (hg : DistinctGenerics p)
    (hu : ∀ d ∈ p, hasAny d.attrs ["universal_pre"] = false) (hl : link A X p'.decls = .ok I) :
    ∃ I', link A X r'.decls = .ok I' ∧ AlikeItems Any I.consts I'.consts I.nodes I'.nodes := by
  obtain ⟨q₁, hq₁, hp₁⟩ := accepted_passes h
  obtain ⟨q₂, hq₂, hp₂⟩ := accepted_passes h'
  have hX' : ExternOk X r := covers_extern hrp hX
  have hg' : DistinctGenerics r :=
    covers_attrs (P := fun a => (meaning a).generics.Nodup) hrp hg
  have hu' : ∀ d ∈ r, hasAny d.attrs ["universal_pre"] = false :=
    covers_attrs (P := fun a => hasAny a ["universal_pre"] = false) hrp hu
  obtain ⟨i1, i2, i3⟩ := C47_items A X h hl
  obtain ⟨hc, hn⟩ := link_ok hl
  -- the constants
  have hS : Satisfies A X I.consts q₂ :=
    ⟨fun a c hm => i1 a c (covers_const hrp (hq₂.mem_iff.1 hm)),
      fun a x t hm => i2 a x t (covers_extConst hrp (hq₂.mem_iff.1 hm))⟩
  obtain ⟨l1, l2⟩ := linkConsts_same hp₂ hS (g := fun _ => none) (fun _ _ h => by cases h)
  have hI' : ∃ I', link A X r'.decls = .ok I' := by
    rcases C28_program_default A X h' hX' hg' hu' with he | ⟨I', h1, -⟩
    · exfalso
      unfold link at he
      split at he
      · rename_i e hc'; cases he; exact l1 hc'
      · split at he
        · rename_i e hn'
          cases he
          cases linkNodes_error hn'
        · cases he
    · exact ⟨I', h1⟩
  obtain ⟨I', hl'⟩ := hI'
  obtain ⟨j1, j2, j3⟩ := C47_items A X h' hl'
  obtain ⟨hc', hn'⟩ := link_ok hl'
  have hS' : Satisfies A X I'.consts q₁ :=
    ⟨fun a c hm => j1 a c (covers_const hpr (hq₁.mem_iff.1 hm)),
      fun a x t hm => j2 a x t (covers_extConst hpr (hq₁.mem_iff.1 hm))⟩
  have hle := l2 _ hc'
  have hge := (linkConsts_same hp₁ hS' (g := fun _ => none) (fun _ _ h => by cases h)).2 _ hc
  have heq : I.consts = I'.consts := by
    funext x
    cases h1 : I.consts x with
    | some v => exact (hge x v h1).symm
    | none =>
      cases h2 : I'.consts x with
      | none => rfl
      | some v => rw [hle x v h2] at h1; cases h1
  -- the nodes
  obtain ⟨-, m1, m2⟩ := linkNodes_values hp₂ (fun _ _ => rfl) hn'
  obtain ⟨-, o1, o2⟩ := linkNodes_values hp₁ (fun _ _ => rfl) hn
  have hM : Mirror A X I.consts I'.nodes q₁ := by
    refine ⟨fun a src hm => ⟨hu _ (hq₁.mem_iff.1 hm), ?_⟩,
      fun a f i o hm => m2 a f i o (hq₂.mem_iff.2 (covers_extNode hpr (hq₁.mem_iff.1 hm)))⟩
    obtain ⟨defs, k1, k2⟩ := covers_node hpr (hq₁.mem_iff.1 hm)
    obtain ⟨n₂, ms₂, s, c, n1, n2, n3, n4, n5⟩ := m1 a _ (hq₂.mem_iff.2 k2)
    rw [show (meaning a).universalPre = false from hu _ (hq₁.mem_iff.1 hm)] at n1
    exact ⟨defs, n₂, ms₂, _, s, c, k1, n1, by rw [heq]; exact n3, n4⟩
  refine ⟨I', hl', heq, fun f => ?_, ?_⟩
  · rw [declared_none hp₁ hn, declared_none hp₂ hn']
    constructor
    · rintro ⟨h1, h2⟩
      refine ⟨fun a src hm e => ?_, fun a i o hm => h2 a i o ?_⟩
      · obtain ⟨defs, -, k⟩ := covers_node hrp (hq₂.mem_iff.1 hm)
        exact h1 a _ (hq₁.mem_iff.2 k) e
      · exact hq₁.mem_iff.2 (covers_extNode hrp (hq₂.mem_iff.1 hm))
    · rintro ⟨h1, h2⟩
      refine ⟨fun a src hm e => ?_, fun a i o hm => h2 a i o ?_⟩
      · obtain ⟨defs, -, k⟩ := covers_node hpr (hq₁.mem_iff.1 hm)
        exact h1 a _ (hq₂.mem_iff.2 k) e
      · exact hq₂.mem_iff.2 (covers_extNode hpr (hq₁.mem_iff.1 hm))
  · exact linkNodes_mirror hp₁ hM (fun f h => absurd rfl h) (fun f m m' h => by cases h) hn

end

/-- C26.  A whole program without registers: whatever the order of its declarations and of the
equations of its nodes, the compiler accepts it, and then rustc refuses both or neither (for an
arithmetic error in a constant), the constants have the same values, and every node has the same type,
returns the same outputs on the same histories and panics on the same histories. -/
theorem C26_program (A : Arith) (X : Extern) {p q r : SrcProg} {p' : Prog} {w : List Report}
    (h : decl (compile p) = .done w (some p')) (hX : ExternOk X p) (hg : DistinctGenerics p)
    (hu : ∀ d ∈ p, hasAny d.attrs ["universal_pre"] = false) (hs : List.Forall₂ Shuffled p q)
    (hp : q.Perm r) :
    ∃ w' r', decl (compile r) = .done w' (some r') ∧
      Both (· = ·)
        (fun I I' : Items => AlikeItems (fun _ _ => True) I.consts I'.consts I.nodes I'.nodes)
        (link A X p'.decls) (link A X r'.decls) := by
  obtain ⟨w', r', h'⟩ := (C50_any_order hg hs hp).1 ⟨w, p', h⟩
  obtain ⟨hpr, hrp⟩ := covers_prog hs hp
  have hX' : ExternOk X r := covers_extern hrp hX
  have hg' : DistinctGenerics r :=
    covers_attrs (P := fun a => (meaning a).generics.Nodup) hrp hg
  have hu' : ∀ d ∈ r, hasAny d.attrs ["universal_pre"] = false :=
    covers_attrs (P := fun a => hasAny a ["universal_pre"] = false) hrp hu
  refine ⟨w', r', h', ?_⟩
  rcases C28_program_default A X h hX hg hu with he | ⟨I, h1, -⟩
  · rcases C28_program_default A X h' hX' hg' hu' with he' | ⟨I', h2, -⟩
    · rw [he, he']; rfl
    · obtain ⟨I, h3, -⟩ := link_half hrp hpr h' h hX' hg' hu' h2
      rw [he] at h3
      cases h3
  · obtain ⟨I', h2, h3⟩ := link_half hpr hrp h h' hX hg hu h1
    rw [h1, h2]
    exact h3

/-! ## Example -/

/-- ```
node f(x: int) returns (y: int); var z: int; let y = z + K; z = g(x); tel
node g(x: int) returns (y: int); let y = 0 fby x; tel
const K: int = 1;
``` -/
def exOrder : SrcProg := [
  ⟨[], .node {
    name := "f"
    inputs := [⟨["x"], .int, .implicit⟩]
    outputs := [⟨["y"], .int, .implicit⟩]
    locals := [⟨["z"], .int, .implicit⟩]
    defs := [.def_ (.var "y") (.left (.var "z") [(.add, .var "K")]),
      .def_ (.var "z") (.call "g" [.var "x"] false)] }⟩,
  ⟨[], .node {
    name := "g"
    inputs := [⟨["x"], .int, .implicit⟩]
    outputs := [⟨["y"], .int, .implicit⟩]
    locals := []
    defs := [.def_ (.var "y") (.fby (.lit (.int 0)) [.var "x"])] }⟩,
  ⟨[], .const ⟨"K", .int, .lit (.int 1)⟩⟩]

/-- The same with the equations of `f` in the other order. -/
def exOrder' : SrcProg := [
  ⟨[], .node {
    name := "f"
    inputs := [⟨["x"], .int, .implicit⟩]
    outputs := [⟨["y"], .int, .implicit⟩]
    locals := [⟨["z"], .int, .implicit⟩]
    defs := [.def_ (.var "z") (.call "g" [.var "x"] false),
      .def_ (.var "y") (.left (.var "z") [(.add, .var "K")])] }⟩] ++ exOrder.tail

def exNothing : Extern := ⟨fun _ => none, fun _ => none⟩

theorem exOrder_runs : runIn exNothing exOrder "f" [exInt 5, exInt 7] = some [some 1, some 6] := by
  decide +kernel

/-- Non-vacuity of C26: the program that starts with the constant and where `z` is defined first. -/
example : ∃ w p' w' r' I I', decl (compile exOrder) = .done w (some p') ∧
    decl (compile exOrder'.reverse) = .done w' (some r') ∧
    link exArith exNothing p'.decls = .ok I ∧ link exArith exNothing r'.decls = .ok I' ∧
    (I.nodes "f").isSome = true ∧
    AlikeItems (fun _ _ => True) I.consts I'.consts I.nodes I'.nodes := by
  have h : ((itemsOf exNothing exOrder).bind (·.nodes "f")).isSome = true := by
    have := exOrder_runs
    unfold runIn at this
    split at this
    · cases this
    · rename_i I hI
      split at this
      · cases this
      · rename_i m hm
        rw [hI]
        simp [hm]
  obtain ⟨m, h⟩ := Option.isSome_iff_exists.1 h
  obtain ⟨I, h, hm⟩ := Option.bind_eq_some_iff.1 h
  obtain ⟨w, p', h1, hl⟩ := itemsOf_some h
  obtain ⟨w', r', h2, h3⟩ := C26_program exArith exNothing h1 (q := exOrder')
    (r := exOrder'.reverse) ⟨by intro a x t h; simp [exOrder] at h, by intro a f i o h; simp [exOrder] at h⟩
    (by
      intro d hd
      simp only [exOrder, List.mem_cons, List.not_mem_nil, or_false] at hd
      rcases hd with rfl | rfl | rfl <;> decide)
    (by
      intro d hd
      simp only [exOrder, List.mem_cons, List.not_mem_nil, or_false] at hd
      rcases hd with rfl | rfl | rfl <;> rfl)
    (.cons (.node (.swap ..)) (.cons .same (.cons .same .nil))) (List.reverse_perm _).symm
  rw [hl] at h3
  cases hl' : link exArith exNothing r'.decls with
  | error e => rw [hl'] at h3; exact h3.elim
  | ok I' => rw [hl'] at h3; exact ⟨w, p', w', r', I, I', h1, h2, hl, hl', by rw [hm]; rfl, h3⟩

end Chandeliers.Props
