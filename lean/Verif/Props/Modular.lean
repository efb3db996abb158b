import Verif.Lemmas.Modular
import Verif.Lemmas.ModularLegal
import Verif.Props.AnyOrder

/-!
# Declarations among others

C58.  A declaration compiles to the same code, and does the same, whatever else the program declares.
-/

set_option autoImplicit false

namespace Chandeliers.Props
open Chandeliers.San Chandeliers.Spec Chandeliers.Syn Chandeliers.Err Chandeliers.Rep Chandeliers.Prg
open Chandeliers.Fol

/-- C58: what the compiler emits for a declaration only depends on the declaration: if the declarations
of an accepted program are among those of another, in any order, then so is the code. -/
theorem C58_code {p r : SrcProg} {p' r' : Prog} {w w' : List Report}
    (h : decl (compile p) = .done w (some p')) (h' : decl (compile r) = .done w' (some r'))
    (hs : ∀ d ∈ p, d ∈ r) : ∀ x ∈ p'.decls, x ∈ r'.decls := by
  obtain ⟨q₁, hq₁, hp₁⟩ := accepted_passes h
  obtain ⟨q₂, hq₂, hp₂⟩ := accepted_passes h'
  obtain ⟨S', G', b₂, bs⟩ := same_code hq₂ hp₂
  have b₁ := bs p q₁ _ hs hq₁ hp₁
  intro x hx
  obtain ⟨d, hd, hx⟩ := Emt.forall₂_right b₁ hx
  obtain ⟨y, hy, e⟩ := Emt.forall₂_left b₂ (hq₂.mem_iff.2 (hs d (hq₁.mem_iff.1 hd)))
  rw [becomes_unique hx e]
  exact hy

/-- C58: and what it does: if rustc accepts the larger program then it accepts the smaller one, with
the same values for its constants and the same machines for its nodes. -/
theorem C58_items (A : Arith) (X : Extern) {p r : SrcProg} {p' r' : Prog} {w w' : List Report}
    {I' : Items} (h : decl (compile p) = .done w (some p'))
    (h' : decl (compile r) = .done w' (some r')) (hg : DistinctGenerics p) (hs : ∀ d ∈ p, d ∈ r)
    (hl : link A X r'.decls = .ok I') :
    ∃ I, link A X p'.decls = .ok I ∧ (∀ x v, I.consts x = some v → I'.consts x = some v) ∧
      ∀ f m, I.nodes f = some m → I'.nodes f = some m := by
  obtain ⟨q₁, hq₁, hp₁⟩ := accepted_passes h
  obtain ⟨q₂, hq₂, hp₂⟩ := accepted_passes h'
  obtain ⟨S', G', b₂, bs⟩ := same_code hq₂ hp₂
  have b₁ := bs p q₁ _ hs hq₁ hp₁
  obtain ⟨hc, hn⟩ := link_ok hl
  obtain ⟨i1, i2, -⟩ := C47_items A X h' hl
  have hH := holds_link hp₂ b₂ hn
  have code := C58_code h h' hs
  have hsub : ∀ d ∈ q₁, d ∈ r := fun d hd => hs d (hq₁.mem_iff.1 hd)
  exact link_within ((C50_accepted hg).1 ⟨w, p', h⟩) hq₁ hp₁ b₁
    ⟨fun a c hm => i1 a c (hsub _ hm), fun a x t hm => i2 a x t (hsub _ hm)⟩
    ⟨fun n hm => hH.nodes n (code _ hm), fun n hm => hH.externs n (code _ hm)⟩

/-- C58: declarations that are not needed can be removed. -/
theorem C58_remove {p r : SrcProg} (hg : DistinctGenerics r) (h : Accepted r) (hn : p.Nodup)
    (hs : ∀ d ∈ p, d ∈ r) (hc : Static.Closed p r) : Accepted p :=
  (C50_accepted fun d hd => hg d (hs d hd)).2
    (legal_part ((C50_accepted hg).1 h) hn hs hc)

/-- The constants that have a value are those of the program. -/
theorem const_declared {A : Arith} {X : Extern} {q : SrcProg} {ds : List San.Decl} {g : Globals}
    (h : ProgPasses (fun _ => none) (fun _ => none) q ds)
    (hl : linkConsts A X (fun _ => none) ds = .ok g) {x : String} {v : Scalar} (hx : g x = some v) :
    x ∈ (q.filterMap Static.constant).map (·.1) := by
  by_contra hn
  have key : ∀ {sigs : String → Option Sig} {consts : String → Option TyBase} {q : SrcProg}
      {ds : List San.Decl}, ProgPasses sigs consts q ds →
      x ∉ (q.filterMap Static.constant).map (·.1) → x ∉ ds.filterMap constName := by
    intro sigs consts q ds h
    induction h with
    | nil => simp
    | const ht h hn hs ih =>
      simp only [List.filterMap_cons, Static.constant, constName, List.map_cons, List.mem_cons,
        (const_name ht).1, not_or]
      exact fun h => ⟨h.1, ih h.2⟩
    | extConst hn hs ih =>
      simp only [List.filterMap_cons, Static.constant, constName, List.map_cons, List.mem_cons, not_or]
      exact fun h => ⟨h.1, ih h.2⟩
    | node h hn hs ih => exact ih
    | extNode h hd hn hs ih => exact ih
  rw [linkConsts_keep hl x (key h hn)] at hx
  cases hx

theorem node_declared {A : Arith} {X : Extern} {q : SrcProg} {ds : List San.Decl} {g : Globals}
    {N : String → Option Machine} (h : ProgPasses (fun _ => none) (fun _ => none) q ds)
    (hl : linkNodes A X g (fun _ => none) ds = .ok N) {f : String} {m : Machine} (hf : N f = some m) :
    f ∈ (q.filterMap Static.nodeSig).map (·.1) := by
  by_contra hn
  have : N f = none := (declared_none h hl f).2
    ⟨fun a n hm e => hn (e ▸ node_named hm),
      fun a i o hm => hn (List.mem_map.2 ⟨_, List.mem_filterMap.2 ⟨_, hm, rfl⟩, rfl⟩)⟩
  rw [this] at hf
  cases hf

theorem mem_perm {α β : Type} {p q : List α} (h : q.Perm p) (f : α → Option β) (g : β → String)
    {x : String} : x ∈ (q.filterMap f).map g ↔ x ∈ (p.filterMap f).map g :=
  ((h.filterMap f).map g).mem_iff

/-- C58: two programs that the compiler and rustc accept, with different names, make one, that the
compiler and rustc accept; with C58_items, it has the constants and the nodes of both. -/
theorem C58_union (A : Arith) (X : Extern) {p q : SrcProg} {p' q' : Prog} {w w' : List Report}
    {I J : Items} (h : decl (compile p) = .done w (some p')) (h' : decl (compile q) = .done w' (some q'))
    (hg : DistinctGenerics p) (hg' : DistinctGenerics q) (hd : Static.Disjoint p q)
    (hl : link A X p'.decls = .ok I) (hl' : link A X q'.decls = .ok J) :
    ∃ w'' r' K, decl (compile (p ++ q)) = .done w'' (some r') ∧ link A X r'.decls = .ok K ∧
      (∀ x v, K.consts x = some v ↔ I.consts x = some v ∨ J.consts x = some v) ∧
      ∀ f m, K.nodes f = some m ↔ I.nodes f = some m ∨ J.nodes f = some m := by
  have hgr : DistinctGenerics (p ++ q) := fun d hm =>
    (List.mem_append.1 hm).elim (hg d) (hg' d)
  have hLp := (C50_accepted hg).1 ⟨w, p', h⟩
  have hLq := (C50_accepted hg').1 ⟨w', q', h'⟩
  obtain ⟨w'', r', hr⟩ := (C50_accepted hgr).2 (legal_union hLp hLq hd)
  have hsp : ∀ d ∈ p, d ∈ p ++ q := fun d hd => List.mem_append_left _ hd
  have hsq : ∀ d ∈ q, d ∈ p ++ q := fun d hd => List.mem_append_right _ hd
  obtain ⟨q₁, hq₁, hp₁⟩ := accepted_passes h
  obtain ⟨q₂, hq₂, hp₂⟩ := accepted_passes h'
  obtain ⟨q₃, hq₃, hp₃⟩ := accepted_passes hr
  obtain ⟨S', G', b₃, bs⟩ := same_code hq₃ hp₃
  have b₁ := bs p q₁ _ hsp hq₁ hp₁
  have b₂ := bs q q₂ _ hsq hq₂ hp₂
  obtain ⟨lc, ln⟩ := link_ok hl
  obtain ⟨lc', ln'⟩ := link_ok hl'
  obtain ⟨i1, i2, -⟩ := C47_items A X h hl
  obtain ⟨j1, j2, -⟩ := C47_items A X h' hl'
  let g₁ : Globals := fun x => (I.consts x).or (J.consts x)
  let N₁ : String → Option Machine := fun x => (I.nodes x).or (J.nodes x)
  have sI : Sub I.consts g₁ := fun x v e => by simp only [g₁, e]; rfl
  have sJ : Sub J.consts g₁ := fun x v e => by
    have : I.consts x = none := by
      by_contra hne
      obtain ⟨u, hu⟩ := Option.ne_none_iff_exists'.1 hne
      exact hd.consts x ((mem_perm hq₁ _ _).1 (const_declared hp₁ lc hu))
        ((mem_perm hq₂ _ _).1 (const_declared hp₂ lc' e))
    simp only [g₁, this, e]; rfl
  have tI : Sub I.nodes N₁ := fun x v e => by simp only [N₁, e]; rfl
  have tJ : Sub J.nodes N₁ := fun x v e => by
    have : I.nodes x = none := by
      by_contra hne
      obtain ⟨u, hu⟩ := Option.ne_none_iff_exists'.1 hne
      exact hd.nodes x ((mem_perm hq₁ _ _).1 (node_declared hp₁ ln hu))
        ((mem_perm hq₂ _ _).1 (node_declared hp₂ ln' e))
    simp only [N₁, this, e]; rfl
  have hS : Satisfies A X g₁ q₃ := by
    constructor
    · intro a c hm
      rcases List.mem_append.1 (hq₃.mem_iff.1 hm) with hm | hm
      · obtain ⟨c', v, k1, k2, k3⟩ := i1 a c hm
        exact ⟨c', v, k1, const_mono sI k2, sI _ _ k3⟩
      · obtain ⟨c', v, k1, k2, k3⟩ := j1 a c hm
        exact ⟨c', v, k1, const_mono sJ k2, sJ _ _ k3⟩
    · intro a x t hm
      rcases List.mem_append.1 (hq₃.mem_iff.1 hm) with hm | hm
      · obtain ⟨v, k1, k2⟩ := i2 a x t hm
        exact ⟨v, k1, sI _ _ k2⟩
      · obtain ⟨v, k1, k2⟩ := j2 a x t hm
        exact ⟨v, k1, sJ _ _ k2⟩
  have hH : Holds A X g₁ N₁ r'.decls := by
    have H₁ := holds_more hLp hq₁ hp₁ b₁ lc (holds_link hp₁ b₁ ln) sI tI
    have H₂ := holds_more hLq hq₂ hp₂ b₂ lc' (holds_link hp₂ b₂ ln') sJ tJ
    have hx : ∀ x ∈ r'.decls, x ∈ p'.decls ∨ x ∈ q'.decls := by
      intro x hx
      obtain ⟨d, hd, hx⟩ := Emt.forall₂_right b₃ hx
      rcases List.mem_append.1 (hq₃.mem_iff.1 hd) with hd | hd
      · obtain ⟨y, hy, e⟩ := Emt.forall₂_left b₁ (hq₁.mem_iff.2 hd)
        rw [becomes_unique hx e]
        exact .inl hy
      · obtain ⟨y, hy, e⟩ := Emt.forall₂_left b₂ (hq₂.mem_iff.2 hd)
        rw [becomes_unique hx e]
        exact .inr hy
    exact ⟨fun n hm => (hx _ hm).elim (H₁.nodes n) (H₂.nodes n),
      fun n hm => (hx _ hm).elim (H₁.externs n) (H₂.externs n)⟩
  obtain ⟨K, l1, l2, l3⟩ := link_within (legal_union hLp hLq hd) hq₃ hp₃ b₃ hS hH
  obtain ⟨I₂, e1, e2, e3⟩ := C58_items A X h hr hg hsp l1
  obtain ⟨J₂, f1, f2, f3⟩ := C58_items A X h' hr hg' hsq l1
  rw [hl] at e1
  cases e1
  rw [hl'] at f1
  cases f1
  refine ⟨w'', r', K, hr, l1, fun x v => ⟨fun hk => ?_, fun hk => hk.elim (e2 x v) (f2 x v)⟩,
    fun f m => ⟨fun hk => ?_, fun hk => hk.elim (e3 f m) (f3 f m)⟩⟩
  · have := l2 x v hk
    simp only [g₁] at this
    exact (Option.or_eq_some_iff.1 this).imp_right And.right
  · have := l3 f m hk
    simp only [N₁] at this
    exact (Option.or_eq_some_iff.1 this).imp_right And.right

/-- C58: a part of a program that has all that it needs is a program, and does what it does in the
whole. -/
theorem C58_part (A : Arith) (X : Extern) {p r : SrcProg} {r' : Prog} {w' : List Report} {I' : Items}
    (h' : decl (compile r) = .done w' (some r')) (hg : DistinctGenerics r) (hn : p.Nodup)
    (hs : ∀ d ∈ p, d ∈ r) (hc : Static.Closed p r) (hl : link A X r'.decls = .ok I') :
    ∃ w p' I, decl (compile p) = .done w (some p') ∧ (∀ x ∈ p'.decls, x ∈ r'.decls) ∧
      link A X p'.decls = .ok I ∧ (∀ x v, I.consts x = some v → I'.consts x = some v) ∧
      (∀ f m, I.nodes f = some m → I'.nodes f = some m) ∧
      ∀ d ∈ p, ∀ f sig, Static.nodeSig d = some (f, sig) → (I.nodes f).isSome = true := by
  obtain ⟨w, p', h⟩ := C58_remove hg ⟨w', r', h'⟩ hn hs hc
  obtain ⟨I, l1, l2, l3⟩ := C58_items A X h h' (fun d hd => hg d (hs d hd)) hs hl
  refine ⟨w, p', I, h, C58_code h h' hs, l1, l2, l3, fun d hd f sig e => ?_⟩
  obtain ⟨q, hq, hp⟩ := accepted_passes h
  obtain ⟨-, k1, k2⟩ := linkNodes_values hp (fun _ _ => rfl) (link_ok l1).2
  obtain ⟨a, i⟩ := d
  cases i with
  | const c => simp [Static.nodeSig, signature] at e
  | extConst x t => simp [Static.nodeSig, signature] at e
  | node n =>
    simp only [Static.nodeSig, signature, Option.map_some, Option.some.injEq, Prod.mk.injEq] at e
    obtain ⟨n', ms, s, c, -, -, k, -⟩ := k1 a n (hq.mem_iff.2 hd)
    rw [← e.1, k]
    rfl
  | extNode g is os =>
    simp only [Static.nodeSig, signature, Option.map_some, Option.some.injEq, Prod.mk.injEq] at e
    obtain ⟨m, -, k⟩ := k2 a g is os (hq.mem_iff.2 hd)
    rw [← e.1, k]
    rfl

/-! ## Examples -/

/-- The constant and the node of `exOrder` that need nothing else. -/
def exPart : SrcProg := exOrder.tail

/-- ```
node h(x: int) returns (y: int); let y = x * L; tel
const L: int = 3;
``` -/
def exOther : SrcProg := [
  ⟨[], .node {
    name := "h"
    inputs := [⟨["x"], .int, .implicit⟩]
    outputs := [⟨["y"], .int, .implicit⟩]
    locals := []
    defs := [.def_ (.var "y") (.left (.var "x") [(.mul, .var "L")])] }⟩,
  ⟨[], .const ⟨"L", .int, .lit (.int 3)⟩⟩]

theorem exOrder_generics : DistinctGenerics exOrder := by
  intro d hd
  simp only [exOrder, List.mem_cons, List.not_mem_nil, or_false] at hd
  rcases hd with rfl | rfl | rfl <;> decide

theorem exPart_closed : Static.Closed exPart exOrder := by
  intro d hd d' hd' h
  simp only [exPart, exOrder, List.tail_cons, List.mem_cons, List.not_mem_nil, or_false] at hd hd'
  rcases hd' with rfl | hd'
  · exfalso
    cases h with
    | node he hf hs =>
      rcases hd with rfl | rfl <;>
        simp [expressions, SrcStmt.expr] at he <;> subst he <;>
        simp [callees, calleesList] at hf
    | const he hx hv hs => simp [Static.constant] at hs
  · simpa only [exPart, exOrder, List.tail_cons, List.mem_cons, List.not_mem_nil, or_false] using hd'

theorem runs_items {X : Extern} {p : SrcProg} {f : String} {is : List Value}
    (h : (runIn X p f is).isSome = true) : ∃ w p' I, decl (compile p) = .done w (some p') ∧
      link exArith X p'.decls = .ok I ∧ (I.nodes f).isSome = true := by
  unfold runIn at h
  split at h
  · cases h
  · rename_i I hI
    obtain ⟨w, p', h1, h2⟩ := itemsOf_some hI
    refine ⟨w, p', I, h1, h2, ?_⟩
    split at h
    · cases h
    · rename_i m hm
      rw [hm]
      rfl

/-- Non-vacuity of C58_code, C58_items, C58_remove and C58_part: `g` and `K` without `f`. -/
example : ∃ w p' w' r' I I', decl (compile exPart) = .done w (some p') ∧
    decl (compile exOrder) = .done w' (some r') ∧ p'.decls ≠ [] ∧
    (∀ x ∈ p'.decls, x ∈ r'.decls) ∧ link exArith exNothing p'.decls = .ok I ∧
    link exArith exNothing r'.decls = .ok I' ∧ ∃ m, I.nodes "g" = some m ∧ I'.nodes "g" = some m := by
  obtain ⟨w', r', I', h1, h2, -⟩ := runs_items (X := exNothing) (p := exOrder) (f := "f")
    (is := [exInt 5, exInt 7]) (by rw [exOrder_runs]; rfl)
  obtain ⟨w, p', I, k1, k2, k3, -, k4, k5⟩ := C58_part exArith exNothing h1 exOrder_generics
    (p := exPart) (by
      simp only [exPart, exOrder, List.tail_cons, List.nodup_cons, List.mem_singleton]
      simp) (fun d hd => List.mem_of_mem_tail hd) exPart_closed h2
  have hg := k5 _ (List.mem_cons_self ..) "g" _ rfl
  obtain ⟨m, hm⟩ := Option.isSome_iff_exists.1 hg
  refine ⟨w, p', w', r', I, I', k1, h1, ?_, k2, k3, h2, m, hm, k4 _ _ hm⟩
  intro e
  rw [e] at k3
  cases k3
  cases hm

/-- Non-vacuity of C58_union: `exOrder` and `exOther`. -/
example : ∃ w r' K, decl (compile (exOrder ++ exOther)) = .done w (some r') ∧
    link exArith exNothing r'.decls = .ok K ∧ (K.nodes "f").isSome = true ∧
    (K.nodes "h").isSome = true := by
  obtain ⟨w, p', I, h1, h2, h3⟩ := runs_items (X := exNothing) (p := exOrder) (f := "f")
    (is := [exInt 5, exInt 7]) (by rw [exOrder_runs]; rfl)
  obtain ⟨w', q', J, k1, k2, k3⟩ := runs_items (X := exNothing) (p := exOther) (f := "h")
    (is := [exInt 5]) (by decide +kernel)
  obtain ⟨w'', r', K, l1, l2, -, l4⟩ := C58_union exArith exNothing h1 k1 exOrder_generics
    (by
      intro d hd
      simp only [exOther, List.mem_cons, List.not_mem_nil, or_false] at hd
      rcases hd with rfl | rfl <;> decide)
    ⟨by simp [exOrder, exOther, Static.constant], by simp [exOrder, exOther, Static.nodeSig, signature]⟩
    h2 k2
  obtain ⟨m, hm⟩ := Option.isSome_iff_exists.1 h3
  obtain ⟨m', hm'⟩ := Option.isSome_iff_exists.1 k3
  exact ⟨w'', r', K, l1, l2, by rw [(l4 _ _).2 (.inl hm)]; rfl, by rw [(l4 _ _).2 (.inr hm')]; rfl⟩

end Chandeliers.Props
