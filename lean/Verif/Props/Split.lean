import Verif.Lemmas.Split
import Verif.Props.Modular

/-!
# A program in several invocations of the macro

C65.  Declarations can be moved to another invocation of the macro, where they are marked `#[export]`,
and replaced by `extern` declarations.
-/

set_option autoImplicit false

namespace Chandeliers.Props
open Chandeliers.San Chandeliers.Spec Chandeliers.Syn Chandeliers.Err Chandeliers.Rep Chandeliers.Prg
open Chandeliers.Fol Chandeliers.Emt Chandeliers.Spec.Static

/-- A declaration has its name for itself. -/
theorem name_unique {r q : SrcProg} {ds : List San.Decl} (hq : q.Perm r)
    (h : ProgPasses (fun _ => none) (fun _ => none) q ds) {d d' : SrcDecl} (hd : d ∈ r) (hd' : d' ∈ r)
    (hk : key d = key d') : d = d' :=
  Emt.nodup_map_inj (((hq.map key).nodup_iff).1 (passes_keys h).2) hd hd' hk

/-- What is declared is there. -/
theorem declared_some {A : Arith} {X : Extern} {p : SrcProg} {p' : Prog} {w : List Report} {I : Items}
    (h : decl (compile p) = .done w (some p')) (hl : link A X p'.decls = .ok I) {d : SrcDecl}
    (hd : d ∈ p) : (∀ x t, constant d = some (x, t) → ∃ v, I.consts x = some v) ∧
      ∀ f s, Static.nodeSig d = some (f, s) → ∃ m, I.nodes f = some m := by
  obtain ⟨q, hq, hp⟩ := accepted_passes h
  obtain ⟨i1, i2, i3⟩ := C47_items A X h hl
  obtain ⟨-, k1, -⟩ := linkNodes_values hp (fun _ _ => rfl) (link_ok hl).2
  obtain ⟨a, i⟩ := d
  cases i with
  | const c =>
    refine ⟨fun x t e => ?_, fun f s e => by simp [Static.nodeSig, signature] at e⟩
    simp only [constant, Option.some.injEq, Prod.mk.injEq] at e
    obtain ⟨c', v, -, -, k⟩ := i1 a c hd
    exact ⟨v, e.1 ▸ k⟩
  | extConst y u =>
    refine ⟨fun x t e => ?_, fun f s e => by simp [Static.nodeSig, signature] at e⟩
    simp only [constant, Option.some.injEq, Prod.mk.injEq] at e
    obtain ⟨v, -, k⟩ := i2 a y u hd
    exact ⟨v, e.1 ▸ k⟩
  | node n =>
    refine ⟨fun x t e => by simp [constant] at e, fun f s e => ?_⟩
    simp only [Static.nodeSig, signature, Option.map_some, Option.some.injEq, Prod.mk.injEq] at e
    obtain ⟨n', ms, s, c, -, -, k, -⟩ := k1 a n (hq.mem_iff.2 hd)
    exact ⟨_, e.1 ▸ k⟩
  | extNode g is os =>
    refine ⟨fun x t e => by simp [constant] at e, fun f s e => ?_⟩
    simp only [Static.nodeSig, signature, Option.map_some, Option.some.injEq, Prod.mk.injEq] at e
    obtain ⟨m, -, k⟩ := i3 a g is os hd
    exact ⟨_, e.1 ▸ k⟩

theorem importOf_generics {d : SrcDecl} (h : (meaning d.attrs).generics.Nodup) :
    (meaning (importOf d).attrs).generics.Nodup := by
  obtain ⟨a, i⟩ := d
  cases i with
  | const c => simp [importOf, meaning]
  | extConst x t => exact h
  | extNode f ins outs => exact h
  | node n => simpa [importOf, meaning, List.filter_filter] using h

/-- C65.  Let all the declarations of `q` be declarations of `r`, or `extern` declarations for some of
them, `p`.  If rustc accepts `r`, then it accepts `q` next to the items that are emitted for `p`: its
constants have the same values, and its nodes do the same on every history. -/
theorem C65_imports (A : Arith) {X X' : Extern} {p q r : SrcProg} {q' r' : Prog} {w w' : List Report}
    {I : Items} (h : decl (compile q) = .done w (some q')) (h' : decl (compile r) = .done w' (some r'))
    (hg : DistinctGenerics q) (hp : ∀ d ∈ p, d ∈ r)
    (hs : ∀ d ∈ q, d ∈ r ∨ ∃ d' ∈ p, Imports d d') (hl : link A X r'.decls = .ok I)
    (hX : Offers X X' I p q) :
    ∃ J, link A X' q'.decls = .ok J ∧ (∀ x v, J.consts x = some v → I.consts x = some v) ∧
      ∀ f m, J.nodes f = some m → ∃ m', I.nodes f = some m' ∧ m.outTy = m'.outTy ∧
        ∀ is, m.run is = m'.run is := by
  have hL := (C50_accepted hg).1 ⟨w, q', h⟩
  obtain ⟨q₁, hq₁, hp₁⟩ := accepted_passes h
  obtain ⟨q₂, hq₂, hp₂⟩ := accepted_passes h'
  obtain ⟨S', G', b₂, b₁⟩ := same_types hq₂ hp₂ hp₁ fun d hd => by
    rcases hs d (hq₁.mem_iff.1 hd) with hd | ⟨d', hd', hi⟩
    · exact ⟨d, hd, rfl, rfl⟩
    · exact ⟨d', hp d' hd', imports_same hi⟩
  obtain ⟨lc, ln⟩ := link_ok hl
  obtain ⟨i1, i2, i3⟩ := C47_items A X h' hl
  have hH := holds_link hp₂ b₂ ln
  have hS : Satisfies A X' I.consts q₁ := by
    refine ⟨fun a c hm => ?_, fun a x t hm => ?_⟩
    · rcases hs _ (hq₁.mem_iff.1 hm) with hd | ⟨d', hd', hi⟩
      · exact i1 a c hd
      · cases hi
    · have hm := hq₁.mem_iff.1 hm
      rcases hs _ hm with hd | ⟨d', hd', hi⟩
      · obtain ⟨v, k1, k2⟩ := i2 a x t hd
        refine ⟨v, ?_, k2⟩
        rw [hX.oldConsts _ _ _ hm fun a' c hc e => ?_, k1]
        cases name_unique hq₂ hp₂ (hp _ hc) hd (by simp [key, e])
      · cases hi with
        | @const _ attrs' c =>
          obtain ⟨c', v, -, -, k⟩ := i1 attrs' c (hp _ hd')
          exact ⟨v, by rw [hX.consts _ _ _ hm hd', k], k⟩
  have hA : HoldsAlike A X' I.consts I.nodes q'.decls := by
    refine ⟨fun n hn => ?_, fun n hn => ?_⟩
    · obtain ⟨d, hd, hx⟩ := Emt.forall₂_right b₁ hn
      cases hx with
      | @node attrs src _ hpass =>
        rcases hs _ (hq₁.mem_iff.1 hd) with hd | ⟨d', hd', hi⟩
        · obtain ⟨y, hy, e⟩ := Emt.forall₂_left b₂ (hq₂.mem_iff.2 hd)
          cases becomes_unique (.node hpass) e
          exact hH.nodes n hy
        · cases hi
    · obtain ⟨d, hd, hx⟩ := Emt.forall₂_right b₁ hn
      cases hx with
      | @extNode attrs f ins outs =>
        have hm := hq₁.mem_iff.1 hd
        rcases hs _ hm with hd | ⟨d', hd', hi⟩
        · obtain ⟨m, k1, k2⟩ := i3 _ _ _ _ hd
          refine ⟨m, wrapExtern m, ?_, k2, alike_refl (fun _ => rfl) _⟩
          show X'.nodes f = some m
          rw [hX.oldNodes _ _ _ _ hm fun a' n hn e => ?_, k1]
          cases name_unique hq₂ hp₂ (hp _ hn) hd (by simp [key, e])
        · cases hi with
          | @node _ attrs' _ _ _ src hsig =>
            have hf : f = src.name := by
              simp only [Static.nodeSig, signature, Option.map_some, Option.some.injEq, Prod.mk.injEq] at hsig
              exact hsig.1
            subst hf
            obtain ⟨y, hy, e⟩ := Emt.forall₂_left b₂ (hq₂.mem_iff.2 (hp _ hd'))
            cases e with
            | @node _ _ n' hpass =>
              obtain ⟨ms, k1, -, -⟩ := hH.nodes n' hy
              rw [(passes_sig hpass).1] at k1
              refine ⟨wrapExport (n'.machine A I.consts ms), n'.machine A I.consts ms, ?_, k1,
                imported_alike n' ms⟩
              show X'.nodes src.name = _
              rw [hX.nodes _ _ _ _ _ hm hd', k1]
              rfl
  obtain ⟨g, c1, -, c2⟩ := linkConsts_sub hp₁ hS (g := fun _ => none) (fun _ _ h => by cases h)
    (fun _ h => absurd rfl h)
  obtain ⟨N, n1, n2⟩ := linkNodes_subAlike hp₁ hA (mentions_sub hL hq₁ hp₁ b₁ c1 c2)
    (N := fun _ => none) (fun _ _ h => by cases h) (fun _ h => absurd rfl h)
  refine ⟨⟨g, N⟩, ?_, c2, fun f m hm => ?_⟩
  · unfold link
    simp only [c1, n1]
  · obtain ⟨m', k1, k2⟩ := n2 f m hm
    exact ⟨m', k1, alike_run.1 k2⟩

/-- C65.  Any closed part of a program (`lib` says which declarations) can be moved to another
invocation of the macro and replaced by `extern` declarations: both are accepted, and next to the
items of the part, the rest does what it does in the whole. -/
theorem C65_split (A : Arith) (X : Extern) {r : SrcProg} {r' : Prog} {w : List Report} {I : Items}
    (h : decl (compile r) = .done w (some r')) (hg : DistinctGenerics r)
    (hl : link A X r'.decls = .ok I) (lib : SrcDecl → Bool) (hc : Closed (putAside lib r) r) :
    ∃ w₁ p' L, decl (compile (putAside lib r)) = .done w₁ (some p') ∧ link A X p'.decls = .ok L ∧
    ∃ w₂ q', decl (compile (client lib r)) = .done w₂ (some q') ∧
    ∀ X', Offers X X' L (putAside lib r) (client lib r) →
      ∃ J, link A X' q'.decls = .ok J ∧ (∀ x, J.consts x = I.consts x) ∧
        ∀ f, (J.nodes f = none ↔ I.nodes f = none) ∧ ∀ m m', J.nodes f = some m → I.nodes f = some m' →
          m.outTy = m'.outTy ∧ ∀ is, m.run is = m'.run is := by
  have hL := (C50_accepted hg).1 ⟨w, r', h⟩
  obtain ⟨q₂, hq₂, hp₂⟩ := accepted_passes h
  have hnd : r.Nodup := ((((hq₂.map key).nodup_iff).1 (passes_keys hp₂).2)).of_map
  have hsub : ∀ d ∈ putAside lib r, d ∈ r := fun d hd => (List.mem_filter.1 hd).1
  obtain ⟨w₁, p', L, k1, -, k3, k4, k5, k6⟩ := C58_part A X h hg (hnd.filter _) hsub hc hl
  have hgq : DistinctGenerics (client lib r) := by
    intro d hd
    obtain ⟨d', h1, rfl⟩ := List.mem_map.1 hd
    split
    · exact importOf_generics (hg d' h1)
    · exact hg d' h1
  obtain ⟨w₂, q', hq⟩ := (C50_accepted hgq).2 (legal_client lib hL)
  refine ⟨w₁, p', L, k1, k3, w₂, q', hq, fun X' hX => ?_⟩
  have hX' : Offers X X' I (putAside lib r) (client lib r) := by
    refine ⟨hX.oldConsts, hX.oldNodes, fun a a' c h1 h2 => ?_, fun a a' n ins outs h1 h2 => ?_⟩
    · obtain ⟨i1, -, -⟩ := C47_items A X k1 k3
      obtain ⟨-, v, -, -, e⟩ := i1 a' c h2
      rw [hX.consts _ _ _ h1 h2, e, k4 _ _ e]
    · obtain ⟨m, e⟩ := Option.isSome_iff_exists.1 (k6 _ h2 n.name _ rfl)
      rw [hX.nodes _ _ _ _ _ h1 h2, e, k5 _ _ e]
  obtain ⟨J, l1, l2, l3⟩ := C65_imports A hq h hgq hsub (fun d hd => by
    obtain ⟨d', h1, rfl⟩ := List.mem_map.1 hd
    split
    · rename_i hlib
      rcases importOf_imports (d := d') with e | e
      · rw [e]; exact .inl h1
      · exact .inr ⟨d', List.mem_filter.2 ⟨h1, hlib⟩, e⟩
    · exact .inl h1) hl hX'
  · refine ⟨J, l1, fun x => ?_, fun f => ⟨?_, fun m m' h1 h2 => ?_⟩⟩
    · cases hx : I.consts x with
      | none =>
        cases hj : J.consts x with
        | none => rfl
        | some v => rw [l2 x v hj] at hx; cases hx
      | some v =>
        have := (mem_perm hq₂ Static.constant (·.1)).1 (const_declared hp₂ (link_ok hl).1 hx)
        rw [← (client_names lib r).2] at this
        obtain ⟨⟨_, t⟩, h1, rfl⟩ := List.mem_map.1 this
        obtain ⟨d, h2, h3⟩ := List.mem_filterMap.1 h1
        obtain ⟨v', h4⟩ := (declared_some hq l1 h2).1 _ _ h3
        rw [h4, ← hx, l2 _ _ h4]
    · constructor
      · intro hj
        by_contra hne
        obtain ⟨m, hm⟩ := Option.ne_none_iff_exists'.1 hne
        have := (mem_perm hq₂ Static.nodeSig (·.1)).1 (node_declared hp₂ (link_ok hl).2 hm)
        rw [← (client_names lib r).1] at this
        obtain ⟨⟨_, t⟩, h1, rfl⟩ := List.mem_map.1 this
        obtain ⟨d, h2, h3⟩ := List.mem_filterMap.1 h1
        obtain ⟨m', h4⟩ := (declared_some hq l1 h2).2 _ _ h3
        rw [h4] at hj
        cases hj
      · intro hi
        by_contra hne
        obtain ⟨m, hm⟩ := Option.ne_none_iff_exists'.1 hne
        obtain ⟨m', e, -⟩ := l3 f m hm
        rw [hi] at e
        cases e
    · obtain ⟨m'', e1, e2⟩ := l3 f m h1
      rw [h2] at e1
      cases e1
      exact e2

/-- C65.  Conversely, a program `p` and a program that uses it through `extern` declarations, `is`, make
one: if the compiler and rustc accept both, then they accept the program without the `extern`
declarations, and everything does what it did. -/
theorem C65_join (A : Arith) {X X' : Extern} {p q is q₀ : SrcProg} {p' q' : Prog} {w w' : List Report}
    {I J : Items} (h : decl (compile p) = .done w (some p'))
    (h' : decl (compile q) = .done w' (some q')) (hg : DistinctGenerics p)
    (hg' : DistinctGenerics q) (hq : q.Perm (is ++ q₀)) (hi : ∀ d ∈ is, ∃ d' ∈ p, Imports d d') (hd : Disjoint p q₀)
    (hl : link A X p'.decls = .ok I) (hl' : link A X' q'.decls = .ok J)
    (hX : Offers X X' I p q) :
    ∃ w'' r' K, decl (compile (p ++ q₀)) = .done w'' (some r') ∧ link A X r'.decls = .ok K ∧
      (∀ x v, I.consts x = some v ∨ J.consts x = some v → K.consts x = some v) ∧
      (∀ f m, I.nodes f = some m → K.nodes f = some m) ∧
      ∀ f m, J.nodes f = some m → ∃ m', K.nodes f = some m' ∧ m.outTy = m'.outTy ∧
        ∀ is, m.run is = m'.run is := by
  have hLp := (C50_accepted hg).1 ⟨w, p', h⟩
  have hLq := (C50_accepted hg').1 ⟨w', q', h'⟩
  have hgr : DistinctGenerics (p ++ q₀) := fun d hm =>
    (List.mem_append.1 hm).elim (hg d) fun hm => hg' d (hq.mem_iff.2 (List.mem_append_right _ hm))
  obtain ⟨w'', r', hr⟩ := (C50_accepted hgr).2 (legal_join hLp (legal_perm hq hLq) hi hd)
  obtain ⟨q₁, hq₁, hp₁⟩ := accepted_passes h
  obtain ⟨q₂, hq₂, hp₂⟩ := accepted_passes h'
  obtain ⟨q₃, hq₃, hp₃⟩ := accepted_passes hr
  obtain ⟨i1, i2, i3⟩ := C47_items A X h hl
  obtain ⟨j1, j2, j3⟩ := C47_items A X' h' hl'
  let g₁ : Globals := fun x => (I.consts x).or (J.consts x)
  have sI : Sub I.consts g₁ := fun x v e => by simp only [g₁, e]; rfl
  have sJ : Sub J.consts g₁ := fun x v e => by
    cases hx : I.consts x with
    | none => simp only [g₁, hx, e]; rfl
    | some u =>
      have hP := (mem_perm hq₁ Static.constant (·.1)).1 (const_declared hp₁ (link_ok hl).1 hx)
      have hQ := (mem_perm hq₂ Static.constant (·.1)).1 (const_declared hp₂ (link_ok hl').1 e)
      replace hQ := (mem_perm hq Static.constant (·.1)).1 hQ
      rw [List.filterMap_append, List.map_append, List.mem_append] at hQ
      rcases hQ with hQ | hQ
      · obtain ⟨⟨_, t⟩, h1, rfl⟩ := List.mem_map.1 hQ
        obtain ⟨d, h2, h3⟩ := List.mem_filterMap.1 h1
        obtain ⟨d', h4, h5⟩ := hi d h2
        cases h5 with
        | node => simp [constant] at h3
        | @const attrs attrs' c =>
          simp only [constant, Option.some.injEq, Prod.mk.injEq] at h3
          obtain ⟨rfl, rfl⟩ := h3
          obtain ⟨v', k1, k2⟩ := j2 _ _ _ (hq.mem_iff.2 (List.mem_append_left _ h2))
          rw [hX.consts _ _ _ (hq.mem_iff.2 (List.mem_append_left _ h2)) h4, hx] at k1
          cases k1
          simp only [g₁, hx]
          rw [← e, k2]
          rfl
      · exact absurd hQ (hd.consts _ hP)
  have hS : Satisfies A X g₁ q₃ := by
    constructor
    · intro a c hm
      rcases List.mem_append.1 (hq₃.mem_iff.1 hm) with hm | hm
      · obtain ⟨c', v, k1, k2, k3⟩ := i1 a c hm
        exact ⟨c', v, k1, const_mono sI k2, sI _ _ k3⟩
      · obtain ⟨c', v, k1, k2, k3⟩ := j1 a c (hq.mem_iff.2 (List.mem_append_right _ hm))
        exact ⟨c', v, k1, const_mono sJ k2, sJ _ _ k3⟩
    · intro a x t hm
      rcases List.mem_append.1 (hq₃.mem_iff.1 hm) with hm | hm
      · obtain ⟨v, k1, k2⟩ := i2 a x t hm
        exact ⟨v, k1, sI _ _ k2⟩
      · obtain ⟨v, k1, k2⟩ := j2 a x t (hq.mem_iff.2 (List.mem_append_right _ hm))
        rw [hX.oldConsts _ _ _ (hq.mem_iff.2 (List.mem_append_right _ hm)) fun a' c hc e => ?_] at k1
        · exact ⟨v, k1, sJ _ _ k2⟩
        · exact hd.consts x (e ▸ const_named hc)
            (List.mem_map.2 ⟨_, List.mem_filterMap.2 ⟨_, hm, rfl⟩, rfl⟩)
  obtain ⟨S', G', b₃, -⟩ := same_code hq₃ hp₃
  obtain ⟨g, c1, -, -⟩ := linkConsts_sub hp₃ hS (g := fun _ => none) (fun _ _ h => by cases h)
    (fun _ h => absurd rfl h)
  obtain ⟨N, n1⟩ := linkNodes_total (A := A) (X := X) (g := g) hp₃ (fun n hn => by
    obtain ⟨d, hd', hx⟩ := Emt.forall₂_right b₃ hn
    cases hx with
    | @extNode attrs f ins outs =>
      show X.nodes f ≠ none
      rcases List.mem_append.1 (hq₃.mem_iff.1 hd') with hm | hm
      · obtain ⟨m, k, -⟩ := i3 _ _ _ _ hm
        rw [k]; simp
      · obtain ⟨m, k, -⟩ := j3 _ _ _ _ (hq.mem_iff.2 (List.mem_append_right _ hm))
        rw [hX.oldNodes _ _ _ _ (hq.mem_iff.2 (List.mem_append_right _ hm)) fun a' n hn e => ?_] at k
        · rw [k]; simp
        · exact hd.nodes f (e ▸ node_named hn)
            (List.mem_map.2 ⟨_, List.mem_filterMap.2 ⟨_, hm, rfl⟩, rfl⟩))
    (N := fun _ => none) (fun _ h => absurd rfl h)
  have hK : link A X r'.decls = .ok ⟨g, N⟩ := by
    unfold link
    simp only [c1, n1]
  have hsp : ∀ d ∈ p, d ∈ p ++ q₀ := fun d hd => List.mem_append_left _ hd
  obtain ⟨I₂, e1, e2, e3⟩ := C58_items A X h hr hg hsp hK
  rw [hl] at e1
  cases e1
  obtain ⟨J₂, f1, f2, f3⟩ := C65_imports A (X' := X') h' hr hg' hsp (fun d hd => by
      rcases List.mem_append.1 (hq.mem_iff.1 hd) with hd | hd
      · exact .inr (hi d hd)
      · exact .inl (List.mem_append_right _ hd)) hK
    ⟨hX.oldConsts, hX.oldNodes, fun a a' c h1 h2 => by
      obtain ⟨v, e⟩ := (declared_some h hl h2).1 _ _ rfl
      rw [hX.consts _ _ _ h1 h2, e, e2 _ _ e], fun a a' n ins outs h1 h2 => by
      obtain ⟨m, e⟩ := (declared_some h hl h2).2 _ _ rfl
      rw [hX.nodes _ _ _ _ _ h1 h2, e, e3 _ _ e]⟩
  rw [hl'] at f1
  cases f1
  exact ⟨w'', r', _, hr, hK, fun x v hx => hx.elim (e2 x v) (f2 x v), e3, f3⟩

/-! ## Example -/

/-- All but `f`. -/
def exAside (d : SrcDecl) : Bool :=
  match d.item with
  | .node n => n.name ≠ "f"
  | _ => true

theorem exAside_part : putAside exAside exOrder = exPart := by
  simp [putAside, exAside, exOrder, exPart]

/-- ```
node f(x: int) returns (y: int); var z: int; let y = z + K; z = g(x); tel
extern node g(x: int) returns (y: int);
extern const K: int;
``` -/
theorem exAside_client : client exAside exOrder = exOrder.take 1 ++ [
    ⟨[], .extNode "g" [⟨["x"], .int, .implicit⟩] [⟨["y"], .int, .implicit⟩]⟩,
    ⟨[], .extConst "K" .int⟩] := by
  simp [client, exAside, exOrder, importOf]

/-- What is emitted for `exPart`, as external items. -/
def exOffer (L : Items) : Extern := ⟨L.consts, fun f => (L.nodes f).map wrapExport⟩

theorem exOffer_offers (L : Items) :
    Offers exNothing (exOffer L) L (putAside exAside exOrder) (client exAside exOrder) := by
  rw [exAside_part, exAside_client]
  refine ⟨fun a x t h1 h2 => ?_, fun a f i o h1 h2 => ?_, fun _ _ _ _ _ => rfl, fun _ _ _ _ _ _ _ => rfl⟩
  · simp [exOrder] at h1
    exact absurd h1.2.1.symm (h2 [] ⟨"K", .int, .lit (.int 1)⟩ (by simp [exPart, exOrder]))
  · simp [exOrder] at h1
    exact absurd h1.2.1.symm (h2 [] _ (List.mem_cons_self ..))

/-- Non-vacuity of C65: `exOrder` in two invocations of the macro, and back. -/
example : ∃ w p' w' q' L J, decl (compile exPart) = .done w (some p') ∧
    decl (compile (client exAside exOrder)) = .done w' (some q') ∧
    link exArith exNothing p'.decls = .ok L ∧ link exArith (exOffer L) q'.decls = .ok J ∧
    (∃ m, J.nodes "f" = some m ∧
      ((m.run [exInt 5, exInt 7]).toOption.map fun os => os.map asInt) = some [some 1, some 6]) ∧
    ∃ w'' r' K, decl (compile (exPart ++ exOrder.take 1)) = .done w'' (some r') ∧
      link exArith exNothing r'.decls = .ok K ∧ (K.nodes "f").isSome = true := by
  have hr := exOrder_runs
  unfold runIn at hr
  split at hr
  · cases hr
  rename_i I hI
  split at hr
  · cases hr
  rename_i m hm
  obtain ⟨w, r', h1, h2⟩ := itemsOf_some hI
  obtain ⟨w₁, p', L, k1, k2, w₂, q', k3, k4⟩ := C65_split exArith exNothing h1 exOrder_generics h2 exAside
    (by rw [exAside_part]; exact exPart_closed)
  obtain ⟨J, l1, -, l3⟩ := k4 (exOffer L) (exOffer_offers L)
  have hJ : J.nodes "f" ≠ none := fun e => by rw [(l3 "f").1.1 e] at hm; cases hm
  obtain ⟨m', hm'⟩ := Option.ne_none_iff_exists'.1 hJ
  have e := ((l3 "f").2 m' m hm' hm).2
  have hO := exOffer_offers L
  rw [exAside_part] at k1 hO
  refine ⟨w₁, p', w₂, q', L, J, k1, k3, k2, l1, ⟨m', hm', by rw [e]; exact hr⟩, ?_⟩
  obtain ⟨w₃, r₃, K, j1, j2, -, -, j3⟩ := C65_join exArith (p := exPart) (q₀ := exOrder.take 1) k1 k3
    (fun d hd => exOrder_generics d (List.mem_of_mem_tail hd)) (by
      intro d hd
      rw [exAside_client] at hd
      simp only [exOrder, List.take_succ_cons, List.take_zero, List.cons_append, List.nil_append,
        List.mem_cons, List.not_mem_nil, or_false] at hd
      rcases hd with rfl | rfl | rfl <;> decide)
    (by rw [exAside_client]; exact List.perm_append_comm) (by
      intro d hd
      simp only [List.mem_cons, List.not_mem_nil, or_false] at hd
      rcases hd with rfl | rfl
      · exact ⟨_, List.mem_cons_self .., .node rfl⟩
      · exact ⟨⟨[], .const ⟨"K", .int, .lit (.int 1)⟩⟩, by simp [exPart, exOrder],
          .const (c := ⟨"K", .int, .lit (.int 1)⟩)⟩)
    ⟨by simp [exPart, exOrder, Static.constant], by simp [exPart, exOrder, Static.nodeSig, signature]⟩
    k2 l1 hO
  obtain ⟨m'', e'', -⟩ := j3 "f" m' hm'
  exact ⟨w₃, r₃, K, j1, j2, by rw [e'']; rfl⟩

end Chandeliers.Props
