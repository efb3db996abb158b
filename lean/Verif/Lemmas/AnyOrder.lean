import Verif.Lemmas.Replace
import Verif.Lemmas.LinkInd
import Verif.Props.Compile

/-!
# Linking the same declarations in another order
-/

set_option autoImplicit false

namespace Chandeliers.Rep
open Chandeliers.San Chandeliers.Spec Chandeliers.Syn Chandeliers.Err Chandeliers.Prg

/-- Panics are not compared. -/
abbrev Any : Panic → Panic → Prop := fun _ _ => True

theorem both_any {α : Type} {x y : R α} (h : ∀ a, x = .ok a ↔ y = .ok a) : Both Any (· = ·) x y := by
  cases x with
  | ok a => rw [(h a).1 rfl]; rfl
  | error p =>
    cases y with
    | ok b => cases (h b).2 rfl
    | error q => trivial

theorem any_ok {α : Type} {x y : R α} (h : Both Any (· = ·) x y) (a : α) : x = .ok a ↔ y = .ok a := by
  cases x <;> cases y
  · simp
  · exact h.elim
  · exact h.elim
  · rw [show _ = _ from h]

theorem alike_trans {m₁ m₂ m₃ : Machine} (h : Alike Any m₁ m₂) (h' : Alike Any m₂ m₃) :
    Alike Any m₁ m₃ where
  type := h.type.trans h'.type
  runs := fun is => both_any fun os => (any_ok (h.runs is) os).trans (any_ok (h'.runs is) os)

theorem alike_refl (m : Machine) : Alike Any m m := ⟨rfl, fun _ => both_any fun _ => Iff.rfl⟩

section
variable {A : Arith} {X : Extern}

/-! ## Constants -/

theorem cexpr_panics {g g' : Globals} (hg : ∀ x v, g x = some v → g' x = some v) {p : Panic}
    (hp : p ≠ .rejected) : (e : CExpr) → e.eval A g = .error p → e.eval A g' = .error p
  | .lit l, h => by simp [CExpr.eval] at h
  | .ident x, h => by
    simp only [CExpr.eval] at h ⊢
    cases hx : g x with
    | none => simp only [hx] at h; cases h; exact absurd rfl hp
    | some w => simp only [hx] at h; cases h
  | .bin op l r, h => by
    simp only [CExpr.eval, bind, Except.bind] at h ⊢
    cases hl : l.eval A g with
    | error e => simp only [hl] at h; cases h; rw [cexpr_panics hg hp l hl]
    | ok a =>
      rw [cexpr_mono hg l hl]
      cases hr : r.eval A g with
      | error e => simp only [hl, hr] at h; cases h; rw [cexpr_panics hg hp r hr]
      | ok b => rw [cexpr_mono hg r hr]; simpa [hl, hr] using h
  | .un op e, h => by
    simp only [CExpr.eval, bind, Except.bind] at h ⊢
    cases hl : e.eval A g with
    | error e' => simp only [hl] at h; cases h; rw [cexpr_panics hg hp e hl]
    | ok a => rw [cexpr_mono hg e hl]; simpa [hl] using h
  | .cmp op l r, h => by
    simp only [CExpr.eval, bind, Except.bind] at h ⊢
    cases hl : l.eval A g with
    | error e => simp only [hl] at h; cases h; rw [cexpr_panics hg hp l hl]
    | ok a =>
      rw [cexpr_mono hg l hl]
      cases hr : r.eval A g with
      | error e => simp only [hl, hr] at h; cases h; rw [cexpr_panics hg hp r hr]
      | ok b => rw [cexpr_mono hg r hr]; simpa [hl, hr] using h
  | .tuple es, h => by simpa [CExpr.eval] using h
  | .ite c y n, h => by
    simp only [CExpr.eval, bind, Except.bind] at h ⊢
    cases hl : c.eval A g with
    | error e => simp only [hl] at h; cases h; rw [cexpr_panics hg hp c hl]
    | ok a =>
      rw [cexpr_mono hg c hl]
      simp only [hl] at h ⊢
      split at h
      · exact cexpr_panics hg hp y h
      · exact cexpr_panics hg hp n h
      · cases h; exact absurd rfl hp

theorem const_panics {g g' : Globals} (hg : ∀ x v, g x = some v → g' x = some v) {p : Panic}
    (hp : p ≠ .rejected) {c : Const} (h : c.eval A g = .error p) : c.eval A g' = .error p := by
  unfold Const.eval at h ⊢
  split at h
  · exact cexpr_panics hg hp _ h
  · cases h; exact absurd rfl hp

/-- The globals satisfy the definitions of the constants. -/
structure Satisfies (A : Arith) (X : Extern) (g : Globals) (q : List SrcDecl) : Prop where
  consts : ∀ attrs c, ⟨attrs, .const c⟩ ∈ q → ∃ c' v, c.translate = .ok c' ∧
    c'.eval A g = .ok v ∧ g c.name = some v
  externs : ∀ attrs x ty, ⟨attrs, .extConst x ty⟩ ∈ q → ∃ v, X.consts x = some v ∧ g x = some v

theorem Satisfies.tail {g : Globals} {d : SrcDecl} {q : List SrcDecl} (h : Satisfies A X g (d :: q)) :
    Satisfies A X g q :=
  ⟨fun a c hm => h.consts a c (List.mem_cons_of_mem _ hm),
    fun a x t hm => h.externs a x t (List.mem_cons_of_mem _ hm)⟩

theorem below_set {g g₁ : Globals} {x : String} {v : Scalar} (hg : ∀ x v, g x = some v → g₁ x = some v)
    (hx : g₁ x = some v) : ∀ y w, (if y = x then some v else g y) = some w → g₁ y = some w := by
  intro y w h
  by_cases e : y = x
  · subst e
    rw [if_pos rfl] at h
    rw [hx, h]
  · rw [if_neg e] at h
    exact hg y w h

theorem linkConsts_same {g₁ : Globals} {sigs : String → Option Sig} {consts : String → Option TyBase}
    {q : List SrcDecl} {ds : List San.Decl} (h : ProgPasses sigs consts q ds) :
    Satisfies A X g₁ q → {g : Globals} → (∀ x v, g x = some v → g₁ x = some v) →
    (linkConsts A X g ds ≠ .error .arith) ∧
    ∀ g', linkConsts A X g ds = .ok g' → ∀ x v, g' x = some v → g₁ x = some v := by
  induction h with
  | nil =>
    intro _ g hg
    refine ⟨fun h => (by cases h), fun g' h => ?_⟩
    cases h
    exact hg
  | @const sigs consts attrs c c' ds ds' ht h hn hs ih =>
    intro hS g hg
    obtain ⟨c₁, v, k1, k2, k3⟩ := hS.consts attrs c (List.mem_cons_self ..)
    rw [ht] at k1
    cases k1
    unfold linkConsts
    cases he : c'.eval A g with
    | error p =>
      refine ⟨fun h => ?_, fun g' h => by cases h⟩
      cases h
      rw [const_panics hg (by decide) he] at k2
      cases k2
    | ok w =>
      rw [const_mono hg he] at k2
      cases k2
      exact ih hS.tail (below_set hg ((const_translate_name ht).1 ▸ k3))
  | @extConst sigs consts attrs x ty ds ds' hn hs ih =>
    intro hS g hg
    obtain ⟨v, k1, k2⟩ := hS.externs attrs x ty (List.mem_cons_self ..)
    unfold linkConsts
    rw [show X.consts (⟨x, ty⟩ : ExtConst).name = some v from k1]
    exact ih hS.tail (below_set hg k2)
  | node h hn hs ih =>
    intro hS g hg
    unfold linkConsts
    exact ih hS.tail hg
  | extNode h hd hn hs ih =>
    intro hS g hg
    unfold linkConsts
    exact ih hS.tail hg

/-! ## Nodes -/

theorem linkNodes_error {g : Globals} : {ds : List San.Decl} → {N : String → Option Machine} →
    {p : Panic} → linkNodes A X g N ds = .error p → p = .rejected
  | [], N, p, h => by cases h
  | .node c :: ds, N, p, h => by
    unfold linkNodes at h
    split at h
    · exact linkNodes_error h
    · cases h; rfl
  | .extNode c :: ds, N, p, h => by
    unfold linkNodes at h
    split at h
    · exact linkNodes_error h
    · cases h; rfl
  | .const c :: ds, N, p, h => by unfold linkNodes at h; exact linkNodes_error h
  | .extConst c :: ds, N, p, h => by unfold linkNodes at h; exact linkNodes_error h

theorem subnodes_pairs {N N' : String → Option Machine}
    (h : ∀ f m m', N f = some m → N' f = some m' → Alike Any m m') : ∀ {bs : List NodeInstance}
    {ms ms' : List Machine}, subnodes N bs = some ms → subnodes N' bs = some ms' →
    List.Forall₂ (Alike Any) ms ms'
  | [], ms, ms', h1, h2 => by cases h1; cases h2; exact .nil
  | b :: bs, ms, ms', h1, h2 => by
    unfold subnodes at h1 h2
    split at h1
    · rename_i m ms₁ e1 e2
      cases h1
      split at h2
      · rename_i m' ms₂ e3 e4
        cases h2
        exact .cons (h _ _ _ e1 e3) (subnodes_pairs h e2 e4)
      · cases h2
    · cases h1

/-- The same declarations, in another order and with their equations in another order, have been
linked to `N₂`. -/
structure Mirror (A : Arith) (X : Extern) (g : Globals) (N₂ : String → Option Machine)
    (q : List SrcDecl) : Prop where
  nodes : ∀ attrs src, ⟨attrs, .node src⟩ ∈ q → (meaning attrs).universalPre = false ∧
    ∃ defs n₂ ms₂ o' sigs' consts', defs.Perm src.defs ∧
      Passes false o' sigs' consts' { src with defs := defs } n₂ ∧
      N₂ src.name = some (n₂.machine A g ms₂) ∧ Linked ms₂ N₂ n₂.blocks
  externs : ∀ attrs f ins outs, ⟨attrs, .extNode f ins outs⟩ ∈ q → ∃ m, X.nodes f = some m ∧
    N₂ f = some (wrapExtern m)

theorem Mirror.tail {g : Globals} {N₂ : String → Option Machine} {d : SrcDecl} {q : List SrcDecl}
    (h : Mirror A X g N₂ (d :: q)) : Mirror A X g N₂ q :=
  ⟨fun a c hm => h.nodes a c (List.mem_cons_of_mem _ hm),
    fun a f i o hm => h.externs a f i o (List.mem_cons_of_mem _ hm)⟩

theorem pairs_set {N N₂ : String → Option Machine} {f : String} {m m₂ : Machine}
    (h : ∀ f m m', N f = some m → N₂ f = some m' → Alike Any m m') (hf : N₂ f = some m₂)
    (hm : Alike Any m m₂) : ∀ f' a b, (if f' = f then some m else N f') = some a →
      N₂ f' = some b → Alike Any a b := by
  intro f' a b h1 h2
  by_cases e : f' = f
  · subst e
    rw [if_pos rfl] at h1
    rw [hf] at h2
    cases h1
    cases h2
    exact hm
  · rw [if_neg e] at h1
    exact h f' a b h1 h2

theorem known_set {sigs : String → Option Sig} {N₂ : String → Option Machine} {f : String} {s : Sig}
    {m : Machine} (h : ∀ f, sigs f ≠ none → N₂ f ≠ none) (hf : N₂ f = some m) :
    ∀ f', extend sigs f s f' ≠ none → N₂ f' ≠ none := by
  intro f' h1
  unfold extend at h1
  by_cases e : f' = f
  · subst e; rw [hf]; simp
  · rw [if_neg e] at h1; exact h f' h1

theorem linkNodes_mirror {g : Globals} {N₁ N₂ : String → Option Machine} {sigs : String → Option Sig}
    {consts : String → Option TyBase} {q : List SrcDecl} {ds : List San.Decl}
    (h : ProgPasses sigs consts q ds) : Mirror A X g N₂ q → {N : String → Option Machine} →
    (∀ f, sigs f ≠ none → N₂ f ≠ none) →
    (∀ f m m', N f = some m → N₂ f = some m' → Alike Any m m') → linkNodes A X g N ds = .ok N₁ →
    ∀ f m m', N₁ f = some m → N₂ f = some m' → Alike Any m m' := by
  induction h with
  | nil => intro _ N _ h hl; cases hl; exact h
  | const ht h hn hs ih =>
    intro hM N hk hN hl
    unfold linkNodes at hl
    exact ih hM.tail hk hN hl
  | extConst hn hs ih =>
    intro hM N hk hN hl
    unfold linkNodes at hl
    exact ih hM.tail hk hN hl
  | @node sigs consts attrs src n ds ds' h hn hs ih =>
    intro hM N hk hN hl
    obtain ⟨hu, defs, n₂, ms₂, o', sigs', consts', k1, k2, k3, k4⟩ :=
      hM.nodes attrs src (List.mem_cons_self ..)
    rw [hu] at h
    unfold linkNodes at hl
    split at hl
    · rename_i ms hms
      have hb : ∀ b ∈ n.blocks, N₂ b.name ≠ none := by
        intro b hb
        obtain ⟨s, hs⟩ := blocks_known h b hb
        exact hk _ (by rw [hs]; simp)
      obtain ⟨ms', hms'⟩ := subnodes_some hb
      have hname : n.name = src.name := (passes_sig h).1
      have h1 : Alike Any (n.machine A g ms) (n.machine A g ms') :=
        machine_same (fun _ => trivial) A g n (subnodes_pairs hN hms hms')
      have h2 : Alike Any (n.machine A g ms') (n₂.machine A g ms₂) := by
        refine ⟨?_, fun is => both_any fun os => ?_⟩
        · have e1 := Props.passes_outputs h
          have e2 := Props.passes_outputs k2
          have : n.outputs.length = n₂.outputs.length := by
            have := congrArg List.length (e1.trans e2.symm)
            simpa using this
          show n.outTy = n₂.outTy
          rw [Node.outTy, Node.outTy, this]
        · exact Props.C26_equations_order A g h k2 k1 (subnodes_linked hms').1 k4 is os
      rw [hname] at hl
      exact ih hM.tail (known_set hk k3) (pairs_set hN k3 (alike_trans h1 h2)) hl
    · cases hl
  | @extNode sigs consts attrs f ins outs ds ds' h hd hn hs ih =>
    intro hM N hk hN hl
    obtain ⟨m, k1, k2⟩ := hM.externs attrs f ins outs (List.mem_cons_self ..)
    unfold linkNodes at hl
    split at hl
    · rename_i m' hm'
      rw [k1] at hm'
      cases hm'
      exact ih hM.tail (known_set hk k2) (pairs_set hN k2 (alike_refl _)) hl
    · cases hl

/-- The names that have no node are those that are not declared. -/
theorem passes_declared {sigs : String → Option Sig} {consts : String → Option TyBase}
    {q : List SrcDecl} {ds : List San.Decl} (h : ProgPasses sigs consts q ds) :
    ∀ f ∈ ds.filterMap funName, (∃ attrs src, ⟨attrs, .node src⟩ ∈ q ∧ src.name = f) ∨
      ∃ attrs ins outs, ⟨attrs, .extNode f ins outs⟩ ∈ q := by
  have lift : ∀ {q : List SrcDecl} {d : SrcDecl} {f : String},
      ((∃ attrs src, ⟨attrs, .node src⟩ ∈ q ∧ src.name = f) ∨
        ∃ attrs ins outs, ⟨attrs, .extNode f ins outs⟩ ∈ q) →
      (∃ attrs src, ⟨attrs, .node src⟩ ∈ d :: q ∧ src.name = f) ∨
        ∃ attrs ins outs, ⟨attrs, .extNode f ins outs⟩ ∈ d :: q := by
    rintro q d f (⟨a, s, h1, h2⟩ | ⟨a, i, o, h⟩)
    · exact .inl ⟨a, s, List.mem_cons_of_mem _ h1, h2⟩
    · exact .inr ⟨a, i, o, List.mem_cons_of_mem _ h⟩
  induction h with
  | nil => intro f h; cases h
  | const ht h hn hs ih => intro f hf; exact lift (ih f hf)
  | extConst hn hs ih => intro f hf; exact lift (ih f hf)
  | node h hn hs ih =>
    intro f hf
    rw [List.filterMap_cons] at hf
    rcases List.mem_cons.1 hf with e | hf
    · exact .inl ⟨_, _, List.mem_cons_self .., by rw [e]; exact (passes_sig h).1.symm⟩
    · exact lift (ih f hf)
  | extNode h hd hn hs ih =>
    intro f hf
    rw [List.filterMap_cons] at hf
    rcases List.mem_cons.1 hf with e | hf
    · subst e
      exact .inr ⟨_, _, _, List.mem_cons_self ..⟩
    · exact lift (ih f hf)

theorem declared_none {g : Globals} {N : String → Option Machine} {q : List SrcDecl}
    {ds : List San.Decl} (h : ProgPasses (fun _ => none) (fun _ => none) q ds)
    (hl : linkNodes A X g (fun _ => none) ds = .ok N) (f : String) : N f = none ↔
      (∀ attrs src, ⟨attrs, .node src⟩ ∈ q → src.name ≠ f) ∧
        ∀ attrs ins outs, ⟨attrs, .extNode f ins outs⟩ ∉ q := by
  obtain ⟨-, h1, h2⟩ := linkNodes_values h (fun _ _ => rfl) hl
  constructor
  · intro hf
    refine ⟨fun a src hm e => ?_, fun a i o hm => ?_⟩
    · obtain ⟨n, ms, s, c, -, -, k, -⟩ := h1 a src hm
      rw [← e, k] at hf
      cases hf
    · obtain ⟨m, -, k⟩ := h2 a f i o hm
      rw [k] at hf
      cases hf
  · rintro ⟨k1, k2⟩
    refine linkNodes_keep hl f fun hm => ?_
    rcases passes_declared h f hm with ⟨a, s, h1, h2⟩ | ⟨a, i, o, h⟩
    · exact k1 a s h1 h2
    · exact k2 a i o h

end

end Chandeliers.Rep
