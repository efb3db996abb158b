import Verif.Lemmas.Fresh
import Verif.Lemmas.Denote
import Verif.Lemmas.Machine
import Verif.Spec.Reference

/-! Without registers, translation preserves the reference semantics. -/

set_option autoImplicit false

namespace Chandeliers.Den
open Chandeliers.San Chandeliers.Spec Chandeliers.Syn

@[simp] theorem toOption_bind {α β : Type} (r : R α) (f : α → R β) :
    (r >>= f).toOption = r.toOption.bind fun a => (f a).toOption := by
  cases r <;> rfl

@[simp] theorem toOption_pure {α : Type} (a : α) : (pure a : R α).toOption = some a := rfl
@[simp] theorem toOption_ok {α : Type} (a : α) : (Except.ok a : R α).toOption = some a := rfl
@[simp] theorem toOption_error {α : Type} (p : Panic) : (Except.error p : R α).toOption = none := rfl

theorem toOption_some {α : Type} {r : R α} {a : α} : r.toOption = some a ↔ r = .ok a := by
  cases r <;> simp [Except.toOption]

theorem subState_run (m : Machine) (a : Nat → R Value) (g : Nat → Option Value) (d : Nat)
    (h : ∀ u, (a (d + u)).toOption = g u) : ∀ k,
    (subState m a d (d + k)).toOption =
      ((List.range k).mapM g).bind fun as => (m.runFrom m.init as).toOption.map Prod.snd
  | 0 => by
    unfold subState
    rw [iter_le (by omega)]
    rfl
  | k + 1 => by
    have ih := subState_run m a g d h k
    unfold subState at ih ⊢
    rw [← Nat.add_assoc, iter_succ (by omega), toOption_bind, ih, List.range_succ, List.mapM_append]
    cases (List.range k).mapM g with
    | none => rfl
    | some as =>
      simp only [Option.bind_some, Option.bind_eq_bind, List.mapM_cons, List.mapM_nil,
        toOption_bind, h]
      cases hr : m.runFrom m.init as with
      | error p =>
        simp only [toOption_error, Option.map_none, Option.bind_none]
        cases g k with
        | none => rfl
        | some v =>
          simp only [Option.bind_some, Option.pure_def, runFrom_append, hr]
          rfl
      | ok p =>
        obtain ⟨os, s⟩ := p
        simp only [toOption_ok, Option.map_some, Option.bind_some]
        cases g k with
        | none => rfl
        | some v =>
          simp only [Option.bind_some, Option.pure_def, runFrom_append, hr, runFrom_single]
          cases hs : m.step s v with
          | error p => 
            simp only [ toOption_error, Option.bind_none]
            change _ = Option.map Prod.snd ((((m.runFrom s [v]) >>= _) : R _).toOption)
            rw [runFrom_single, hs]
            rfl
          | ok q =>
            change _ = Option.map Prod.snd ((((m.runFrom s [v]) >>= _) : R _).toOption)
            rw [runFrom_single, hs]
            rfl

theorem call_run (m : Machine) (a : Nat → R Value) (g : Nat → Option Value) (d k : Nat)
    (h : ∀ u : Nat, (a (d + u)).toOption = g u) :
    (do let v ← a (d + k)
        let s ← subState m a d (d + k)
        return (← m.step s v).1 : R Value).toOption = callAt m g k := by
  simp only [toOption_bind, subState_run m a g d h, h]
  unfold callAt Machine.run
  rw [List.range_succ, List.mapM_append]
  simp only [Option.bind_eq_bind, List.mapM_cons, List.mapM_nil, Option.pure_def]
  cases (List.range k).mapM g with
  | none => cases g k <;> rfl
  | some as =>
    simp only [Option.bind_some]
    cases g k with
    | none => rfl
    | some v =>
      simp only [Option.bind_some, runFrom_append]
      cases hr : m.runFrom m.init as with
      | error p => rfl
      | ok p =>
        obtain ⟨os, s⟩ := p
        simp only [toOption_ok, Option.map_some, Option.bind_some]
        change _ = ((((m.runFrom s [v]) >>= _) >>= _ : R _).toOption).bind _
        rw [runFrom_single]
        cases hs : m.step s v with
        | error p => rfl
        | ok q => 
          change some q.1 = (os ++ [q.1]).getLast?
          simp

theorem toOption_bin (A : Arith) (op : BinOp) (l r : Value) :
    (do return .leaf (← (← asLeaf l).binop (scalarBin A op) (← asLeaf r)) : R Value).toOption
      = applyBin A op l r := by
  cases l with
  | tup h t => rfl
  | leaf a =>
    cases r with
    | tup h t => rfl
    | leaf b =>
      simp only [asLeaf, applyBin, toOption_bind, toOption_ok, Option.bind_some]
      cases (a.binop (scalarBin A op) b) <;> rfl

theorem toOption_un (A : Arith) (op : UnOp) (v : Value) :
    (do return .leaf (← (← asLeaf v).unop (scalarUn A op)) : R Value).toOption
      = applyUn A op v := by
  cases v with
  | tup h t => rfl
  | leaf a =>
    simp only [asLeaf, applyUn, toOption_bind, toOption_ok, Option.bind_some]
    cases (a.unop (scalarUn A op)) <;> rfl

theorem toOption_cmp (A : Arith) (op : CmpOp) (l r : Value) :
    (do return .leaf (← scalarCmp A op (← asLeaf l) (← asLeaf r)) : R Value).toOption
      = applyCmp A op l r := by
  cases l with
  | tup h t => rfl
  | leaf a =>
    cases r with
    | tup h t => rfl
    | leaf b =>
      simp only [asLeaf, applyCmp, toOption_bind, toOption_ok, Option.bind_some]
      cases (scalarCmp A op a b) <;> rfl

theorem toOption_asBool (v : Value) : (asBool v).toOption = condition v := by
  cases v with
  | tup h t => rfl
  | leaf a =>
    cases a with
    | nil => rfl
    | defined s => cases s <;> rfl

section
variable (A : Arith) (glob : Globals) (ms : List Machine) (F : Flow)

theorem den_compose (lo : Nat) (op : LOp) (x y : Expr) (t : Nat) :
    (den A glob ms F lo (op.compose x y) t).toOption =
      (den A glob ms F lo x t).toOption.bind fun a =>
        (den A glob ms F lo y t).toOption.bind fun b => applyLOp A op a b := by
  have hb : ∀ op, (den A glob ms F lo (.bin op x y) t).toOption =
      (den A glob ms F lo x t).toOption.bind fun a =>
        (den A glob ms F lo y t).toOption.bind fun b => applyBin A op a b := by
    intro op
    simp only [den]
    simp only [← toOption_bin]
    simp only [toOption_bind]
  cases op <;> try exact hb _
  · simp only [LOp.compose, den, applyLOp, toOption_bind, toOption_asBool]
    cases (den A glob ms F lo x t).toOption <;> cases (den A glob ms F lo y t).toOption <;>
      simp [Option.bind_eq_bind]
  · simp only [LOp.compose, den, applyLOp, toOption_bind, toOption_asBool]
    cases (den A glob ms F lo x t).toOption <;> cases (den A glob ms F lo y t).toOption <;>
      simp [Option.bind_eq_bind]

theorem den_paren (lo : Nat) (xs : List Expr) (b : Bool) (t : Nat) :
    den A glob ms F lo (parenthesise xs b) t = (do return tupleValue (← denList A glob ms F lo xs t)) := by
  unfold parenthesise
  split
  · simp only [den, denList]
    cases den A glob ms F lo _ t <;> rfl
  · simp only [den]

theorem refFby_ne (W : World) : ∀ (es : List Src) (i : Nat) (t : Int) (L : List Value),
    refFby W i es t = some L → (L = [] ↔ es = [])
  | [], i, t, L, h => by
    simp only [refFby, Option.some.injEq] at h
    simp [← h]
  | e :: es, i, t, L, h => by
    simp only [refFby, Option.bind_eq_bind, Option.bind_eq_some_iff] at h
    obtain ⟨l, h1, h⟩ := h
    split at h
    · rename_i hl
      cases h
      simp [hl.1]
    · simp only [Option.bind_eq_some_iff, Option.pure_def] at h
      obtain ⟨w, _, h⟩ := h
      cases h
      simp

theorem refThen_ne (W : World) : ∀ (es : List Src) (i : Nat) (t : Int) (L : List Value),
    refThen W i es t = some L → (L = [] ↔ es = [])
  | [], i, t, L, h => by
    simp only [refThen, Option.some.injEq] at h
    simp [← h]
  | e :: es, i, t, L, h => by
    simp only [refThen, Option.bind_eq_bind, Option.bind_eq_some_iff] at h
    obtain ⟨l, h1, h⟩ := h
    split at h
    · rename_i hl
      cases h
      simp [hl.1]
    · simp only [Option.bind_eq_some_iff, Option.pure_def] at h
      obtain ⟨w, _, h⟩ := h
      cases h
      simp

end

section
variable {A : Arith} {glob : Globals} {ms : List Machine} {F : Flow}
  {nodes : String → Option Machine}

/-- The surroundings of an expression of a node. -/
def worldOf (A : Arith) (glob : Globals) (nodes : String → Option Machine) (F : Flow) (v : View) :
    World := ⟨A, v.shadow, F.X, glob, nodes⟩

theorem linked_of_prefix {b b' : List NodeInstance} (h : Linked ms nodes b') (hp : b <+: b') :
    Linked ms nodes b := by
  intro i x hx
  apply h i x
  obtain ⟨r, rfl⟩ := hp
  obtain ⟨hi, rfl⟩ := List.getElem?_eq_some_iff.1 hx
  rw [List.getElem?_append_left hi, hx]

theorem blocks_translateLeft : ∀ (rest : List (LOp × Src)) {v : View} {c : ExprCtx} {acc : Expr}
    {x : Expr} {c' : ExprCtx}, Src.translateLeft v acc rest c = .ok (x, c') → c.blocks <+: c'.blocks
  | [], v, c, acc, x, c', h => by
    unfold Src.translateLeft at h
    cases tr_pure_ok.1 h
    exact List.prefix_rfl
  | (op, e) :: rest, v, c, acc, x, c', h => by
    unfold Src.translateLeft at h
    obtain ⟨a, c₁, h1, h⟩ := tr_bind_ok.1 h
    obtain ⟨n, hn⟩ := fresh_translate e v c a c₁ h1
    exact hn.blocks.trans (blocks_translateLeft rest h)

theorem blocks_translateCmp : ∀ (rest : List (CmpOp × Src)) {v : View} {c : ExprCtx} {acc : Expr}
    {x : Expr} {c' : ExprCtx}, Src.translateCmp v acc rest c = .ok (x, c') → c.blocks <+: c'.blocks
  | [], v, c, acc, x, c', h => by
    unfold Src.translateCmp at h
    cases tr_pure_ok.1 h
    exact List.prefix_rfl
  | [(op, e)], v, c, acc, x, c', h => by
    unfold Src.translateCmp at h
    obtain ⟨a, c₁, h1, h⟩ := tr_bind_ok.1 h
    cases tr_pure_ok.1 h
    obtain ⟨n, hn⟩ := fresh_translate e v c a c' h1
    exact hn.blocks
  | (_, e) :: (_, e') :: _, v, c, acc, x, c', h => by
    unfold Src.translateCmp at h
    obtain ⟨a, c₁, h1, h⟩ := tr_bind_ok.1 h
    obtain ⟨a', c₂, h2, h⟩ := tr_bind_ok.1 h
    exact (tr_throw.1 h).elim

mutual
theorem translate_ref : ∀ (e : Src) (v : View) (c : ExprCtx) (x : Expr) (c' : ExprCtx),
    e.translate v c = .ok (x, c') → v.useRegisters = false → Linked ms nodes c'.blocks →
    ∀ lo, lo ≤ v.depth → ∀ t : Nat,
    (den A glob ms F lo x t).toOption = ref (worldOf A glob nodes F v) e ((t : Int) - v.depth)
  | .lit l, v, c, x, c', h, hu, hL, lo, hlo, t => by
    unfold Src.translate Lit.translate at h
    unfold ref litValue
    split at h
    · cases tr_pure_ok.1 h
      rfl
    · rename_i n
      split at h
      · rename_i hn
        cases tr_pure_ok.1 h
        simp only [if_pos hn]
        rfl
      · exact (tr_throw.1 h).elim
    · cases tr_pure_ok.1 h
      rfl
    · exact (tr_throw.1 h).elim
    · exact (tr_throw.1 h).elim
  | .var y, v, c, x, c', h, hu, hL, lo, hlo, t => by
    unfold Src.translate at h
    unfold ref
    split at h
    · rename_i hy
      cases tr_pure_ok.1 h
      rw [if_pos (by exact hy)]
      simp only [den, toOption_ok, worldOf]
      by_cases ht : t < v.depth
      · rw [if_pos ht, if_pos (by omega)]
      · rw [if_neg ht, if_neg (by omega)]
        rw [show ((t : Int) - v.depth).toNat = t - v.depth by omega]
    · rename_i hy
      cases tr_pure_ok.1 h
      rw [if_neg (by exact hy)]
      simp only [den, worldOf]
      cases glob y <;> rfl
  | .paren es b, v, c, x, c', h, hu, hL, lo, hlo, t => by
    unfold Src.translate at h
    obtain ⟨xs, c₁, h1, h2⟩ := tr_bind_ok.1 h
    cases tr_pure_ok.1 h2
    rw [den_paren, ref, toOption_bind, translate_refList es v c xs c' h1 hu hL lo hlo t]
    rfl
  | .left first rest, v, c, x, c', h, hu, hL, lo, hlo, t => by
    unfold Src.translate at h
    obtain ⟨acc, c₁, h1, h2⟩ := tr_bind_ok.1 h
    obtain ⟨n, hn⟩ := fresh_translate first v c acc c₁ h1
    obtain ⟨n', hn'⟩ := fresh_translateLeft rest v c c₁ acc n hn x c' h2
    rw [translate_refLeft rest v c₁ acc x c' h2 hu hL lo hlo t, ref,
      translate_ref first v c acc c₁ h1 hu (linked_of_prefix hL (blocks_translateLeft rest h2)) lo hlo t]
    rfl
  | .cmp first rest, v, c, x, c', h, hu, hL, lo, hlo, t => by
    unfold Src.translate at h
    obtain ⟨acc, c₁, h1, h2⟩ := tr_bind_ok.1 h
    rw [translate_refCmp rest v c₁ acc x c' h2 hu hL lo hlo t, ref,
      translate_ref first v c acc c₁ h1 hu (linked_of_prefix hL (blocks_translateCmp rest h2)) lo hlo t]
    rfl
  | .fby first rest, v, c, x, c', h, hu, hL, lo, hlo, t => by
    unfold Src.translate at h
    obtain ⟨acc, c₁, h1, h⟩ := tr_bind_ok.1 h
    obtain ⟨before, c₂, h2, h⟩ := tr_bind_ok.1 h
    have e1 := translate_refFby rest v 1 c acc c₁ h1 hu
    rw [if_neg (by simp [hu])] at h2
    have e2 := translate_ref first v c₁ before c₂ h2 hu
    obtain ⟨n', hn'⟩ := fresh_translate first _ c₁ before c₂ h2
    rw [ref]
    cases acc with
    | none =>
      cases tr_pure_ok.1 h
      rw [e1.1.1 rfl, e2 hL lo hlo t]
      simp [refFby]
    | some after =>
      simp only [mkFby, hu, Bool.false_eq_true, if_false, Except.ok.injEq, Prod.mk.injEq] at h
      obtain ⟨rfl, rfl⟩ := h
      have e1' := e1.2 (linked_of_prefix hL hn'.blocks) lo hlo t after rfl
      have hne : rest ≠ [] := fun hr => by have := e1.1.2 hr; cases this
      rw [den, toOption_bind, e1']
      cases hr : refFby (worldOf A glob nodes F v) 1 rest ((t : Int) - v.depth) with
      | none => rfl
      | some L =>
        have hL' : L ≠ [] := fun hl => hne ((refFby_ne _ rest 1 _ L hr).1 hl)
        obtain ⟨w, L, rfl⟩ := List.exists_cons_of_ne_nil hL'
        simp only [Option.bind_some, List.head?_cons, Option.bind_eq_bind]
        by_cases ht : v.depth < t
        · rw [if_pos (by omega), if_pos ⟨by simp, by omega⟩]; rfl
        · rw [if_neg (by omega), if_neg (by omega), e2 hL lo hlo t]
  | .arrow first rest, v, c, x, c', h, hu, hL, lo, hlo, t => by
    unfold Src.translate at h
    obtain ⟨acc, c₁, h1, h⟩ := tr_bind_ok.1 h
    obtain ⟨before, c₂, h2, h⟩ := tr_bind_ok.1 h
    have e1 := translate_refThen rest v 1 c acc c₁ h1 hu
    have e2 := translate_ref first v c₁ before c₂ h2 hu
    obtain ⟨n', hn'⟩ := fresh_translate first _ c₁ before c₂ h2
    rw [ref]
    cases acc with
    | none =>
      cases tr_pure_ok.1 h
      rw [e1.1.1 rfl, e2 hL lo hlo t]
      simp [refThen]
    | some after =>
      simp only [mkThen, hu, Bool.false_eq_true, if_false, Except.ok.injEq, Prod.mk.injEq] at h
      obtain ⟨rfl, rfl⟩ := h
      have e1' := e1.2 (linked_of_prefix hL hn'.blocks) lo hlo t after rfl
      have hne : rest ≠ [] := fun hr => by have := e1.1.2 hr; cases this
      rw [den, toOption_bind, e1']
      cases hr : refThen (worldOf A glob nodes F v) 1 rest ((t : Int) - v.depth) with
      | none => rfl
      | some L =>
        have hL' : L ≠ [] := fun hl => hne ((refThen_ne _ rest 1 _ L hr).1 hl)
        obtain ⟨w, L, rfl⟩ := List.exists_cons_of_ne_nil hL'
        simp only [Option.bind_some, List.head?_cons, Option.bind_eq_bind]
        by_cases ht : v.depth < t
        · rw [if_pos (by omega), if_pos ⟨by simp, by omega⟩]; rfl
        · rw [if_neg (by omega), if_neg (by omega), e2 hL lo hlo t]
  | .ifx b y z, v, c, x, c', h, hu, hL, lo, hlo, t => by
    unfold Src.translate at h
    obtain ⟨b', c₁, h1, h⟩ := tr_bind_ok.1 h
    obtain ⟨y', c₂, h2, h⟩ := tr_bind_ok.1 h
    obtain ⟨z', c₃, h3, h⟩ := tr_bind_ok.1 h
    cases tr_pure_ok.1 h
    obtain ⟨n₂, hn₂⟩ := fresh_translate y v c₁ y' c₂ h2
    obtain ⟨n₃, hn₃⟩ := fresh_translate z v c₂ z' c' h3
    have hL₂ := linked_of_prefix hL hn₃.blocks
    simp only [den, ref, toOption_bind, toOption_asBool, toOption_pure,
      translate_ref b v c b' c₁ h1 hu (linked_of_prefix hL₂ hn₂.blocks) lo hlo t,
      translate_ref y v c₁ y' c₂ h2 hu hL₂ lo hlo t, translate_ref z v c₂ z' c' h3 hu hL lo hlo t]
    cases ref (worldOf A glob nodes F v) b (t - v.depth) <;>
      cases ref (worldOf A glob nodes F v) y (t - v.depth) <;>
      cases ref (worldOf A glob nodes F v) z (t - v.depth) <;> simp
  | .merge b y z, v, c, x, c', h, hu, hL, lo, hlo, t => by
    unfold Src.translate at h
    obtain ⟨b', c₁, h1, h⟩ := tr_bind_ok.1 h
    obtain ⟨y', c₂, h2, h⟩ := tr_bind_ok.1 h
    obtain ⟨z', c₃, h3, h⟩ := tr_bind_ok.1 h
    cases tr_pure_ok.1 h
    obtain ⟨n₂, hn₂⟩ := fresh_translate y v c₁ y' c₂ h2
    obtain ⟨n₃, hn₃⟩ := fresh_translate z v c₂ z' c' h3
    have hL₂ := linked_of_prefix hL hn₃.blocks
    simp only [den, ref, toOption_bind, toOption_asBool, toOption_pure,
      translate_ref b v c b' c₁ h1 hu (linked_of_prefix hL₂ hn₂.blocks) lo hlo t,
      translate_ref y v c₁ y' c₂ h2 hu hL₂ lo hlo t, translate_ref z v c₂ z' c' h3 hu hL lo hlo t]
    cases ref (worldOf A glob nodes F v) b (t - v.depth) <;>
      cases ref (worldOf A glob nodes F v) y (t - v.depth) <;>
      cases ref (worldOf A glob nodes F v) z (t - v.depth) <;> simp
  | .call f es b, v, c, x, c', h, hu, hL, lo, hlo, t => by
    unfold Src.translate at h
    obtain ⟨xs, c₁, h1, h2⟩ := tr_bind_ok.1 h
    simp only [mkCall, Except.ok.injEq, Prod.mk.injEq] at h2
    obtain ⟨rfl, rfl⟩ := h2
    have ih := translate_refList es v c xs c₁ h1 hu (linked_of_prefix hL (List.prefix_append _ _))
      v.depth (Nat.le_refl _)
    have hm : ms[c₁.blocks.length]? = nodes f := hL _ ⟨f, none⟩ (by simp)
    rw [den, ref, hm, Nat.max_eq_right hlo]
    rw [show (worldOf A glob nodes F v).nodes f = nodes f from rfl]
    by_cases ht : v.depth ≤ t
    · rw [if_pos ht, toOption_bind]
      cases nodes f with
      | none => simp
      | some m =>
        dsimp only
        rw [if_neg (by omega)]
        obtain ⟨k, rfl⟩ : ∃ k, t = v.depth + k := ⟨t - v.depth, by omega⟩
        rw [show (((v.depth + k : Nat) : Int) - v.depth).toNat = k by omega]
        have := call_run m (fun u => den A glob ms F v.depth (parenthesise xs b) u)
          (fun u : Nat => do return tupleValue (← refList (worldOf A glob nodes F v) es u)) v.depth k
          (by
            intro u
            rw [den_paren, toOption_bind, ih]
            rw [show ((v.depth + u : Nat) : Int) - v.depth = u by omega]
            rfl)
        rw [← this, toOption_bind]
    · rw [if_neg ht]
      cases nodes f with
      | none => rfl
      | some m =>
        dsimp only
        rw [if_pos (by omega)]
        rfl
  | .pre e, v, c, x, c', h, hu, hL, lo, hlo, t => by
    unfold Src.translate at h
    rw [if_neg (by simp [hu])] at h
    obtain ⟨a, c₁, h1, h⟩ := tr_bind_ok.1 h
    cases tr_pure_ok.1 h
    have := translate_ref e (v.bump 1) c a c' h1 hu hL lo (Nat.le_succ_of_le hlo) t
    rw [den, this, ref]
    rw [show (t : Int) - v.depth - 1 = t - (v.bump 1).depth by simp only [View.bump]; omega]
    rfl
  | .neg e, v, c, x, c', h, hu, hL, lo, hlo, t => by
    unfold Src.translate at h
    obtain ⟨a, c₁, h1, h⟩ := tr_bind_ok.1 h
    cases tr_pure_ok.1 h
    rw [den, toOption_bind, translate_ref e v c a c' h1 hu hL lo hlo t, ref]
    simp only [toOption_un]
    rfl
  | .not e, v, c, x, c', h, hu, hL, lo, hlo, t => by
    unfold Src.translate at h
    obtain ⟨a, c₁, h1, h⟩ := tr_bind_ok.1 h
    cases tr_pure_ok.1 h
    rw [den, toOption_bind, translate_ref e v c a c' h1 hu hL lo hlo t, ref]
    simp only [toOption_un]
    rfl
theorem translate_refList : ∀ (es : List Src) (v : View) (c : ExprCtx) (xs : List Expr)
    (c' : ExprCtx), Src.translateList v es c = .ok (xs, c') → v.useRegisters = false →
    Linked ms nodes c'.blocks → ∀ lo, lo ≤ v.depth → ∀ t : Nat,
    (denList A glob ms F lo xs t).toOption =
      refList (worldOf A glob nodes F v) es ((t : Int) - v.depth)
  | [], v, c, xs, c', h, hu, hL, lo, hlo, t => by
    unfold Src.translateList at h
    cases tr_pure_ok.1 h
    rfl
  | e :: es, v, c, xs, c', h, hu, hL, lo, hlo, t => by
    unfold Src.translateList at h
    obtain ⟨a, c₁, h1, h⟩ := tr_bind_ok.1 h
    obtain ⟨as, c₂, h2, h⟩ := tr_bind_ok.1 h
    cases tr_pure_ok.1 h
    obtain ⟨n, hn⟩ := fresh_translateList es v c₁ as c' h2
    rw [denList, refList, toOption_bind,
      translate_ref e v c a c₁ h1 hu (linked_of_prefix hL hn.blocks) lo hlo t]
    simp only [toOption_bind, translate_refList es v c₁ as c' h2 hu hL lo hlo t]
    rfl
theorem translate_refLeft : ∀ (rest : List (LOp × Src)) (v : View) (c : ExprCtx) (acc : Expr)
    (x : Expr) (c' : ExprCtx), Src.translateLeft v acc rest c = .ok (x, c') →
    v.useRegisters = false → Linked ms nodes c'.blocks → ∀ lo, lo ≤ v.depth → ∀ t : Nat,
    (den A glob ms F lo x t).toOption = (den A glob ms F lo acc t).toOption.bind fun a =>
      refLeft (worldOf A glob nodes F v) a rest ((t : Int) - v.depth)
  | [], v, c, acc, x, c', h, hu, hL, lo, hlo, t => by
    unfold Src.translateLeft at h
    cases tr_pure_ok.1 h
    simp only [refLeft, Option.bind_fun_some]
  | (op, e) :: rest, v, c, acc, x, c', h, hu, hL, lo, hlo, t => by
    unfold Src.translateLeft at h
    obtain ⟨a, c₁, h1, h⟩ := tr_bind_ok.1 h
    rw [translate_refLeft rest v c₁ (op.compose acc a) x c' h hu hL lo hlo t, den_compose,
      translate_ref e v c a c₁ h1 hu (linked_of_prefix hL (blocks_translateLeft rest h)) lo hlo t]
    cases (den A glob ms F lo acc t).toOption with
    | none => rfl
    | some w =>
      simp only [Option.bind_some, refLeft]
      cases ref (worldOf A glob nodes F v) e (t - v.depth) with
      | none => rfl
      | some u => rfl
theorem translate_refCmp : ∀ (rest : List (CmpOp × Src)) (v : View) (c : ExprCtx) (acc : Expr)
    (x : Expr) (c' : ExprCtx), Src.translateCmp v acc rest c = .ok (x, c') →
    v.useRegisters = false → Linked ms nodes c'.blocks → ∀ lo, lo ≤ v.depth → ∀ t : Nat,
    (den A glob ms F lo x t).toOption = (den A glob ms F lo acc t).toOption.bind fun a =>
      refCmp (worldOf A glob nodes F v) a rest ((t : Int) - v.depth)
  | [], v, c, acc, x, c', h, hu, hL, lo, hlo, t => by
    unfold Src.translateCmp at h
    cases tr_pure_ok.1 h
    simp only [refCmp, Option.bind_fun_some]
  | [(op, e)], v, c, acc, x, c', h, hu, hL, lo, hlo, t => by
    unfold Src.translateCmp at h
    obtain ⟨a, c₁, h1, h⟩ := tr_bind_ok.1 h
    cases tr_pure_ok.1 h
    rw [den, toOption_bind]
    simp only [toOption_bind (den A glob ms F lo a t), toOption_cmp,
      translate_ref e v c a c' h1 hu hL lo hlo t, refCmp]
    rfl
  | (_, e) :: (_, e') :: _, v, c, acc, x, c', h, hu, hL, lo, hlo, t => by
    unfold Src.translateCmp at h
    obtain ⟨a, c₁, h1, h⟩ := tr_bind_ok.1 h
    obtain ⟨a', c₂, h2, h⟩ := tr_bind_ok.1 h
    exact (tr_throw.1 h).elim
theorem translate_refFby : ∀ (es : List Src) (v : View) (i : Nat) (c : ExprCtx) (o : Option Expr)
    (c' : ExprCtx), Src.translateFby v i es c = .ok (o, c') → v.useRegisters = false →
    (o = none ↔ es = []) ∧ (Linked ms nodes c'.blocks → ∀ lo, lo ≤ v.depth → ∀ (t : Nat) (x : Expr),
      o = some x → (den A glob ms F lo x t).toOption =
        (refFby (worldOf A glob nodes F v) i es ((t : Int) - v.depth)).bind List.head?)
  | [], v, i, c, o, c', h, hu => by
    unfold Src.translateFby at h
    cases tr_pure_ok.1 h
    exact ⟨by simp, fun _ _ _ _ _ hx => by cases hx⟩
  | e :: es, v, i, c, o, c', h, hu => by
    unfold Src.translateFby at h
    obtain ⟨acc, c₁, h1, h⟩ := tr_bind_ok.1 h
    obtain ⟨before, c₂, h2, h⟩ := tr_bind_ok.1 h
    have e1 := translate_refFby es v (i + 1) c acc c₁ h1 hu
    rw [if_neg (by simp [hu])] at h2
    have e2 := translate_ref e (v.bump i) c₁ before c₂ h2 hu
    obtain ⟨n', hn'⟩ := fresh_translate e _ c₁ before c₂ h2
    have hd : ∀ t : Nat, (t : Int) - (v.bump i).depth = t - v.depth - i := by
      intro t
      simp only [View.bump]
      omega
    have hw : worldOf A glob nodes F (v.bump i) = worldOf A glob nodes F v := rfl
    cases acc with
    | none =>
      cases tr_pure_ok.1 h
      refine ⟨by simp, fun hL lo hlo t x hx => ?_⟩
      cases hx
      rw [e1.1.1 rfl, e2 hL lo (by simp only [View.bump]; omega) t, hd, hw]
      simp only [refFby, Option.bind_eq_bind, Option.bind_some, ne_eq, not_true_eq_false, false_and,
        if_false]
      cases ref (worldOf A glob nodes F v) e (t - v.depth - i) <;> rfl
    | some after =>
      obtain ⟨y, c₃, h3, h⟩ := tr_bind_ok.1 h
      cases tr_pure_ok.1 h
      simp only [mkFby, hu, Bool.false_eq_true, if_false, Except.ok.injEq, Prod.mk.injEq] at h3
      obtain ⟨rfl, rfl⟩ := h3
      refine ⟨by simp, fun hL lo hlo t x hx => ?_⟩
      cases hx
      have e1' := e1.2 (linked_of_prefix hL hn'.blocks) lo hlo t after rfl
      have hne : es ≠ [] := fun hr => by have := e1.1.2 hr; cases this
      rw [den, toOption_bind, e1', refFby]
      cases hr : refFby (worldOf A glob nodes F v) (i + 1) es ((t : Int) - v.depth) with
      | none => rfl
      | some L =>
        have hL' : L ≠ [] := fun hl => hne ((refFby_ne _ es _ _ L hr).1 hl)
        obtain ⟨w, L, rfl⟩ := List.exists_cons_of_ne_nil hL'
        simp only [Option.bind_some, List.head?_cons, Option.bind_eq_bind]
        by_cases ht : v.depth + i < t
        · rw [if_pos ht, if_pos ⟨by simp, by omega⟩]; rfl
        · rw [if_neg ht, if_neg (by omega),
            e2 hL lo (by simp only [View.bump]; omega) t, hd, hw]
          cases ref (worldOf A glob nodes F v) e (t - v.depth - i) <;> rfl
theorem translate_refThen : ∀ (es : List Src) (v : View) (i : Nat) (c : ExprCtx) (o : Option Expr)
    (c' : ExprCtx), Src.translateThen v i es c = .ok (o, c') → v.useRegisters = false →
    (o = none ↔ es = []) ∧ (Linked ms nodes c'.blocks → ∀ lo, lo ≤ v.depth → ∀ (t : Nat) (x : Expr),
      o = some x → (den A glob ms F lo x t).toOption =
        (refThen (worldOf A glob nodes F v) i es ((t : Int) - v.depth)).bind List.head?)
  | [], v, i, c, o, c', h, hu => by
    unfold Src.translateThen at h
    cases tr_pure_ok.1 h
    exact ⟨by simp, fun _ _ _ _ _ hx => by cases hx⟩
  | e :: es, v, i, c, o, c', h, hu => by
    unfold Src.translateThen at h
    obtain ⟨acc, c₁, h1, h⟩ := tr_bind_ok.1 h
    obtain ⟨before, c₂, h2, h⟩ := tr_bind_ok.1 h
    have e1 := translate_refThen es v (i + 1) c acc c₁ h1 hu
    have e2 := translate_ref e v c₁ before c₂ h2 hu
    obtain ⟨n', hn'⟩ := fresh_translate e _ c₁ before c₂ h2
    cases acc with
    | none =>
      cases tr_pure_ok.1 h
      refine ⟨by simp, fun hL lo hlo t x hx => ?_⟩
      cases hx
      rw [e1.1.1 rfl, e2 hL lo hlo t]
      simp only [refThen, Option.bind_eq_bind, Option.bind_some, ne_eq, not_true_eq_false, false_and,
        if_false]
      cases ref (worldOf A glob nodes F v) e (t - v.depth) <;> rfl
    | some after =>
      obtain ⟨y, c₃, h3, h⟩ := tr_bind_ok.1 h
      cases tr_pure_ok.1 h
      simp only [mkThen, hu, Bool.false_eq_true, if_false, Except.ok.injEq, Prod.mk.injEq] at h3
      obtain ⟨rfl, rfl⟩ := h3
      refine ⟨by simp, fun hL lo hlo t x hx => ?_⟩
      cases hx
      have e1' := e1.2 (linked_of_prefix hL hn'.blocks) lo hlo t after rfl
      have hne : es ≠ [] := fun hr => by have := e1.1.2 hr; cases this
      rw [den, toOption_bind, e1', refThen]
      cases hr : refThen (worldOf A glob nodes F v) (i + 1) es ((t : Int) - v.depth) with
      | none => rfl
      | some L =>
        have hL' : L ≠ [] := fun hl => hne ((refThen_ne _ es _ _ L hr).1 hl)
        obtain ⟨w, L, rfl⟩ := List.exists_cons_of_ne_nil hL'
        simp only [Option.bind_some, List.head?_cons, Option.bind_eq_bind]
        by_cases ht : v.depth + i < t
        · rw [if_pos ht, if_pos ⟨by simp, by omega⟩]; rfl
        · rw [if_neg ht, if_neg (by omega), e2 hL lo hlo t]
          cases ref (worldOf A glob nodes F v) e (t - v.depth) <;> rfl
end

end

end Chandeliers.Den
