import Verif.Spec.Panics
import Verif.Lemmas.TranslateNode

/-!
# Translation of sources whose literals denote values
-/

set_option autoImplicit false

namespace Chandeliers.Quiet
open Chandeliers.San Chandeliers.Spec Chandeliers.Syn

/-- The statements of the context can be printed, and its blocks are instances of these nodes. -/
structure Neat (F : String → Prop) (c : ExprCtx) : Prop where
  stmts : ∀ st ∈ c.stmts, printableStmt st = true
  blocks : ∀ b ∈ c.blocks, F b.name

/-- No crash, and results with this property. -/
def Clean {α : Type} (F : String → Prop) (m : Tr α) (Q : α → Prop) : Prop :=
  ∀ c, Neat F c → m c ≠ .error .abort ∧ ∀ x c', m c = .ok (x, c') → Neat F c' ∧ Q x

section
variable {α β : Type} {F : String → Prop}

theorem Clean.pure {x : α} {Q : α → Prop} (h : Q x) : Clean F (Pure.pure x : Tr α) Q := by
  intro c hc
  refine ⟨fun h => (by cases h), fun y c' e => ?_⟩
  cases Den.tr_pure_ok.1 e
  exact ⟨hc, h⟩

theorem Clean.throw {e : TrErr} (he : e ≠ .abort) {Q : α → Prop} :
    Clean F (throw e : Tr α) Q := by
  intro c hc
  refine ⟨fun h => he (by cases h; rfl), fun y c' e => by cases e⟩

theorem Clean.bind {m : Tr α} {f : α → Tr β} {Q : α → Prop} {R : β → Prop} (hm : Clean F m Q)
    (hf : ∀ x, Q x → Clean F (f x) R) : Clean F (m >>= f) R := by
  intro c hc
  obtain ⟨h1, h2⟩ := hm c hc
  cases e : m c with
  | error t =>
    have : (m >>= f) c = .error t := by
      simp [Bind.bind, StateT.bind, e, Except.bind]
    rw [this]
    exact ⟨fun h => h1 (by rw [e]; cases h; rfl), fun y c' e => by cases e⟩
  | ok r =>
    obtain ⟨x, c1⟩ := r
    have : (m >>= f) c = f x c1 := by
      simp [Bind.bind, StateT.bind, e, Except.bind]
    rw [this]
    obtain ⟨k1, k2⟩ := h2 x c1 e
    exact hf x k2 c1 k1

end

/-- Printable, as a property. -/
def Pr (e : Expr) : Prop := printableExpr e = true

theorem Pr.compose {l r : Expr} (op : LOp) (hl : Pr l) (hr : Pr r) : Pr (op.compose l r) := by
  unfold Pr at *
  cases op <;> simp [LOp.compose, printableExpr, hl, hr]

theorem pr_list {es : List Expr} : printableExprs es = true ↔ ∀ e ∈ es, Pr e := by
  induction es with
  | nil => simp [printableExprs]
  | cons e es ih => simp [printableExprs, ih, Pr]

theorem Pr.parenthesise {es : List Expr} (h : printableExprs es = true) (t : Bool) :
    Pr (parenthesise es t) := by
  unfold Pr
  unfold Syn.parenthesise
  split
  · simpa [printableExpr, printableExprs] using h
  · simpa [printableExpr] using h

theorem clean_mkFby {F : String → Prop} (v : View) (i : Nat) {l r : Expr} (hl : Pr l) (hr : Pr r) :
    Clean F (mkFby v i l r) Pr := by
  intro c hc
  unfold mkFby
  split
  · refine ⟨fun h => (by cases h), fun y c' e => ?_⟩
    cases e
    refine ⟨⟨fun st hst => ?_, hc.blocks⟩, rfl⟩
    simp only [List.mem_append, List.mem_cons, List.not_mem_nil, or_false] at hst
    rcases hst with hst | rfl | rfl
    · exact hc.stmts st hst
    · exact hr
    · unfold Pr at hl; simpa [printableStmt] using hl
  · refine ⟨fun h => (by cases h), fun y c' e => ?_⟩
    cases e
    exact ⟨hc, by unfold Pr at *; simp [printableExpr, hl, hr]⟩

theorem clean_mkThen {F : String → Prop} (v : View) (i : Nat) {l r : Expr} (hl : Pr l) (hr : Pr r) :
    Clean F (mkThen v i l r) Pr := by
  intro c hc
  unfold mkThen
  split <;>
  · refine ⟨fun h => (by cases h), fun y c' e => ?_⟩
    cases e
    exact ⟨⟨hc.stmts, hc.blocks⟩, by unfold Pr at *; simp [printableExpr, hl, hr]⟩

theorem clean_mkCall {F : String → Prop} (v : View) {f : String} {e : Expr} (he : Pr e) (hf : F f) :
    Clean F (mkCall v f e) Pr := by
  intro c hc
  unfold mkCall
  refine ⟨fun h => (by cases h), fun y c' e => ?_⟩
  cases e
  refine ⟨⟨hc.stmts, fun b hb => ?_⟩, he⟩
  simp only [List.mem_append, List.mem_cons, List.not_mem_nil, or_false] at hb
  rcases hb with hb | rfl
  · exact hc.blocks b hb
  · exact hf

theorem clean_push {F : String → Prop} {st : Stmt} (h : printableStmt st = true) :
    Clean F (pushStmt st) fun _ => True := by
  intro c hc
  unfold pushStmt
  refine ⟨fun h => (by cases h), fun y c' e => ?_⟩
  cases e
  refine ⟨⟨fun b hb => ?_, hc.blocks⟩, trivial⟩
  simp only [List.mem_append, List.mem_cons, List.not_mem_nil, or_false] at hb
  rcases hb with hb | rfl
  · exact hc.stmts b hb
  · exact h

theorem clean_newRegister {F : String → Prop} : Clean F newRegister fun _ => True := by
  intro c hc
  unfold newRegister
  refine ⟨fun h => (by cases h), fun y c' e => ?_⟩
  cases e
  exact ⟨⟨hc.stmts, hc.blocks⟩, trivial⟩

theorem clean_mkPre {F : String → Prop} (id : Nat) {e : Expr} (he : Pr e) :
    Clean F (mkPre id e) Pr := by
  intro c hc
  unfold mkPre
  refine ⟨fun h => (by cases h), fun y c' e => ?_⟩
  cases e
  refine ⟨⟨fun st hst => ?_, hc.blocks⟩, rfl⟩
  simp only [List.mem_append, List.mem_cons, List.not_mem_nil, or_false] at hst
  rcases hst with hst | rfl | rfl
  · exact hc.stmts st hst
  · exact he
  · rfl

theorem clean_lit {F : String → Prop} {l : Syn.Lit} (h : Denotes l) : Clean F l.translate Pr := by
  cases l with
  | bool b => exact Clean.pure rfl
  | int n =>
    have h : -2 ^ 63 ≤ n ∧ n < 2 ^ 63 := h
    simp only [Lit.translate, if_pos h]
    exact Clean.pure rfl
  | float o =>
    cases o with
    | none => exact absurd h (by simp [Denotes])
    | some f => exact Clean.pure h
  | other => exact Clean.throw (by simp)

mutual
theorem clean_translate {F : String → Prop} : (e : Src) → (v : View) →
    (∀ l ∈ literals e, Denotes l) → (∀ f ∈ callees e, F f) → Clean F (e.translate v) Pr
  | .lit l, v, hl, hf => by
    simp only [Src.translate]
    exact clean_lit (hl l (by simp [literals]))
  | .var x, v, _, _ => by
    simp only [Src.translate]
    split <;> exact Clean.pure rfl
  | .paren es t, v, hl, hf => by
    simp only [Src.translate]
    exact (clean_list es v hl hf).bind fun es h => Clean.pure (Pr.parenthesise h t)
  | .left first rest, v, hl, hf => by
    simp only [Src.translate, literals, callees, List.mem_append] at *
    exact (clean_translate first v (fun l h => hl l (.inl h)) fun f h => hf f (.inl h)).bind
      fun acc ha => clean_left rest v acc ha (fun l h => hl l (.inr h)) fun f h => hf f (.inr h)
  | .cmp first rest, v, hl, hf => by
    simp only [Src.translate, literals, callees, List.mem_append] at *
    exact (clean_translate first v (fun l h => hl l (.inl h)) fun f h => hf f (.inl h)).bind
      fun acc ha => clean_cmp rest v acc ha (fun l h => hl l (.inr h)) fun f h => hf f (.inr h)
  | .fby first rest, v, hl, hf => by
    simp only [Src.translate, literals, callees, List.mem_append] at *
    refine (clean_fby rest v 1 (fun l h => hl l (.inr h)) fun f h => hf f (.inr h)).bind
      fun acc ha => (clean_translate first _ (fun l h => hl l (.inl h)) fun f h =>
        hf f (.inl h)).bind fun b hb => ?_
    cases acc with
    | none => exact Clean.pure hb
    | some x => exact clean_mkFby v 0 hb (ha x rfl)
  | .arrow first rest, v, hl, hf => by
    simp only [Src.translate, literals, callees, List.mem_append] at *
    refine (clean_then rest v 1 (fun l h => hl l (.inr h)) fun f h => hf f (.inr h)).bind
      fun acc ha => (clean_translate first _ (fun l h => hl l (.inl h)) fun f h =>
        hf f (.inl h)).bind fun b hb => ?_
    cases acc with
    | none => exact Clean.pure hb
    | some x => exact clean_mkThen v 0 hb (ha x rfl)
  | .ifx b y n, v, hl, hf => by
    simp only [Src.translate, literals, callees, List.mem_append] at *
    refine (clean_translate b v (fun l h => hl l (.inl h)) fun f h => hf f (.inl h)).bind
      fun b' hb => (clean_translate y v (fun l h => hl l (.inr (.inl h))) fun f h =>
        hf f (.inr (.inl h))).bind fun y' hy => (clean_translate n v (fun l h =>
        hl l (.inr (.inr h))) fun f h => hf f (.inr (.inr h))).bind fun n' hn => Clean.pure ?_
    unfold Pr at *
    simp [printableExpr, hb, hy, hn]
  | .merge b y n, v, hl, hf => by
    simp only [Src.translate, literals, callees, List.mem_append] at *
    refine (clean_translate b v (fun l h => hl l (.inl h)) fun f h => hf f (.inl h)).bind
      fun b' hb => (clean_translate y v (fun l h => hl l (.inr (.inl h))) fun f h =>
        hf f (.inr (.inl h))).bind fun y' hy => (clean_translate n v (fun l h =>
        hl l (.inr (.inr h))) fun f h => hf f (.inr (.inr h))).bind fun n' hn => Clean.pure ?_
    unfold Pr at *
    simp [printableExpr, hb, hy, hn]
  | .call f args t, v, hl, hf => by
    simp only [Src.translate, literals, callees, List.mem_cons] at *
    exact (clean_list args v hl fun f h => hf f (.inr h)).bind fun es h =>
      clean_mkCall v (Pr.parenthesise h t) (hf f (.inl rfl))
  | .pre e, v, hl, hf => by
    simp only [Src.translate, literals, callees] at *
    split
    · exact clean_newRegister.bind fun id _ => (clean_translate e v hl hf).bind fun e' he =>
        clean_mkPre id he
    · exact (clean_translate e _ hl hf).bind fun e' he => Clean.pure he
  | .neg e, v, hl, hf => by
    simp only [Src.translate, literals, callees] at *
    exact (clean_translate e _ hl hf).bind fun e' he => Clean.pure he
  | .not e, v, hl, hf => by
    simp only [Src.translate, literals, callees] at *
    exact (clean_translate e _ hl hf).bind fun e' he => Clean.pure he
theorem clean_list {F : String → Prop} : (es : List Src) → (v : View) →
    (∀ l ∈ literalsList es, Denotes l) → (∀ f ∈ calleesList es, F f) →
    Clean F (Src.translateList v es) fun es => printableExprs es = true
  | [], v, _, _ => by simp only [Src.translateList]; exact Clean.pure rfl
  | e :: es, v, hl, hf => by
    simp only [Src.translateList, literalsList, calleesList, List.mem_append] at *
    refine (clean_translate e v (fun l h => hl l (.inl h)) fun f h => hf f (.inl h)).bind
      fun e' he => (clean_list es v (fun l h => hl l (.inr h)) fun f h => hf f (.inr h)).bind
        fun es' hes => Clean.pure ?_
    unfold Pr at he
    simp [printableExprs, he, hes]
theorem clean_left {F : String → Prop} : (es : List (LOp × Src)) → (v : View) → (acc : Expr) →
    Pr acc → (∀ l ∈ literalsLeft es, Denotes l) → (∀ f ∈ calleesLeft es, F f) →
    Clean F (Src.translateLeft v acc es) Pr
  | [], v, _, ha, _, _ => by simp only [Src.translateLeft]; exact Clean.pure ha
  | (op, e) :: es, v, acc, ha, hl, hf => by
    simp only [Src.translateLeft, literalsLeft, calleesLeft, List.mem_append] at *
    exact (clean_translate e v (fun l h => hl l (.inl h)) fun f h => hf f (.inl h)).bind
      fun e' he => clean_left es v _ (Pr.compose op ha he) (fun l h => hl l (.inr h))
        fun f h => hf f (.inr h)
theorem clean_cmp {F : String → Prop} : (es : List (CmpOp × Src)) → (v : View) → (acc : Expr) →
    Pr acc → (∀ l ∈ literalsCmp es, Denotes l) → (∀ f ∈ calleesCmp es, F f) →
    Clean F (Src.translateCmp v acc es) Pr
  | [], v, _, ha, _, _ => by simp only [Src.translateCmp]; exact Clean.pure ha
  | [(op, e)], v, acc, ha, hl, hf => by
    simp only [Src.translateCmp, literalsCmp, calleesCmp, List.mem_append] at *
    refine (clean_translate e v (fun l h => hl l (.inl h)) fun f h => hf f (.inl h)).bind
      fun e' he => Clean.pure ?_
    unfold Pr at *
    simp [printableExpr, ha, he]
  | (_, e) :: (_, e') :: es, v, acc, ha, hl, hf => by
    simp only [Src.translateCmp, literalsCmp, calleesCmp, List.mem_append] at *
    exact (clean_translate e v (fun l h => hl l (.inl h)) fun f h => hf f (.inl h)).bind
      fun _ _ => (clean_translate e' v (fun l h => hl l (.inr (.inl h))) fun f h =>
        hf f (.inr (.inl h))).bind fun _ _ => Clean.throw (by simp)
theorem clean_fby {F : String → Prop} : (es : List Src) → (v : View) → (i : Nat) →
    (∀ l ∈ literalsList es, Denotes l) → (∀ f ∈ calleesList es, F f) →
    Clean F (Src.translateFby v i es) fun o => ∀ x, o = some x → Pr x
  | [], v, i, _, _ => by simp only [Src.translateFby]; exact Clean.pure (by simp)
  | e :: es, v, i, hl, hf => by
    simp only [Src.translateFby, literalsList, calleesList, List.mem_append] at *
    refine (clean_fby es v (i + 1) (fun l h => hl l (.inr h)) fun f h => hf f (.inr h)).bind
      fun acc ha => (clean_translate e _ (fun l h => hl l (.inl h)) fun f h => hf f (.inl h)).bind
        fun b hb => ?_
    cases acc with
    | none => exact Clean.pure (by rintro x ⟨⟩; exact hb)
    | some x => exact (clean_mkFby v i hb (ha x rfl)).bind fun y hy =>
        Clean.pure (by rintro x ⟨⟩; exact hy)
theorem clean_then {F : String → Prop} : (es : List Src) → (v : View) → (i : Nat) →
    (∀ l ∈ literalsList es, Denotes l) → (∀ f ∈ calleesList es, F f) →
    Clean F (Src.translateThen v i es) fun o => ∀ x, o = some x → Pr x
  | [], v, i, _, _ => by simp only [Src.translateThen]; exact Clean.pure (by simp)
  | e :: es, v, i, hl, hf => by
    simp only [Src.translateThen, literalsList, calleesList, List.mem_append] at *
    refine (clean_then es v (i + 1) (fun l h => hl l (.inr h)) fun f h => hf f (.inr h)).bind
      fun acc ha => (clean_translate e _ (fun l h => hl l (.inl h)) fun f h => hf f (.inl h)).bind
        fun b hb => ?_
    cases acc with
    | none => exact Clean.pure (by rintro x ⟨⟩; exact hb)
    | some x => exact (clean_mkThen v i hb (ha x rfl)).bind fun y hy =>
        Clean.pure (by rintro x ⟨⟩; exact hy)
end

theorem clean_stmts {F : String → Prop} (v : View) : (sts : List SrcStmt) →
    (∀ e ∈ sts.map SrcStmt.expr, ∀ l ∈ literals e, Denotes l) →
    (∀ e ∈ sts.map SrcStmt.expr, ∀ f ∈ callees e, F f) →
    Clean F (translateStmts v sts) fun _ => True
  | [], _, _ => Clean.pure trivial
  | st :: sts, hl, hf => by
    simp only [List.map_cons, List.mem_cons, forall_eq_or_imp] at hl hf
    unfold translateStmts
    refine Clean.bind (Q := fun _ => True) ?_ fun _ _ => clean_stmts v sts hl.2 hf.2
    cases st with
    | assert e => exact (clean_translate e v hl.1 hf.1).bind fun x hx => clean_push hx
    | def_ t e => exact (clean_translate e v hl.1 hf.1).bind fun x hx => clean_push hx

theorem neat_nil {F : String → Prop} : Neat F {} := ⟨by simp, by simp⟩

theorem clean_node {F : String → Prop} {n : SrcNode} (b : Bool)
    (hl : ∀ e ∈ n.defs.map SrcStmt.expr, ∀ l ∈ literals e, Denotes l)
    (hf : ∀ e ∈ n.defs.map SrcStmt.expr, ∀ f ∈ callees e, F f) :
    n.translate b ≠ .error .abort ∧ ∀ n', n.translate b = .ok n' →
      (∀ st ∈ n'.stmts, printableStmt st = true) ∧ ∀ b ∈ n'.blocks, F b.name := by
  obtain ⟨h1, h2⟩ := clean_stmts (n.view b) n.defs hl hf {} neat_nil
  refine ⟨fun h => ?_, fun n' h => ?_⟩
  · unfold SrcNode.translate at h
    simp only [StateT.run, bind, Except.bind] at h
    cases e : translateStmts (n.view b) n.defs {} with
    | error t => rw [e] at h h1; cases h; exact h1 rfl
    | ok r => rw [e] at h; cases h
  · obtain ⟨c, hc, rfl⟩ := Den.node_translate h
    obtain ⟨k, -⟩ := h2 _ _ hc
    exact ⟨k.stmts, k.blocks⟩

theorem clean_const {c : SrcConst} (hl : ∀ l ∈ literals c.value, Denotes l) :
    c.translate ≠ .error .abort ∧ ∀ c', c.translate = .ok c' → printableExpr c'.value = true := by
  obtain ⟨h1, h2⟩ := clean_translate (F := fun _ => True) c.value ⟨[], 0, false⟩ hl
    (fun _ _ => trivial) {} neat_nil
  unfold SrcConst.translate
  simp only [StateT.run, bind, Except.bind]
  cases e : c.value.translate ⟨[], 0, false⟩ {} with
  | error t => rw [e] at h1; exact ⟨fun h => h1 (by cases h; rfl), fun _ h => by cases h⟩
  | ok r =>
    obtain ⟨x, s⟩ := r
    dsimp only
    split
    · exact ⟨fun h => (by cases h), fun _ h => (by cases h)⟩
    · exact ⟨fun h => (by cases h), fun _ h => (by cases h; exact (h2 _ _ e).2)⟩

end Chandeliers.Quiet
