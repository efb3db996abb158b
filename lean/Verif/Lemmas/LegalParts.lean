import Verif.Lemmas.LegalTypes
import Verif.Spec.Reads

/-! Literals, constants and nodes of source expressions. -/

set_option autoImplicit false

namespace Chandeliers.Den
open Chandeliers.San Chandeliers.Spec Chandeliers.Syn Chandeliers.Spec.Static

theorem litsOk_nil : LitsOk [] := fun l h => by cases h

theorem lit_printable {l : Syn.Lit} {y : San.Lit} (h : litValue l = some y) (hp : printable y = true) :
    (literalType l).isSome = true := by
  unfold litValue at h
  unfold literalType
  split at h
  · rfl
  · split at h
    · rename_i hn
      dsimp only
      rw [if_pos hn]
      rfl
    · cases h
  · cases h
    rw [printable] at hp
    simp [hp]
  · cases h
  · cases h

theorem paren_printable {xs : List Expr} {tr : Bool} :
    printableExpr (parenthesise xs tr) = printableExprs xs := by
  unfold parenthesise
  split
  · simp [printableExpr, printableExprs]
  · rw [printableExpr]

theorem compose_printable {op : LOp} {a b : Expr} :
    printableExpr (op.compose a b) = (printableExpr a && printableExpr b) := by
  cases op <;> simp [LOp.compose, printableExpr]

section
variable {C : ExprCtx}
mutual
theorem comes_lits (hC : ∀ st ∈ C.stmts, printableStmt st = true) : (e : Src) → {v : View} →
    {x : Expr} → Comes C v e x → printableExpr x = true → LitsOk (literals e)
  | .lit l, v, x, h, hp => by
    rw [Comes] at h
    obtain ⟨y, h, rfl⟩ := h
    rw [printableExpr] at hp
    intro l' hl
    rw [literals, List.mem_singleton] at hl
    subst hl
    exact lit_printable h hp
  | .var y, v, x, h, hp => by rw [literals]; exact litsOk_nil
  | .paren es tr, v, x, h, hp => by
    rw [Comes] at h
    obtain ⟨xs, h, rfl⟩ := h
    rw [paren_printable] at hp
    rw [literals]
    exact list_lits hC es h hp
  | .left e rest, v, x, h, hp => by
    rw [Comes] at h
    obtain ⟨a, h1, h2⟩ := h
    obtain ⟨k1, k2⟩ := left_lits hC rest h2 hp
    rw [literals, litsOk_append]
    exact ⟨comes_lits hC e h1 k1, k2⟩
  | .cmp e rest, v, x, h, hp => by
    rw [Comes] at h
    obtain ⟨a, h1, h2⟩ := h
    obtain ⟨k1, k2⟩ := cmp_lits hC rest h2 hp
    rw [literals, litsOk_append]
    exact ⟨comes_lits hC e h1 k1, k2⟩
  | .fby e rest, v, x, h, hp => by
    rw [Comes] at h
    obtain ⟨a, h1, h2⟩ := h
    obtain ⟨k1, k2⟩ := fby_lits hC rest h2 hp
    rw [literals, litsOk_append]
    exact ⟨comes_lits hC e h1 k1, k2⟩
  | .arrow e rest, v, x, h, hp => by
    rw [Comes] at h
    obtain ⟨a, h1, h2⟩ := h
    obtain ⟨k1, k2⟩ := then_lits hC rest h2 hp
    rw [literals, litsOk_append]
    exact ⟨comes_lits hC e h1 k1, k2⟩
  | .ifx c y z, v, x, h, hp => by
    rw [Comes] at h
    obtain ⟨c', y', n', h1, h2, h3, rfl⟩ := h
    simp only [printableExpr, Bool.and_eq_true] at hp
    rw [literals, litsOk_append, litsOk_append]
    exact ⟨comes_lits hC c h1 hp.1, comes_lits hC y h2 hp.2.1, comes_lits hC z h3 hp.2.2⟩
  | .merge c y z, v, x, h, hp => by
    rw [Comes] at h
    obtain ⟨c', y', n', h1, h2, h3, rfl⟩ := h
    simp only [printableExpr, Bool.and_eq_true] at hp
    rw [literals, litsOk_append, litsOk_append]
    exact ⟨comes_lits hC c h1 hp.1, comes_lits hC y h2 hp.2.1, comes_lits hC z h3 hp.2.2⟩
  | .call f args tr, v, x, h, hp => by
    rw [Comes] at h
    obtain ⟨xs, id, h, rfl, hb⟩ := h
    rw [printableExpr, paren_printable] at hp
    rw [literals]
    exact list_lits hC args h hp
  | .pre e, v, x, h, hp => by
    rw [Comes] at h
    rw [literals]
    split at h
    · obtain ⟨id, y, h, rfl, h', -⟩ := h
      exact comes_lits hC e h (by simpa [printableStmt] using hC _ h')
    · obtain ⟨y, h, rfl⟩ := h
      rw [printableExpr] at hp
      exact comes_lits hC e h hp
  | .neg e, v, x, h, hp => by
    rw [Comes] at h
    obtain ⟨y, h, rfl⟩ := h
    rw [printableExpr] at hp
    rw [literals]
    exact comes_lits hC e h hp
  | .not e, v, x, h, hp => by
    rw [Comes] at h
    obtain ⟨y, h, rfl⟩ := h
    rw [printableExpr] at hp
    rw [literals]
    exact comes_lits hC e h hp
theorem list_lits (hC : ∀ st ∈ C.stmts, printableStmt st = true) : (es : List Src) → {v : View} →
    {xs : List Expr} → ComesList C v es xs → printableExprs xs = true → LitsOk (literalsList es)
  | [], v, xs, h, hp => by rw [literalsList]; exact litsOk_nil
  | e :: es, v, xs, h, hp => by
    rw [ComesList] at h
    obtain ⟨y, ys, h1, h2, rfl⟩ := h
    simp only [printableExprs, Bool.and_eq_true] at hp
    rw [literalsList, litsOk_append]
    exact ⟨comes_lits hC e h1 hp.1, list_lits hC es h2 hp.2⟩
theorem left_lits (hC : ∀ st ∈ C.stmts, printableStmt st = true) : (es : List (LOp × Src)) →
    {v : View} → {a x : Expr} → ComesLeft C v a es x → printableExpr x = true →
    printableExpr a = true ∧ LitsOk (literalsLeft es)
  | [], v, a, x, h, hp => by
    rw [ComesLeft] at h
    subst h
    rw [literalsLeft]; exact ⟨hp, litsOk_nil⟩
  | (op, e) :: es, v, a, x, h, hp => by
    rw [ComesLeft] at h
    obtain ⟨y, h1, h2⟩ := h
    obtain ⟨k1, k2⟩ := left_lits hC es h2 hp
    rw [compose_printable, Bool.and_eq_true] at k1
    rw [literalsLeft, litsOk_append]
    exact ⟨k1.1, comes_lits hC e h1 k1.2, k2⟩
theorem cmp_lits (hC : ∀ st ∈ C.stmts, printableStmt st = true) : (es : List (CmpOp × Src)) →
    {v : View} → {a x : Expr} → ComesCmp C v a es x → printableExpr x = true →
    printableExpr a = true ∧ LitsOk (literalsCmp es)
  | [], v, a, x, h, hp => by
    rw [ComesCmp] at h
    subst h
    rw [literalsCmp]; exact ⟨hp, litsOk_nil⟩
  | (op, e) :: es, v, a, x, h, hp => by
    rw [ComesCmp] at h
    obtain ⟨rfl, y, h1, rfl⟩ := h
    rw [printableExpr, Bool.and_eq_true] at hp
    rw [literalsCmp, litsOk_append, literalsCmp]
    exact ⟨hp.1, comes_lits hC e h1 hp.2, litsOk_nil⟩
theorem fby_lits (hC : ∀ st ∈ C.stmts, printableStmt st = true) : (es : List Src) →
    {v : View} → {i : Nat} → {b x : Expr} → ComesFby C v i b es x → printableExpr x = true →
    printableExpr b = true ∧ LitsOk (literalsList es)
  | [], v, i, b, x, h, hp => by
    rw [ComesFby] at h
    subst h
    rw [literalsList]; exact ⟨hp, litsOk_nil⟩
  | e :: es, v, i, b, x, h, hp => by
    rw [ComesFby] at h
    obtain ⟨y, a, h1, h2, h3⟩ := h
    have key : printableExpr b = true ∧ printableExpr a = true := by
      split at h3
      · obtain ⟨id, rfl, h4, h5⟩ := h3
        exact ⟨by simpa [printableStmt] using hC _ h5, by simpa [printableStmt] using hC _ h4⟩
      · subst h3
        simpa [printableExpr] using hp
    obtain ⟨k1, k2⟩ := fby_lits hC es h2 key.2
    rw [literalsList, litsOk_append]
    exact ⟨key.1, comes_lits hC e h1 k1, k2⟩
theorem then_lits (hC : ∀ st ∈ C.stmts, printableStmt st = true) : (es : List Src) →
    {v : View} → {i : Nat} → {b x : Expr} → ComesThen C v i b es x → printableExpr x = true →
    printableExpr b = true ∧ LitsOk (literalsList es)
  | [], v, i, b, x, h, hp => by
    rw [ComesThen] at h
    subst h
    rw [literalsList]; exact ⟨hp, litsOk_nil⟩
  | e :: es, v, i, b, x, h, hp => by
    rw [ComesThen] at h
    obtain ⟨y, a, h1, h2, h3⟩ := h
    have key : printableExpr b = true ∧ printableExpr a = true := by
      split at h3
      · obtain ⟨id, rfl⟩ := h3
        simpa [printableExpr] using hp
      · subst h3
        simpa [printableExpr] using hp
    obtain ⟨k1, k2⟩ := then_lits hC es h2 key.2
    rw [literalsList, litsOk_append]
    exact ⟨key.1, comes_lits hC e h1 k1, k2⟩
end
end

/-! ### Nodes and constants -/

/-- The constants and the nodes are somewhere in the node. -/
def Mentioned (C : ExprCtx) (v : View) (es : List Expr) (fs xs : List String) : Prop :=
  (∀ f ∈ fs, ⟨f, none⟩ ∈ C.blocks) ∧ ∀ x ∈ xs, x ∉ v.shadow →
    (∃ e ∈ es, Part (.global x) e) ∨ ∃ st ∈ C.stmts, Reads st (.globalVarName x)

theorem mentioned_append {C : ExprCtx} {v : View} {es : List Expr} {fs fs' xs xs' : List String} :
    Mentioned C v es (fs ++ fs') (xs ++ xs') ↔ Mentioned C v es fs xs ∧ Mentioned C v es fs' xs' := by
  unfold Mentioned
  simp only [List.mem_append]
  grind

theorem mentioned_nil {C : ExprCtx} {v : View} {es : List Expr} : Mentioned C v es [] [] := by
  unfold Mentioned; simp

theorem Mentioned.part {C : ExprCtx} {v : View} {es es' : List Expr} {fs xs : List String}
    (h : Mentioned C v es fs xs) (hp : ∀ e ∈ es, ∃ e' ∈ es', Part e e') : Mentioned C v es' fs xs := by
  refine ⟨h.1, fun x hx hs => ?_⟩
  rcases h.2 x hx hs with ⟨e, he, hg⟩ | h'
  · obtain ⟨e', he', hp⟩ := hp e he
    exact .inl ⟨e', he', hg.trans hp⟩
  · exact .inr h'

theorem Mentioned.stmt {C : ExprCtx} {v : View} {es es' : List Expr} {fs xs : List String}
    (h : Mentioned C v es fs xs) {st : Stmt} (hst : st ∈ C.stmts)
    (hp : ∀ e ∈ es, e ∈ values st) : Mentioned C v es' fs xs := by
  refine ⟨h.1, fun x hx hs => .inr ?_⟩
  rcases h.2 x hx hs with ⟨e, he, hg⟩ | h'
  · exact ⟨st, hst, .global (hp e he) hg⟩
  · exact h'

theorem Mentioned.one {C : ExprCtx} {v : View} {e e' : Expr} {fs xs : List String}
    (h : Mentioned C v [e] fs xs) (hp : Operand e e') : Mentioned C v [e'] fs xs :=
  h.part (fun x hx => ⟨e', by simp, by
    rw [List.mem_singleton] at hx; subst hx; exact .single hp⟩)

theorem Mentioned.view {C : ExprCtx} {v v' : View} {es : List Expr} {fs xs : List String}
    (h : Mentioned C v' es fs xs) (hv : v'.shadow = v.shadow) : Mentioned C v es fs xs :=
  ⟨h.1, by rw [← hv]; exact h.2⟩

theorem after_shadow (v : View) (i : Nat) : (View.after v i).shadow = v.shadow := by
  unfold View.after; split <;> rfl

theorem paren_operand {xs : List Expr} {tr : Bool} {e : Expr} (h : e ∈ xs) :
    Operand e (parenthesise xs tr) := by
  unfold parenthesise
  split
  · rw [List.mem_singleton] at h; subst h; exact .dummyParen
  · exact .tuple h

theorem compose_left {op : LOp} {a b : Expr} : Operand a (op.compose a b) := by
  cases op <;> simp only [LOp.compose] <;> first | exact .binL | exact .clockInner

theorem compose_right {op : LOp} {a b : Expr} : Operand b (op.compose a b) := by
  cases op <;> simp only [LOp.compose] <;> first | exact .binR | exact .clockGuard

theorem left_part {C : ExprCtx} {v : View} : (es : List (LOp × Src)) → {a x : Expr} →
    ComesLeft C v a es x → Part a x
  | [], a, x, h => by rw [ComesLeft] at h; subst h; exact .refl
  | (op, e) :: es, a, x, h => by
    rw [ComesLeft] at h
    obtain ⟨y, -, h⟩ := h
    exact .head compose_left (left_part es h)

theorem cmp_part {C : ExprCtx} {v : View} : (es : List (CmpOp × Src)) → {a x : Expr} →
    ComesCmp C v a es x → Part a x
  | [], a, x, h => by rw [ComesCmp] at h; subst h; exact .refl
  | (op, e) :: es, a, x, h => by
    rw [ComesCmp] at h
    obtain ⟨-, y, -, rfl⟩ := h
    exact .single .cmpL

section
variable {C : ExprCtx}
mutual
theorem comes_mentioned : (e : Src) → {v : View} → {x : Expr} → Comes C v e x →
    Mentioned C v [x] (callees e) (names e)
  | .lit l, v, x, h => by rw [callees, names]; exact mentioned_nil
  | .var y, v, x, h => by
    rw [Comes] at h
    rw [callees, names]
    refine ⟨by simp, fun z hz hs => ?_⟩
    rw [List.mem_singleton] at hz
    subst hz
    rw [if_neg hs] at h
    subst h
    exact .inl ⟨_, by simp, .refl⟩
  | .paren es tr, v, x, h => by
    rw [Comes] at h
    obtain ⟨xs, h, rfl⟩ := h
    rw [callees, names]
    exact (list_mentioned es h).part fun e he => ⟨_, List.mem_singleton_self _, .single (paren_operand he)⟩
  | .left e rest, v, x, h => by
    rw [Comes] at h
    obtain ⟨a, h1, h2⟩ := h
    rw [callees, names, mentioned_append]
    exact ⟨(comes_mentioned e h1).part fun e he => ⟨x, by simp, by
      rw [List.mem_singleton] at he; subst he; exact left_part rest h2⟩, left_mentioned rest h2⟩
  | .cmp e rest, v, x, h => by
    rw [Comes] at h
    obtain ⟨a, h1, h2⟩ := h
    rw [callees, names, mentioned_append]
    exact ⟨(comes_mentioned e h1).part fun e he => ⟨x, by simp, by
      rw [List.mem_singleton] at he; subst he; exact cmp_part rest h2⟩, cmp_mentioned rest h2⟩
  | .fby e rest, v, x, h => by
    rw [Comes] at h
    obtain ⟨a, h1, h2⟩ := h
    rw [callees, names, mentioned_append]
    exact fby_mentioned rest h2 (comes_mentioned e h1)
  | .arrow e rest, v, x, h => by
    rw [Comes] at h
    obtain ⟨a, h1, h2⟩ := h
    rw [callees, names, mentioned_append]
    exact then_mentioned rest h2 (comes_mentioned e h1)
  | .ifx c y z, v, x, h => by
    rw [Comes] at h
    obtain ⟨c', y', n', h1, h2, h3, rfl⟩ := h
    rw [callees, names, mentioned_append, mentioned_append]
    exact ⟨(comes_mentioned c h1).one .ifCond, (comes_mentioned y h2).one .ifYes,
      (comes_mentioned z h3).one .ifNo⟩
  | .merge c y z, v, x, h => by
    rw [Comes] at h
    obtain ⟨c', y', n', h1, h2, h3, rfl⟩ := h
    rw [callees, names, mentioned_append, mentioned_append]
    exact ⟨(comes_mentioned c h1).one .mergeSwitch, (comes_mentioned y h2).one .mergeOn,
      (comes_mentioned z h3).one .mergeOff⟩
  | .call f args tr, v, x, h => by
    rw [Comes] at h
    obtain ⟨xs, id, h, rfl, hb⟩ := h
    rw [callees, names]
    have := (list_mentioned args h).part (es' := [.substep v.depth id (parenthesise xs tr)])
      fun e he => ⟨_, List.mem_singleton_self _, .tail (.single (paren_operand he)) .arg⟩
    refine ⟨fun g hg => ?_, this.2⟩
    rcases List.mem_cons.1 hg with rfl | hg
    · exact List.mem_of_getElem? hb
    · exact this.1 g hg
  | .pre e, v, x, h => by
    rw [Comes] at h
    rw [callees, names]
    split at h
    · obtain ⟨id, y, h, rfl, h', -⟩ := h
      exact (comes_mentioned e h).stmt h' (by simp [values])
    · obtain ⟨y, h, rfl⟩ := h
      exact ((comes_mentioned e h).view rfl).one .dummyPre
  | .neg e, v, x, h => by
    rw [Comes] at h
    obtain ⟨y, h, rfl⟩ := h
    rw [callees, names]
    exact (comes_mentioned e h).one .un
  | .not e, v, x, h => by
    rw [Comes] at h
    obtain ⟨y, h, rfl⟩ := h
    rw [callees, names]
    exact (comes_mentioned e h).one .un
theorem list_mentioned : (es : List Src) → {v : View} → {xs : List Expr} → ComesList C v es xs →
    Mentioned C v xs (calleesList es) (namesList es)
  | [], v, xs, h => by rw [calleesList, namesList]; exact mentioned_nil
  | e :: es, v, xs, h => by
    rw [ComesList] at h
    obtain ⟨y, ys, h1, h2, rfl⟩ := h
    rw [calleesList, namesList, mentioned_append]
    exact ⟨(comes_mentioned e h1).part fun e he => ⟨e, by simp at he; simp [he], .refl⟩,
      (list_mentioned es h2).part fun e he => ⟨e, by simp [he], .refl⟩⟩
theorem left_mentioned : (es : List (LOp × Src)) → {v : View} → {a x : Expr} → ComesLeft C v a es x →
    Mentioned C v [x] (calleesLeft es) (namesLeft es)
  | [], v, a, x, h => by rw [calleesLeft, namesLeft]; exact mentioned_nil
  | (op, e) :: es, v, a, x, h => by
    rw [ComesLeft] at h
    obtain ⟨y, h1, h2⟩ := h
    rw [calleesLeft, namesLeft, mentioned_append]
    exact ⟨(comes_mentioned e h1).part fun e he => ⟨x, by simp, by
      rw [List.mem_singleton] at he; subst he; exact .head compose_right (left_part es h2)⟩,
      left_mentioned es h2⟩
theorem cmp_mentioned : (es : List (CmpOp × Src)) → {v : View} → {a x : Expr} → ComesCmp C v a es x →
    Mentioned C v [x] (calleesCmp es) (namesCmp es)
  | [], v, a, x, h => by rw [calleesCmp, namesCmp]; exact mentioned_nil
  | (op, e) :: es, v, a, x, h => by
    rw [ComesCmp] at h
    obtain ⟨rfl, y, h1, rfl⟩ := h
    rw [calleesCmp, namesCmp, mentioned_append, calleesCmp, namesCmp]
    exact ⟨(comes_mentioned e h1).one .cmpR, mentioned_nil⟩
theorem fby_mentioned : (es : List Src) → {v : View} → {i : Nat} → {b x : Expr} →
    {fs xs : List String} → ComesFby C v i b es x → Mentioned C v [b] fs xs →
    Mentioned C v [x] fs xs ∧ Mentioned C v [x] (calleesList es) (namesList es)
  | [], v, i, b, x, fs, xs, h, hb => by
    rw [ComesFby] at h
    subst h
    rw [calleesList, namesList]
    exact ⟨hb, mentioned_nil⟩
  | e :: es, v, i, b, x, fs, xs, h, hb => by
    rw [ComesFby] at h
    obtain ⟨y, a, h1, h2, h3⟩ := h
    obtain ⟨k1, k2⟩ := fby_mentioned es h2 ((comes_mentioned e h1).view (after_shadow v _))
    rw [calleesList, namesList, mentioned_append]
    split at h3
    · obtain ⟨id, rfl, h4, h5⟩ := h3
      exact ⟨hb.stmt h5 (by simp [values]), k1.stmt h4 (by simp [values]), k2.stmt h4 (by simp [values])⟩
    · subst h3
      exact ⟨hb.one .laterBefore, k1.one .laterAfter, k2.one .laterAfter⟩
theorem then_mentioned : (es : List Src) → {v : View} → {i : Nat} → {b x : Expr} →
    {fs xs : List String} → ComesThen C v i b es x → Mentioned C v [b] fs xs →
    Mentioned C v [x] fs xs ∧ Mentioned C v [x] (calleesList es) (namesList es)
  | [], v, i, b, x, fs, xs, h, hb => by
    rw [ComesThen] at h
    subst h
    rw [calleesList, namesList]
    exact ⟨hb, mentioned_nil⟩
  | e :: es, v, i, b, x, fs, xs, h, hb => by
    rw [ComesThen] at h
    obtain ⟨y, a, h1, h2, h3⟩ := h
    obtain ⟨k1, k2⟩ := then_mentioned es h2 (comes_mentioned e h1)
    rw [calleesList, namesList, mentioned_append]
    split at h3
    · obtain ⟨id, rfl⟩ := h3
      exact ⟨hb.one .flipInitial, k1.one .flipContinued, k2.one .flipContinued⟩
    · subst h3
      exact ⟨hb.one .laterBefore, k1.one .laterAfter, k2.one .laterAfter⟩
end
end

end Chandeliers.Den
