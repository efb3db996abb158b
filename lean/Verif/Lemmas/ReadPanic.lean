import Verif.Lemmas.ReadLink

/-! When the text can be written. -/

set_option autoImplicit false

namespace Chandeliers.Txt
open Err San Spec Syn Quo Props

variable {uid : Nat}

@[simp] theorem speltAll_append (a b : List RTok) :
    speltAll (a ++ b) = (speltAll a && speltAll b) := by
  induction a with
  | nil => simp [speltAll]
  | cons t ts ih => simp [speltAll, ih, Bool.and_assoc]

theorem speltAll_flatMap {α : Type} (f : α → List RTok) (xs : List α) :
    speltAll (xs.flatMap f) = xs.all fun x => speltAll (f x) := by
  induction xs with
  | nil => rfl
  | cons x xs ih => simp [ih]

theorem spelt_lit (l : San.Lit) : spelt l.text = printable l := by
  cases l with
  | float f =>
    show spelt (if finite f = true then .float f else .panics) = finite f
    cases finite f <;> rfl
  | int i => rfl
  | bool b => cases b <;> rfl

theorem speltAll_sem (m : String) (args : List RTok) :
    speltAll (semMacro m args) = speltAll args := by simp [semMacro, speltAll, spelt]

theorem speltAll_call (f : String) (id : Nat) (m : String) (args : List RTok) :
    speltAll (selfCall f id m args) = speltAll args := by simp [selfCall, speltAll, spelt]

mutual
theorem spelt_text : (e : Expr) → speltAll (e.text uid) = printableExpr e
  | .lit l => by simp [San.Expr.text, speltAll_sem, speltAll, spelt_lit, printableExpr]
  | .global x => by simp [San.Expr.text, speltAll_sem, speltAll, spelt, printableExpr]
  | .var x dt => by simp [San.Expr.text, speltAll_sem, speltAll, spelt, printableExpr, selfAgo]
  | .dummyPre e => by simp [San.Expr.text, printableExpr, spelt_text e]
  | .dummyParen e => by simp [San.Expr.text, printableExpr, spelt_text e]
  | .tuple es => by simp [San.Expr.text, speltAll, spelt, printableExpr, spelt_texts es]
  | .bin op l r => by
    simp [San.Expr.text, speltAll_sem, speltAll, spelt, printableExpr, spelt_text l,
      spelt_text r]
  | .un op e => by
    simp [San.Expr.text, speltAll_sem, speltAll, spelt, printableExpr, spelt_text e]
  | .cmp op l r => by
    simp [San.Expr.text, speltAll_sem, speltAll, spelt, printableExpr, spelt_text l,
      spelt_text r]
  | .later d l r => by
    simp [San.Expr.text, speltAll_sem, speltAll, spelt, printableExpr, spelt_text l,
      spelt_text r, selfAgo]
  | .ifx c y n => by
    simp [San.Expr.text, speltAll_sem, speltAll, spelt, printableExpr, spelt_text c,
      spelt_text y, spelt_text n]
  | .substep d id e => by
    simp [San.Expr.text, speltAll_sem, speltAll, spelt, printableExpr, spelt_text e, selfAgo]
  | .merge c y n => by
    simp [San.Expr.text, speltAll_sem, speltAll, spelt, printableExpr, spelt_text c,
      spelt_text y, spelt_text n]
  | .clock .when e b => by
    simp [San.Expr.text, speltAll_sem, speltAll, spelt, printableExpr, spelt_text e,
      spelt_text b, Bool.and_comm]
  | .clock .whenot e b => by
    simp [San.Expr.text, speltAll_sem, speltAll, spelt, printableExpr, spelt_text e,
      spelt_text b, Bool.and_comm]
  | .fetchPre id e => by simp [San.Expr.text, speltAll_call, speltAll, printableExpr]
  | .fetchFby id i e => by simp [San.Expr.text, speltAll_call, speltAll, printableExpr]
  | .flip id i c => by
    simp [San.Expr.text, speltAll_call, speltAll, spelt, printableExpr, spelt_text i,
      spelt_text c, autoSizeText]
theorem spelt_texts : (es : List Expr) → speltAll (Expr.texts uid es) = printableExprs es
  | [] => rfl
  | e :: es => by simp [San.Expr.texts, printableExprs, spelt_text e, spelt_textMore es]
theorem spelt_textMore : (es : List Expr) → speltAll (Expr.textMore uid es) = printableExprs es
  | [] => rfl
  | e :: es => by
    simp [San.Expr.textMore, speltAll, spelt, printableExprs, spelt_text e, spelt_textMore es]
end

mutual
theorem spelt_const : (e : Expr) →
    speltAll (e.constText uid) = (e.constTokens.isSome && printableExpr e)
  | .lit l => by simp [Expr.constText, Expr.constTokens, speltAll, spelt_lit, printableExpr]
  | .global x => by simp [Expr.constText, Expr.constTokens, speltAll, spelt, printableExpr]
  | .dummyPre e => by simp [Expr.constText, Expr.constTokens, printableExpr, spelt_const e]
  | .dummyParen e => by simp [Expr.constText, Expr.constTokens, printableExpr, spelt_const e]
  | .bin op l r => by
    simp only [Expr.constText, Expr.constTokens, printableExpr, speltAll, spelt,
      speltAll_append, spelt_const l, spelt_const r]
    cases l.constTokens <;> cases r.constTokens <;> simp
  | .cmp op l r => by
    simp only [Expr.constText, Expr.constTokens, printableExpr, speltAll, spelt,
      speltAll_append, spelt_const l, spelt_const r]
    cases l.constTokens <;> cases r.constTokens <;> simp
  | .un op e => by
    simp only [Expr.constText, Expr.constTokens, printableExpr, speltAll, spelt,
      spelt_const e]
    cases e.constTokens <;> simp
  | .tuple es => by
    simp only [Expr.constText, Expr.constTokens, printableExpr, speltAll, spelt,
      spelt_consts es]
    cases Expr.constTokensList es <;> simp
  | .ifx c y n => by
    simp only [Expr.constText, Expr.constTokens, printableExpr, speltAll, spelt,
      speltAll_append, spelt_const c, spelt_const y, spelt_const n, List.cons_append]
    cases c.constTokens <;> cases y.constTokens <;> cases n.constTokens <;> simp
  | .var _ _ => by simp [Expr.constText, Expr.constTokens, speltAll, spelt]
  | .later _ _ _ => by simp [Expr.constText, Expr.constTokens, speltAll, spelt]
  | .flip _ _ _ => by simp [Expr.constText, Expr.constTokens, speltAll, spelt]
  | .substep _ _ _ => by simp [Expr.constText, Expr.constTokens, speltAll, spelt]
  | .merge _ _ _ => by simp [Expr.constText, Expr.constTokens, speltAll, spelt]
  | .clock _ _ _ => by simp [Expr.constText, Expr.constTokens, speltAll, spelt]
  | .fetchPre _ _ => by simp [Expr.constText, Expr.constTokens, speltAll, spelt]
  | .fetchFby _ _ _ => by simp [Expr.constText, Expr.constTokens, speltAll, spelt]
theorem spelt_consts : (es : List Expr) → speltAll (Expr.constTexts uid es) =
    ((Expr.constTokensList es).isSome && printableExprs es)
  | [] => rfl
  | e :: es => by
    simp only [Expr.constTexts, Expr.constTokensList, printableExprs, speltAll_append,
      spelt_const e, spelt_constMore es]
    cases e.constTokens <;> cases Expr.constTokensList es <;> simp
theorem spelt_constMore : (es : List Expr) → speltAll (Expr.constMore uid es) =
    ((Expr.constTokensList es).isSome && printableExprs es)
  | [] => rfl
  | e :: es => by
    simp only [Expr.constMore, Expr.constTokensList, printableExprs, speltAll_append, speltAll,
      spelt, spelt_const e, spelt_constMore es, List.cons_append]
    cases e.constTokens <;> cases Expr.constTokensList es <;> simp
end

mutual
theorem spelt_pat : (p : VarTuple) → speltAll p.text = true
  | .single x => by simp [VarTuple.text, speltAll, spelt]
  | .multiple [] => by simp [VarTuple.text, speltAll, spelt]
  | .multiple (p :: ps) => by
    simp [VarTuple.text, speltAll, spelt, spelt_pat p, spelt_pats ps]
theorem spelt_pats : (ps : List VarTuple) → speltAll (VarTuple.textMore ps) = true
  | [] => rfl
  | p :: ps => by simp [VarTuple.textMore, speltAll, spelt, spelt_pat p, spelt_pats ps]
end

theorem spelt_stmt (s : Stmt) :
    speltAll (s.text uid) = (clockKnown s && printableStmt s) := by
  cases s with
  | let_ p e =>
    simp [Stmt.text, speltAll, spelt, spelt_pat, spelt_text, clockKnown, printableStmt]
  | assert e =>
    simp [Stmt.text, speltAll, spelt, speltAll_sem, spelt_text, clockKnown, printableStmt]
  | updateRegister id e =>
    simp [Stmt.text, speltAll, spelt, speltAll_call, spelt_text, clockKnown, printableStmt]
  | initRegister id v c =>
    cases c with
    | none => cases v <;> simp [Stmt.text, speltAll, spelt, clockKnown]
    | some c =>
      cases v <;> simp [Stmt.text, speltAll, spelt, speltAll_call, spelt_text, clockKnown,
        printableStmt, Bool.and_comm]

theorem spelt_names (xs : List String) : speltAll (namesText xs) = true := by
  cases xs with
  | nil => rfl
  | cons x xs => simp [namesText_cons, speltAll, spelt, speltAll_flatMap]

theorem spelt_values (vs : List TyVar) : speltAll (valuesText vs) = true := by
  match vs with
  | [] => rfl
  | [v] => rfl
  | v :: v' :: vs => simp [valuesText, speltAll, spelt, spelt_names]

theorem spelt_target (vs : List TyVar) : speltAll (targetText vs) = true := by
  match vs with
  | [] => rfl
  | v :: vs => exact spelt_values (v :: vs)

theorem spelt_extern (ins outs : List TyVar) : speltAll (externText ins outs) = true := by
  simp [externText, speltAll, spelt, speltAll_sem, spelt_values, spelt_target, useTraits]

theorem spelt_node (n : Node) :
    speltAll (n.text uid) = n.stmts.all fun s => clockKnown s && printableStmt s := by
  simp [Node.text, speltAll, spelt, speltAll_sem, speltAll_call, spelt_values,
    spelt_target, useTraits, speltAll_flatMap, updateText, spelt_stmt]

theorem spelt_emittable (d : San.Decl) :
    emittable d = true ↔ speltAll (textOf uid d) = true ∧ TypesKnown d := by
  cases d with
  | const c => simp [emittable, textOf, TypesKnown, spelt_const]
  | extConst c => simp [emittable, textOf, TypesKnown, speltAll]
  | node n =>
    simp only [emittable, textOf, TypesKnown, spelt_node, Bool.and_eq_true, List.all_eq_true]
    constructor
    · rintro ⟨⟨⟨h1, h2⟩, h3⟩, h4⟩; exact ⟨fun s hs => ⟨h3 s hs, h4 s hs⟩, h1, h2⟩
    · rintro ⟨h1, h2, h3⟩; exact ⟨⟨⟨h2, h3⟩, fun s hs => (h1 s hs).1⟩, fun s hs => (h1 s hs).2⟩
  | extNode n => simp [emittable, textOf, TypesKnown, spelt_extern]

end Chandeliers.Txt
