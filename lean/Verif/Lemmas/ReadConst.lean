import Verif.Spec.Text
import Verif.Lemmas.Quote
import Verif.Lemmas.ConstExpr

/-! Reading back the text of constants. -/

set_option autoImplicit false

namespace Chandeliers.Txt
open San Spec Quo

variable {uid : Nat}

theorem globName_words (x : String) : globName uid x ∉ rustWords := by
  intro h
  have hl := globName_length uid x
  have : ∀ w ∈ rustWords, w.length < 11 := by decide
  have := this _ h
  omega

theorem locName_words (x : String) : locName x ∉ rustWords := by
  intro h
  have hl := locName_length x
  have : ∀ w ∈ rustWords, w.length < 11 := by decide
  have := this _ h
  omega

theorem not_word {x w : String} (h : x ∉ rustWords) (hw : w ∈ rustWords) : x ≠ w :=
  fun he => h (he ▸ hw)

theorem rdLit_text {l : Lit} (h : FiniteLit l) : rdLit l.text = some l := by
  cases l with
  | int i =>
    have h1 := i.le_toInt
    have h2 := i.toInt_le
    have h3 : (Int64.ofInt i.toInt) = i := Int64.ofInt_toInt i
    have h4 : (-9223372036854775808 : Int) ≤ i.toInt := h1
    have h5 : i.toInt ≤ (9223372036854775807 : Int) := h2
    simp only [Lit.text, rdLit, h3]
    rw [if_pos ⟨trivial, h4, h5⟩]
  | float f =>
    have : f.finite = true := h
    simp [Lit.text, rdLit, this]
  | bool b => cases b <;> simp [Lit.text, rdLit]

theorem lit_token {l : Lit} (h : FiniteLit l) :
    (∃ i s, l.text = .int i s) ∨ (∃ f, l.text = .float f) ∨ l.text = .ident "true" ∨
      l.text = .ident "false" := by
  cases l with
  | int i => exact .inl ⟨_, _, rfl⟩
  | float f => exact .inr (.inl ⟨f, by simp only [Lit.text]; exact if_pos h⟩)
  | bool b => cases b <;> simp [Lit.text]

/-- What follows an operand in the text of a constant. -/
def Follow (cond : Bool) (rest : List RTok) : Prop :=
  goesOn rest = false ∧ (cond = false → ∀ b ts, rest ≠ .group .brace b :: ts)

theorem Follow.nil {cond : Bool} : Follow cond [] := ⟨rfl, fun _ _ _ h => by cases h⟩

theorem Follow.brace {b ts : List RTok} : Follow true (.group .brace b :: ts) :=
  ⟨rfl, fun h => by cases h⟩

theorem Follow.bin {cond : Bool} (op : BinOp) (ts : List RTok) :
    Follow cond (.sign op.text :: ts) :=
  ⟨by cases op <;> rfl, fun _ _ _ h => by cases h⟩

theorem Follow.cmp {cond : Bool} (op : CmpOp) (ts : List RTok) :
    Follow cond (.sign op.text :: ts) :=
  ⟨by cases op <;> rfl, fun _ _ _ h => by cases h⟩

theorem complete_eq {α : Type} {e : α} {ts : List RTok} (h : goesOn ts = false) :
    complete e ts = some (e, ts) := by simp [complete, h]

theorem completeName_eq {α : Type} {cond : Bool} {e : α} {ts : List RTok} (h : Follow cond ts) :
    completeName cond e ts = some (e, ts) := by
  unfold completeName
  split
  · rename_i b ts
    cases cond with
    | true => rfl
    | false => exact absurd rfl (h.2 rfl b ts)
  · exact complete_eq h.1

/-- The operand `e` is read as `c`. -/
def Operand (uid : Nat) (e : Expr) (c : CExpr) : Prop :=
  ∃ k, ∀ n, n ≥ k → ∀ cond rest, Follow cond rest →
    rdUn n cond (e.constText uid ++ rest) = some (c, rest)

theorem le_succ {n k : Nat} (h : n ≥ k + 1) : ∃ m, n = m + 1 ∧ m ≥ k := ⟨n - 1, by omega, by omega⟩

theorem rdRest_nil {n p : Nat} {cond chain : Bool} {l : CExpr} :
    rdRest (n + 1) cond p chain l [] = some (l, []) := by simp [rdRest]

theorem rdRest_brace {n p : Nat} {cond chain : Bool} {l : CExpr} {b ts : List RTok} :
    rdRest (n + 1) cond p chain l (.group .brace b :: ts) = some (l, .group .brace b :: ts) := by
  simp [rdRest]

theorem rdUn_neg {n : Nat} {cond : Bool} {ts : List RTok} :
    rdUn (n + 1) cond (.sign "-" :: ts) = (rdUn n cond ts).map fun r => (.un .neg r.1, r.2) := by
  simp only [rdUn, if_true]

theorem rdUn_not {n : Nat} {cond : Bool} {ts : List RTok} :
    rdUn (n + 1) cond (.sign "!" :: ts) = (rdUn n cond ts).map fun r => (.un .not r.1, r.2) := by
  simp only [rdUn, if_true]
  rw [if_neg (by decide)]

/-- An operand alone is an expression, of any priority. -/
theorem alone {e : Expr} {c : CExpr} (h : Operand uid e c) :
    ∃ k, ∀ n, n ≥ k → ∀ cond p, rdBin n cond p (e.constText uid) = some (c, []) := by
  obtain ⟨k, hk⟩ := h
  refine ⟨k + 2, fun n hn cond p => ?_⟩
  obtain ⟨m, rfl⟩ : ∃ m, n = m + 2 := ⟨n - 2, by omega⟩
  have := hk (m + 1) (by omega) cond [] Follow.nil
  rw [List.append_nil] at this
  simp only [rdBin, this]
  exact rdRest_nil

theorem condition {e : Expr} {c : CExpr} (h : Operand uid e c) :
    ∃ k, ∀ n, n ≥ k → ∀ b ts, rdBin n true 0 (e.constText uid ++ .group .brace b :: ts) =
      some (c, .group .brace b :: ts) := by
  obtain ⟨k, hk⟩ := h
  refine ⟨k + 2, fun n hn b ts => ?_⟩
  obtain ⟨m, rfl⟩ : ∃ m, n = m + 2 := ⟨n - 2, by omega⟩
  simp only [rdBin, hk (m + 1) (by omega) true _ Follow.brace]
  exact rdRest_brace

theorem operand_ne {e : Expr} {c : CExpr} (h : Operand uid e c) : e.constText uid ≠ [] := by
  obtain ⟨k, hk⟩ := h
  intro he
  have := hk (k + 1) (by omega) false [] Follow.nil
  rw [he, List.append_nil, rdUn] at this
  cases this

theorem paren_of {ts : List RTok} {c : CExpr} {k : Nat} (hne : ts ≠ [])
    (h : ∀ n, n ≥ k → rdBin n false 0 ts = some (c, [])) :
    ∃ k, ∀ n, n ≥ k → ∀ cond rest, Follow cond rest →
      rdUn n cond ([.group .paren ts] ++ rest) = some (c, rest) := by
  refine ⟨k + 2, fun n hn cond rest hr => ?_⟩
  obtain ⟨m, rfl⟩ : ∃ m, n = m + 2 := ⟨n - 2, by omega⟩
  have hp : rdParen (m + 1) ts = some c := by
    cases ts with
    | nil => exact absurd rfl hne
    | cons t ts => simp only [rdParen, h m (by omega)]
  simp only [List.cons_append, List.nil_append, rdUn, hp]
  exact complete_eq hr.1

/-- Two operands and an operator, in parentheses. -/
theorem between {l r : Expr} {s : String} {c d : CExpr} {q : Nat} {b : Bool}
    {f : CExpr → CExpr → CExpr} (hl : Operand uid l c) (hr : Operand uid r d)
    (hs : binSign s = some (q, b, f)) (hf : ∀ ts, Follow false (.sign s :: ts)) :
    ∃ k, ∀ n, n ≥ k → ∀ cond rest, Follow cond rest →
      rdUn n cond ([.group .paren (l.constText uid ++ .sign s :: r.constText uid)] ++ rest) =
        some (f c d, rest) := by
  obtain ⟨k1, h1⟩ := hl
  obtain ⟨k2, h2⟩ := alone hr
  refine paren_of (k := k1 + k2 + 3) (by simp) fun n hn => ?_
  obtain ⟨m, rfl⟩ : ∃ m, n = m + 3 := ⟨n - 3, by omega⟩
  simp only [rdBin, h1 (m + 2) (by omega) false _ (hf _)]
  rw [show m + 2 = (m + 1) + 1 from rfl, rdRest]
  simp only [hs, Nat.zero_le, if_true, Bool.false_and, Bool.false_eq_true, if_false,
    h2 (m + 1) (by omega)]
  exact rdRest_nil

theorem block_of {e : Expr} {c : CExpr} (h : Operand uid e c) :
    ∃ k, ∀ n, n ≥ k → rdBlk n (e.constText uid) = some c := by
  obtain ⟨k2, h2⟩ := alone h
  obtain ⟨k1, h1⟩ := h
  refine ⟨k1 + k2 + 1, fun n hn => ?_⟩
  obtain ⟨m, rfl⟩ : ∃ m, n = m + 1 := ⟨n - 1, by omega⟩
  have a := h1 m (by omega) false [] Follow.nil
  rw [List.append_nil] at a
  have b := h2 m (by omega) false 0
  generalize e.constText uid = ts at a b
  unfold rdBlk
  split
  · split
    · rw [a]
    · rw [b]
  · rw [b]

/-- The text of a constant expression is read as the expression. -/
theorem operand {e : Expr} (h : ConstExpr e) : FiniteExpr e →
    ∃ c, e.constTokens = some c ∧ Operand uid e (renameConst (globName uid) c) := by
  induction h with
  | @lit l =>
    intro hf
    refine ⟨.lit l, by simp [Expr.constTokens], 1, fun n hn cond rest hr => ?_⟩
    obtain ⟨m, rfl, -⟩ := le_succ hn
    have hl := rdLit_text (l := l) hf
    simp only [Expr.constText, renameConst, List.cons_append, List.nil_append]
    rcases lit_token (l := l) hf with ⟨i, s, ht⟩ | ⟨f, ht⟩ | ht | ht <;> rw [ht] at hl ⊢ <;>
      simp [rdUn, hl, complete_eq hr.1]
  | @global x =>
    intro _
    refine ⟨.ident x, by simp [Expr.constTokens], 1, fun n hn cond rest hr => ?_⟩
    obtain ⟨m, rfl, -⟩ := le_succ hn
    have hw := globName_words (uid := uid) x
    simp only [Expr.constText, renameConst, List.cons_append, List.nil_append, rdUn]
    rw [if_neg (not_word hw (by decide)), if_neg (fun h => h.elim (not_word hw (by decide))
      (not_word hw (by decide))), if_neg hw]
    exact completeName_eq hr
  | paren h ih =>
    intro hf
    simp only [FiniteExpr] at hf
    obtain ⟨c, h1, h2⟩ := ih hf
    exact ⟨c, by simpa [Expr.constTokens] using h1, by simpa [Operand, Expr.constText] using h2⟩
  | @un op e h ih =>
    intro hf
    simp only [FiniteExpr] at hf
    obtain ⟨c, h1, k1, h2⟩ := ih hf
    refine ⟨.un op c, by simp [Expr.constTokens, h1], ?_⟩
    simp only [Operand, Expr.constText, renameConst]
    refine paren_of (k := k1 + 3) (by simp) fun n hn => ?_
    obtain ⟨m, rfl⟩ : ∃ m, n = m + 3 := ⟨n - 3, by omega⟩
    have := h2 (m + 1) (by omega) false [] Follow.nil
    rw [List.append_nil] at this
    cases op
    · simp only [rdBin, UnOp.text, rdUn_neg, this, Option.map_some]
      exact rdRest_nil
    · simp only [rdBin, UnOp.text, rdUn_not, this, Option.map_some]
      exact rdRest_nil
  | @bin op l r hl hr ih1 ih2 =>
    intro hf
    simp only [FiniteExpr] at hf
    obtain ⟨c, h1, h2⟩ := ih1 hf.1
    obtain ⟨d, h3, h4⟩ := ih2 hf.2
    refine ⟨.bin op c d, by simp [Expr.constTokens, h1, h3], ?_⟩
    simp only [Operand, Expr.constText, renameConst]
    cases op <;> exact between h2 h4 rfl (fun ts => Follow.bin _ ts)
  | @cmp op l r hl hr ih1 ih2 =>
    intro hf
    simp only [FiniteExpr] at hf
    obtain ⟨c, h1, h2⟩ := ih1 hf.1
    obtain ⟨d, h3, h4⟩ := ih2 hf.2
    refine ⟨.cmp op c d, by simp [Expr.constTokens, h1, h3], ?_⟩
    simp only [Operand, Expr.constText, renameConst]
    cases op <;> exact between h2 h4 rfl (fun ts => Follow.cmp _ ts)
  | @ifx b y z hb hy hn ih1 ih2 ih3 =>
    intro hf
    simp only [FiniteExpr] at hf
    obtain ⟨c, h1, h2⟩ := ih1 hf.1
    obtain ⟨d, h3, h4⟩ := ih2 hf.2.1
    obtain ⟨e, h5, h6⟩ := ih3 hf.2.2
    refine ⟨.ite c d e, by simp [Expr.constTokens, h1, h3, h5], ?_⟩
    obtain ⟨k1, a1⟩ := condition h2
    obtain ⟨k2, a2⟩ := block_of h4
    obtain ⟨k3, a3⟩ := block_of h6
    refine ⟨k1 + k2 + k3 + 1, fun n hn cond rest hr => ?_⟩
    obtain ⟨m, rfl⟩ : ∃ m, n = m + 1 := ⟨n - 1, by omega⟩
    simp only [Expr.constText, renameConst, List.cons_append, List.append_assoc, List.nil_append,
      rdUn, if_true, a1 m (by omega), a2 m (by omega), a3 m (by omega)]
    exact complete_eq hr.1

theorem readsConst {e : Expr} (h : ConstExpr e) (hf : FiniteExpr e) :
    ∃ c, e.constTokens = some c ∧
      ReadsConst (e.constText uid) (renameConst (globName uid) c) := by
  obtain ⟨c, h1, h2⟩ := operand (uid := uid) h hf
  obtain ⟨k, hk⟩ := alone h2
  exact ⟨c, h1, k, fun n hn => by simp only [rdConst, hk n hn false 0]⟩

theorem eval_rename {A : Arith} {f : String → String} {g g' : Globals} (h : ∀ x, g' (f x) = g x) :
    (e : CExpr) → (renameConst f e).eval A g' = e.eval A g
  | .lit _ => by simp only [renameConst, CExpr.eval]
  | .ident x => by simp only [renameConst, CExpr.eval, h]
  | .bin _ l r => by simp only [renameConst, CExpr.eval, eval_rename h l, eval_rename h r]
  | .un _ e => by simp only [renameConst, CExpr.eval, eval_rename h e]
  | .cmp _ l r => by simp only [renameConst, CExpr.eval, eval_rename h l, eval_rename h r]
  | .tuple _ => by simp only [renameConst, CExpr.eval]
  | .ite c y n => by
    simp only [renameConst, CExpr.eval, eval_rename h c, eval_rename h y, eval_rename h n]

end Chandeliers.Txt
