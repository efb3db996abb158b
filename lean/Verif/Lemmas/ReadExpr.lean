import Verif.Lemmas.ReadConst

/-! Reading back the text of the expressions of nodes. -/

set_option autoImplicit false

namespace Chandeliers.Txt
open San Spec Quo

variable {uid : Nat}

/-- What follows an expression in the text of a node. -/
inductive Ends : List RTok → Prop
  | nil : Ends []
  | comma {ts : List RTok} : Ends (.sign "," :: ts)
  | semi {ts : List RTok} : Ends (.sign ";" :: ts)

theorem Ends.stops {ts : List RTok} (h : Ends ts) : goesOn ts = false := by
  cases h <;> rfl

theorem rdPost_end {n : Nat} {e : RExpr} {ts : List RTok} (h : Ends ts) :
    rdPost (n + 1) e ts = some (e, ts) := by
  have hs := h.stops
  unfold rdPost
  split
  · rename_i s m ts'
    rw [if_neg]
    · exact complete_eq hs
    · cases h <;> decide
  · exact complete_eq hs

/-- The text of `e` is read as the tree of `e`. -/
def Reads (uid : Nat) (e : Expr) : Prop :=
  ∃ k, ∀ n, n ≥ k → ∀ rest, Ends rest → rdE n (e.text uid ++ rest) = some (e.quote uid, rest)

theorem one {e : Expr} (h : Reads uid e) :
    ∃ k, ∀ n, n ≥ k → rdOne n (e.text uid) = some (e.quote uid) := by
  obtain ⟨k, hk⟩ := h
  refine ⟨k + 1, fun n hn => ?_⟩
  obtain ⟨m, rfl, hm⟩ := le_succ hn
  have := hk m hm [] .nil
  rw [List.append_nil] at this
  simp only [rdOne, this]

theorem two {l r : Expr} (hl : Reads uid l) (hr : Reads uid r) :
    ∃ k, ∀ n, n ≥ k → rdTwo n (l.text uid ++ .sign "," :: r.text uid) =
      some (l.quote uid, r.quote uid) := by
  obtain ⟨k1, h1⟩ := hl
  obtain ⟨k2, h2⟩ := hr
  refine ⟨k1 + k2 + 1, fun n hn => ?_⟩
  obtain ⟨m, rfl, hm⟩ := le_succ hn
  have := h2 m (by omega) [] .nil
  rw [List.append_nil] at this
  simp only [rdTwo, h1 m (by omega) _ .comma, if_true, this]

theorem rdSelfAgo_text (d : Nat) (s : String) (ts : List RTok) :
    rdSelfAgo (selfAgo d s ++ ts) = some ((d : Int), s, ts) := by
  simp [rdSelfAgo, selfAgo]

theorem rdSem_text (m : String) (args ts : List RTok) :
    semMacro m args ++ ts = .sign "::" :: ((semMacro m args).tail ++ ts) ∧
      rdSem ((semMacro m args).tail ++ ts) = some (m, args, ts) := by
  simp [rdSem, semMacro]

/-- An invocation of a macro. -/
theorem sem {m : String} {args : List RTok} {e : RExpr}
    (h : ∃ k, ∀ n, n ≥ k → rdMacro n m args = some e) :
    ∃ k, ∀ n, n ≥ k → ∀ rest, Ends rest → rdE n (semMacro m args ++ rest) = some (e, rest) := by
  obtain ⟨k, hk⟩ := h
  refine ⟨k + 2, fun n hn rest hr => ?_⟩
  obtain ⟨j, rfl⟩ : ∃ j, n = j + 2 := ⟨n - 2, by omega⟩
  obtain ⟨h1, h2⟩ := rdSem_text m args rest
  rw [h1, rdE]
  simp only [if_true, h2, hk (j + 1) (by omega)]
  exact rdPost_end hr

theorem succ_of {α : Type} {f : Nat → Option α} {a : α} {k : Nat}
    (h : ∀ m, m ≥ k → f (m + 1) = some a) : ∃ k, ∀ n, n ≥ k → f n = some a :=
  ⟨k + 1, fun n hn => by obtain ⟨m, rfl, hm⟩ := le_succ hn; exact h m hm⟩

theorem binOp_text (op : BinOp) : binOp op.text = some op := by cases op <;> rfl
theorem unOp_text (op : UnOp) : unOp op.text = some op := by cases op <;> rfl
theorem cmpSign_text (op : CmpOp) : cmpSign op.text = some op := by cases op <;> rfl

theorem rdE_self {n : Nat} {f m : String} {i : Nat} {ts : List RTok} :
    rdE (n + 1) (selfCall f i m [] ++ ts) =
      if f = "__regs" ∧ m = "get" then rdPost n (.regGet i) ts
      else if f = "__flips" ∧ m = "tas" then rdPost n (.flipTas i) ts
      else none := by
  simp [selfCall, rdE, rdSelfCall]

theorem rdE_name {n : Nat} {x : String} {ts : List RTok} (h : x ∉ rustWords) :
    rdE (n + 1) (.ident x :: ts) = rdPost n (.path x) ts := by
  simp only [rdE]
  rw [if_neg (not_word h (by decide)), if_neg (not_word h (by decide)),
    if_neg (fun h' => h'.elim (not_word h (by decide)) (not_word h (by decide))), if_neg h]

theorem rdPost_brace {n : Nat} {e : RExpr} {b ts : List RTok} :
    rdPost (n + 1) e (.group .brace b :: ts) = some (e, .group .brace b :: ts) := by
  simp [rdPost, complete, goesOn]

theorem rdPost_nil {n : Nat} {e : RExpr} : rdPost (n + 1) e [] = some (e, []) := by
  simp [rdPost, complete, goesOn]

theorem rdPost_embed {n : Nat} {e : RExpr} {ts : List RTok} :
    rdPost (n + 1) e (.sign "." :: .ident "embed" :: .group .paren [] :: ts) =
      rdPost n (.embed e) ts := by
  simp [rdPost]

theorem rdPost_firstIsNil {n : Nat} {e : RExpr} {ts : List RTok} :
    rdPost (n + 1) e (.sign "." :: .ident "first_is_nil" :: .group .paren [] :: ts) =
      rdPost n (.firstIsNil e) ts := by
  simp [rdPost]

/-- The `if` of `->`, after the two `let`s. -/
theorem rdE_flip {n : Nat} (id : Nat) :
    rdE (n + 6) (.ident "if" :: .ident "initial" :: .sign "." :: .ident "first_is_nil" ::
      .group .paren [] :: .group .brace autoSizeText :: .ident "else" :: .group .brace (
        .ident "if" :: selfCall "__flips" id "tas" [] ++
        [.group .brace [.ident "initial"], .ident "else", .group .brace [.ident "continued"]]) :: []) =
    some (.ite (.firstIsNil (.path "initial")) (.autoSize (.var "initial"))
        (.ite (.flipTas id) (.path "initial") (.path "continued")), []) := by
  have hc : ∀ ts, rdE (n + 5) (.ident "initial" :: .sign "." :: .ident "first_is_nil" ::
      .group .paren [] :: .group .brace autoSizeText :: ts) =
      some (.firstIsNil (.path "initial"), .group .brace autoSizeText :: ts) := fun ts => by
    rw [rdE_name (by decide), rdPost_firstIsNil, rdPost_brace]
  have hn : ∀ x, x ∉ rustWords → ∀ k, rdE (k + 2) [.ident x] = some (.path x, []) :=
    fun x hx k => by rw [rdE_name hx, rdPost_nil]
  have ha : isAutoSize autoSizeText = true := by decide
  have ht : ∀ b ts, rdE (n + 4) (selfCall "__flips" id "tas" [] ++ .group .brace b :: ts) =
      some (.flipTas id, .group .brace b :: ts) := fun b ts => by
    rw [rdE_self, if_neg (by decide), if_pos (by decide), rdPost_brace]
  have hi : rdE (n + 5) (.ident "if" :: selfCall "__flips" id "tas" [] ++
      [.group .brace [.ident "initial"], .ident "else", .group .brace [.ident "continued"]]) =
      some (.ite (.flipTas id) (.path "initial") (.path "continued"), []) := by
    rw [List.cons_append]
    unfold rdE
    dsimp only
    rw [if_neg (by decide), if_pos rfl]
    simp only [ht, if_true, hn "continued" (by decide), hn "initial" (by decide)]
    rw [if_neg (by decide)]
    rfl
  unfold rdE
  dsimp only
  rw [if_neg (by decide), if_pos rfl]
  simp only [hc, hi, if_true, ha, likeOf]
  rfl

mutual
/-- The text of an expression is read as its tree. -/
theorem reads : (e : Expr) → FiniteExpr e → Reads uid e
  | .lit l, hf => by
    have hf : FiniteLit l := by simpa only [FiniteExpr] using hf
    have hl := rdLit_text hf
    unfold Reads
    simp only [Expr.text, Expr.quote]
    refine sem (succ_of (k := 2) fun m hm => ?_)
    obtain ⟨j, rfl⟩ : ∃ j, m = j + 2 := ⟨m - 2, by omega⟩
    have : rdE (j + 1) [l.text] = some (.lit l, []) := by
      rcases lit_token hf with ⟨i, s, ht⟩ | ⟨f, ht⟩ | ht | ht <;> rw [ht] at hl ⊢ <;>
        simp [rdE, hl, complete, goesOn]
    simp only [rdMacro, if_true, rdOne, this, Option.map_some]
  | .global x, _ => by
    unfold Reads
    simp only [Expr.text, Expr.quote]
    refine sem (succ_of (k := 3) fun m hm => ?_)
    obtain ⟨j, rfl⟩ : ∃ j, m = j + 3 := ⟨m - 3, by omega⟩
    simp only [rdMacro, if_true, rdOne, rdE_name (globName_words x), rdPost_nil, Option.map_some]
  | .var x dt, _ => by
    unfold Reads
    simp only [Expr.text, Expr.quote]
    refine sem (succ_of (k := 0) fun m hm => ?_)
    unfold rdMacro
    rw [if_neg (by decide), if_pos rfl, rdSelfAgo_text]
    cases dt with
    | zero => simp [Macro.var]
    | succ d => simp [Macro.var]; omega
  | .dummyPre e, hf => by
    simpa only [Reads, Expr.text, Expr.quote] using reads e (by simpa only [FiniteExpr] using hf)
  | .dummyParen e, hf => by
    simpa only [Reads, Expr.text, Expr.quote] using reads e (by simpa only [FiniteExpr] using hf)
  | .tuple es, hf => by
    have hf : FiniteExprs es := by simpa only [FiniteExpr] using hf
    have ht : ∃ k, ∀ n, n ≥ k → rdTuple n (Expr.texts uid es) = some (Expr.quoteList uid es) := by
      cases es with
      | nil => exact ⟨1, fun n hn => by
          obtain ⟨m, rfl, -⟩ := le_succ hn
          simp [rdTuple, Expr.texts, Expr.quoteList]⟩
      | cons e es =>
        simp only [FiniteExprs] at hf
        obtain ⟨k1, h1⟩ := reads e hf.1
        obtain ⟨k2, h2⟩ := readsMore es hf.2
        refine succ_of (k := k1 + k2 + 1) fun m hm => ?_
        have he : Ends (Expr.textMore uid es) := by
          cases es with
          | nil => simpa only [Expr.textMore] using Ends.nil
          | cons e' es => simpa only [Expr.textMore, List.cons_append] using Ends.comma
        have a := h1 m (by omega) _ he
        have hne : Expr.texts uid (e :: es) ≠ [] := by
          intro h0
          simp only [Expr.texts] at h0
          rw [h0] at a
          obtain ⟨j, rfl⟩ : ∃ j, m = j + 1 := ⟨m - 1, by omega⟩
          rw [rdE] at a
          cases a
        simp only [Expr.texts] at hne ⊢
        unfold rdTuple
        split
        · rename_i h0; exact absurd h0 hne
        · simp only [a, h2 m (by omega), Option.map_some, Expr.quoteList]
    obtain ⟨k, hk⟩ := ht
    refine ⟨k + 3, fun n hn rest hr => ?_⟩
    obtain ⟨j, rfl⟩ : ∃ j, n = j + 3 := ⟨n - 3, by omega⟩
    simp only [Expr.text, Expr.quote, List.cons_append, List.nil_append]
    rw [rdE]
    simp only [hk (j + 2) (by omega)]
    rw [rdPost_embed, rdPost_end hr]
  | .bin op l r, hf => by
    simp only [FiniteExpr] at hf
    obtain ⟨k, hk⟩ := two (reads l hf.1) (reads r hf.2)
    unfold Reads
    simp only [Expr.text, Expr.quote]
    refine sem (succ_of (k := k) fun m hm => ?_)
    unfold rdMacro
    rw [if_neg (by decide), if_neg (by decide), if_pos rfl]
    simp only [List.cons_append, if_true, binOp_text, hk m hm]
  | .un op e, hf => by
    simp only [FiniteExpr] at hf
    obtain ⟨k, hk⟩ := one (reads e hf)
    unfold Reads
    simp only [Expr.text, Expr.quote]
    refine sem (succ_of (k := k) fun m hm => ?_)
    unfold rdMacro
    rw [if_neg (by decide), if_neg (by decide), if_neg (by decide), if_pos rfl]
    simp only [if_true, unOp_text, hk m hm]
  | .cmp op l r, hf => by
    simp only [FiniteExpr] at hf
    obtain ⟨k, hk⟩ := two (reads l hf.1) (reads r hf.2)
    unfold Reads
    simp only [Expr.text, Expr.quote]
    refine sem (succ_of (k := k) fun m hm => ?_)
    unfold rdMacro
    rw [if_neg (by decide), if_neg (by decide), if_neg (by decide), if_neg (by decide), if_pos rfl]
    simp only [List.cons_append, if_true, cmpSign_text, hk m hm]
  | .later d l r, hf => by
    simp only [FiniteExpr] at hf
    obtain ⟨k, hk⟩ := two (reads l hf.1) (reads r hf.2)
    unfold Reads
    simp only [Expr.text, Expr.quote]
    refine sem (succ_of (k := k) fun m hm => ?_)
    unfold rdMacro
    rw [if_neg (by decide), if_neg (by decide), if_neg (by decide), if_neg (by decide),
      if_neg (by decide), if_pos rfl, List.append_assoc, rdSelfAgo_text]
    simp only [hk m hm, Option.map_some, Int.toNat_natCast]
  | .ifx c y z, hf => by
    simp only [FiniteExpr] at hf
    obtain ⟨k1, h1⟩ := one (reads c hf.1)
    obtain ⟨k2, h2⟩ := one (reads y hf.2.1)
    obtain ⟨k3, h3⟩ := one (reads z hf.2.2)
    unfold Reads
    simp only [Expr.text, Expr.quote]
    refine sem (succ_of (k := k1 + k2 + k3) fun m hm => ?_)
    unfold rdMacro
    rw [if_neg (by decide), if_neg (by decide), if_neg (by decide), if_neg (by decide),
      if_neg (by decide), if_neg (by decide), if_pos rfl]
    simp only [true_and, if_true, h1 m (by omega), h2 m (by omega), h3 m (by omega)]
  | .substep d id e, hf => by
    simp only [FiniteExpr] at hf
    obtain ⟨k, hk⟩ := one (reads e hf)
    unfold Reads
    simp only [Expr.text, Expr.quote]
    refine sem (succ_of (k := k) fun m hm => ?_)
    unfold rdMacro
    rw [if_neg (by decide), if_neg (by decide), if_neg (by decide), if_neg (by decide),
      if_neg (by decide), if_neg (by decide), if_neg (by decide), if_pos rfl, rdSelfAgo_text]
    simp only [true_and, if_true, hk m hm, Option.map_some, Int.toNat_natCast]
    rw [if_neg (by rintro ⟨-, h⟩; exact absurd h (by decide))]
  | .merge b l r, hf => by
    simp only [FiniteExpr] at hf
    obtain ⟨k1, h1⟩ := reads b hf.1
    obtain ⟨k, hk⟩ := two (reads l hf.2.1) (reads r hf.2.2)
    unfold Reads
    simp only [Expr.text, Expr.quote]
    refine sem (succ_of (k := k1 + k) fun m hm => ?_)
    unfold rdMacro
    rw [if_neg (by decide), if_neg (by decide), if_neg (by decide), if_neg (by decide),
      if_neg (by decide), if_neg (by decide), if_neg (by decide), if_neg (by decide), if_pos rfl]
    simp only [List.append_assoc, List.cons_append, h1 m (by omega) _ .semi, if_true,
      hk m (by omega), Option.map_some]
  | .clock op e b, hf => by
    simp only [FiniteExpr] at hf
    obtain ⟨k1, h1⟩ := reads b hf.2
    obtain ⟨k, hk⟩ := one (reads e hf.1)
    unfold Reads
    cases op with
    | when =>
      simp only [Expr.text, Expr.quote]
      refine sem (succ_of (k := k1 + k) fun m hm => ?_)
      unfold rdMacro
      rw [if_neg (by decide), if_neg (by decide), if_neg (by decide), if_neg (by decide),
        if_neg (by decide), if_neg (by decide), if_neg (by decide), if_neg (by decide),
        if_neg (by decide), if_pos rfl]
      simp only [h1 m (by omega) _ .semi, if_true, hk m (by omega), Option.map_some]
    | whenot =>
      simp only [Expr.text, Expr.quote]
      refine sem (succ_of (k := k1 + k) fun m hm => ?_)
      unfold rdMacro
      rw [if_neg (by decide), if_neg (by decide), if_neg (by decide), if_neg (by decide),
        if_neg (by decide), if_neg (by decide), if_neg (by decide), if_neg (by decide),
        if_neg (by decide), if_neg (by decide), if_pos rfl]
      simp only [h1 m (by omega) _ .semi, if_true, hk m (by omega), Option.map_some]
  | .fetchPre id _, _ => ⟨2, fun n hn rest hr => by
      obtain ⟨j, rfl⟩ : ∃ j, n = j + 2 := ⟨n - 2, by omega⟩
      simp only [Expr.text, Expr.quote, rdE_self, true_and, if_true]
      exact rdPost_end hr⟩
  | .fetchFby id _ _, _ => ⟨2, fun n hn rest hr => by
      obtain ⟨j, rfl⟩ : ∃ j, n = j + 2 := ⟨n - 2, by omega⟩
      simp only [Expr.text, Expr.quote, rdE_self, true_and, if_true]
      exact rdPost_end hr⟩
  | .flip id i c, hf => by
    simp only [FiniteExpr] at hf
    obtain ⟨k1, h1⟩ := reads i hf.1
    obtain ⟨k2, h2⟩ := reads c hf.2
    refine ⟨k1 + k2 + 12, fun n hn rest hr => ?_⟩
    obtain ⟨j, rfl⟩ : ∃ j, n = j + 12 := ⟨n - 12, by omega⟩
    have hb : ∀ m, rdBlock (m + 7) (.ident "if" :: .ident "initial" :: .sign "." ::
        .ident "first_is_nil" :: .group .paren [] :: .group .brace autoSizeText :: .ident "else" ::
        .group .brace (.ident "if" :: selfCall "__flips" id "tas" [] ++
        [.group .brace [.ident "initial"], .ident "else", .group .brace [.ident "continued"]]) :: []) =
        some (.value (.ite (.firstIsNil (.path "initial")) (.autoSize (.var "initial"))
          (.ite (.flipTas id) (.path "initial") (.path "continued")))) := fun m => by
      unfold rdBlock
      dsimp only
      rw [if_neg (by decide), if_neg (by decide), rdE_flip]
    have hu : ∀ m ts, rdBlock (m + 1) (.ident "use" :: .sign "::" :: .ident "chandeliers_sem" ::
        .sign "::" :: .ident "nillable" :: .sign "::" :: .ident "FirstIsNil" :: .sign ";" :: ts) =
        rdBlock m ts := fun m ts => by
      simp [rdBlock, skipUse]
    have hl : ∀ m x e r ts, x ∉ rustWords → rdE m ts = some (e, .sign ";" :: r) →
        rdBlock (m + 1) (.ident "let" :: .ident x :: .sign "=" :: ts) =
          (rdBlock m r).map (.bind x e) := fun m x e r ts hx he => by
      simp [rdBlock, hx, he]
    simp only [Expr.text, Expr.quote, List.cons_append, List.nil_append, List.append_assoc]
    rw [rdE]
    rw [hl (j + 10) "initial" _ _ _ (by decide) (h1 (j + 10) (by omega) _ .semi),
      hl (j + 9) "continued" _ _ _ (by decide) (h2 (j + 9) (by omega) _ .semi), hu]
    have := hb (j + 1)
    simp only [List.cons_append] at this
    rw [this]
    simp only [Option.map_some]
    exact rdPost_end hr
/-- The components of a tuple after the first one. -/
theorem readsMore : (es : List Expr) → FiniteExprs es →
    ∃ k, ∀ n, n ≥ k → rdTupleMore n (Expr.textMore uid es) = some (Expr.quoteList uid es)
  | [], _ => ⟨1, fun n hn => by
      obtain ⟨m, rfl, -⟩ := le_succ hn
      simp [rdTupleMore, Expr.textMore, Expr.quoteList]⟩
  | e :: es, hf => by
    simp only [FiniteExprs] at hf
    obtain ⟨k1, h1⟩ := reads e hf.1
    obtain ⟨k2, h2⟩ := readsMore es hf.2
    refine succ_of (k := k1 + k2) fun m hm => ?_
    have he : Ends (Expr.textMore uid es) := by
      cases es with
      | nil => simpa only [Expr.textMore] using Ends.nil
      | cons e' es => simpa only [Expr.textMore, List.cons_append] using Ends.comma
    simp only [Expr.textMore, List.cons_append, rdTupleMore, if_true, h1 m (by omega) _ he,
      h2 m (by omega), Option.map_some, Expr.quoteList]
end

end Chandeliers.Txt
