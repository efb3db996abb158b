import Verif.Lemmas.ReadExpr

/-! Reading back the text of methods. -/

set_option autoImplicit false

namespace Chandeliers.Txt
open San Spec Quo

variable {uid : Nat}

/-- More statements at the beginning of a body. -/
def befores (sts : List RStmt) (f : RFn) : RFn := ⟨sts ++ f.stmts, f.value⟩

theorem befores_nil (f : RFn) : befores [] f = f := rfl

theorem befores_append (a b : List RStmt) (f : RFn) :
    befores (a ++ b) f = befores a (befores b f) := by simp [befores]

theorem str_step {ts : List RTok} {f : RFn} (h : ReadsFn ts f) :
    ReadsFn (.str :: .sign ";" :: ts) f := by
  obtain ⟨k, hk⟩ := h
  exact succ_of (k := k) fun m hm => by simp only [rdFn, if_true, hk m hm]

theorem use_step {ts : List RTok} {f : RFn} (h : ReadsFn ts f) : ReadsFn (useTraits ++ ts) f := by
  obtain ⟨k, hk⟩ := h
  exact succ_of (k := k) fun m hm => by simp [useTraits, rdFn, skipUse, hk m hm]

theorem macro_step {m : String} {args ts : List RTok} {st : RStmt} {f : RFn}
    (h : ∃ k, ∀ n, n ≥ k → rdMacroStmt n m args = some st) (hf : ReadsFn ts f) :
    ReadsFn (semMacro m args ++ .sign ";" :: ts) (befores [st] f) := by
  obtain ⟨k1, h1⟩ := h
  obtain ⟨k2, h2⟩ := hf
  refine succ_of (k := k1 + k2) fun j hj => ?_
  obtain ⟨a, b⟩ := rdSem_text m args (.sign ";" :: ts)
  rw [a]
  simp only [rdFn, b, true_and, if_true, h1 j (by omega), h2 j (by omega), Option.map_some]
  rfl

theorem reg_step {id : Nat} {m : String} {args ts : List RTok} {st : RStmt} {f : RFn}
    (h : ∃ k, ∀ n, n ≥ k → rdRegStmt n id m args = some st) (hf : ReadsFn ts f) :
    ReadsFn (selfCall "__regs" id m args ++ .sign ";" :: ts) (befores [st] f) := by
  obtain ⟨k1, h1⟩ := h
  obtain ⟨k2, h2⟩ := hf
  refine succ_of (k := k1 + k2) fun j hj => ?_
  simp [selfCall, rdFn, rdSelfCall, h1 j (by omega), h2 j (by omega)]
  rfl

theorem let_step {pt et ts : List RTok} {p : RBind} {e : RExpr} {f : RFn}
    (hp : ∃ k, ∀ n, n ≥ k → ∀ rest, rdPat n (pt ++ rest) = some (p, rest))
    (he : ∃ k, ∀ n, n ≥ k → rdE n (et ++ .sign ";" :: ts) = some (e, .sign ";" :: ts))
    (hf : ReadsFn ts f) :
    ReadsFn (.ident "let" :: pt ++ .sign "=" :: et ++ .sign ";" :: ts)
      (befores [.bind p e] f) := by
  obtain ⟨k1, h1⟩ := hp
  obtain ⟨k2, h2⟩ := he
  obtain ⟨k3, h3⟩ := hf
  refine succ_of (k := k1 + k2 + k3) fun j hj => ?_
  simp only [List.cons_append, List.append_assoc]
  unfold rdFn
  dsimp only
  rw [if_neg (by decide), if_pos rfl]
  simp only [h1 j (by omega), if_true, h2 j (by omega), h3 j (by omega), Option.map_some]
  rfl

mutual
/-- The text of a target is read as its pattern. -/
theorem readsPat : (p : VarTuple) →
    ∃ k, ∀ n, n ≥ k → ∀ rest, rdPat n (p.text ++ rest) = some (p.quote, rest)
  | .single x => ⟨1, fun n hn rest => by
      obtain ⟨m, rfl, -⟩ := le_succ hn
      have := locName_words x
      simp [VarTuple.text, VarTuple.quote, rdPat, this, not_word this (w := "_") (by decide)]⟩
  | .multiple [] => ⟨1, fun n hn rest => by
      obtain ⟨m, rfl, -⟩ := le_succ hn
      simp [VarTuple.text, VarTuple.quote, rdPat]⟩
  | .multiple (p :: ps) => by
    obtain ⟨k1, h1⟩ := readsPat p
    obtain ⟨k2, h2⟩ := readsPats ps
    refine ⟨k1 + k2 + 2, fun n hn rest => ?_⟩
    obtain ⟨m, rfl⟩ : ∃ m, n = m + 2 := ⟨n - 2, by omega⟩
    have a := h1 (m + 1) (by omega) (VarTuple.textMore ps)
    have hne : p.text ++ VarTuple.textMore ps ≠ [] := fun h0 => by
      rw [h0, rdPat] at a
      · cases a
      all_goals intros; simp_all
    simp only [VarTuple.text, VarTuple.quote, List.cons_append, List.nil_append]
    unfold rdPat
    dsimp only
    split
    · rename_i h0; exact absurd h0 hne
    · simp only [a, h2 (m + 1) (by omega), Option.map_some]
/-- The components of a target after the first one. -/
theorem readsPats : (ps : List VarTuple) →
    ∃ k, ∀ n, n ≥ k → rdPats n (VarTuple.textMore ps) = some (VarTuple.quoteList ps)
  | [] => ⟨1, fun n hn => by
      obtain ⟨m, rfl, -⟩ := le_succ hn
      simp [VarTuple.textMore, VarTuple.quoteList, rdPats]⟩
  | p :: ps => by
    obtain ⟨k1, h1⟩ := readsPat p
    obtain ⟨k2, h2⟩ := readsPats ps
    refine succ_of (k := k1 + k2) fun m hm => ?_
    simp only [VarTuple.textMore, VarTuple.quoteList, List.cons_append, rdPats, if_true,
      h1 m (by omega), h2 m (by omega), Option.map_some]
end

/-- A statement, before a body. -/
theorem readsStmt {s : Stmt} (h : FiniteStmt s) (hi : ∀ id v, s ≠ .initRegister id v none)
    {ts : List RTok} {f : RFn} (hf : ReadsFn ts f) :
    ReadsFn (s.text uid ++ ts) (befores (s.quote uid) f) := by
  cases s with
  | let_ p e =>
    obtain ⟨k, hk⟩ := reads (uid := uid) e h
    have := str_step (let_step (readsPat p) (et := e.text uid) ⟨k, fun n hn => hk n hn _ .semi⟩ hf)
    simpa [Stmt.text, Stmt.quote] using this
  | assert e =>
    obtain ⟨k, hk⟩ := reads (uid := uid) e h
    have hm : ∃ k, ∀ n, n ≥ k → rdMacroStmt n "truth" (e.text uid ++ [.sign ",", .str]) =
        some (Macro.truth (e.quote uid)) := ⟨k, fun n hn => by
      unfold rdMacroStmt
      rw [if_neg (by decide), if_neg (by decide), if_neg (by decide), if_pos rfl,
        hk n hn _ .comma]
      rfl⟩
    have := str_step (macro_step hm hf)
    simpa [Stmt.text, Stmt.quote] using this
  | updateRegister id e =>
    obtain ⟨k, hk⟩ := one (reads (uid := uid) e h)
    have hm : ∃ k, ∀ n, n ≥ k → rdRegStmt n id "schedule" (e.text uid) =
        some (.schedule id (e.quote uid)) := ⟨k, fun n hn => by simp [rdRegStmt, hk n hn]⟩
    have := reg_step hm hf
    simpa [Stmt.text, Stmt.quote] using this
  | initRegister id v c =>
    cases c with
    | none => exact absurd rfl (hi id v)
    | some c =>
      obtain ⟨k, hk⟩ := one (reads (uid := uid) c (h.2 c rfl))
      have hm : ∃ k, ∀ n, n ≥ k → rdRegStmt n id "with_clock" (c.text uid) =
          some (.withClock id (c.quote uid)) := ⟨k, fun n hn => by simp [rdRegStmt, hk n hn]⟩
      cases v with
      | none =>
        have := reg_step hm hf
        simpa [Stmt.text, Stmt.quote] using this
      | some v =>
        obtain ⟨k', hk'⟩ := one (reads (uid := uid) v (h.1 v rfl))
        have hm' : ∃ k, ∀ n, n ≥ k → rdRegStmt n id "try_initialize" (v.text uid) =
            some (.tryInitialize id (v.quote uid)) :=
          ⟨k', fun n hn => by simp [rdRegStmt, hk' n hn]⟩
        have := reg_step hm (reg_step hm' hf)
        simpa [Stmt.text, Stmt.quote, ← befores_append] using this

/-- Several pieces of text, each with its statements, before a body. -/
theorem steps {α : Type} {text : α → List RTok} {stmts : α → List RStmt} :
    (xs : List α) → (∀ x ∈ xs, ∀ ts f, ReadsFn ts f → ReadsFn (text x ++ ts) (befores (stmts x) f)) →
    ∀ {ts : List RTok} {f : RFn}, ReadsFn ts f →
      ReadsFn (xs.flatMap text ++ ts) (befores (xs.flatMap stmts) f)
  | [], _, _, _, hf => by simpa [befores_nil] using hf
  | x :: xs, h, ts, f, hf => by
    have := h x (by simp) _ _ (steps xs (fun y hy => h y (by simp [hy])) hf)
    simpa [befores_append] using this

theorem namesText_cons (x : String) (xs : List String) :
    namesText (x :: xs) = .ident x :: xs.flatMap fun y => [.sign ",", .ident y] := by
  induction xs generalizing x with
  | nil => rfl
  | cons y ys ih => simp [namesText, ih]

theorem rdE_names (xs : List String) (h : ∀ x ∈ xs, x ∉ rustWords) :
    ∃ k, ∀ n, n ≥ k → rdTupleMore n (xs.flatMap fun y => [.sign ",", .ident y]) =
      some (xs.foldr (fun x es => .cons (.path x) es) .nil) := by
  induction xs with
  | nil => exact succ_of (k := 0) fun m hm => by simp [rdTupleMore]
  | cons x xs ih =>
    obtain ⟨k, hk⟩ := ih fun y hy => h y (by simp [hy])
    refine succ_of (k := k + 2) fun m hm => ?_
    obtain ⟨j, rfl⟩ : ∃ j, m = j + 2 := ⟨m - 2, by omega⟩
    have he : Ends (xs.flatMap fun y => [RTok.sign ",", .ident y]) := by
      cases xs with
      | nil => exact .nil
      | cons y ys => exact .comma
    simp only [List.flatMap_cons, List.cons_append, List.nil_append]
    unfold rdTupleMore
    simp only [if_true, rdE_name (h x (by simp)), rdPost_end he, hk (j + 2) (by omega),
      Option.map_some, List.foldr_cons]

theorem rdTuple_names (xs : List String) (h : ∀ x ∈ xs, x ∉ rustWords) :
    ∃ k, ∀ n, n ≥ k → rdTuple n (namesText xs) =
      some (xs.foldr (fun x es => .cons (.path x) es) .nil) := by
  cases xs with
  | nil => exact succ_of (k := 0) fun m hm => by simp [rdTuple, namesText]
  | cons x xs =>
    obtain ⟨k, hk⟩ := rdE_names xs fun y hy => h y (by simp [hy])
    refine succ_of (k := k + 2) fun m hm => ?_
    obtain ⟨j, rfl⟩ : ∃ j, m = j + 2 := ⟨m - 2, by omega⟩
    have he : Ends (xs.flatMap fun y => [RTok.sign ",", .ident y]) := by
      cases xs with
      | nil => exact .nil
      | cons y ys => exact .comma
    rw [namesText_cons]
    simp only [rdTuple, rdE_name (h x (by simp)), rdPost_end he, hk (j + 2) (by omega),
      Option.map_some, List.foldr_cons]

theorem rdPats_names (xs : List String) (h : ∀ x ∈ xs, x ∉ rustWords) :
    ∃ k, ∀ n, n ≥ k → rdPats n (xs.flatMap fun y => [.sign ",", .ident y]) =
      some (xs.map .ident) := by
  induction xs with
  | nil => exact succ_of (k := 0) fun m hm => by simp [rdPats]
  | cons x xs ih =>
    obtain ⟨k, hk⟩ := ih fun y hy => h y (by simp [hy])
    refine succ_of (k := k + 1) fun m hm => ?_
    obtain ⟨j, rfl⟩ : ∃ j, m = j + 1 := ⟨m - 1, by omega⟩
    have hx := h x (by simp)
    simp only [List.flatMap_cons, List.cons_append, List.nil_append]
    unfold rdPats
    simp only [if_true, rdPat, if_neg (not_word hx (w := "_") (by decide)), if_neg hx,
      hk (j + 1) (by omega), Option.map_some, List.map_cons]

theorem locNames_words (vs : List TyVar) : ∀ x ∈ vs.map (fun v => locName v.name), x ∉ rustWords := by
  intro x hx
  obtain ⟨v, -, rfl⟩ := List.mem_map.1 hx
  exact locName_words v.name

/-- The target of the inputs or of the outputs. -/
theorem readsTarget (vs : List TyVar) :
    ∃ k, ∀ n, n ≥ k → ∀ rest, rdPat n (targetText vs ++ rest) = some (asAssignmentTarget vs, rest) := by
  match vs with
  | [] => exact readsPat (.multiple [])
  | [v] => exact readsPat (.single v.name)
  | v :: v' :: vs =>
    obtain ⟨k, hk⟩ := rdPats_names _ (locNames_words (v' :: vs))
    refine ⟨k + 2, fun n hn rest => ?_⟩
    obtain ⟨j, rfl⟩ : ∃ j, n = j + 2 := ⟨n - 2, by omega⟩
    have hx := locName_words v.name
    have := hk (j + 1) (by omega)
    simp only [targetText, valuesText, List.map_cons, namesText_cons, List.cons_append,
      List.nil_append, asAssignmentTarget, rdPat, if_neg (not_word hx (w := "_") (by decide)),
      if_neg hx]
    simp only [List.map_cons] at this
    rw [this]
    simp

theorem asValues_tuple {vs : List TyVar} (h : vs.length ≠ 1) :
    asValues vs = .tuple ((vs.map fun v => locName v.name).foldr (fun x es => .cons (.path x) es) .nil) ∧
      valuesText vs = [.group .paren (namesText (vs.map fun v => locName v.name))] := by
  match vs with
  | [] => exact ⟨rfl, rfl⟩
  | [v] => exact absurd rfl h
  | v :: v' :: vs =>
    refine ⟨?_, rfl⟩
    rw [List.foldr_map]
    rfl

/-- The value of a body. -/
theorem readsValue (vs : List TyVar) :
    ReadsFn (valuesText vs ++ [.sign ".", .ident "embed", .group .paren []])
      ⟨[], .embed (asValues vs)⟩ := by
  by_cases h : vs.length = 1
  · obtain ⟨v, rfl⟩ := List.length_eq_one_iff.1 h
    refine ⟨4, fun n hn => ?_⟩
    obtain ⟨j, rfl⟩ : ∃ j, n = j + 4 := ⟨n - 4, by omega⟩
    have hx := locName_words v.name
    simp only [valuesText, asValues, List.cons_append, List.nil_append]
    unfold rdFn
    dsimp only
    rw [if_neg (not_word hx (by decide)), if_neg (not_word hx (by decide)),
      if_neg (not_word hx (by decide)), rdE_name hx, rdPost_embed, rdPost_nil]
  · obtain ⟨h1, h2⟩ := asValues_tuple h
    obtain ⟨k, hk⟩ := rdTuple_names _ (locNames_words vs)
    rw [h1, h2]
    refine ⟨k + 4, fun n hn => ?_⟩
    obtain ⟨j, rfl⟩ : ∃ j, n = j + 4 := ⟨n - 4, by omega⟩
    simp only [List.cons_append, List.nil_append]
    unfold rdFn
    dsimp only
    unfold rdE
    dsimp only
    rw [hk (j + 2) (by omega)]
    dsimp only
    rw [rdPost_embed, rdPost_nil]

theorem readsUpdate (x : String) {ts : List RTok} {f : RFn} (hf : ReadsFn ts f) :
    ReadsFn (updateText x ++ ts) (befores [Macro.update (locName x)] f) := by
  have hm : ∃ k, ∀ n, n ≥ k → rdMacroStmt n "update" [.ident "self", .sign ",", .ident (locName x)] =
      some (Macro.update (locName x)) := ⟨0, fun n _ => by
    have := locName_words x
    simp [rdMacroStmt, this]⟩
  have := macro_step hm hf
  simpa [updateText] using this

theorem readsInputs {ts : List RTok} : ∃ k, ∀ n, n ≥ k →
    rdE n ([.ident "inputs"] ++ .sign ";" :: ts) = some (.path "inputs", .sign ";" :: ts) :=
  ⟨2, fun n hn => by
    obtain ⟨j, rfl⟩ : ∃ j, n = j + 2 := ⟨n - 2, by omega⟩
    simp only [List.cons_append, List.nil_append]
    rw [rdE_name (by decide), rdPost_end .semi]⟩

theorem readsClock : ∃ k, ∀ n, n ≥ k → rdMacroStmt n "implicit_clock" [.ident "inputs"] =
    some (Macro.implicitClock (.path "inputs")) :=
  ⟨3, fun n hn => by
    obtain ⟨j, rfl⟩ : ∃ j, n = j + 3 := ⟨n - 3, by omega⟩
    unfold rdMacroStmt
    rw [if_pos rfl, rdOne, rdE_name (by decide), rdPost_nil]
    rfl⟩

theorem readsTick : ∃ k, ∀ n, n ≥ k → rdMacroStmt n "tick" [.ident "self"] = some Macro.tick :=
  ⟨0, fun n _ => by simp [rdMacroStmt]⟩

/-- The text of the method `step` of a node is read as its tree. -/
theorem readsNode {n : Node} (h : ∀ s ∈ n.stmts, FiniteStmt s)
    (hi : ∀ s ∈ n.stmts, ∀ id v, s ≠ .initRegister id v none) :
    ReadsFn (n.text uid) (n.quote uid) := by
  have r0 := str_step (str_step (readsValue n.outputs))
  have r1 := steps (text := fun id => selfCall "__regs" id "commit" [] ++ [.sign ";"])
    (stmts := fun id => [.commit id]) (List.range n.registers.length) (fun id _ ts f hf => by
      have hm : ∃ k, ∀ n, n ≥ k → rdRegStmt n id "commit" [] = some (.commit id) :=
        ⟨0, fun n _ => by simp [rdRegStmt]⟩
      simpa using reg_step hm hf) r0
  have upd : ∀ xs : List String, ∀ {ts f}, ReadsFn ts f → ReadsFn (xs.flatMap updateText ++ ts)
      (befores (xs.flatMap fun x => [Macro.update (locName x)]) f) := fun xs ts f hf =>
    steps xs (fun x _ ts f hf => readsUpdate x hf) hf
  have r2 := macro_step readsTick
    (upd (posNames n.inputs) (upd (posNames n.outputs) (upd (posNames n.locals) r1)))
  have r3 := steps (text := Stmt.text uid) (stmts := Stmt.quote uid) n.stmts
    (fun s hs ts f hf => readsStmt (h s hs) (hi s hs) hf) (str_step (str_step r2))
  have r4 := let_step (readsTarget n.inputs) (readsInputs (ts := _)) (str_step r3)
  have r5 := use_step (macro_step readsClock (str_step r4))
  have e1 : ∀ xs : List String, (xs.flatMap fun x => [Macro.update (locName x)]) =
      xs.map fun x => Macro.update (locName x) := fun xs => by
    induction xs with
    | nil => rfl
    | cons x xs ih => simp [ih]
  have e2 : ∀ xs : List Nat, (xs.flatMap fun id => [RStmt.commit id]) = xs.map .commit := fun xs => by
    induction xs with
    | nil => rfl
    | cons x xs ih => simp [ih]
  simpa [Node.text, Node.quote, befores, e1, e2] using r5

theorem readsStep {ts : List RTok} (h : Ends ts) : ∃ k, ∀ n, n ≥ k →
    rdE n ([.ident "self", .sign ".", .ident "inner", .sign ".", .ident "step",
      .group .paren [.ident "inputs"]] ++ ts) = some (.step 0 (.path "inputs"), ts) :=
  ⟨4, fun n hn => by
    obtain ⟨j, rfl⟩ : ∃ j, n = j + 4 := ⟨n - 4, by omega⟩
    simp only [List.cons_append, List.nil_append]
    unfold rdE
    dsimp only
    rw [if_pos rfl, if_pos (by decide), rdE_name (by decide), rdPost_nil]
    dsimp only
    exact rdPost_end h⟩

/-- The text of the method `step` of an exported struct is read as its tree. -/
theorem readsExport : ReadsFn exportText exportQuote := by
  have hv : ReadsFn [.ident "self", .sign ".", .ident "inner", .sign ".", .ident "step",
      .group .paren [.ident "inputs"]] ⟨[], .step 0 (.path "inputs")⟩ := by
    obtain ⟨k, hk⟩ := readsStep .nil
    refine succ_of (k := k) fun m hm => ?_
    have := hk m hm
    rw [List.append_nil] at this
    simp [rdFn, rdSelfCall, this]
  exact macro_step readsClock hv

/-- The text of the method `step` of the struct of an `extern node` is read as its tree. -/
theorem readsExtern (ins outs : List TyVar) :
    ReadsFn (externText ins outs) (externQuote ins outs) := by
  have r1 := macro_step readsTick (readsValue outs)
  have r2 := let_step (readsTarget outs) (readsStep .semi) r1
  have r3 := let_step (readsTarget ins) (readsInputs (ts := _)) r2
  have r4 := use_step (macro_step readsClock r3)
  simpa [externText, externQuote, befores] using r4

end Chandeliers.Txt
