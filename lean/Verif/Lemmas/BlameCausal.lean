import Verif.Lemmas.BlameProg

/-!
# Messages about definitions
-/

set_option autoImplicit false

namespace Chandeliers.Tell
open Chandeliers.San Chandeliers.Spec Chandeliers.Err Chandeliers.Den

theorem path_mono {α : Type} {R S : α → α → Prop} (h : ∀ a b, R a b → (∃ c, R b c) → S a b)
    {u w : α} (hp : Relation.ReflTransGen R u w) (hw : ∃ c, R w c) : Relation.ReflTransGen S u w := by
  induction hp using Relation.ReflTransGen.head_induction_on with
  | refl => exact .refl
  | @head a b hab hbw ih =>
    refine .head (h a b hab ?_) ih
    rcases Relation.ReflTransGen.cases_head hbw with rfl | ⟨c, hc, -⟩
    · exact hw
    · exact ⟨c, hc⟩

theorem cycle_mono {α : Type} {R S : α → α → Prop} (h : ∀ a b, R a b → (∃ c, R b c) → S a b)
    {us : List α} (hl : 2 ≤ us.length) (hn : us.Nodup)
    (hc : ∀ u ∈ us, ∀ w ∈ us, Relation.ReflTransGen R u w) :
    ∀ u ∈ us, ∀ w ∈ us, Relation.ReflTransGen S u w := by
  intro u hu w hw
  refine path_mono h (hc u hu w hw) ?_
  obtain ⟨v, hv, hne⟩ : ∃ v ∈ us, v ≠ w := by
    by_contra hno
    push Not at hno
    match us, hl, hn, hno with
    | a :: b :: us, _, hn, hno =>
      have h1 := hno a (by simp)
      have h2 := hno b (by simp)
      simp [h1, h2] at hn
  rcases Relation.ReflTransGen.cases_head (hc w hw v hv) with e | ⟨c, hc, -⟩
  · exact absurd e.symm hne
  · exact ⟨c, hc⟩

theorem count_assigned (x : String) : (sts : List Stmt) →
    (sts.flatMap Depends.provides : List Reference).count (.localVarName x) = (assigned sts).count x
  | [] => by simp [assigned]
  | st :: sts => by
    have ih := count_assigned x sts
    rw [List.flatMap_cons, List.count_append, ih]
    cases st with
    | let_ v e =>
      simp only [assigned, List.count_append, Depends.provides, Stmt.provides]
      congr 1
      induction v.vars with
      | nil => rfl
      | cons y ys ih =>
        rw [List.map_cons, List.count_cons, List.count_cons, ih]
        simp
    | assert e => simp [assigned, Depends.provides, Stmt.provides]
    | updateRegister id e => simp [assigned, Depends.provides, Stmt.provides]
    | initRegister id e k => simp [assigned, Depends.provides, Stmt.provides]

theorem count_initialised (id : Nat) : (sts : List Stmt) →
    (sts.flatMap Depends.provides : List Reference).count (.initRegister id) = (initialised sts).count id
  | [] => by simp [initialised]
  | st :: sts => by
    have ih := count_initialised id sts
    rw [List.flatMap_cons, List.count_append, ih]
    cases st with
    | let_ v e =>
      simp only [initialised, Depends.provides, Stmt.provides]
      have : List.count (Reference.initRegister id) (v.vars.map .localVarName) = 0 :=
        List.count_eq_zero.2 (by simp)
      omega
    | assert e => simp [initialised, Depends.provides, Stmt.provides]
    | updateRegister id e => simp [initialised, Depends.provides, Stmt.provides]
    | initRegister i e k =>
      simp only [initialised, Depends.provides, Stmt.provides, List.count_cons, List.count_nil]
      by_cases h : i = id
      · subst h; simp; omega
      · simp [h]

theorem uses_of_needs {sts : List Stmt} {u w : Reference} (h : Needs sts u w)
    (hw : ∃ c, Needs sts w c) : Uses sts u w := by
  rcases Props.needs_iff_uses.1 h with h | ⟨⟨id, rfl⟩, -⟩
  · exact h
  · obtain ⟨c, st, -, h2, -⟩ := hw
    have := stmt_provides.1 h2
    cases this

theorem causality_error {n : Node} {e : GErr Reference} (h : n.causality = .error e) :
    schedule (n.inputs.map (fun v => Reference.localVarName v.name)) n.stmts
      (n.locals.map (fun v => Reference.localVarName v.name) ++
        n.outputs.map (fun v => Reference.localVarName v.name)) = .error e := by
  unfold Node.causality at h
  cases hs : schedule (n.inputs.map (fun v => Reference.localVarName v.name)) n.stmts
    (n.locals.map (fun v => Reference.localVarName v.name) ++
      n.outputs.map (fun v => Reference.localVarName v.name)) with
  | error e' => simp [hs, Bind.bind, Except.bind] at h; rw [h]
  | ok s => simp [hs, Bind.bind, Except.bind, Pure.pure, Except.pure] at h

theorem node_causal {n : Node} (hi : (initialised n.stmts).Nodup) {e : GErr Reference}
    (h : n.causality = .error e) : NodeCausalBlame n e := by
  have ht := Props.C24_error_truthful (causality_error h)
  cases e with
  | undeclared u =>
    obtain ⟨h1, h2⟩ := ht
    rw [← List.map_append] at h1
    obtain ⟨v, hv, rfl⟩ := List.mem_map.1 h1
    refine .undefined (by simpa [or_comm] using hv) fun hx => ?_
    obtain ⟨st, h3, h4⟩ := Props.mem_assigned.1 hx
    exact h2 st h3 h4
  | providedByContext u =>
    obtain ⟨h1, st, h2, h3⟩ := ht
    obtain ⟨v, hv, rfl⟩ := List.mem_map.1 h1
    exact .input hv (Props.mem_assigned.2 ⟨st, h2, h3⟩)
  | declTwice u =>
    have ht : 2 ≤ (n.stmts.flatMap Depends.provides : List Reference).count u := ht
    have hm : u ∈ (n.stmts.flatMap Depends.provides : List Reference) :=
      List.count_pos_iff.1 (by omega)
    obtain ⟨st, -, hu⟩ := List.mem_flatMap.1 hm
    cases stmt_provides.1 hu with
    | @local_ _ _ x _ =>
      rw [count_assigned] at ht
      exact .twice (List.duplicate_iff_two_le_count.2 ht)
    | @register id _ _ =>
      rw [count_initialised] at ht
      have := List.nodup_iff_count_le_one.1 hi id
      omega
  | dependsOnItself u =>
    obtain ⟨st, h1, h2, h3⟩ := ht
    have hn : Needs n.stmts u u := ⟨st, h1, h2, h3⟩
    exact .itself (uses_of_needs hn ⟨u, hn⟩)
  | cycle us =>
    obtain ⟨h1, h2, h3, h4⟩ := ht
    have up : ∀ a b, Uses n.stmts a b → Needs n.stmts a b :=
      fun a b h => Props.needs_iff_uses.2 (.inl h)
    exact .cycle h1 h2 (cycle_mono (fun a b h h' => uses_of_needs h h') h1 h2 h3)
      fun r hr r' k k' => h4 r hr r' (Relation.TransGen.mono up _ _ k)
        (Relation.TransGen.mono up _ _ k')
  | abort => exact ht.elim
  | fuel => exact ht.elim

/-! ## Programs -/

theorem mapM_error {decls : List San.Decl} {e : GErr Reference}
    (h : decls.mapM San.Decl.causality = .error e) : ∃ n, .node n ∈ decls ∧ n.causality = .error e := by
  induction decls with
  | nil => simp [Pure.pure, Except.pure] at h
  | cons d decls ih =>
    rw [List.mapM_cons] at h
    simp only [Bind.bind, Except.bind, Pure.pure, Except.pure] at h
    cases hd : d.causality with
    | error e' =>
      simp only [hd, Except.error.injEq] at h
      subst h
      cases d with
      | node n =>
        refine ⟨n, by simp, ?_⟩
        simp only [San.Decl.causality] at hd
        cases hn : n.causality with
        | error e => rw [hn] at hd; cases hd; rfl
        | ok n' => rw [hn] at hd; cases hd
      | const c => cases hd
      | extConst c => cases hd
      | extNode c => cases hd
    | ok d' =>
      simp only [hd] at h
      cases hm : decls.mapM San.Decl.causality with
      | error e' =>
        rw [hm] at h
        simp only [Except.error.injEq] at h
        subst h
        obtain ⟨n, h1, h2⟩ := ih hm
        exact ⟨n, by simp [h1], h2⟩
      | ok ds => rw [hm] at h; cases h

theorem mapM_ok {decls ds : List San.Decl} (h : decls.mapM San.Decl.causality = .ok ds) :
    List.Forall₂ (fun d d' => d.causality = .ok d') decls ds := by
  induction decls generalizing ds with
  | nil => simp [Pure.pure, Except.pure] at h; subst h; exact .nil
  | cons d decls ih =>
    rw [List.mapM_cons] at h
    simp only [Bind.bind, Except.bind, Pure.pure, Except.pure] at h
    cases hd : d.causality with
    | error e => simp [hd] at h
    | ok d' =>
      simp only [hd] at h
      cases hm : decls.mapM San.Decl.causality with
      | error e => simp [hm] at h
      | ok ds' =>
        simp only [hm, Except.ok.injEq] at h
        subst h
        exact .cons hd (ih hm)

theorem introduces_same {d d' : San.Decl} (h : d.causality = .ok d') {r : Reference}
    (hr : Introduces d' r) : Introduces d r := by
  rcases causality_same h with ⟨n, n', rfl, rfl, -, e⟩ | rfl
  · cases hr
    have : n'.name = n.name := by rw [← e]
    rw [this]
    exact .node
  · exact hr

theorem mentions_same {d d' : San.Decl} (h : d.causality = .ok d') {r : Reference}
    (hr : Mentions d' r) : Mentions d r := by
  rcases causality_same h with ⟨n, n', rfl, rfl, hp, e⟩ | rfl
  · cases hr with
    | call hb =>
      have : n'.blocks = n.blocks := by rw [← e]
      rw [this] at hb
      exact .call hb
    | global h1 h2 => exact .global (hp.mem_iff.1 h1) h2
  · exact hr

theorem introduces_back {d d' : San.Decl} (h : d.causality = .ok d') {r : Reference}
    (hr : Introduces d r) : Introduces d' r := by
  rcases causality_same h with ⟨n, n', rfl, rfl, -, e⟩ | rfl
  · cases hr
    have : n.name = n'.name := by rw [← e]
    rw [this]
    exact .node
  · exact hr

theorem mentions_back {d d' : San.Decl} (h : d.causality = .ok d') {r : Reference}
    (hr : Mentions d r) : Mentions d' r := by
  rcases causality_same h with ⟨n, n', rfl, rfl, hp, e⟩ | rfl
  · cases hr with
    | call hb =>
      have : n'.blocks = n.blocks := by rw [← e]
      rw [← this] at hb
      exact .call hb
    | global h1 h2 => exact .global (hp.mem_iff.2 h1) h2
  · exact hr

theorem twice_split {α β : Type} [DecidableEq β] {f : α → List β} (hf : ∀ a, (f a).Nodup) {b : β} :
    {l : List α} → 2 ≤ (l.flatMap f).count b →
    ∃ l₁ x l₂ y l₃, l = l₁ ++ x :: (l₂ ++ y :: l₃) ∧ b ∈ f x ∧ b ∈ f y
  | [], h => by simp at h
  | a :: l, h => by
    rw [List.flatMap_cons, List.count_append] at h
    by_cases ha : b ∈ f a
    · have h1 : (f a).count b ≤ 1 := List.nodup_iff_count_le_one.1 (hf a) b
      have h2 : b ∈ l.flatMap f := List.count_pos_iff.1 (by omega)
      obtain ⟨y, hy, hb⟩ := List.mem_flatMap.1 h2
      obtain ⟨l₂, l₃, rfl⟩ := List.append_of_mem hy
      exact ⟨[], a, l₂, y, l₃, rfl, ha, hb⟩
    · rw [List.count_eq_zero.2 ha, Nat.zero_add] at h
      obtain ⟨l₁, x, l₂, y, l₃, rfl, h1, h2⟩ := twice_split hf h
      exact ⟨a :: l₁, x, l₂, y, l₃, rfl, h1, h2⟩

theorem causal_blame {decls : List San.Decl}
    (hi : ∀ n, .node n ∈ decls → (initialised n.stmts).Nodup) {e : GErr Reference}
    (h : progCausality decls = .error e) : CausalBlame decls e := by
  unfold progCausality at h
  simp only [Bind.bind, Except.bind] at h
  cases hm : decls.mapM San.Decl.causality with
  | error e' =>
    rw [hm] at h
    cases h
    obtain ⟨n, h1, h2⟩ := mapM_error hm
    exact .node h1 (node_causal (hi n h1) h2)
  | ok ds =>
    rw [hm] at h
    have hf := mapM_ok hm
    have back : ∀ d' ∈ ds, ∃ d ∈ decls, d.causality = .ok d' := by
      clear h hm hi
      induction hf with
      | nil => simp
      | cons hd _ ih =>
        intro d' hd'
        rcases List.mem_cons.1 hd' with rfl | hd'
        · exact ⟨_, by simp, hd⟩
        · obtain ⟨y, hy, h⟩ := ih d' hd'
          exact ⟨y, by simp [hy], h⟩
    have forth : ∀ d ∈ decls, ∃ d' ∈ ds, d.causality = .ok d' := by
      clear h hm hi back
      induction hf with
      | nil => simp
      | cons hd _ ih =>
        intro d' hd'
        rcases List.mem_cons.1 hd' with rfl | hd'
        · exact ⟨_, by simp, hd⟩
        · obtain ⟨y, hy, h⟩ := ih d' hd'
          exact ⟨y, by simp [hy], h⟩
    have uses : ∀ a b, Needs ds a b → (∃ c, Needs ds b c) → DeclUses decls a b := by
      rintro a b ⟨d', h1, h2, h3⟩ ⟨c, d'', -, h4, -⟩
      obtain ⟨d, hd, hc⟩ := back d' h1
      exact ⟨d, hd, introduces_same hc (decl_provides.1 h2),
        mentions_same hc (mentions_of_requires h3 (decl_provides.1 h4))⟩
    have ht := Props.C24_error_truthful h
    cases e with
    | undeclared u => exact absurd ht.1 (by simp)
    | providedByContext u => exact absurd ht.1 (by simp)
    | declTwice u =>
      have hprov : (ds.flatMap Depends.provides : List Reference) =
          decls.flatMap Depends.provides := by
        clear h hm hi back forth uses ht
        induction hf with
        | nil => rfl
        | @cons d d' _ _ hd _ ih =>
          rw [List.flatMap_cons, List.flatMap_cons, ih]
          congr 1
          rcases causality_same hd with ⟨n, n', rfl, rfl, -, e⟩ | rfl
          · have : n'.name = n.name := by rw [← e]
            simp [Depends.provides, San.Decl.provides, this]
          · rfl
      have ht : 2 ≤ (ds.flatMap Depends.provides : List Reference).count u := ht
      rw [hprov] at ht
      obtain ⟨l₁, x, l₂, y, l₃, e, h1, h2⟩ := twice_split
        (fun d => by cases d <;> simp [Depends.provides, San.Decl.provides]) ht
      exact .twice e (decl_provides.1 h1) (decl_provides.1 h2)
    | dependsOnItself u =>
      obtain ⟨st, h1, h2, h3⟩ := ht
      have hn : Needs ds u u := ⟨st, h1, h2, h3⟩
      exact .itself (uses u u hn ⟨u, hn⟩)
    | cycle us =>
      obtain ⟨h1, h2, h3, h4⟩ := ht
      have up : ∀ a b, DeclUses decls a b → Needs ds a b := by
        rintro a b ⟨d, hd, k1, k2⟩
        obtain ⟨d', hd', hc⟩ := forth d hd
        exact ⟨d', hd', decl_provides.2 (introduces_back hc k1), decl_requires (mentions_back hc k2)⟩
      exact .cycle h1 h2 (cycle_mono uses h1 h2 h3)
        fun r hr r' k k' => h4 r hr r' (Relation.TransGen.mono up _ _ k)
        (Relation.TransGen.mono up _ _ k')
    | abort => exact ht.elim
    | fuel => exact ht.elim

theorem translate_inits {b : Bool} {n : Syn.SrcNode} {n' : Node} (h : n.translate b = .ok n') :
    (initialised n'.stmts).Nodup := by
  obtain ⟨c, hc, rfl⟩ := node_translate h
  obtain ⟨new, hb⟩ := built_stmts hc
  have hnew : c.stmts = new := by simpa using hb.stmts
  subst hnew
  exact hb.inits.nodup_iff.2 (by unfold regsBetween; exact List.nodup_range')

end Chandeliers.Tell
