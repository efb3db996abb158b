import Verif.Lemmas.LegalTypes

/-! What typed expressions refer to, and that they are translated. -/

set_option autoImplicit false

namespace Chandeliers.Den
open Chandeliers.San Chandeliers.Spec Chandeliers.Syn Chandeliers.Spec.Static

/-- Everything that is mentioned exists. -/
def Known (S : Scope) (ls : List Syn.Lit) (fs xs : List String) : Prop :=
  LitsOk ls ∧ (∀ f ∈ fs, (S.nodes f).isSome = true) ∧
    ∀ x ∈ xs, (S.var x).isSome = true ∨ (S.consts x).isSome = true

theorem known_append {S : Scope} {ls ls' : List Syn.Lit} {fs fs' xs xs' : List String} :
    Known S (ls ++ ls') (fs ++ fs') (xs ++ xs') ↔ Known S ls fs xs ∧ Known S ls' fs' xs' := by
  unfold Known
  rw [litsOk_append]
  simp only [List.mem_append]
  grind

theorem known_nil {S : Scope} : Known S [] [] [] := by
  unfold Known LitsOk
  simp

section
variable {S : Scope}
mutual
theorem hasTy_known : (e : Src) → {t : TyTuple} → HasTy S e t →
    Known S (literals e) (callees e) (names e)
  | .lit l, t, h => by
    rw [HasTy] at h
    obtain ⟨b, h, rfl⟩ := h
    simp [Known, LitsOk, literals, callees, names, h]
  | .var x, t, h => by
    rw [HasTy] at h
    simp only [Known, LitsOk, literals, callees, names]
    cases hx : S.var x <;> rw [hx] at h
    · obtain ⟨b, h, -⟩ := h
      simp [hx, h]
    · simp [hx]
  | .paren es tr, t, h => by
    rw [HasTy] at h
    obtain ⟨ts, h, -⟩ := h
    simpa [literals, callees, names] using hasTys_known es h
  | .left e rest, t, h => by
    rw [HasTy] at h
    obtain ⟨u, h1, h2⟩ := h
    rw [literals, callees, names, known_append]
    exact ⟨hasTy_known e h1, leftTy_known rest h2⟩
  | .cmp e rest, t, h => by
    rw [HasTy] at h
    obtain ⟨u, h1, h2⟩ := h
    rw [literals, callees, names, known_append]
    exact ⟨hasTy_known e h1, cmpTy_known rest h2⟩
  | .fby e rest, t, h => by
    rw [HasTy] at h
    rw [literals, callees, names, known_append]
    exact ⟨hasTy_known e h.1, allTy_known rest h.2⟩
  | .arrow e rest, t, h => by
    rw [HasTy] at h
    rw [literals, callees, names, known_append]
    exact ⟨hasTy_known e h.1, allTy_known rest h.2⟩
  | .ifx c y n, t, h => by
    rw [HasTy] at h
    rw [literals, callees, names, known_append, known_append]
    exact ⟨hasTy_known c h.1, hasTy_known y h.2.1, hasTy_known n h.2.2⟩
  | .merge c y n, t, h => by
    rw [HasTy] at h
    rw [literals, callees, names, known_append, known_append]
    exact ⟨hasTy_known c h.1, hasTy_known y h.2.1, hasTy_known n h.2.2⟩
  | .call f args tr, t, h => by
    rw [HasTy] at h
    obtain ⟨ts, gens, ins, outs, θ, h1, h2, -⟩ := h
    obtain ⟨k1, k2, k3⟩ := hasTys_known args h1
    rw [literals, callees, names]
    refine ⟨k1, ?_, k3⟩
    intro g hg
    rcases List.mem_cons.1 hg with rfl | hg
    · simp [h2]
    · exact k2 g hg
  | .pre e, t, h => by
    rw [HasTy] at h
    rw [literals, callees, names]
    exact hasTy_known e h
  | .neg e, t, h => by
    rw [HasTy] at h
    rw [literals, callees, names]
    exact hasTy_known e h.1
  | .not e, t, h => by
    rw [HasTy] at h
    rw [literals, callees, names]
    exact hasTy_known e h.1
theorem hasTys_known : (es : List Src) → {ts : List TyTuple} → HasTys S es ts →
    Known S (literalsList es) (calleesList es) (namesList es)
  | [], ts, h => by rw [literalsList, calleesList, namesList]; exact known_nil
  | e :: es, ts, h => by
    rw [HasTys] at h
    obtain ⟨t, us, -, h1, h2⟩ := h
    rw [literalsList, calleesList, namesList, known_append]
    exact ⟨hasTy_known e h1, hasTys_known es h2⟩
theorem allTy_known : (es : List Src) → {t : TyTuple} → AllTy S es t →
    Known S (literalsList es) (calleesList es) (namesList es)
  | [], ts, h => by rw [literalsList, calleesList, namesList]; exact known_nil
  | e :: es, ts, h => by
    rw [AllTy] at h
    rw [literalsList, calleesList, namesList, known_append]
    exact ⟨hasTy_known e h.1, allTy_known es h.2⟩
theorem leftTy_known : (es : List (LOp × Src)) → {u t : TyTuple} → LeftTy S u es t →
    Known S (literalsLeft es) (calleesLeft es) (namesLeft es)
  | [], u, t, h => by rw [literalsLeft, calleesLeft, namesLeft]; exact known_nil
  | (op, e) :: es, u, t, h => by
    rw [LeftTy] at h
    obtain ⟨w, r, h1, -, h2⟩ := h
    rw [literalsLeft, calleesLeft, namesLeft, known_append]
    exact ⟨hasTy_known e h1, leftTy_known es h2⟩
theorem cmpTy_known : (es : List (CmpOp × Src)) → {u t : TyTuple} → CmpTy S u es t →
    Known S (literalsCmp es) (calleesCmp es) (namesCmp es)
  | [], u, t, h => by rw [literalsCmp, calleesCmp, namesCmp]; exact known_nil
  | (op, e) :: es, u, t, h => by
    rw [CmpTy] at h
    obtain ⟨rfl, b, -, -, h1, -⟩ := h
    rw [literalsCmp, calleesCmp, namesCmp, known_append, literalsCmp, calleesCmp, namesCmp]
    exact ⟨hasTy_known e h1, known_nil⟩
end
end

/-- Two scopes that agree on some names. -/
structure Agree (S S' : Scope) (fs xs : List String) : Prop where
  vars : S'.vars = S.vars
  nodes : ∀ f ∈ fs, S'.nodes f = S.nodes f
  consts : ∀ x ∈ xs, S.var x = none → S'.consts x = S.consts x

theorem Agree.var {S S' : Scope} {fs xs : List String} (h : Agree S S' fs xs) (x : String) :
    S'.var x = S.var x := by
  unfold Scope.var; rw [h.vars]

theorem agree_append {S S' : Scope} {fs fs' xs xs' : List String} :
    Agree S S' (fs ++ fs') (xs ++ xs') ↔ Agree S S' fs xs ∧ Agree S S' fs' xs' := by
  constructor
  · intro h
    exact ⟨⟨h.vars, fun f hf => h.nodes f (by simp [hf]), fun x hx => h.consts x (by simp [hx])⟩,
      ⟨h.vars, fun f hf => h.nodes f (by simp [hf]), fun x hx => h.consts x (by simp [hx])⟩⟩
  · rintro ⟨h, h'⟩
    refine ⟨h.vars, fun f hf => ?_, fun x hx => ?_⟩
    · rcases List.mem_append.1 hf with hf | hf
      · exact h.nodes f hf
      · exact h'.nodes f hf
    · rcases List.mem_append.1 hx with hx | hx
      · exact h.consts x hx
      · exact h'.consts x hx

section
variable {S S' : Scope}
mutual
theorem hasTy_agree : (e : Src) → {t : TyTuple} → Agree S S' (callees e) (names e) →
    (HasTy S' e t ↔ HasTy S e t)
  | .lit l, t, h => by rw [HasTy, HasTy]
  | .var x, t, h => by
    rw [HasTy, HasTy, h.var x]
    cases hx : S.var x with
    | none => simp [h.consts x (by simp [names]) hx]
    | some v => rfl
  | .paren es tr, t, h => by
    rw [callees, names] at h
    rw [HasTy, HasTy]
    simp only [hasTys_agree es h]
  | .left e rest, t, h => by
    rw [callees, names, agree_append] at h
    rw [HasTy, HasTy]
    simp only [hasTy_agree e h.1, leftTy_agree rest h.2]
  | .cmp e rest, t, h => by
    rw [callees, names, agree_append] at h
    rw [HasTy, HasTy]
    simp only [hasTy_agree e h.1, cmpTy_agree rest h.2]
  | .fby e rest, t, h => by
    rw [callees, names, agree_append] at h
    rw [HasTy, HasTy]
    simp only [hasTy_agree e h.1, allTy_agree rest h.2]
  | .arrow e rest, t, h => by
    rw [callees, names, agree_append] at h
    rw [HasTy, HasTy]
    simp only [hasTy_agree e h.1, allTy_agree rest h.2]
  | .ifx c y n, t, h => by
    rw [callees, names, agree_append, agree_append] at h
    rw [HasTy, HasTy]
    simp only [hasTy_agree c h.1, hasTy_agree y h.2.1, hasTy_agree n h.2.2]
  | .merge c y n, t, h => by
    rw [callees, names, agree_append, agree_append] at h
    rw [HasTy, HasTy]
    simp only [hasTy_agree c h.1, hasTy_agree y h.2.1, hasTy_agree n h.2.2]
  | .call f args tr, t, h => by
    rw [callees, names] at h
    have h' : Agree S S' (calleesList args) (namesList args) :=
      ⟨h.vars, fun f hf => h.nodes f (List.mem_cons_of_mem _ hf), h.consts⟩
    rw [HasTy, HasTy]
    simp only [hasTys_agree args h', h.nodes f (List.mem_cons_self)]
  | .pre e, t, h => by
    rw [callees, names] at h
    rw [HasTy, HasTy, hasTy_agree e h]
  | .neg e, t, h => by
    rw [callees, names] at h
    rw [HasTy, HasTy, hasTy_agree e h]
  | .not e, t, h => by
    rw [callees, names] at h
    rw [HasTy, HasTy, hasTy_agree e h]
theorem hasTys_agree : (es : List Src) → {ts : List TyTuple} →
    Agree S S' (calleesList es) (namesList es) → (HasTys S' es ts ↔ HasTys S es ts)
  | [], ts, h => by rw [HasTys, HasTys]
  | e :: es, ts, h => by
    rw [calleesList, namesList, agree_append] at h
    rw [HasTys, HasTys]
    simp only [hasTy_agree e h.1, hasTys_agree es h.2]
theorem allTy_agree : (es : List Src) → {t : TyTuple} →
    Agree S S' (calleesList es) (namesList es) → (AllTy S' es t ↔ AllTy S es t)
  | [], ts, h => by rw [AllTy, AllTy]
  | e :: es, ts, h => by
    rw [calleesList, namesList, agree_append] at h
    rw [AllTy, AllTy, hasTy_agree e h.1, allTy_agree es h.2]
theorem leftTy_agree : (es : List (LOp × Src)) → {u t : TyTuple} →
    Agree S S' (calleesLeft es) (namesLeft es) → (LeftTy S' u es t ↔ LeftTy S u es t)
  | [], u, t, h => by rw [LeftTy, LeftTy]
  | (op, e) :: es, u, t, h => by
    rw [calleesLeft, namesLeft, agree_append] at h
    rw [LeftTy, LeftTy]
    simp only [hasTy_agree e h.1, leftTy_agree es h.2]
theorem cmpTy_agree : (es : List (CmpOp × Src)) → {u t : TyTuple} →
    Agree S S' (calleesCmp es) (namesCmp es) → (CmpTy S' u es t ↔ CmpTy S u es t)
  | [], u, t, h => by rw [CmpTy, CmpTy]
  | (op, e) :: es, u, t, h => by
    rw [calleesCmp, namesCmp, agree_append] at h
    rw [CmpTy, CmpTy]
    simp only [hasTy_agree e h.1]
end
end

theorem tr_ok_bind {α β : Type} {m : Tr α} {f : α → Tr β} {c : ExprCtx} {r : β × ExprCtx}
    {x : α} {c' : ExprCtx} (h : m c = .ok (x, c')) (h' : f x c' = .ok r) : (m >>= f) c = .ok r :=
  tr_bind_ok.2 ⟨x, c', h, h'⟩

theorem mkFby_ok (v : View) (i : Nat) (b a : Expr) (c : ExprCtx) :
    ∃ r, mkFby v i b a c = .ok r := by
  unfold mkFby; split <;> exact ⟨_, rfl⟩

theorem mkThen_ok (v : View) (i : Nat) (b a : Expr) (c : ExprCtx) :
    ∃ r, mkThen v i b a c = .ok r := by
  unfold mkThen; split <;> exact ⟨_, rfl⟩

section
variable {S : Scope}
mutual
theorem hasTy_translates : (e : Src) → {t : TyTuple} → HasTy S e t → ∀ v c, ∃ x c',
    e.translate v c = .ok (x, c')
  | .lit l, t, h, v, c => by
    rw [HasTy] at h
    obtain ⟨b, h, -⟩ := h
    have : ∃ y, litValue l = some y := by
      unfold literalType at h
      unfold litValue
      split at h
      · exact ⟨_, rfl⟩
      · split at h
        · exact ⟨_, if_pos ‹_›⟩
        · cases h
      · exact ⟨_, rfl⟩
      · cases h
      · cases h
    obtain ⟨y, hy⟩ := this
    unfold Src.translate
    exact ⟨_, c, lit_comes.2 ⟨rfl, y, hy, rfl⟩⟩
  | .var y, t, h, v, c => by
    unfold Src.translate
    split <;> exact ⟨_, _, rfl⟩
  | .paren es tr, t, h, v, c => by
    rw [HasTy] at h
    obtain ⟨ts, h, -⟩ := h
    obtain ⟨xs, c₁, h1⟩ := hasTys_translates es h v c
    unfold Src.translate
    exact ⟨_, _, tr_ok_bind h1 rfl⟩
  | .left e rest, t, h, v, c => by
    rw [HasTy] at h
    obtain ⟨u, h, h'⟩ := h
    obtain ⟨a, c₁, h1⟩ := hasTy_translates e h v c
    obtain ⟨x, c₂, h2⟩ := leftTy_translates rest h' v a c₁
    unfold Src.translate
    exact ⟨_, _, tr_ok_bind h1 h2⟩
  | .cmp e rest, t, h, v, c => by
    rw [HasTy] at h
    obtain ⟨u, h, h'⟩ := h
    obtain ⟨a, c₁, h1⟩ := hasTy_translates e h v c
    unfold Src.translate
    match rest, h' with
    | [], h' => exact ⟨_, _, tr_ok_bind h1 (by unfold Src.translateCmp; rfl)⟩
    | (op, e') :: rest, h' =>
      rw [CmpTy] at h'
      obtain ⟨rfl, b, -, -, h', -⟩ := h'
      obtain ⟨y, c₂, h2⟩ := hasTy_translates e' h' v c₁
      exact ⟨_, _, tr_ok_bind h1 (by unfold Src.translateCmp; exact tr_ok_bind h2 rfl)⟩
  | .fby e rest, t, h, v, c => by
    rw [HasTy] at h
    obtain ⟨o, c₁, h1⟩ := allTy_translatesFby rest h.2 v 1 c
    obtain ⟨b, c₂, h2⟩ := hasTy_translates e h.1 (if v.useRegisters then v else v.bump 0) c₁
    unfold Src.translate
    cases o with
    | none => exact ⟨_, _, tr_ok_bind h1 (tr_ok_bind h2 rfl)⟩
    | some a =>
      obtain ⟨⟨x, c₃⟩, h3⟩ := mkFby_ok v 0 b a c₂
      exact ⟨_, _, tr_ok_bind h1 (tr_ok_bind h2 h3)⟩
  | .arrow e rest, t, h, v, c => by
    rw [HasTy] at h
    obtain ⟨o, c₁, h1⟩ := allTy_translatesThen rest h.2 v 1 c
    obtain ⟨b, c₂, h2⟩ := hasTy_translates e h.1 v c₁
    unfold Src.translate
    cases o with
    | none => exact ⟨_, _, tr_ok_bind h1 (tr_ok_bind h2 rfl)⟩
    | some a =>
      obtain ⟨⟨x, c₃⟩, h3⟩ := mkThen_ok v 0 b a c₂
      exact ⟨_, _, tr_ok_bind h1 (tr_ok_bind h2 h3)⟩
  | .ifx b y n, t, h, v, c => by
    rw [HasTy] at h
    obtain ⟨x1, c₁, h1⟩ := hasTy_translates b h.1 v c
    obtain ⟨x2, c₂, h2⟩ := hasTy_translates y h.2.1 v c₁
    obtain ⟨x3, c₃, h3⟩ := hasTy_translates n h.2.2 v c₂
    unfold Src.translate
    exact ⟨_, _, tr_ok_bind h1 (tr_ok_bind h2 (tr_ok_bind h3 rfl))⟩
  | .merge b y n, t, h, v, c => by
    rw [HasTy] at h
    obtain ⟨x1, c₁, h1⟩ := hasTy_translates b h.1 v c
    obtain ⟨x2, c₂, h2⟩ := hasTy_translates y h.2.1 v c₁
    obtain ⟨x3, c₃, h3⟩ := hasTy_translates n h.2.2 v c₂
    unfold Src.translate
    exact ⟨_, _, tr_ok_bind h1 (tr_ok_bind h2 (tr_ok_bind h3 rfl))⟩
  | .call f args tr, t, h, v, c => by
    rw [HasTy] at h
    obtain ⟨ts, gens, ins, outs, θ, h, -⟩ := h
    obtain ⟨xs, c₁, h1⟩ := hasTys_translates args h v c
    unfold Src.translate
    exact ⟨_, _, tr_ok_bind h1 rfl⟩
  | .pre e, t, h, v, c => by
    rw [HasTy] at h
    unfold Src.translate
    split
    · obtain ⟨y, c₁, h1⟩ := hasTy_translates e h v { c with registers := c.registers + 1 }
      exact ⟨_, _, tr_ok_bind (m := newRegister) rfl (tr_ok_bind h1 rfl)⟩
    · obtain ⟨y, c₁, h1⟩ := hasTy_translates e h (v.bump 1) c
      exact ⟨_, _, tr_ok_bind h1 rfl⟩
  | .neg e, t, h, v, c => by
    rw [HasTy] at h
    obtain ⟨y, c₁, h1⟩ := hasTy_translates e h.1 v c
    unfold Src.translate
    exact ⟨_, _, tr_ok_bind h1 rfl⟩
  | .not e, t, h, v, c => by
    rw [HasTy] at h
    obtain ⟨y, c₁, h1⟩ := hasTy_translates e h.1 v c
    unfold Src.translate
    exact ⟨_, _, tr_ok_bind h1 rfl⟩
theorem hasTys_translates : (es : List Src) → {ts : List TyTuple} → HasTys S es ts →
    ∀ v c, ∃ xs c', Src.translateList v es c = .ok (xs, c')
  | [], ts, h, v, c => by unfold Src.translateList; exact ⟨_, _, rfl⟩
  | e :: es, ts, h, v, c => by
    rw [HasTys] at h
    obtain ⟨t, us, -, h, h'⟩ := h
    obtain ⟨y, c₁, h1⟩ := hasTy_translates e h v c
    obtain ⟨ys, c₂, h2⟩ := hasTys_translates es h' v c₁
    unfold Src.translateList
    exact ⟨_, _, tr_ok_bind h1 (tr_ok_bind h2 rfl)⟩
theorem leftTy_translates : (es : List (LOp × Src)) → {u t : TyTuple} → LeftTy S u es t →
    ∀ v a c, ∃ x c', Src.translateLeft v a es c = .ok (x, c')
  | [], u, t, h, v, a, c => by unfold Src.translateLeft; exact ⟨_, _, rfl⟩
  | (op, e) :: es, u, t, h, v, a, c => by
    rw [LeftTy] at h
    obtain ⟨w, r, h, -, h'⟩ := h
    obtain ⟨y, c₁, h1⟩ := hasTy_translates e h v c
    obtain ⟨x, c₂, h2⟩ := leftTy_translates es h' v (op.compose a y) c₁
    unfold Src.translateLeft
    exact ⟨_, _, tr_ok_bind h1 h2⟩
theorem allTy_translatesFby : (es : List Src) → {t : TyTuple} → AllTy S es t →
    ∀ v i c, ∃ o c', Src.translateFby v i es c = .ok (o, c')
  | [], t, h, v, i, c => by unfold Src.translateFby; exact ⟨_, _, rfl⟩
  | e :: es, t, h, v, i, c => by
    rw [AllTy] at h
    obtain ⟨o, c₁, h1⟩ := allTy_translatesFby es h.2 v (i + 1) c
    obtain ⟨b, c₂, h2⟩ := hasTy_translates e h.1 (if v.useRegisters then v else v.bump i) c₁
    unfold Src.translateFby
    cases o with
    | none => exact ⟨_, _, tr_ok_bind h1 (tr_ok_bind h2 rfl)⟩
    | some a =>
      obtain ⟨⟨x, c₃⟩, h3⟩ := mkFby_ok v i b a c₂
      exact ⟨_, _, tr_ok_bind h1 (tr_ok_bind h2 (tr_ok_bind h3 rfl))⟩
theorem allTy_translatesThen : (es : List Src) → {t : TyTuple} → AllTy S es t →
    ∀ v i c, ∃ o c', Src.translateThen v i es c = .ok (o, c')
  | [], t, h, v, i, c => by unfold Src.translateThen; exact ⟨_, _, rfl⟩
  | e :: es, t, h, v, i, c => by
    rw [AllTy] at h
    obtain ⟨o, c₁, h1⟩ := allTy_translatesThen es h.2 v (i + 1) c
    obtain ⟨b, c₂, h2⟩ := hasTy_translates e h.1 v c₁
    unfold Src.translateThen
    cases o with
    | none => exact ⟨_, _, tr_ok_bind h1 (tr_ok_bind h2 rfl)⟩
    | some a =>
      obtain ⟨⟨x, c₃⟩, h3⟩ := mkThen_ok v i b a c₂
      exact ⟨_, _, tr_ok_bind h1 (tr_ok_bind h2 (tr_ok_bind h3 rfl))⟩
end
end

end Chandeliers.Den
