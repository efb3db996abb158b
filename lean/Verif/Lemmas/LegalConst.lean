import Verif.Lemmas.LegalNode

/-! Constants. -/

set_option autoImplicit false

namespace Chandeliers.Den
open Chandeliers.San Chandeliers.Spec Chandeliers.Syn Chandeliers.Spec.Static

/-- Every one of them is constant. -/
def ConstExprs (xs : List Expr) : Prop := ∀ x ∈ xs, ConstExpr x

theorem compose_const {op : LOp} {a b : Expr} :
    ConstExpr (op.compose a b) ↔ ConstExpr a ∧ Static.guard op = none ∧ ConstExpr b := by
  cases op <;> simp only [LOp.compose, Static.guard, reduceCtorEq, false_and, and_false, true_and]
  all_goals first
    | exact ⟨fun h => by cases h with | bin h1 h2 => exact ⟨h1, h2⟩, fun h => .bin h.1 h.2⟩
    | exact ⟨fun h => (by cases h), fun h => h.elim⟩

theorem paren_const {xs : List Expr} {tr : Bool} :
    ConstExpr (parenthesise xs tr) ↔ tr = false ∧ xs.length = 1 ∧ ConstExprs xs := by
  unfold parenthesise ConstExprs
  split
  · constructor
    · intro h; cases h with | paren h => simpa using h
    · rintro ⟨-, -, h⟩; exact .paren (h _ (by simp))
  · rename_i hn
    constructor
    · intro h; cases h
    · rintro ⟨rfl, h1, h2⟩
      obtain ⟨a, rfl⟩ := List.length_eq_one_iff.1 h1
      exact absurd rfl (hn a rfl)

section
variable {C : ExprCtx} {v : View}
mutual
theorem comes_const (hv : v.useRegisters = false) (hs : v.shadow = []) : (e : Src) → {x : Expr} →
    Comes C v e x → (ConstExpr x ↔ Constant e)
  | .lit l, x, h => by
    rw [Comes] at h
    obtain ⟨y, h, rfl⟩ := h
    rw [Constant]; exact ⟨fun _ => trivial, fun _ => .lit⟩
  | .var y, x, h => by
    rw [Comes, hs, if_neg (by simp)] at h
    subst h
    rw [Constant]; exact ⟨fun _ => trivial, fun _ => .global⟩
  | .paren es tr, x, h => by
    rw [Comes] at h
    obtain ⟨xs, h, rfl⟩ := h
    obtain ⟨k1, k2⟩ := list_const hv hs es h
    rw [Constant, paren_const, k1, k2]
  | .left e rest, x, h => by
    rw [Comes] at h
    obtain ⟨a, h1, h2⟩ := h
    rw [Constant, left_const hv hs rest h2, comes_const hv hs e h1]
  | .cmp e rest, x, h => by
    rw [Comes] at h
    obtain ⟨a, h1, h2⟩ := h
    rw [Constant, cmp_const hv hs rest h2, comes_const hv hs e h1]
  | .fby e [], x, h => by
    rw [Comes] at h
    obtain ⟨b, h1, h2⟩ := h
    rw [ComesFby] at h2
    subst h2
    rw [Constant, comes_const hv hs e h1]
    simp
  | .fby e (e' :: es), x, h => by
    rw [Comes] at h
    obtain ⟨b, h1, h2⟩ := h
    rw [ComesFby, hv] at h2
    obtain ⟨y, a, -, -, rfl⟩ := h2
    rw [Constant]
    exact ⟨fun h => (by cases h), fun h => (by simp at h)⟩
  | .arrow e [], x, h => by
    rw [Comes] at h
    obtain ⟨b, h1, h2⟩ := h
    rw [ComesThen] at h2
    subst h2
    rw [Constant, comes_const hv hs e h1]
    simp
  | .arrow e (e' :: es), x, h => by
    rw [Comes] at h
    obtain ⟨b, h1, h2⟩ := h
    rw [ComesThen, hv] at h2
    obtain ⟨y, a, -, -, rfl⟩ := h2
    rw [Constant]
    exact ⟨fun h => (by cases h), fun h => (by simp at h)⟩
  | .ifx c y n, x, h => by
    rw [Comes] at h
    obtain ⟨c', y', n', h1, h2, h3, rfl⟩ := h
    rw [Constant, ← comes_const hv hs c h1, ← comes_const hv hs y h2, ← comes_const hv hs n h3]
    exact ⟨fun h => by cases h with | ifx a b c => exact ⟨a, b, c⟩, fun h => .ifx h.1 h.2.1 h.2.2⟩
  | .merge c y n, x, h => by
    rw [Comes] at h
    obtain ⟨c', y', n', h1, h2, h3, rfl⟩ := h
    rw [Constant]
    exact ⟨fun h => (by cases h), fun h => h.elim⟩
  | .call f args tr, x, h => by
    rw [Comes] at h
    obtain ⟨xs, id, h, rfl, -⟩ := h
    rw [Constant]
    exact ⟨fun h => (by cases h), fun h => h.elim⟩
  | .pre e, x, h => by
    rw [Comes, hv] at h
    obtain ⟨y, h, rfl⟩ := h
    rw [Constant]
    exact ⟨fun h => (by cases h), fun h => h.elim⟩
  | .neg e, x, h => by
    rw [Comes] at h
    obtain ⟨y, h, rfl⟩ := h
    rw [Constant, ← comes_const hv hs e h]
    exact ⟨fun h => by cases h with | un a => exact a, fun h => .un h⟩
  | .not e, x, h => by
    rw [Comes] at h
    obtain ⟨y, h, rfl⟩ := h
    rw [Constant, ← comes_const hv hs e h]
    exact ⟨fun h => by cases h with | un a => exact a, fun h => .un h⟩
theorem list_const (hv : v.useRegisters = false) (hs : v.shadow = []) : (es : List Src) →
    {xs : List Expr} → ComesList C v es xs →
    xs.length = es.length ∧ (ConstExprs xs ↔ Constants es)
  | [], xs, h => by
    rw [ComesList] at h
    subst h
    simp [Constants, ConstExprs]
  | e :: es, xs, h => by
    rw [ComesList] at h
    obtain ⟨y, ys, h1, h2, rfl⟩ := h
    obtain ⟨k1, k2⟩ := list_const hv hs es h2
    refine ⟨by simp [k1], ?_⟩
    rw [Constants, ← comes_const hv hs e h1, ← k2]
    simp [ConstExprs]
theorem left_const (hv : v.useRegisters = false) (hs : v.shadow = []) : (es : List (LOp × Src)) →
    {a x : Expr} → ComesLeft C v a es x → (ConstExpr x ↔ ConstExpr a ∧ LeftConstant es)
  | [], a, x, h => by
    rw [ComesLeft] at h
    subst h
    simp [LeftConstant]
  | (op, e) :: es, a, x, h => by
    rw [ComesLeft] at h
    obtain ⟨y, h1, h2⟩ := h
    rw [left_const hv hs es h2, compose_const, LeftConstant, comes_const hv hs e h1]
    tauto
theorem cmp_const (hv : v.useRegisters = false) (hs : v.shadow = []) : (es : List (CmpOp × Src)) →
    {a x : Expr} → ComesCmp C v a es x → (ConstExpr x ↔ ConstExpr a ∧ CmpConstant es)
  | [], a, x, h => by
    rw [ComesCmp] at h
    subst h
    simp [CmpConstant]
  | (op, e) :: es, a, x, h => by
    rw [ComesCmp] at h
    obtain ⟨rfl, y, h1, rfl⟩ := h
    rw [CmpConstant, CmpConstant, ← comes_const hv hs e h1]
    exact ⟨fun h => by cases h with | cmp h1 h2 => exact ⟨h1, h2, trivial⟩, fun h => .cmp h.1 h.2.1⟩
end

mutual
/-- A constant requires no more than its source. -/
theorem const_req {P : Reference → Prop} (hv : v.useRegisters = false) (hs : v.shadow = []) :
    (e : Src) → {x : Expr} → Comes C v e x → Constant e →
    (∀ y ∈ names e, P (.globalVarName y)) → Req P x
  | .lit l, x, h, hc, hn => by
    rw [Comes] at h
    obtain ⟨y, h, rfl⟩ := h
    exact req_nil (by rw [Expr.requires])
  | .var y, x, h, hc, hn => by
    rw [Comes, hs, if_neg (by simp)] at h
    subst h
    intro r hr
    rw [Expr.requires, List.mem_singleton] at hr
    subst hr
    exact hn y (by simp [names])
  | .paren es tr, x, h, hc, hn => by
    rw [Comes] at h
    obtain ⟨xs, h, rfl⟩ := h
    rw [Constant] at hc
    rw [names] at hn
    exact req_paren.2 (listConst_req hv hs es h hc.2.2 hn)
  | .left e rest, x, h, hc, hn => by
    rw [Comes] at h
    obtain ⟨a, h1, h2⟩ := h
    rw [Constant] at hc
    simp only [names, List.mem_append] at hn
    exact leftConst_req hv hs rest h2 hc.2 (fun y hy => hn y (.inr hy))
      (const_req hv hs e h1 hc.1 fun y hy => hn y (.inl hy))
  | .cmp e rest, x, h, hc, hn => by
    rw [Comes] at h
    obtain ⟨a, h1, h2⟩ := h
    rw [Constant] at hc
    simp only [names, List.mem_append] at hn
    exact cmpConst_req hv hs rest h2 hc.2 (fun y hy => hn y (.inr hy))
      (const_req hv hs e h1 hc.1 fun y hy => hn y (.inl hy))
  | .fby e rest, x, h, hc, hn => by
    rw [Comes] at h
    obtain ⟨b, h1, h2⟩ := h
    rw [Constant] at hc
    obtain ⟨hc, rfl⟩ := hc
    rw [ComesFby] at h2
    subst h2
    simp only [names, List.mem_append] at hn
    exact const_req hv hs e h1 hc fun y hy => hn y (.inl hy)
  | .arrow e rest, x, h, hc, hn => by
    rw [Comes] at h
    obtain ⟨b, h1, h2⟩ := h
    rw [Constant] at hc
    obtain ⟨hc, rfl⟩ := hc
    rw [ComesThen] at h2
    subst h2
    simp only [names, List.mem_append] at hn
    exact const_req hv hs e h1 hc fun y hy => hn y (.inl hy)
  | .ifx c y n, x, h, hc, hn => by
    rw [Comes] at h
    obtain ⟨c', y', n', h1, h2, h3, rfl⟩ := h
    rw [Constant] at hc
    simp only [names, List.mem_append] at hn
    exact req_ifx.2 ⟨const_req hv hs c h1 hc.1 fun y hy => hn y (.inl hy),
      const_req hv hs y h2 hc.2.1 fun y hy => hn y (.inr (.inl hy)),
      const_req hv hs n h3 hc.2.2 fun y hy => hn y (.inr (.inr hy))⟩
  | .merge c y n, x, h, hc, hn => by rw [Constant] at hc; exact hc.elim
  | .call f args tr, x, h, hc, hn => by rw [Constant] at hc; exact hc.elim
  | .pre e, x, h, hc, hn => by rw [Constant] at hc; exact hc.elim
  | .neg e, x, h, hc, hn => by
    rw [Comes] at h
    obtain ⟨y, h, rfl⟩ := h
    rw [Constant] at hc
    rw [names] at hn
    exact req_un.2 (const_req hv hs e h hc hn)
  | .not e, x, h, hc, hn => by
    rw [Comes] at h
    obtain ⟨y, h, rfl⟩ := h
    rw [Constant] at hc
    rw [names] at hn
    exact req_un.2 (const_req hv hs e h hc hn)
theorem listConst_req {P : Reference → Prop} (hv : v.useRegisters = false) (hs : v.shadow = []) :
    (es : List Src) → {xs : List Expr} → ComesList C v es xs → Constants es →
    (∀ y ∈ namesList es, P (.globalVarName y)) → ∀ x ∈ xs, Req P x
  | [], xs, h, hc, hn => by
    rw [ComesList] at h
    subst h
    simp
  | e :: es, xs, h, hc, hn => by
    rw [ComesList] at h
    obtain ⟨y, ys, h1, h2, rfl⟩ := h
    rw [Constants] at hc
    simp only [namesList, List.mem_append] at hn
    intro x hx
    rcases List.mem_cons.1 hx with rfl | hx
    · exact const_req hv hs e h1 hc.1 fun y hy => hn y (.inl hy)
    · exact listConst_req hv hs es h2 hc.2 (fun y hy => hn y (.inr hy)) x hx
theorem leftConst_req {P : Reference → Prop} (hv : v.useRegisters = false) (hs : v.shadow = []) :
    (es : List (LOp × Src)) → {a x : Expr} → ComesLeft C v a es x → LeftConstant es →
    (∀ y ∈ namesLeft es, P (.globalVarName y)) → Req P a → Req P x
  | [], a, x, h, hc, hn, ha => by
    rw [ComesLeft] at h
    subst h
    exact ha
  | (op, e) :: es, a, x, h, hc, hn, ha => by
    rw [ComesLeft] at h
    obtain ⟨y, h1, h2⟩ := h
    rw [LeftConstant] at hc
    simp only [namesLeft, List.mem_append] at hn
    exact leftConst_req hv hs es h2 hc.2.2 (fun y hy => hn y (.inr hy))
      (req_compose.2 ⟨ha, const_req hv hs e h1 hc.2.1 fun y hy => hn y (.inl hy)⟩)
theorem cmpConst_req {P : Reference → Prop} (hv : v.useRegisters = false) (hs : v.shadow = []) :
    (es : List (CmpOp × Src)) → {a x : Expr} → ComesCmp C v a es x → CmpConstant es →
    (∀ y ∈ namesCmp es, P (.globalVarName y)) → Req P a → Req P x
  | [], a, x, h, hc, hn, ha => by
    rw [ComesCmp] at h
    subst h
    exact ha
  | (op, e) :: es, a, x, h, hc, hn, ha => by
    rw [ComesCmp] at h
    obtain ⟨rfl, y, h1, rfl⟩ := h
    rw [CmpConstant] at hc
    simp only [namesCmp, List.mem_append] at hn
    exact req_cmp.2 ⟨ha, const_req hv hs e h1 hc.1 fun y hy => hn y (.inl hy)⟩
end
end

mutual
theorem constant_callees : (e : Src) → Constant e → callees e = []
  | .lit l, h => by rw [callees]
  | .var y, h => by rw [callees]
  | .paren es tr, h => by
    rw [Constant] at h
    rw [callees, constants_callees es h.2.2]
  | .left e rest, h => by
    rw [Constant] at h
    rw [callees, constant_callees e h.1, leftConstant_callees rest h.2]; rfl
  | .cmp e rest, h => by
    rw [Constant] at h
    rw [callees, constant_callees e h.1, cmpConstant_callees rest h.2]; rfl
  | .fby e rest, h => by
    rw [Constant] at h
    obtain ⟨h, rfl⟩ := h
    rw [callees, constant_callees e h, calleesList]; rfl
  | .arrow e rest, h => by
    rw [Constant] at h
    obtain ⟨h, rfl⟩ := h
    rw [callees, constant_callees e h, calleesList]; rfl
  | .ifx c y n, h => by
    rw [Constant] at h
    rw [callees, constant_callees c h.1, constant_callees y h.2.1, constant_callees n h.2.2]; rfl
  | .merge c y n, h => by rw [Constant] at h; exact h.elim
  | .call f args tr, h => by rw [Constant] at h; exact h.elim
  | .pre e, h => by rw [Constant] at h; exact h.elim
  | .neg e, h => by
    rw [Constant] at h
    rw [callees, constant_callees e h]
  | .not e, h => by
    rw [Constant] at h
    rw [callees, constant_callees e h]
theorem constants_callees : (es : List Src) → Constants es → calleesList es = []
  | [], h => by rw [calleesList]
  | e :: es, h => by
    rw [Constants] at h
    rw [calleesList, constant_callees e h.1, constants_callees es h.2]; rfl
theorem leftConstant_callees : (es : List (LOp × Src)) → LeftConstant es → calleesLeft es = []
  | [], h => by rw [calleesLeft]
  | (op, e) :: es, h => by
    rw [LeftConstant] at h
    rw [calleesLeft, constant_callees e h.2.1, leftConstant_callees es h.2.2]; rfl
theorem cmpConstant_callees : (es : List (CmpOp × Src)) → CmpConstant es → calleesCmp es = []
  | [], h => by rw [calleesCmp]
  | (op, e) :: es, h => by
    rw [CmpConstant] at h
    rw [calleesCmp, constant_callees e h.1, cmpConstant_callees es h.2]; rfl
end

/-- The view in which constants are translated. -/
def plainView : View := ⟨[], 0, false⟩

theorem const_translate {c : SrcConst} {c' : Const} (h : c.translate = .ok c') :
    ∃ x s, c.value.translate plainView {} = .ok (x, s) ∧ s.stmts = [] ∧ s.blocks = [] ∧
      c' = ⟨c.name, c.ty, x⟩ := by
  unfold SrcConst.translate at h
  simp only [StateT.run, bind, Except.bind] at h
  cases e : c.value.translate plainView {} with
  | error t => rw [show (⟨[], 0, false⟩ : View) = plainView from rfl, e] at h; cases h
  | ok r =>
    obtain ⟨x, s⟩ := r
    rw [show (⟨[], 0, false⟩ : View) = plainView from rfl, e] at h
    dsimp only at h
    split at h
    · cases h
    · rename_i hn
      simp only [Bool.or_eq_true, Bool.not_eq_true', not_or, Bool.not_eq_false, List.isEmpty_iff] at hn
      cases h
      exact ⟨x, s, rfl, hn.1, hn.2, rfl⟩

theorem const_translates {c : SrcConst} {x : Expr} {s : ExprCtx}
    (h : c.value.translate plainView {} = .ok (x, s)) (h1 : s.stmts = []) (h2 : s.blocks = []) :
    c.translate = .ok ⟨c.name, c.ty, x⟩ := by
  unfold SrcConst.translate
  rw [show (⟨[], 0, false⟩ : View) = plainView from rfl]
  simp only [StateT.run, bind, Except.bind, h, h1, h2]
  rfl

theorem const_fits {consts : String → Option TyBase} {sigs : String → Option Sig} {C : ExprCtx}
    (h : C.blocks = []) : Fits ⟨[], consts, sigs, false⟩ C (constEnv consts) where
  global _ := rfl
  vars _ := rfl
  regs _ _ := trivial
  call i f hb := by rw [h] at hb; simp at hb

theorem const_sees {consts : String → Option TyBase} {sigs : String → Option Sig} :
    Sees ⟨[], consts, sigs, false⟩ plainView where
  shadow x := by simp [plainView, Scope.var]
  mode := rfl

/-- The constants that a constant mentions are those of its source. -/
theorem const_names {c : SrcConst} {c' : Const} (h : c.translate = .ok c')
    (hc : ConstExpr c'.value) (y : String) :
    Part (.global y) c'.value ↔ y ∈ names c.value := by
  obtain ⟨x, s, h1, h2, h3, rfl⟩ := const_translate h
  have hk := (comes _ h1).2 s Grown.rfl'
  constructor
  · intro hp
    have := const_req (P := fun r => ∀ y, r = .globalVarName y → y ∈ names c.value) rfl rfl _ hk
      ((comes_const rfl rfl _ hk).1 hc) (fun y hy z hz => by cases hz; exact hy)
    exact this (.globalVarName y) (mem_requires.2 ⟨_, .global, hp⟩) y rfl
  · intro hy
    rcases (comes_mentioned _ hk).2 y hy (by simp [plainView]) with ⟨e, he, hp⟩ | ⟨st, hst, -⟩
    · rw [List.mem_singleton] at he; subst he; exact hp
    · rw [h2] at hst; cases hst

theorem const_of_legal {consts : String → Option TyBase} {sigs : String → Option Sig} {c : SrcConst}
    (hc : Constant c.value) (ht : HasTy ⟨[], consts, sigs, false⟩ c.value (.single c.ty)) :
    ∃ c', c.translate = .ok c' ∧ ConstTyped consts c' := by
  obtain ⟨x, s, h⟩ := hasTy_translates _ ht plainView {}
  have hl := (hasTy_known _ ht).1
  have hk := (comes _ h).2 s Grown.rfl'
  have h1 : s.stmts = [] := by
    obtain ⟨new, hf⟩ := fresh_translate _ _ _ _ _ h
    rw [hf.stmts, (hf.plain rfl).1]; rfl
  have h2 : s.blocks = [] := by
    have := ((Quiet.clean_translate (F := fun _ => False) c.value plainView
      (fun l hm => literal_denotes (hl l hm)) (by rw [constant_callees _ hc]; simp)) {}
      Quiet.neat_nil).2 x s h
    exact List.eq_nil_iff_forall_not_mem.2 fun b hb => this.1.2 b hb
  exact ⟨_, const_translates h h1 h2, (comes_const rfl rfl _ hk).2 hc,
    (comes_type (const_fits h2) _ const_sees hl hk).2 ht⟩

theorem legal_of_const {consts : String → Option TyBase} {sigs : String → Option Sig}
    {c : SrcConst} {c' : Const} (h : c.translate = .ok c') (hc : ConstTyped consts c')
    (hp : printableExpr c'.value = true) :
    Constant c.value ∧ HasTy ⟨[], consts, sigs, false⟩ c.value (.single c.ty) := by
  obtain ⟨x, s, h1, h2, h3, rfl⟩ := const_translate h
  have hk := (comes _ h1).2 s Grown.rfl'
  have hl : LitsOk (literals c.value) := comes_lits (by rw [h2]; simp) _ hk hp
  exact ⟨(comes_const rfl rfl _ hk).1 hc.const, (comes_type (const_fits h3) _ const_sees hl hk).1 hc.type⟩

end Chandeliers.Den
