import Verif.San.ConstExpr
import Verif.Lemmas.TypeSafety
import Verif.Spec.Reads

/-! Constants. -/

set_option autoImplicit false

namespace Chandeliers.San
open Chandeliers.Spec

theorem constTokens_some {e : Expr} (h : ConstExpr e) : ∃ c, e.constTokens = some c := by
  induction h with
  | lit => exact ⟨_, by simp only [Expr.constTokens]; rfl⟩
  | global => exact ⟨_, by simp only [Expr.constTokens]; rfl⟩
  | paren h ih => simpa [Expr.constTokens] using ih
  | un h ih =>
    obtain ⟨c, hc⟩ := ih
    exact ⟨_, by simp [Expr.constTokens, hc]; rfl⟩
  | bin hl hr ihl ihr =>
    obtain ⟨c, hc⟩ := ihl
    obtain ⟨d, hd⟩ := ihr
    exact ⟨_, by simp [Expr.constTokens, hc, hd]; rfl⟩
  | cmp hl hr ihl ihr =>
    obtain ⟨c, hc⟩ := ihl
    obtain ⟨d, hd⟩ := ihr
    exact ⟨_, by simp [Expr.constTokens, hc, hd]; rfl⟩
  | ifx hb hy hn ihb ihy ihn =>
    obtain ⟨c, hc⟩ := ihb
    obtain ⟨d, hd⟩ := ihy
    obtain ⟨f, hf⟩ := ihn
    exact ⟨_, by simp [Expr.constTokens, hc, hd, hf]; rfl⟩

variable {A : Arith} {glob : Globals} {ms : List Machine} {env : Env} {s : NodeState ms}

theorem bind_ok {α β : Type} {a : α} {f : α → R β} : ((Except.ok a : R α) >>= f) = f a := rfl

/-- Same operations with overflow checks. -/
abbrev Arith.strict (A : Arith) : Arith := { A with overflowChecks := true }

theorem checked_strict {r : Int} {w : Int64} (h : checked A r = .ok w) :
    checked A.strict r = .ok w ∨ (checked A.strict r = .error .arith ∧ A.overflowChecks = false) := by
  unfold checked at h ⊢
  by_cases h1 : (Int64.ofInt r).toInt = r
  · rw [if_pos h1] at h ⊢; exact .inl h
  · rw [if_neg h1] at h ⊢
    cases h2 : A.overflowChecks with
    | true => rw [h2] at h; cases h
    | false => right; simp

theorem intBin_strict {op : BinOp} {x y w : Int64} (h : intBin A op x y = .ok w) :
    intBin A.strict op x y = .ok w ∨
      (intBin A.strict op x y = .error .arith ∧ A.overflowChecks = false) := by
  cases op <;> simp only [intBin] at h ⊢
  case add => exact checked_strict h
  case sub => exact checked_strict h
  case mul => exact checked_strict h
  all_goals exact .inl h

theorem map_int {m : R Int64} {w : Scalar} (h : m.map .int = .ok w) : ∃ i, m = .ok i ∧ w = .int i := by
  cases m with
  | ok i => cases h; exact ⟨i, rfl, rfl⟩
  | error p => cases h

theorem scalarBin_strict {op : BinOp} {x y w : Scalar} (h : scalarBin A op x y = .ok w) :
    scalarBin A.strict op x y = .ok w ∨
      (scalarBin A.strict op x y = .error .arith ∧ A.overflowChecks = false) := by
  cases x with
  | int a =>
    cases y with
    | int b =>
      have h' : (intBin A op a b).map .int = .ok w := by simpa only [scalarBin] using h
      obtain ⟨i, h1, rfl⟩ := map_int h'
      simp only [scalarBin]
      rcases intBin_strict h1 with h2 | ⟨h2, h3⟩
      · left; rw [h2]; rfl
      · right; rw [h2]; exact ⟨rfl, h3⟩
    | _ => cases op <;> cases h
  | float a => cases y <;> cases op <;> cases h <;> exact .inl rfl
  | bool a => cases y <;> cases op <;> cases h <;> exact .inl rfl
  | unit => cases op <;> cases y <;> cases h
  | other a b => cases op <;> cases y <;> cases h

theorem scalarUn_strict {op : UnOp} {x w : Scalar} (h : scalarUn A op x = .ok w) :
    scalarUn A.strict op x = .ok w ∨
      (scalarUn A.strict op x = .error .arith ∧ A.overflowChecks = false) := by
  cases x with
  | int a =>
    cases op with
    | neg =>
      have h' : (checked A (-a.toInt)).map .int = .ok w := by simpa only [scalarUn] using h
      obtain ⟨i, h1, rfl⟩ := map_int h'
      simp only [scalarUn]
      rcases checked_strict h1 with h2 | ⟨h2, h3⟩
      · left; rw [h2]; rfl
      · right; rw [h2]; exact ⟨rfl, h3⟩
    | not => exact .inl h
  | float a => cases op <;> cases h <;> exact .inl rfl
  | bool a => cases op <;> cases h <;> exact .inl rfl
  | unit => cases op <;> cases h
  | other a b => cases op <;> cases h

theorem scalarBin_fine {op : BinOp} {t : TyBase} {x y : Scalar} (ht : t ∈ binTypes op)
    (hx : ScalarTy t x) (hy : ScalarTy t y) :
    (∃ v, scalarBin A op x y = .ok v ∧ ScalarTy t v) ∨ scalarBin A op x y = .error .arith := by
  have := binop_fine (A := A) ht (leafTy_defined.2 hx) (leafTy_defined.2 hy)
  simp only [Nillable.binop] at this
  cases h : scalarBin A op x y with
  | ok v => rw [h] at this; exact .inl ⟨v, rfl, leafTy_defined.1 this⟩
  | error p =>
    rw [h] at this
    rcases scalarBin_err h with rfl | rfl
    · exact .inr rfl
    · exact absurd (.inl rfl) this

theorem scalarUn_fine {op : UnOp} {t : TyBase} {x : Scalar} (ht : t ∈ unTypes op)
    (hx : ScalarTy t x) :
    (∃ v, scalarUn A op x = .ok v ∧ ScalarTy t v) ∨ scalarUn A op x = .error .arith := by
  have := unop_fine (A := A) ht (leafTy_defined.2 hx)
  simp only [Nillable.unop] at this
  cases h : scalarUn A op x with
  | ok v => rw [h] at this; exact .inl ⟨v, rfl, leafTy_defined.1 this⟩
  | error p =>
    rw [h] at this
    rcases scalarUn_err h with rfl | rfl
    · exact .inr rfl
    · exact absurd (.inl rfl) this

/-- A comparison inside a node, when it has a value, has the value of the Rust operator. -/
theorem cmp_rust {op : CmpOp} {x y : Scalar} {b : Bool}
    (h : Candle.cmp (scalarEq A) (scalarPcmp A) op (.defined x) (.defined y) = .defined b) :
    rustCmp A op x y = b := by
  cases op <;> simp only [Candle.cmp, Candle.nillableCmpEq, Candle.nillableCmpOrd, Nillable.eq,
    Nillable.cmp] at h <;> simp only [rustCmp]
  case eq => cases he : scalarEq A x y <;> rw [he] at h <;> cases h <;> rfl
  case ne => cases he : scalarEq A x y <;> rw [he] at h <;> cases h <;> rfl
  all_goals
    cases he : scalarPcmp A x y with
    | none => rw [he] at h; cases h
    | some o => rw [he] at h; cases o <;> cases h <;> rfl

/-- It has no value only when the operands cannot be ordered. -/
theorem cmp_nil {op : CmpOp} {x y : Scalar} {t : TyBase} (ht : t ∈ cmpTypes op)
    (hx : ScalarTy t x) (hy : ScalarTy t y)
    (h : Candle.cmp (scalarEq A) (scalarPcmp A) op (.defined x) (.defined y) = .nil) :
    ∃ a b, A.fcmp a b = none := by
  have key : scalarPcmp A x y = none → ∃ a b, A.fcmp a b = none := by
    intro he
    cases x <;> cases t <;> simp only [ScalarTy] at hx <;> cases y <;> simp only [ScalarTy] at hy
    case float.float.float a b => exact ⟨a, b, he⟩
    case other.other.other => cases op <;> simp [cmpTypes] at ht
    all_goals cases he
  cases op <;> simp only [Candle.cmp, Candle.nillableCmpEq, Candle.nillableCmpOrd, Nillable.eq,
    Nillable.cmp] at h
  case eq => cases he : scalarEq A x y <;> rw [he] at h <;> cases h
  case ne => cases he : scalarEq A x y <;> rw [he] at h <;> cases h
  all_goals
    cases he : scalarPcmp A x y with
    | none => exact key he
    | some o => rw [he] at h; cases o <;> cases h

/-- How the two evaluations of a constant expression relate. -/
structure Agree (A : Arith) (t : TyBase) (s : NodeState ms) (C : R Scalar)
    (N : R (Value × NodeState ms)) : Prop where
  const : (∃ v, C = .ok v ∧ ScalarTy t v) ∨ C = .error .arith
  node : (∃ l, N = .ok (.leaf l, s) ∧ LeafTy t l) ∨ N = .error .arith
  same : ∀ w, N = .ok (.leaf (.defined w), s) →
    C = .ok w ∨ (C = .error .arith ∧ A.overflowChecks = false)
  nil : N = .ok (.leaf .nil, s) → ∃ a b, A.fcmp a b = none

theorem const_agree {consts : String → Option TyBase} (hc : ConstsOk consts glob) {e : Expr}
    (h : ConstExpr e) : ∀ {t : TyBase} {c : CExpr}, HasType (constEnv consts) e (.single t) →
    e.constTokens = some c →
    Agree A t s (c.eval A glob) (eval A glob ms env e s) := by
  induction h with
  | lit =>
    intro t c ht hcc
    cases ht
    simp only [Expr.constTokens, Option.some.injEq] at hcc
    subst hcc
    rename_i l
    have hl : ScalarTy (litType l) l.scalar := by cases l <;> trivial
    simp only [CExpr.eval, eval]
    exact ⟨.inl ⟨_, rfl, hl⟩, .inl ⟨_, rfl, leafTy_defined.2 hl⟩, fun w hw => (by cases hw; exact .inl rfl),
      fun hw => (by cases hw)⟩
  | global =>
    intro t c ht hcc
    cases ht with
    | global hx =>
      simp only [Expr.constTokens, Option.some.injEq] at hcc
      subst hcc
      obtain ⟨_, v, h1, h2⟩ := hc _ _ hx
      simp only [CExpr.eval, eval, h1]
      exact ⟨.inl ⟨_, rfl, h2⟩, .inl ⟨_, rfl, leafTy_defined.2 h2⟩,
        fun w hw => (by cases hw; exact .inl rfl), fun hw => (by cases hw)⟩
  | paren h ih =>
    intro t c ht hcc
    cases ht with
    | dummyParen ht =>
      simp only [Expr.constTokens] at hcc
      simp only [eval]
      exact ih ht hcc
  | un h ih =>
    intro t c ht hcc
    cases ht with
    | un he hop =>
      rename_i op _
      obtain ⟨c1, hc1⟩ := constTokens_some h
      simp only [Expr.constTokens, hc1] at hcc
      cases hcc
      have g := ih he hc1
      have hC : (∃ v, (c1.eval A glob >>= fun v => scalarUn A.strict op v) = .ok v ∧ ScalarTy t v) ∨
          (c1.eval A glob >>= fun v => scalarUn A.strict op v) = .error .arith := by
        rcases g.const with ⟨v, hv, hvt⟩ | hv
        · rw [hv]; exact scalarUn_fine hop hvt
        · rw [hv]; exact .inr rfl
      simp only [CExpr.eval, eval]
      rcases g.node with ⟨l, hl, htl⟩ | hN
      · rw [hl]
        cases l with
        | nil =>
          have hnil := g.nil hl
          exact ⟨hC, .inl ⟨.nil, rfl, leafTy_nil t⟩, fun w hw => (by cases hw), fun _ => hnil⟩
        | defined x =>
          have hx := leafTy_defined.1 htl
          refine ⟨hC, ?_, ?_, ?_⟩
          · rcases scalarUn_fine (A := A) hop hx with ⟨v, hv, hvt⟩ | hv
            · exact .inl ⟨.defined v, by simp [asLeaf, Nillable.unop, hv, bind, Except.bind, Except.map], leafTy_defined.2 hvt⟩
            · exact .inr (by simp [asLeaf, Nillable.unop, hv, bind, Except.bind, Except.map])
          · intro w hw
            have hw' : scalarUn A op x = .ok w := by
              rcases scalarUn_fine (A := A) hop hx with ⟨v, hv, hvt⟩ | hv
              · simp [asLeaf, Nillable.unop, hv, bind, Except.bind, Except.map] at hw; rw [hv, hw]
              · simp [asLeaf, Nillable.unop, hv, bind, Except.bind, Except.map] at hw
            rcases g.same x hl with h1 | ⟨h1, h2⟩
            · rw [h1]; exact scalarUn_strict hw'
            · rw [h1]; exact .inr ⟨rfl, h2⟩
          · intro hw
            rcases scalarUn_fine (A := A) hop hx with ⟨v, hv, hvt⟩ | hv <;>
              simp [asLeaf, Nillable.unop, hv, bind, Except.bind, Except.map] at hw
      · rw [hN]
        exact ⟨hC, .inr rfl, fun w hw => (by cases hw), fun hw => (by cases hw)⟩
  | bin hl hr ihl ihr =>
    intro t c ht hcc
    cases ht with
    | bin hel her hop =>
      rename_i op _ _
      obtain ⟨c1, hc1⟩ := constTokens_some hl
      obtain ⟨c2, hc2⟩ := constTokens_some hr
      simp only [Expr.constTokens, hc1, hc2] at hcc
      cases hcc
      have g := ihl hel hc1
      have k := ihr her hc2
      have hC : (∃ v, (c1.eval A glob >>= fun l => c2.eval A glob >>= fun r =>
            scalarBin A.strict op l r) = .ok v ∧ ScalarTy t v) ∨
          (c1.eval A glob >>= fun l => c2.eval A glob >>= fun r =>
            scalarBin A.strict op l r) = .error .arith := by
        rcases g.const with ⟨v, hv, hvt⟩ | hv
        · rw [hv]
          rcases k.const with ⟨w, hw, hwt⟩ | hw
          · rw [hw]; exact scalarBin_fine hop hvt hwt
          · rw [hw]; exact .inr rfl
        · rw [hv]; exact .inr rfl
      simp only [CExpr.eval, eval]
      rcases g.node with ⟨l1, hl1, htl1⟩ | hN
      · rw [hl1]
        simp only [bind_ok]
        rcases k.node with ⟨l2, hl2, htl2⟩ | hN
        · rw [hl2]
          cases l1 with
          | nil =>
            have hnil := g.nil hl1
            exact ⟨hC, .inl ⟨.nil, rfl, leafTy_nil t⟩, fun w hw => (by cases hw), fun _ => hnil⟩
          | defined x =>
            cases l2 with
            | nil =>
              have hnil := k.nil hl2
              exact ⟨hC, .inl ⟨.nil, rfl, leafTy_nil t⟩, fun w hw => (by cases hw), fun _ => hnil⟩
            | defined y =>
              have hx := leafTy_defined.1 htl1
              have hy := leafTy_defined.1 htl2
              refine ⟨hC, ?_, ?_, ?_⟩
              · rcases scalarBin_fine (A := A) hop hx hy with ⟨v, hv, hvt⟩ | hv
                · exact .inl ⟨.defined v, by simp [asLeaf, Nillable.binop, hv, bind, Except.bind, Except.map],
                    leafTy_defined.2 hvt⟩
                · exact .inr (by simp [asLeaf, Nillable.binop, hv, bind, Except.bind, Except.map])
              · intro w hw
                have hw' : scalarBin A op x y = .ok w := by
                  rcases scalarBin_fine (A := A) hop hx hy with ⟨v, hv, hvt⟩ | hv
                  · simp [asLeaf, Nillable.binop, hv, bind, Except.bind, Except.map] at hw; rw [hv, hw]
                  · simp [asLeaf, Nillable.binop, hv, bind, Except.bind, Except.map] at hw
                rcases g.same x hl1 with h1 | ⟨h1, h2⟩
                · rw [h1]
                  rcases k.same y hl2 with h3 | ⟨h3, h4⟩
                  · rw [h3]; exact scalarBin_strict hw'
                  · rw [h3]; exact .inr ⟨rfl, h4⟩
                · rw [h1]; exact .inr ⟨rfl, h2⟩
              · intro hw
                rcases scalarBin_fine (A := A) hop hx hy with ⟨v, hv, hvt⟩ | hv <;>
                  simp [asLeaf, Nillable.binop, hv, bind, Except.bind, Except.map] at hw
        · rw [hN]
          exact ⟨hC, .inr rfl, fun w hw => (by cases hw), fun hw => (by cases hw)⟩
      · rw [hN]
        exact ⟨hC, .inr rfl, fun w hw => (by cases hw), fun hw => (by cases hw)⟩
  | cmp hl hr ihl ihr =>
    intro t c ht hcc
    cases ht with
    | cmp hel her hop =>
      rename_i op _ _ t0
      obtain ⟨c1, hc1⟩ := constTokens_some hl
      obtain ⟨c2, hc2⟩ := constTokens_some hr
      simp only [Expr.constTokens, hc1, hc2] at hcc
      cases hcc
      have g := ihl hel hc1
      have k := ihr her hc2
      have hcmp : ∀ {x y : Scalar}, ScalarTy t0 x → ScalarTy t0 y →
          comparable (.defined x) (.defined y) = true := by
        intro x y hx hy
        have := cmp_fine (A := A) hop (leafTy_defined.2 hx) (leafTy_defined.2 hy)
        unfold scalarCmp at this
        cases hq : comparable (.defined x) (.defined y) with
        | true => rfl
        | false => rw [hq] at this; exact absurd (.inl rfl) this
      have hC : (∃ v, (CExpr.cmp op c1 c2).eval A glob = .ok v ∧ ScalarTy .bool v) ∨
          (CExpr.cmp op c1 c2).eval A glob = .error .arith := by
        simp only [CExpr.eval]
        rcases g.const with ⟨v, hv, hvt⟩ | hv
        · rw [hv]
          rcases k.const with ⟨w, hw, hwt⟩ | hw
          · rw [hw]; simp only [bind_ok, hcmp hvt hwt, if_true]; exact .inl ⟨_, rfl, trivial⟩
          · rw [hw]; exact .inr rfl
        · rw [hv]; exact .inr rfl
      simp only [eval]
      rcases g.node with ⟨l1, hl1, htl1⟩ | hN
      · rw [hl1]
        simp only [bind_ok]
        rcases k.node with ⟨l2, hl2, htl2⟩ | hN
        · rw [hl2]
          simp only [bind_ok, asLeaf]
          have hlc := cmp_fine (A := A) hop htl1 htl2
          cases hsc : scalarCmp A op l1 l2 with
          | error p =>
            exfalso
            unfold scalarCmp at hsc
            cases hq : comparable l1 l2 with
            | true => simp [hq] at hsc
            | false =>
              simp [hq] at hsc
              unfold scalarCmp at hlc
              simp [hq] at hlc
              exact absurd (.inl rfl) hlc
          | ok l =>
            rw [hsc] at hlc
            refine ⟨hC, .inl ⟨l, rfl, hlc⟩, ?_, ?_⟩
            · intro w hw
              have hw' : l = .defined w := by cases hw; rfl
              subst hw'
              cases l1 with
              | nil =>
                cases l2 <;> cases op <;> simp [scalarCmp, comparable, Candle.cmp,
                  Candle.nillableCmpEq, Candle.nillableCmpOrd, Nillable.eq, Nillable.cmp,
                  Nillable.map] at hsc
              | defined x =>
                cases l2 with
                | nil =>
                  cases op <;> simp [scalarCmp, comparable, Candle.cmp,
                    Candle.nillableCmpEq, Candle.nillableCmpOrd, Nillable.eq, Nillable.cmp,
                    Nillable.map] at hsc
                | defined y =>
                  have hx := leafTy_defined.1 htl1
                  have hy := leafTy_defined.1 htl2
                  simp only [scalarCmp, hcmp hx hy, if_true] at hsc
                  obtain ⟨b, hb, rfl⟩ : ∃ b, Candle.cmp (scalarEq A) (scalarPcmp A) op (.defined x)
                      (.defined y) = .defined b ∧ w = .bool b := by
                    cases hq : Candle.cmp (scalarEq A) (scalarPcmp A) op (.defined x)
                      (.defined y) with
                    | nil => rw [hq] at hsc; cases hsc
                    | defined b => rw [hq] at hsc; cases hsc; exact ⟨b, rfl, rfl⟩
                  simp only [CExpr.eval]
                  rcases g.same x hl1 with h1 | ⟨h1, h2⟩
                  · rw [h1]
                    rcases k.same y hl2 with h3 | ⟨h3, h4⟩
                    · rw [h3]; simp only [bind_ok, hcmp hx hy, if_true, cmp_rust hb]; exact .inl trivial
                    · rw [h3]; exact .inr ⟨rfl, h4⟩
                  · rw [h1]; exact .inr ⟨rfl, h2⟩
            · intro hw
              have hw' : l = .nil := by cases hw; rfl
              subst hw'
              cases l1 with
              | nil => exact g.nil hl1
              | defined x =>
                cases l2 with
                | nil => exact k.nil hl2
                | defined y =>
                  have hx := leafTy_defined.1 htl1
                  have hy := leafTy_defined.1 htl2
                  simp only [scalarCmp, hcmp hx hy, if_true] at hsc
                  refine cmp_nil (op := op) hop hx hy ?_
                  cases hq : Candle.cmp (scalarEq A) (scalarPcmp A) op (.defined x)
                    (.defined y) with
                  | nil => rfl
                  | defined b => rw [hq] at hsc; cases hsc
        · rw [hN]
          exact ⟨hC, .inr rfl, fun w hw => (by cases hw), fun hw => (by cases hw)⟩
      · rw [hN]
        exact ⟨hC, .inr rfl, fun w hw => (by cases hw), fun hw => (by cases hw)⟩
  | ifx hb hy hn ihb ihy ihn =>
    intro t c ht hcc
    cases ht with
    | ifx heb hey hen =>
      obtain ⟨c1, hc1⟩ := constTokens_some hb
      obtain ⟨c2, hc2⟩ := constTokens_some hy
      obtain ⟨c3, hc3⟩ := constTokens_some hn
      simp only [Expr.constTokens, hc1, hc2, hc3] at hcc
      cases hcc
      have g := ihb heb hc1
      have k := ihy hey hc2
      have j := ihn hen hc3
      have hC : (∃ v, (CExpr.ite c1 c2 c3).eval A glob = .ok v ∧ ScalarTy t v) ∨
          (CExpr.ite c1 c2 c3).eval A glob = .error .arith := by
        simp only [CExpr.eval]
        rcases g.const with ⟨v, hv, hvt⟩ | hv
        · rw [hv]
          cases v <;> simp only [ScalarTy] at hvt
          rename_i b
          cases b
          · exact j.const
          · exact k.const
        · rw [hv]; exact .inr rfl
      simp only [eval]
      rcases k.node with ⟨l2, hl2, htl2⟩ | hN
      · rw [hl2]
        simp only [bind_ok]
        rcases j.node with ⟨l3, hl3, htl3⟩ | hN
        · rw [hl3]
          simp only [bind_ok]
          rcases g.node with ⟨l1, hl1, htl1⟩ | hN
          · rw [hl1]
            simp only [bind_ok]
            cases l1 with
            | nil =>
              have hnil := g.nil hl1
              exact ⟨hC, .inl ⟨.nil, rfl, leafTy_nil t⟩, fun w hw => (by cases hw), fun _ => hnil⟩
            | defined b =>
              have hbt := leafTy_defined.1 htl1
              cases b <;> simp only [ScalarTy] at hbt
              rename_i b
              have hone := g.same _ hl1
              cases b
              · refine ⟨hC, .inl ⟨l3, rfl, htl3⟩, ?_, ?_⟩
                · intro w hw
                  have hw' : l3 = .defined w := by cases hw; rfl
                  subst hw'
                  simp only [CExpr.eval]
                  rcases hone with h1 | ⟨h1, h2⟩
                  · rw [h1]; exact j.same w hl3
                  · rw [h1]; exact .inr ⟨rfl, h2⟩
                · intro hw
                  have hw' : l3 = .nil := by cases hw; rfl
                  subst hw'
                  exact j.nil hl3
              · refine ⟨hC, .inl ⟨l2, rfl, htl2⟩, ?_, ?_⟩
                · intro w hw
                  have hw' : l2 = .defined w := by cases hw; rfl
                  subst hw'
                  simp only [CExpr.eval]
                  rcases hone with h1 | ⟨h1, h2⟩
                  · rw [h1]; exact k.same w hl2
                  · rw [h1]; exact .inr ⟨rfl, h2⟩
                · intro hw
                  have hw' : l2 = .nil := by cases hw; rfl
                  subst hw'
                  exact k.nil hl2
          · rw [hN]
            exact ⟨hC, .inr rfl, fun w hw => (by cases hw), fun hw => (by cases hw)⟩
        · rw [hN]
          exact ⟨hC, .inr rfl, fun w hw => (by cases hw), fun hw => (by cases hw)⟩
      · rw [hN]
        exact ⟨hC, .inr rfl, fun w hw => (by cases hw), fun hw => (by cases hw)⟩

/-! ### When the two evaluations are the same -/

theorem checked_of_strict {r : Int} {w : Int64} (h : checked A.strict r = .ok w) :
    checked A r = .ok w := by
  unfold checked at h ⊢
  by_cases h1 : (Int64.ofInt r).toInt = r
  · rw [if_pos h1] at h ⊢; exact h
  · rw [if_neg h1] at h; simp at h

theorem intBin_of_strict {op : BinOp} {x y w : Int64} (h : intBin A.strict op x y = .ok w) :
    intBin A op x y = .ok w := by
  cases op <;> simp only [intBin] at h ⊢
  case add => exact checked_of_strict h
  case sub => exact checked_of_strict h
  case mul => exact checked_of_strict h
  all_goals exact h

theorem scalarBin_of_strict {op : BinOp} {x y w : Scalar} (h : scalarBin A.strict op x y = .ok w) :
    scalarBin A op x y = .ok w := by
  cases x with
  | int a =>
    cases y with
    | int b =>
      have h' : (intBin A.strict op a b).map .int = .ok w := by simpa only [scalarBin] using h
      obtain ⟨i, h1, rfl⟩ := map_int h'
      simp only [scalarBin]
      rw [intBin_of_strict h1]; rfl
    | _ => cases op <;> cases h
  | float a => cases y <;> cases op <;> cases h <;> rfl
  | bool a => cases y <;> cases op <;> cases h <;> rfl
  | unit => cases op <;> cases y <;> cases h
  | other a b => cases op <;> cases y <;> cases h

theorem scalarUn_of_strict {op : UnOp} {x w : Scalar} (h : scalarUn A.strict op x = .ok w) :
    scalarUn A op x = .ok w := by
  cases x with
  | int a =>
    cases op with
    | neg =>
      have h' : (checked A.strict (-a.toInt)).map .int = .ok w := by simpa only [scalarUn] using h
      obtain ⟨i, h1, rfl⟩ := map_int h'
      simp only [scalarUn]
      rw [checked_of_strict h1]; rfl
    | not => exact h
  | float a => cases op <;> cases h <;> rfl
  | bool a => cases op <;> cases h <;> rfl
  | unit => cases op <;> cases h
  | other a b => cases op <;> cases h

/-- A comparison has the value of the Rust operator when its operands can be ordered, or when it does
not order them. -/
theorem cmp_of_rust {op : CmpOp} {x y : Scalar}
    (h : op = .eq ∨ op = .ne ∨ scalarPcmp A x y ≠ none) :
    Candle.cmp (scalarEq A) (scalarPcmp A) op (.defined x) (.defined y) =
      .defined (rustCmp A op x y) := by
  cases hq : Candle.cmp (scalarEq A) (scalarPcmp A) op (.defined x) (.defined y) with
  | defined b => rw [cmp_rust hq]
  | nil =>
    exfalso
    cases op <;> simp only [Candle.cmp, Candle.nillableCmpEq, Candle.nillableCmpOrd, Nillable.eq,
      Nillable.cmp] at hq
    case eq => cases he : scalarEq A x y <;> rw [he] at hq <;> cases hq
    case ne => cases he : scalarEq A x y <;> rw [he] at hq <;> cases hq
    all_goals
      have h : scalarPcmp A x y ≠ none := by simpa using h
      cases he : scalarPcmp A x y with
      | none => exact h he
      | some o => rw [he] at hq; cases o <;> cases hq

/-- The value of an expression as a constant. -/
def constValue (A : Arith) (glob : Globals) (e : Expr) : R Scalar :=
  match e.constTokens with
  | some c => c.eval A glob
  | none => .error .rejected

theorem bind_ok_iff {α β : Type} {m : R α} {f : α → R β} {b : β} :
    (m >>= f) = .ok b ↔ ∃ a, m = .ok a ∧ f a = .ok b := by
  cases m with
  | ok a => exact ⟨fun h => ⟨a, rfl, h⟩, fun ⟨_, h1, h2⟩ => by cases h1; exact h2⟩
  | error p => exact ⟨fun h => (by cases h), fun ⟨_, h1, _⟩ => (by cases h1)⟩

theorem calm_eval {e : Expr} (h : ConstExpr e)
    (hv : ∀ e', Part e' e → ∃ v, constValue A glob e' = .ok v)
    (ho : ∀ op l r x y, Part (.cmp op l r) e → op ≠ .eq → op ≠ .ne →
      constValue A glob l = .ok (.float x) → constValue A glob r = .ok (.float y) →
      A.fcmp x y ≠ none) {v : Scalar} (hc : constValue A glob e = .ok v) :
    eval A glob ms env e s = .ok (.leaf (.defined v), s) := by
  induction h generalizing v with
  | lit => simp only [constValue, Expr.constTokens, CExpr.eval] at hc; cases hc; rfl
  | @global x =>
    simp only [constValue, Expr.constTokens, CExpr.eval] at hc
    simp only [eval]
    cases hx : glob x with
    | none => rw [hx] at hc; cases hc
    | some w => rw [hx] at hc; cases hc; rfl
  | paren h ih =>
    simp only [eval]
    exact ih (fun e' h => hv e' (h.tail .dummyParen))
      (fun op l r x y h => ho op l r x y (h.tail .dummyParen)) (by simpa [constValue, Expr.constTokens] using hc)
  | @un op e h ih =>
    obtain ⟨c1, h1⟩ := constTokens_some h
    simp only [constValue, Expr.constTokens, h1] at hc
    obtain ⟨x, hx, hc⟩ := bind_ok_iff.1 hc
    have := ih (fun e' h => hv e' (h.tail .un)) (fun op l r x y h => ho op l r x y (h.tail .un))
      (v := x) (by simp only [constValue, h1]; exact hx)
    simp only [eval, this, bind_ok, asLeaf, Nillable.unop, scalarUn_of_strict hc]
    rfl
  | @bin op l r hl hr ihl ihr =>
    obtain ⟨c1, h1⟩ := constTokens_some hl
    obtain ⟨c2, h2⟩ := constTokens_some hr
    simp only [constValue, Expr.constTokens, h1, h2] at hc
    obtain ⟨x, hx, hc⟩ := bind_ok_iff.1 hc
    obtain ⟨y, hy, hc⟩ := bind_ok_iff.1 hc
    have a := ihl (fun e' h => hv e' (h.tail .binL)) (fun op l r x y h => ho op l r x y (h.tail .binL))
      (v := x) (by simp only [constValue, h1]; exact hx)
    have b := ihr (fun e' h => hv e' (h.tail .binR)) (fun op l r x y h => ho op l r x y (h.tail .binR))
      (v := y) (by simp only [constValue, h2]; exact hy)
    simp only [eval, a, b, bind_ok, asLeaf, Nillable.binop, scalarBin_of_strict hc]
    rfl
  | @cmp op l r hl hr ihl ihr =>
    obtain ⟨c1, h1⟩ := constTokens_some hl
    obtain ⟨c2, h2⟩ := constTokens_some hr
    simp only [constValue, Expr.constTokens, h1, h2] at hc
    obtain ⟨x, hx, hc⟩ := bind_ok_iff.1 hc
    obtain ⟨y, hy, hc⟩ := bind_ok_iff.1 hc
    have hx' : constValue A glob l = .ok x := by simp only [constValue, h1]; exact hx
    have hy' : constValue A glob r = .ok y := by simp only [constValue, h2]; exact hy
    have a := ihl (fun e' h => hv e' (h.tail .cmpL)) (fun op l r x y h => ho op l r x y (h.tail .cmpL))
      hx'
    have b := ihr (fun e' h => hv e' (h.tail .cmpR)) (fun op l r x y h => ho op l r x y (h.tail .cmpR))
      hy'
    have hq : comparable (.defined x) (.defined y) = true := by
      cases hq : comparable (.defined x) (.defined y) with
      | true => rfl
      | false => rw [hq] at hc; simp at hc
    rw [hq, if_pos rfl] at hc
    cases hc
    have ord : op = .eq ∨ op = .ne ∨ scalarPcmp A x y ≠ none := by
      by_cases e1 : op = .eq
      · exact .inl e1
      · by_cases e2 : op = .ne
        · exact .inr (.inl e2)
        · refine .inr (.inr ?_)
          cases x <;> cases y <;> simp [comparable] at hq <;> simp [scalarPcmp]
          exact ho op l r _ _ .refl e1 e2 hx' hy'
    simp only [eval, a, b, bind_ok, asLeaf, scalarCmp, hq, if_true, cmp_of_rust ord]
    rfl
  | @ifx b y n hb hy hn ihb ihy ihn =>
    obtain ⟨c1, h1⟩ := constTokens_some hb
    obtain ⟨c2, h2⟩ := constTokens_some hy
    obtain ⟨c3, h3⟩ := constTokens_some hn
    obtain ⟨vy, hvy⟩ := hv y (.single .ifYes)
    obtain ⟨vn, hvn⟩ := hv n (.single .ifNo)
    simp only [constValue, Expr.constTokens, h1, h2, h3] at hc
    obtain ⟨x, hx, hc⟩ := bind_ok_iff.1 hc
    have a := ihb (fun e' h => hv e' (h.tail .ifCond))
      (fun op l r x y h => ho op l r x y (h.tail .ifCond)) (v := x)
      (by simp only [constValue, h1]; exact hx)
    have b := ihy (fun e' h => hv e' (h.tail .ifYes))
      (fun op l r x y h => ho op l r x y (h.tail .ifYes)) hvy
    have d := ihn (fun e' h => hv e' (h.tail .ifNo))
      (fun op l r x y h => ho op l r x y (h.tail .ifNo)) hvn
    simp only [constValue, h2] at hvy
    simp only [constValue, h3] at hvn
    simp only [eval, a, b, d, bind_ok]
    cases x with
    | bool q =>
      cases q
      · simp only at hc
        rw [hvn] at hc
        cases hc
        simp [asBool, bind, Except.bind, Candle.ifx]
      · simp only at hc
        rw [hvy] at hc
        cases hc
        simp [asBool, bind, Except.bind, Candle.ifx]
    | _ => simp at hc

end Chandeliers.San
