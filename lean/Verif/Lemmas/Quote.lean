import Verif.San.Quote
import Verif.Spec.Quote
import Verif.San.Twice
import Verif.Lemmas.Replace
import Verif.Props.Options

/-!
# Running the emitted code

The execution of the emitted Rust code follows that of the compiled program, step by step, except
where the latter is rejected.
-/

set_option autoImplicit false

namespace Chandeliers.Quo
open Chandeliers.San Chandeliers.Spec Chandeliers.Rep

/-- The same end, unless the first execution is rejected. -/
abbrev Fit {α β : Type} (Q : α → β → Prop) (x : R α) (y : R β) : Prop :=
  Upto (· = .rejected) (· = ·) Q x y

theorem fit_rej {α β : Type} {Q : α → β → Prop} (y : R β) : Fit Q (.error .rejected) y := by
  cases y
  · exact .inl rfl
  · rfl

theorem fit_err {α β : Type} {Q : α → β → Prop} (p : Panic) :
    Fit Q (.error p : R α) (.error p : R β) := .inr rfl

theorem fit_bind {α β γ δ : Type} {Q : α → β → Prop} {Q' : γ → δ → Prop} {x : R α} {y : R β}
    {f : α → R γ} {g : β → R δ} (h : Fit Q x y) (hf : ∀ a b, Q a b → Fit Q' (f a) (g b)) :
    Fit Q' (x >>= f) (y >>= g) := both_bind h hf

theorem fit_same {α γ δ : Type} {Q : γ → δ → Prop} (x : R α) {f : α → R γ} {g : α → R δ}
    (h : ∀ a, Fit Q (f a) (g a)) : Fit Q (x >>= f) (x >>= g) := both_same (fun _ => rfl) x h

theorem locName_length (x : String) : 11 ≤ (locName x).length := by
  have : (locName x).length = x.length + 11 := by
    unfold locName Entity.sanitized; rw [String.length_append]; rfl
  omega

theorem globName_length (uid : Nat) (x : String) : 11 ≤ (globName uid x).length := by
  have h1 : "__lus_".length = 6 := rfl
  have h2 : "_global".length = 7 := rfl
  have : (globName uid x).length = x.length + 6 + (toString uid).length + 7 := by
    unfold globName Entity.sanitized
    rw [String.length_append, String.length_append, String.length_append, h1, h2]
  omega

/-- The names introduced by the macros are shorter than those of variables and constants. -/
theorem locName_ne {x y : String} (h : y.length < 11) : locName x ≠ y := by
  rintro rfl; have := locName_length x; omega

theorem globName_ne {uid : Nat} {x y : String} (h : y.length < 11) : globName uid x ≠ y := by
  rintro rfl; have := globName_length uid x; omega

section
variable {uid : Nat} {ms rs : List Machine} {L : Nat}

/-- The variables of the program are bound to the same values in Rust, and nothing hides the
constants. -/
structure EnvSim (uid : Nat) (env : Env) (renv : REnv) : Prop where
  vars : ∀ x v, env x = some v → renv (locName x) = some (.val (.leaf v))
  globs : ∀ x, renv (globName uid x) = none

theorem EnvSim.own {env : Env} {renv : REnv} (h : EnvSim uid env renv) (y : String) (v : RVal)
    (hy : y.length < 11 := by decide) : EnvSim uid env (renv.set y v) where
  vars := fun x w hw => by
    show (if _ then _ else _) = _
    rw [if_neg (locName_ne hy)]; exact h.vars x w hw
  globs := fun x => by
    show (if _ then _ else _) = _
    rw [if_neg (globName_ne hy)]; exact h.globs x

/-- The fields of the struct of a node, and of the one emitted for it. -/
structure StSim (ms rs : List Machine) (L : Nat) (s : NodeState ms) (r : NodeState rs) : Prop where
  clock : s.clock = r.clock
  hist : ∀ x h, s.hist x = some h → r.hist (locName x) = some h
  nodes : SameStates (· = .rejected) (· = ·) ms rs s.nodes r.nodes
  flips : s.flips = r.flips
  regs : s.regs = r.regs
  count : s.regs.length = L

/-- The same value and fields. -/
abbrev ValSim (ms rs : List Machine) (L : Nat) (a : Value × NodeState ms) (b : RVal × NodeState rs) :
    Prop := b.1 = .val a.1 ∧ StSim ms rs L a.2 b.2

/-- The same values and fields. -/
abbrev ValsSim (ms rs : List Machine) (L : Nat) (a : List Value × NodeState ms)
    (b : List RVal × NodeState rs) : Prop := b.1 = a.1.map .val ∧ StSim ms rs L a.2 b.2

variable {A : Arith} {glob : Globals} {consts : String → Option Scalar}

theorem set_self (env : REnv) (x : String) (v : RVal) : env.set x v x = some v := by simp [REnv.set]

theorem set_other (env : REnv) {x y : String} (v : RVal) (h : y ≠ x) : env.set x v y = env y := by
  simp [REnv.set, h]

theorem asNillable_val (v : Value) : (RVal.val v).asNillable = asLeaf v := by cases v <;> rfl

theorem mapM_val : ∀ vs : List Value, (vs.map RVal.val).mapM RVal.asVal = .ok vs
  | [] => rfl
  | v :: vs => by
    rw [List.map_cons, List.mapM_cons, mapM_val vs]; rfl

theorem rtuple_embed (vs : List Value) :
    (rtuple (vs.map .val) >>= RVal.embed) = .ok (.val (tupleValue vs)) := by
  match vs with
  | [] => rfl
  | [v] => rfl
  | v :: v' :: vs =>
    have := mapM_val (v' :: vs)
    rw [List.map_cons] at this
    simp only [List.map_cons, rtuple, this]; rfl

theorem fits_bool (b : Bool) (x : Nillable Bool) :
    (RPat.definedBool b).fits (.val (.leaf (x.map .bool))) = .ok (decide (x = .defined b)) := by
  cases x with
  | nil => rfl
  | defined c => cases b <;> cases c <;> rfl

theorem asBool_leaf {v : Value} {b : Nillable Bool} (h : asBool v = .ok b) :
    v = .leaf (b.map .bool) := by
  unfold asBool at h
  split at h
  · cases h; rfl
  · cases h; rfl
  · cases h

/-- After `asBool` succeeded, the value is a Boolean. -/
theorem fit_bool {γ δ : Type} {Q : γ → δ → Prop} (v : Value) {f : Nillable Bool → R γ} {y : R δ}
    (h : ∀ b, v = .leaf (b.map .bool) → Fit Q (f b) y) : Fit Q (asBool v >>= f) y := by
  cases hv : asBool v with
  | error p =>
    have : p = .rejected := by
      unfold asBool at hv; split at hv <;> cases hv; rfl
    subst this; exact fit_rej _
  | ok b => exact h b (asBool_leaf hv)

theorem asBool_map (b : Nillable Bool) : asBool (.leaf (b.map .bool)) = .ok b := by
  cases b <;> rfl

theorem lit_bool (renv : REnv) (b : Bool) (s : NodeState rs) :
    reval A consts rs renv (Macro.lit (.lit (.bool b))) s =
      .ok (.val (.leaf (.defined (.bool b))), s) := by
  simp only [Macro.lit, reval]; rfl

theorem lit_not (renv : REnv) (b : Bool) (s : NodeState rs) :
    reval A consts rs renv (Macro.lit (.un .not (.lit (.bool b)))) s =
      .ok (.val (.leaf (.defined (.bool !b))), s) := by
  simp only [Macro.lit, reval]; rfl

theorem cmpOrd_arms (ord : Ordering) (res : Bool) (l r : Nillable Scalar) (renv : REnv)
    (s : NodeState rs) :
    revalArms A consts rs renv (.optOrd (l.cmp (scalarPcmp A) r))
      (.arm (.someOrd ord) (Macro.lit (.lit (.bool res)))
        (.arm .someAny (Macro.lit (.un .not (.lit (.bool res))))
          (.arm .none (.autoSize .scalar) .nil))) s =
      .ok (.val (.leaf ((Candle.nillableCmpOrd ord res (scalarPcmp A) l r).map .bool)), s) := by
  simp only [revalArms, lit_bool, lit_not, reval]
  unfold Candle.nillableCmpOrd
  cases l.cmp (scalarPcmp A) r with
  | none => rfl
  | some o => cases ord <;> cases o <;> rfl

theorem cmpEq_arms (equal : Bool) (l r : Nillable Scalar) (renv : REnv) (s : NodeState rs) :
    revalArms A consts rs renv (.optBool (l.eq (scalarEq A) r))
      (.arm (.someBool true) (Macro.lit (.lit (.bool equal)))
        (.arm (.someBool false) (Macro.lit (.un .not (.lit (.bool equal))))
          (.arm .none (.autoSize .scalar) .nil))) s =
      .ok (.val (.leaf ((Candle.nillableCmpEq equal (scalarEq A) l r).map .bool)), s) := by
  simp only [revalArms, lit_bool, lit_not, reval]
  unfold Candle.nillableCmpEq
  cases l.eq (scalarEq A) r with
  | none => rfl
  | some o => cases o <;> rfl

/-- The macro `cmp!` evaluates its operands, then compares them. -/
theorem cmp_eval (op : CmpOp) (l r : RExpr) (renv : REnv) (s : NodeState rs) :
    reval A consts rs renv (Macro.cmp op l r) s = (do
      let (x, s) ← reval A consts rs renv l s
      let (y, s) ← reval A consts rs renv r s
      let x ← x.asNillable
      let y ← y.asNillable
      let v ← scalarCmp A op x y
      .ok (.val (.leaf v), s)) := by
  have key : ∀ (x y : Nillable Scalar) (s : NodeState rs) (F : RVal × NodeState rs → R (RVal × NodeState rs))
      (o : RVal), F (o, s) = .ok (.val (.leaf ((Candle.cmp (scalarEq A) (scalarPcmp A) op x y).map .bool)), s) →
      ((if comparable x y then .ok (o, s) else .error .rejected : R (RVal × NodeState rs)) >>= F) =
        (scalarCmp A op x y >>= fun v => .ok (.val (.leaf v), s)) := by
    intro x y s F o hF
    unfold scalarCmp
    by_cases hc : comparable x y = true
    · rw [if_pos hc, if_pos hc]; exact hF
    · rw [if_neg hc, if_neg hc]; rfl
  cases op <;>
  · simp only [Macro.cmp, Macro.nillableCmpEq, Macro.nillableCmpOrd, reval, revalBlock, bind_assoc]
    refine bind_congr fun a => bind_congr fun b => bind_congr fun x => bind_congr fun y => ?_
    refine key x y b.2 _ _ ?_
    first | exact cmpOrd_arms _ _ _ _ _ _ | exact cmpEq_arms _ _ _ _ _

theorem match_true (renv : REnv) (b : Nillable Bool) (t f : RExpr) (s : NodeState rs) :
    revalArms A consts rs renv (.val (.leaf (b.map .bool)))
      (.arm (.definedBool true) t (.arm .wild f .nil)) s =
      if b = .defined true then reval A consts rs renv t s else reval A consts rs renv f s := by
  simp only [revalArms, fits_bool]
  by_cases h : b = .defined true
  · subst h; rfl
  · simp only [h]; rfl

theorem match_false (renv : REnv) (b : Nillable Bool) (t f : RExpr) (s : NodeState rs) :
    revalArms A consts rs renv (.val (.leaf (b.map .bool)))
      (.arm (.definedBool false) t (.arm .wild f .nil)) s =
      if b = .defined false then reval A consts rs renv t s else reval A consts rs renv f s := by
  simp only [revalArms, fits_bool]
  by_cases h : b = .defined false
  · subst h; rfl
  · simp only [h]; rfl

theorem match_three (renv : REnv) (b : Nillable Bool) (t f n : RExpr) (s : NodeState rs) (p : RPat)
    (hp : p = .nil ∨ p = .wild) :
    revalArms A consts rs renv (.val (.leaf (b.map .bool)))
      (.arm (.definedBool true) t (.arm (.definedBool false) f (.arm p n .nil))) s =
      match b with
      | .defined true => reval A consts rs renv t s
      | .defined false => reval A consts rs renv f s
      | .nil => reval A consts rs renv n s := by
  simp only [revalArms, fits_bool]
  rcases hp with rfl | rfl <;> cases b with
  | nil => rfl
  | defined c => cases c <;> rfl

theorem ok_bind {α β : Type} (a : α) (f : α → R β) : ((Except.ok a : R α) >>= f) = f a := rfl

theorem path_local {renv : REnv} {y : String} {v : RVal} (h : renv y = some v)
    (s : NodeState rs) : reval A consts rs renv (.path y) s = .ok (v, s) := by
  simp only [reval, h]

theorem auto_var {renv : REnv} {y : String} {v : Value} (h : renv y = some (.val v))
    (s : NodeState rs) :
    reval A consts rs renv (.autoSize (.var y)) s = .ok (.val v.nilLike, s) := by
  simp only [reval, h]

variable (hg : ∀ x v, glob x = some v → consts (globName uid x) = some v)

include hg in
mutual
theorem eval_fit {env : Env} : ∀ (e : Expr) {renv : REnv} {s : NodeState ms} {r : NodeState rs},
    EnvSim uid env renv → StSim ms rs L s r →
    Fit (ValSim ms rs L) (evalTwice A glob ms env e s) (reval A consts rs renv (e.quote uid) r)
  | .lit l, renv, s, r, he, hs => by
    simp only [evalTwice, Expr.quote, Macro.lit, reval]; exact ⟨rfl, hs⟩
  | .global x, renv, s, r, he, hs => by
    simp only [evalTwice, Expr.quote, Macro.lit, reval, he.globs]
    cases hx : glob x with
    | none => exact fit_rej _
    | some v => rw [hg x v hx]; exact ⟨rfl, hs⟩
  | .var x 0, renv, s, r, he, hs => by
    simp only [evalTwice, Expr.quote, Macro.var, reval, readVar]
    cases hx : env x with
    | none => exact fit_rej _
    | some v => rw [he.vars x v hx]; exact ⟨rfl, hs⟩
  | .var x (dt + 1), renv, s, r, he, hs => by
    simp only [evalTwice, Expr.quote, Macro.var, reval, readVar]
    cases hx : s.hist x with
    | none => exact fit_rej _
    | some h =>
      rw [hs.hist x h hx]
      dsimp only
      cases h.2.ago (dt + 1) with
      | error p => exact fit_err p
      | ok v => exact ⟨rfl, hs⟩
  | .tuple es, renv, s, r, he, hs => by
    simp only [evalTwice, Expr.quote, reval, bind_assoc]
    refine fit_bind (evalList_fit es he hs) ?_
    rintro ⟨vs, s⟩ ⟨_, r⟩ ⟨rfl, hs⟩
    have := rtuple_embed vs
    dsimp only
    rw [show (rtuple (vs.map .val) >>= fun v => (Except.ok (v, r) : R _) >>= fun x =>
        x.1.embed >>= fun w => (.ok (w, x.2) : R (RVal × NodeState rs))) =
      ((rtuple (vs.map .val) >>= RVal.embed) >>= fun w => .ok (w, r)) by
        rw [bind_assoc]; rfl, this]
    exact ⟨rfl, hs⟩
  | .dummyPre e, renv, s, r, he, hs => by
    simp only [evalTwice, Expr.quote]; exact eval_fit e he hs
  | .dummyParen e, renv, s, r, he, hs => by
    simp only [evalTwice, Expr.quote]; exact eval_fit e he hs
  | .bin op a b, renv, s, r, he, hs => by
    simp only [evalTwice, Expr.quote, Macro.binop, reval]
    refine fit_bind (eval_fit a he hs) ?_
    rintro ⟨v, s⟩ ⟨_, r⟩ ⟨rfl, hs⟩
    refine fit_bind (eval_fit b he hs) ?_
    rintro ⟨w, s⟩ ⟨_, r⟩ ⟨rfl, hs⟩
    simp only [asNillable_val]
    exact fit_same _ fun x => fit_same _ fun y => fit_same _ fun z => ⟨rfl, hs⟩
  | .un op a, renv, s, r, he, hs => by
    simp only [evalTwice, Expr.quote, Macro.unop, reval]
    refine fit_bind (eval_fit a he hs) ?_
    rintro ⟨v, s⟩ ⟨_, r⟩ ⟨rfl, hs⟩
    simp only [asNillable_val]
    exact fit_same _ fun x => fit_same _ fun z => ⟨rfl, hs⟩
  | .cmp op a b, renv, s, r, he, hs => by
    simp only [evalTwice, Expr.quote, cmp_eval]
    refine fit_bind (eval_fit a he hs) ?_
    rintro ⟨v, s⟩ ⟨_, r⟩ ⟨rfl, hs⟩
    refine fit_bind (eval_fit b he hs) ?_
    rintro ⟨w, s⟩ ⟨_, r⟩ ⟨rfl, hs⟩
    simp only [asNillable_val]
    exact fit_same _ fun x => fit_same _ fun y => fit_same _ fun z => ⟨rfl, hs⟩
  | .clock op inner act, renv, s, r, he, hs => by
    cases op <;>
    · simp only [evalTwice, Expr.quote, Macro.when, Macro.whenot, reval, revalBlock]
      refine fit_bind (eval_fit act he hs) ?_
      rintro ⟨v, s⟩ ⟨_, r⟩ ⟨rfl, hs⟩
      refine fit_bool _ fun b hb => ?_
      dsimp only at hb
      subst hb
      simp only [RVal.asNillableBool, asBool_map, ok_bind]
      refine fit_bind (eval_fit inner (he.own "b" _) hs) ?_
      clear hs
      rintro ⟨v, s⟩ ⟨_, r⟩ ⟨rfl, hs'⟩
      dsimp only
      simp only [set_other _ _ (by decide : "b" ≠ "e"), set_self, ok_bind, match_true, match_false]
      rw [path_local (set_self _ _ _), auto_var (set_self _ _ _)]
      cases b with
      | nil => exact ⟨rfl, hs'⟩
      | defined b => cases b <;> exact ⟨rfl, hs'⟩
  | .later dt before after, renv, s, r, he, hs => by
    simp only [evalTwice, Expr.quote, Macro.later, reval, revalBlock]
    refine fit_bind (eval_fit after he hs) ?_
    rintro ⟨v, s⟩ ⟨_, r⟩ ⟨rfl, hs⟩
    have hc : s.clock = r.clock := hs.clock
    simp only [set_self, ok_bind, RVal.asBool, hc]
    by_cases h : r.clock > dt
    · simp only [h, if_true, decide_true]; exact ⟨rfl, hs⟩
    · simp only [h, if_false, decide_false, Bool.false_eq_true]
      exact eval_fit before (he.own "rhs" _) hs
  | .fetchPre id _, renv, s, r, he, hs => by
    simp only [evalTwice, Expr.quote, reval, hs.regs]
    cases r.regs[id]? with
    | none => exact fit_rej _
    | some r => exact ⟨rfl, hs⟩
  | .fetchFby id _ _, renv, s, r, he, hs => by
    simp only [evalTwice, Expr.quote, reval, hs.regs]
    cases r.regs[id]? with
    | none => exact fit_rej _
    | some r => exact ⟨rfl, hs⟩
  | .flip id i c, renv, s, r, he, hs => by
    simp only [evalTwice, Expr.quote, reval, revalBlock]
    refine fit_bind (eval_fit i he hs) ?_
    rintro ⟨v, s⟩ ⟨_, r⟩ ⟨rfl, hs⟩
    refine fit_bind (eval_fit c (he.own "initial" _) hs) ?_
    rintro ⟨w, s⟩ ⟨_, r⟩ ⟨rfl, hs⟩
    have hf : s.flips = r.flips := hs.flips
    simp only [set_other _ _ (by decide : "initial" ≠ "continued"), set_self, ok_bind, RVal.asVal,
      RVal.asBool, hf]
    by_cases h : v.firstIsNil = true
    · simp only [h, if_true]; exact ⟨rfl, hs⟩
    · simp only [h, if_false, Bool.false_eq_true]
      cases r.flips[id]? with
      | none => exact fit_rej _
      | some f =>
        have hs' : StSim ms rs L { s with flips := s.flips.set id f.tas.2 }
            { r with flips := r.flips.set id f.tas.2 } :=
          ⟨hs.clock, hs.hist, hs.nodes, by show s.flips.set _ _ = _; rw [hf], hs.regs, hs.count⟩
        rw [hf] at hs'
        simp only [ok_bind]
        by_cases ht : f.tas.1 = true
        · simp only [ht, if_true]; exact ⟨rfl, hs'⟩
        · simp only [ht, if_false, Bool.false_eq_true]; exact ⟨rfl, hs'⟩
  | .ifx c y n, renv, s, r, he, hs => by
    simp only [evalTwice, Expr.quote, Macro.ifx, reval, revalBlock]
    refine fit_bind (eval_fit y he hs) ?_
    rintro ⟨v, s⟩ ⟨_, r⟩ ⟨rfl, hs⟩
    refine fit_bind (eval_fit n (he.own "yes" _) hs) ?_
    rintro ⟨w, s⟩ ⟨_, r⟩ ⟨rfl, hs⟩
    refine fit_bind (eval_fit c ((he.own "yes" _).own "no" _) hs) ?_
    rintro ⟨u, s⟩ ⟨_, r⟩ ⟨rfl, hs⟩
    refine fit_bool _ fun b hb => ?_
    dsimp only at hb
    subst hb
    rw [match_three _ _ _ _ _ _ _ (.inl rfl), path_local (set_self _ _ _)]
    have hy : ((renv.set "yes" (.val v)).set "no" (.val w)) "yes" = some (.val v) := by
      rw [set_other _ _ (by decide), set_self]
    rw [path_local hy, auto_var hy]
    cases b with
    | nil => exact ⟨rfl, hs⟩
    | defined b => cases b <;> exact ⟨rfl, hs⟩
  | .merge c y n, renv, s, r, he, hs => by
    simp only [evalTwice, Expr.quote, Macro.merge, reval, revalBlock]
    refine fit_bind (eval_fit c he hs) ?_
    rintro ⟨v0, s⟩ ⟨_, r⟩ ⟨rfl, hs⟩
    refine fit_bool _ fun b0 hb0 => ?_
    dsimp only at hb0
    subst hb0
    simp only [RVal.asNillableBool, asBool_map, ok_bind]
    refine fit_bind (eval_fit y (he.own "b" _) hs) ?_
    rintro ⟨v, s⟩ ⟨_, r⟩ ⟨rfl, hs⟩
    refine fit_bind (eval_fit n ((he.own "b" _).own "on" _) hs) ?_
    rintro ⟨w, s⟩ ⟨_, r⟩ ⟨rfl, hs⟩
    refine fit_bind (eval_fit c (((he.own "b" _).own "on" _).own "off" _) hs) ?_
    rintro ⟨u, s⟩ ⟨_, r⟩ ⟨rfl, hs⟩
    refine fit_bool _ fun b hb => ?_
    dsimp only at hb
    subst hb
    rw [match_three _ _ _ _ _ _ _ (.inr rfl), path_local (set_self _ _ _)]
    have hy : (((renv.set "b" (.val (.leaf (b0.map .bool)))).set "on" (.val v)).set "off" (.val w))
        "on" = some (.val v) := by
      rw [set_other _ _ (by decide), set_self]
    rw [path_local hy, auto_var hy]
    cases b with
    | nil => exact ⟨rfl, hs⟩
    | defined b => cases b <;> exact ⟨rfl, hs⟩
  | .substep dt id args, renv, s, r, he, hs => by
    simp only [evalTwice, Expr.quote, Macro.substep, reval, revalBlock, ok_bind, RVal.asBool, hs.clock]
    by_cases h : r.clock ≥ dt
    · simp only [h, if_true, decide_true, bind_assoc]
      refine fit_bind (eval_fit args he hs) ?_
      rintro ⟨v, s⟩ ⟨_, r⟩ ⟨rfl, hs⟩
      simp only [RVal.embed, RVal.asVal, ok_bind]
      refine fit_bind (states_step (fun _ => rfl) hs.nodes id v) ?_
      rintro ⟨o, ns⟩ ⟨o', ns'⟩ ⟨ho, hn⟩
      exact ⟨by rw [show o = o' from ho], hs.clock, hs.hist, hn, hs.flips, hs.regs, hs.count⟩
    · simp only [h, if_false, decide_false, Bool.false_eq_true]
      have := states_type hs.nodes id
      cases hm : ms[id]? with
      | none => exact fit_rej _
      | some m =>
        rw [hm] at this
        cases hm' : rs[id]? with
        | none => rw [hm'] at this; cases this
        | some m' =>
          rw [hm'] at this
          simp only [Option.map_some, Option.some.injEq] at this
          exact ⟨by rw [this], hs⟩
theorem evalList_fit {env : Env} : ∀ (es : List Expr) {renv : REnv} {s : NodeState ms}
    {r : NodeState rs}, EnvSim uid env renv → StSim ms rs L s r →
    Fit (ValsSim ms rs L) (evalListTwice A glob ms env es s)
      (revalList A consts rs renv (Expr.quoteList uid es) r)
  | [], renv, s, r, he, hs => by
    simp only [evalListTwice, Expr.quoteList, revalList]; exact ⟨rfl, hs⟩
  | e :: es, renv, s, r, he, hs => by
    simp only [evalListTwice, Expr.quoteList, revalList]
    refine fit_bind (eval_fit e he hs) ?_
    rintro ⟨v, s⟩ ⟨_, r⟩ ⟨rfl, hs⟩
    refine fit_bind (evalList_fit es he hs) ?_
    rintro ⟨w, s⟩ ⟨_, r⟩ ⟨rfl, hs⟩
    exact ⟨rfl, hs⟩
end

theorem locName_inj {x y : String} (h : locName x = locName y) : x = y := by
  have := Props.C39_sanitized_injective _ _ h
  injection this

theorem locName_ne_glob {x y : String} : globName uid x ≠ locName y := fun h => by
  have := Props.C39_sanitized_injective _ _ h
  cases this

theorem EnvSim.bind {env : Env} {renv : REnv} (h : EnvSim uid env renv) (x : String)
    (v : Nillable Scalar) : EnvSim uid (env.set x v) (renv.set (locName x) (.val (.leaf v))) where
  vars := fun y w hw => by
    unfold Env.set at hw
    by_cases hy : y = x
    · subst hy; rw [if_pos rfl] at hw; cases hw; exact set_self _ _ _
    · rw [if_neg hy] at hw
      rw [set_other _ _ fun h' => hy (locName_inj h')]; exact h.vars y w hw
  globs := fun y => by rw [set_other _ _ locName_ne_glob]; exact h.globs y

mutual
theorem bind_fit : ∀ (p : VarTuple) (v : Value) {env : Env} {renv : REnv}, EnvSim uid env renv →
    Fit (EnvSim uid) (bindTarget p v env) (rbind p.quote (.val v) renv)
  | .single x, .leaf v, env, renv, h => by
    simp only [bindTarget, VarTuple.quote, rbind]; exact h.bind x v
  | .single x, .tup _ _, env, renv, h => by simp only [bindTarget]; exact fit_rej _
  | .multiple [], v, env, renv, h => by simp only [bindTarget, VarTuple.quote, rbind]; exact h
  | .multiple [p], v, env, renv, h => by
    simp only [bindTarget, VarTuple.quote, VarTuple.quoteList, rbind]; exact bind_fit p v h
  | .multiple (p :: p' :: ps), .tup a t, env, renv, h => by
    simp only [bindTarget, VarTuple.quote, VarTuple.quoteList, rbind]
    refine fit_bind (bind_fit p a h) fun env renv h => ?_
    exact binds_fit (p' :: ps) t h
  | .multiple (p :: p' :: ps), .leaf _, env, renv, h => by simp only [bindTarget]; exact fit_rej _
theorem binds_fit : ∀ (ps : List VarTuple) (vs : List Value) {env : Env} {renv : REnv},
    EnvSim uid env renv →
    Fit (EnvSim uid) (bindTargets ps vs env) (rbinds (VarTuple.quoteList ps) vs renv)
  | [], [], env, renv, h => by simp only [bindTargets, VarTuple.quoteList, rbinds]; exact h
  | p :: ps, v :: vs, env, renv, h => by
    simp only [bindTargets, VarTuple.quoteList, rbinds]
    exact fit_bind (bind_fit p v h) fun env renv h => binds_fit ps vs h
  | [], _ :: _, env, renv, h => by simp only [bindTargets]; exact fit_rej _
  | _ :: _, [], env, renv, h => by simp only [bindTargets]; exact fit_rej _
end

theorem input_pattern (vs : List TyVar) (v : RVal) (renv : REnv) :
    rbind (asAssignmentTarget vs) v renv = rbind (inputPattern vs).quote v renv := by
  match vs with
  | [] => simp only [asAssignmentTarget, inputPattern, VarTuple.quote, List.map_nil]
  | [x] =>
    simp only [asAssignmentTarget, inputPattern, VarTuple.quote, VarTuple.quoteList, List.map_cons,
      List.map_nil, rbind]
  | x :: y :: ys =>
    have : ∀ zs : List TyVar, VarTuple.quoteList (zs.map fun v => .single v.name) =
        zs.map fun v => .ident (locName v.name) := by
      intro zs
      induction zs with
      | nil => simp only [List.map_nil, VarTuple.quoteList]
      | cons z zs ih => simp only [List.map_cons, VarTuple.quoteList, VarTuple.quote, ih]
    simp only [asAssignmentTarget, inputPattern, VarTuple.quote, List.map_cons, VarTuple.quoteList, this]

theorem updReg_fit {s : NodeState ms} {r : NodeState rs} (h : StSim ms rs L s r) (id : Nat)
    (f : Register Scalar → Register Scalar) :
    Fit (StSim ms rs L) (updReg ms s id f) (updReg rs r id f) := by
  simp only [updReg, h.regs]
  cases r.regs[id]? with
  | some x =>
    exact ⟨h.clock, h.hist, h.nodes, h.flips, rfl, by
      show (List.set _ _ _).length = _
      rw [List.length_set, ← h.regs]; exact h.count⟩
  | none => exact fit_rej _

variable {outTy : Tup Unit} {value : RExpr}

include hg in
theorem exec_fit {γ : Type} {Q : γ → RVal × NodeState rs → Prop} (st : Stmt) {rest : List RStmt}
    {K : Env × NodeState ms → R γ} {env : Env} {renv : REnv} {s : NodeState ms} {r : NodeState rs}
    (he : EnvSim uid env renv) (hs : StSim ms rs L s r)
    (hK : ∀ env renv s r, EnvSim uid env renv → StSim ms rs L s r →
      Fit Q (K (env, s)) (rexec A consts rs outTy value rest renv r)) :
    Fit Q (execTwice A glob ms st (env, s) >>= K)
      (rexec A consts rs outTy value (st.quote uid ++ rest) renv r) := by
  cases st with
  | let_ p e =>
    simp only [execTwice, Stmt.quote, List.cons_append, List.nil_append, rexec, bind_assoc]
    refine fit_bind (eval_fit hg e he hs) ?_
    rintro ⟨v, s⟩ ⟨_, r⟩ ⟨rfl, hs⟩
    refine fit_bind (bind_fit p v he) fun env renv he => ?_
    exact hK _ _ _ _ he hs
  | assert e =>
    simp only [execTwice, Stmt.quote, Macro.truth, List.cons_append, List.nil_append, rexec, bind_assoc,
      reval, revalBlock]
    refine fit_bind (eval_fit hg e he hs) ?_
    rintro ⟨v, s⟩ ⟨_, r⟩ ⟨rfl, hs⟩
    refine fit_bool _ fun b hb => ?_
    dsimp only at hb
    subst hb
    simp only [RVal.asNillableBool, asBool_map, ok_bind, set_self]
    rw [match_three _ _ _ _ _ _ _ (.inr rfl)]
    cases b with
    | nil => exact fit_err _
    | defined b =>
      cases b
      · exact fit_err _
      · simp only [reval, revalList, ok_bind, rtuple]
        exact hK _ _ _ _ he hs
  | updateRegister id e =>
    simp only [execTwice, Stmt.quote, List.cons_append, List.nil_append, rexec, bind_assoc]
    refine fit_bind (eval_fit hg e he hs) ?_
    rintro ⟨v, s⟩ ⟨_, r⟩ ⟨rfl, hs⟩
    simp only [RVal.asVal, ok_bind]
    exact fit_bind (updReg_fit hs id _) fun s r hs => hK _ _ _ _ he hs
  | initRegister id val clk =>
    cases clk with
    | none => simp only [execTwice]; exact fit_rej _
    | some clk =>
      cases val with
      | none =>
        simp only [execTwice, Stmt.quote, List.cons_append, List.nil_append, rexec, bind_assoc]
        refine fit_bind (eval_fit hg clk he hs) ?_
        rintro ⟨v, s⟩ ⟨_, r⟩ ⟨rfl, hs⟩
        simp only [RVal.asNillableBool]
        refine fit_same _ fun b => ?_
        exact fit_bind (updReg_fit hs id _) fun s r hs => hK _ _ _ _ he hs
      | some val =>
        simp only [execTwice, Stmt.quote, List.cons_append, List.nil_append, rexec, bind_assoc]
        refine fit_bind (eval_fit hg clk he hs) ?_
        rintro ⟨v, s⟩ ⟨_, r⟩ ⟨rfl, hs⟩
        simp only [RVal.asNillableBool]
        refine fit_same _ fun b => ?_
        refine fit_bind (updReg_fit hs id _) fun s r hs => ?_
        refine fit_bind (eval_fit hg val he hs) ?_
        rintro ⟨v, s⟩ ⟨_, r⟩ ⟨rfl, hs⟩
        simp only [RVal.asVal, ok_bind]
        exact fit_bind (updReg_fit hs id _) fun s r hs => hK _ _ _ _ he hs

include hg in
theorem execAll_fit {γ : Type} {Q : γ → RVal × NodeState rs → Prop} {rest : List RStmt}
    {K : Env × NodeState ms → R γ}
    (hK : ∀ env renv s r, EnvSim uid env renv → StSim ms rs L s r →
      Fit Q (K (env, s)) (rexec A consts rs outTy value rest renv r)) :
    ∀ (sts : List Stmt) {env : Env} {renv : REnv} {s : NodeState ms} {r : NodeState rs},
      EnvSim uid env renv → StSim ms rs L s r →
      Fit Q (execAllTwice A glob ms sts (env, s) >>= K)
        (rexec A consts rs outTy value (sts.flatMap (Stmt.quote uid) ++ rest) renv r)
  | [], env, renv, s, r, he, hs => hK env renv s r he hs
  | st :: sts, env, renv, s, r, he, hs => by
    simp only [execAllTwice, List.flatMap_cons, List.append_assoc, bind_assoc]
    refine exec_fit hg st he hs fun env renv s r he hs => ?_
    exact execAll_fit hK sts he hs

theorem updHists_fit {γ : Type} {Q : γ → RVal × NodeState rs → Prop} {rest : List RStmt}
    {K : NodeState ms → R γ} {env : Env} {renv : REnv} (he : EnvSim uid env renv)
    (hK : ∀ s r, StSim ms rs L s r →
      Fit Q (K s) (rexec A consts rs outTy value rest renv r)) :
    ∀ (xs : List String) {s : NodeState ms} {r : NodeState rs}, StSim ms rs L s r →
      Fit Q (updHists ms env xs s >>= K)
        (rexec A consts rs outTy value (xs.map (fun x => Macro.update (locName x)) ++ rest) renv r)
  | [], s, r, hs => hK s r hs
  | x :: xs, s, r, hs => by
    simp only [updHists, List.map_cons, List.cons_append, Macro.update, rexec, bind_assoc]
    unfold updHist
    cases hx : s.hist x with
    | none => exact fit_rej _
    | some h =>
      cases hv : env x with
      | none => exact fit_rej _
      | some v =>
        rw [path_local (he.vars x v hv)]
        simp only [ok_bind, RVal.asNillable, updField, hs.hist x h hx]
        refine updHists_fit he hK xs ⟨hs.clock, fun y h' hy => ?_, hs.nodes, hs.flips, hs.regs, hs.count⟩
        dsimp only at hy ⊢
        by_cases hyx : y = x
        · subst hyx; rw [if_pos rfl] at hy ⊢; exact hy
        · rw [if_neg hyx] at hy
          rw [if_neg fun h' => hyx (locName_inj h')]; exact hs.hist y h' hy

theorem commit_run (renv : REnv) : ∀ (n k : Nat) (r : NodeState rs), r.regs.length = k + n →
    rexec A consts rs outTy value ((List.range' k n).map .commit) renv r =
      reval A consts rs renv value
        { r with regs := r.regs.take k ++ (r.regs.drop k).map Register.commit }
  | 0, k, r, h => by
    simp only [List.range'_zero, List.map_nil, rexec]
    rw [List.drop_eq_nil_of_le (by omega), List.take_of_length_le (by omega), List.map_nil,
      List.append_nil]
  | n + 1, k, r, h => by
    simp only [List.range'_succ, List.map_cons, rexec, updReg]
    have hk : k < r.regs.length := by omega
    rw [List.getElem?_eq_getElem hk]
    simp only [ok_bind]
    rw [commit_run renv n (k + 1) _ (by simp only [List.length_set]; omega)]
    congr 2
    dsimp only
    rw [List.take_add_one, List.drop_set_of_lt (by omega), List.getElem?_set_self hk,
      List.take_set_of_le (by omega), List.drop_eq_getElem_cons hk (l := r.regs)]
    simp only [Option.toList_some, List.append_assoc, List.singleton_append, List.map_cons]

theorem outputs_fit {env : Env} {renv : REnv} (he : EnvSim uid env renv) {s : NodeState ms}
    {r : NodeState rs} (hs : StSim ms rs L s r) : ∀ vs : List TyVar,
    Fit (fun a b => b.1 = a.map .val ∧ StSim ms rs L s b.2) (readOutputs env vs)
      (revalList A consts rs renv
        (vs.foldr (fun v es => .cons (.path (locName v.name)) es) .nil) r)
  | [] => by simp only [readOutputs, List.foldr_nil, revalList]; exact ⟨rfl, hs⟩
  | v :: vs => by
    simp only [readOutputs, List.foldr_cons, revalList]
    cases hv : env v.name with
    | none => exact fit_rej _
    | some x =>
      rw [path_local (he.vars _ _ hv)]
      simp only [ok_bind]
      refine fit_bind (outputs_fit he hs vs) ?_
      rintro a ⟨_, r⟩ ⟨rfl, hs⟩
      exact ⟨rfl, hs⟩

theorem value_fit {env : Env} {renv : REnv} (he : EnvSim uid env renv) {s : NodeState ms}
    {r : NodeState rs} (hs : StSim ms rs L s r) (vs : List TyVar) :
    Fit (ValSim ms rs L) (readOutputs env vs >>= fun outs => .ok (tupleValue outs, s))
      (reval A consts rs renv (.embed (asValues vs)) r) := by
  have key : Fit (ValSim ms rs L) (readOutputs env vs >>= fun outs => .ok (tupleValue outs, s))
      (reval A consts rs renv (.embed (.tuple
        (vs.foldr (fun v es => .cons (.path (locName v.name)) es) .nil))) r) := by
    simp only [reval, bind_assoc]
    refine fit_bind (outputs_fit he hs vs) ?_
    rintro vs ⟨_, r⟩ ⟨rfl, hs⟩
    have := rtuple_embed vs
    dsimp only
    rw [show (rtuple (vs.map .val) >>= fun v => (Except.ok (v, r) : R _) >>= fun x =>
        x.1.embed >>= fun w => (.ok (w, x.2) : R (RVal × NodeState rs))) =
      ((rtuple (vs.map .val) >>= RVal.embed) >>= fun w => .ok (w, r)) by
        rw [bind_assoc]; rfl, this]
    exact ⟨rfl, hs⟩
  match vs, key with
  | [], key => exact key
  | [v], key =>
    simp only [readOutputs, asValues, reval]
    cases hv : env v.name with
    | none => exact fit_rej _
    | some x => rw [he.vars _ _ hv]; exact ⟨rfl, hs⟩
  | _ :: _ :: _, key => exact key

/-- The states of a node and of the struct emitted for it correspond. -/
abbrev NodeSim (ms rs : List Machine) (n : Node) (s : NodeState ms) (r : NodeState rs) : Prop :=
  StSim ms rs n.registers.length s r

include hg in
theorem step_fit (n : Node) {s : NodeState ms} {r : NodeState rs} (hs : NodeSim ms rs n s r)
    (i : Value) :
    Fit (fun a b => a.1 = b.1 ∧ NodeSim ms rs n a.2 b.2) (n.stepTwice A glob ms s i)
      ((n.quote uid).call A consts rs n.outTy r i) := by
  have h0 : (REnv.set (fun _ => none) "inputs" (.val i)) "inputs" = some (.val i) := set_self _ _ _
  have he : EnvSim uid (fun _ => none) (REnv.set (fun _ => none) "inputs" (.val i)) :=
    EnvSim.own ⟨fun _ _ h => (by cases h), fun _ => rfl⟩ "inputs" _
  unfold Node.stepTwice Candle.implicitClock RFn.call
  simp only [Node.quote, Macro.implicitClock, List.cons_append, List.nil_append, rexec, reval, h0,
    ok_bind, RVal.asVal, RVal.asBool]
  by_cases hi : i.firstIsNil = true
  · simp only [hi, if_true]; exact ⟨rfl, hs⟩
  · simp only [hi, if_false, Bool.false_eq_true]
    have key : Fit (ValSim ms rs n.registers.length) (n.bodyTwice A glob ms s i)
        (rbind (asAssignmentTarget n.inputs) (.val i)
            (REnv.set (fun _ => none) "inputs" (.val i)) >>= fun env =>
          rexec A consts rs n.outTy (.embed (asValues n.outputs))
            (n.stmts.flatMap (Stmt.quote uid) ++ ([Macro.tick] ++
              ((posNames n.inputs).map (fun x => Macro.update (locName x)) ++
              ((posNames n.outputs).map (fun x => Macro.update (locName x)) ++
              ((posNames n.locals).map (fun x => Macro.update (locName x)) ++
              (List.range n.registers.length).map .commit))))) env r) := by
      rw [input_pattern]
      unfold Node.bodyTwice
      refine fit_bind (bind_fit _ i he) fun env renv he => ?_
      refine execAll_fit hg (fun env renv s r he hs => ?_) n.stmts he hs
      simp only [List.cons_append, List.nil_append, Macro.tick, rexec]
      have hs : StSim ms rs n.registers.length { s with clock := s.clock + 1 }
          { r with clock := r.clock + 1 } :=
        ⟨by show _ + 1 = _ + 1; rw [hs.clock], hs.hist, hs.nodes, hs.flips, hs.regs, hs.count⟩
      refine updHists_fit he (fun s r hs => ?_) _ hs
      refine updHists_fit he (fun s r hs => ?_) _ hs
      refine updHists_fit he (fun s r hs => ?_) _ hs
      rw [List.range_eq_range', commit_run renv _ 0 r (by rw [← hs.regs, hs.count, Nat.zero_add])]
      have hs : StSim ms rs n.registers.length { s with regs := s.regs.map Register.commit }
          { r with regs := r.regs.take 0 ++ (r.regs.drop 0).map Register.commit } :=
        ⟨hs.clock, hs.hist, hs.nodes, hs.flips, by simp [hs.regs], by simp [hs.count]⟩
      exact value_fit he hs n.outputs
    rw [show n.bodyTwice A glob ms s i = (n.bodyTwice A glob ms s i >>= fun x => .ok x) by
      cases n.bodyTwice A glob ms s i <;> rfl]
    simp only [List.append_assoc, List.cons_append, List.nil_append] at key ⊢
    refine fit_bind key ?_
    rintro ⟨v, s⟩ ⟨_, r⟩ ⟨rfl, hs⟩
    exact ⟨rfl, hs⟩

theorem init_fit (n : Node) (h : AllAlike (· = .rejected) (· = ·) ms rs) :
    NodeSim ms rs n (n.initState ms) { n.initState rs with hist := n.rustFields } where
  clock := rfl
  hist := fun x h hx => by
    show n.rustFields (locName x) = some h
    have : initHist n x = n.rustFields (locName x) := by
      unfold initHist Node.rustFields
      congr 2
      funext v
      have : v.name = x ↔ locName v.name = locName x := ⟨fun h => h ▸ rfl, locName_inj⟩
      simp only [this]
    rw [← this]; exact hx
  nodes := states_init h
  flips := rfl
  regs := rfl
  count := by simp [Node.initState]

include hg in
/-- The struct emitted for a node behaves as the node, unless the node is rejected. -/
theorem machine_fit (n : Node) (h : AllAlike (· = .rejected) (· = ·) ms rs) :
    Milder (· = .rejected) (· = ·) (n.machineTwice A glob ms) (n.rustMachine uid A consts rs) where
  type := rfl
  runs := alike_init.2 (same_of_bisim (m := n.machineTwice A glob ms)
    (m' := n.rustMachine uid A consts rs) (NodeSim ms rs n)
    (fun _ _ i hs => step_fit hg n hs i) _ _ (init_fit n h))

end

/-! ### External nodes -/

/-- Patterns and values for a list of variables. -/
abbrev idents (vs : List TyVar) : List RBind := vs.map fun v => .ident (locName v.name)

theorem rbinds_idents : ∀ (vs : List TyVar) (ws : List Value) (env : REnv), vs.length = ws.length →
    ∃ env', rbinds (idents vs) ws env = .ok env' ∧
      (∀ y, (∀ v ∈ vs, locName v.name ≠ y) → env' y = env y) ∧
      ((vs.map (·.name)).Nodup →
        List.Forall₂ (fun (v : TyVar) w => env' (locName v.name) = some (.val w)) vs ws)
  | [], [], env, _ => ⟨env, by simp only [idents, List.map_nil, rbinds], fun _ _ => rfl, fun _ => .nil⟩
  | v :: vs, w :: ws, env, h => by
    obtain ⟨env', h1, h2, h3⟩ := rbinds_idents vs ws (env.set (locName v.name) (.val w))
      (by simpa using h)
    refine ⟨env', ?_, fun y hy => ?_, fun hn => ?_⟩
    · simp only [idents, List.map_cons, rbinds, rbind, ok_bind]; exact h1
    · rw [h2 y fun u hu => hy u (List.mem_cons_of_mem _ hu),
        set_other _ _ (Ne.symm (hy v List.mem_cons_self))]
    · rw [List.map_cons, List.nodup_cons] at hn
      refine .cons ?_ (h3 hn.2)
      rw [h2 _ fun u hu he => hn.1 (List.mem_map.2 ⟨u, hu, locName_inj he⟩), set_self]
  | [], _ :: _, _, h => by simp at h
  | _ :: _, [], _, h => by simp at h

theorem bind_inputs (vs : List TyVar) (i : Value) (env : REnv) :
    (2 ≤ vs.length ∧ ¬ Arity vs.length i) ∨
    ∃ env', rbind (asAssignmentTarget vs) (.val i) env = .ok env' ∧ env' "inputs" = env "inputs" := by
  match vs with
  | [] => exact .inr ⟨env, by simp only [asAssignmentTarget, rbind], rfl⟩
  | [v] =>
    refine .inr ⟨env.set (locName v.name) (.val i), by simp only [asAssignmentTarget, rbind], ?_⟩
    exact set_other _ _ (Ne.symm (locName_ne (by decide)))
  | v :: v' :: vs =>
    cases i with
    | leaf x => exact .inl ⟨by simp, fun h => h⟩
    | tup a t =>
      by_cases ht : t.length = vs.length + 1
      · obtain ⟨env', h1, h2, -⟩ := rbinds_idents (v' :: vs) t (env.set (locName v.name) (.val a))
          (by simp [ht])
        refine .inr ⟨env', ?_, ?_⟩
        · simp only [asAssignmentTarget, List.map_cons, rbind, ok_bind]; exact h1
        · rw [h2 _ fun u _ => locName_ne (by decide),
            set_other _ _ (Ne.symm (locName_ne (by decide)))]
      · exact .inl ⟨by simp, fun h => ht h⟩

section
variable {A : Arith} {consts : String → Option Scalar} {rs : List Machine}

theorem paths_eval {env : REnv} {vs : List TyVar} {ws : List Value}
    (h : List.Forall₂ (fun (v : TyVar) w => env (locName v.name) = some (.val w)) vs ws)
    (s : NodeState rs) :
    revalList A consts rs env (vs.foldr (fun v es => .cons (.path (locName v.name)) es) .nil) s =
      .ok (ws.map .val, s) := by
  induction h with
  | nil => simp only [List.foldr_nil, revalList, List.map_nil]
  | cons h _ ih =>
    simp only [List.foldr_cons, revalList, List.map_cons, path_local h, ok_bind, ih]

theorem bind_outputs (vs : List TyVar) (hn : (vs.map (·.name)).Nodup) (o : Value)
    (ho : Arity vs.length o) (env : REnv) :
    ∃ env', rbind (asAssignmentTarget vs) (.val o) env = .ok env' ∧
      ∀ s : NodeState rs, reval A consts rs env' (.embed (asValues vs)) s = .ok (.val o, s) := by
  match vs, hn, ho with
  | [], _, ho =>
    refine ⟨env, by simp only [asAssignmentTarget, rbind], fun s => ?_⟩
    rw [show o = .leaf (.defined .unit) from ho]
    simp only [asValues, List.foldr_nil, reval, revalList]; rfl
  | [v], _, _ =>
    refine ⟨env.set (locName v.name) (.val o), by simp only [asAssignmentTarget, rbind], fun s => ?_⟩
    simp only [asValues, reval, set_self]; rfl
  | v :: v' :: vs, hn, ho =>
    cases o with
    | leaf x => exact ho.elim
    | tup a t =>
      obtain ⟨env', h1, h2, h3⟩ := rbinds_idents (v' :: vs) t (env.set (locName v.name) (.val a))
        (by rw [show t.length = vs.length + 1 from ho]; rfl)
      rw [List.map_cons, List.nodup_cons] at hn
      refine ⟨env', ?_, fun s => ?_⟩
      · simp only [asAssignmentTarget, List.map_cons, rbind, ok_bind]; exact h1
      · have hv : env' (locName v.name) = some (.val a) := by
          rw [h2 _ fun u hu he => hn.1 (List.mem_map.2 ⟨u, hu, locName_inj he⟩), set_self]
        have := paths_eval (A := A) (consts := consts) (.cons hv (h3 hn.2)) s
        simp only [asValues, reval, this, ok_bind, bind_assoc]
        have h4 := rtuple_embed (a :: t)
        rw [show (rtuple ((a :: t).map .val) >>= fun v => v.embed >>= fun w =>
            (.ok (w, s) : R (RVal × NodeState rs))) =
          ((rtuple ((a :: t).map .val) >>= RVal.embed) >>= fun w => .ok (w, s)) by
            rw [bind_assoc], h4]
        cases t with
        | nil => cases ho
        | cons b t => rfl

/-- The struct emitted for an external node. -/
theorem extern_fit {ins outs : List TyVar} (hn : (outs.map (·.name)).Nodup) {m m' : Machine}
    (hm : Strict ins.length outs.length m) (h : Milder (· = .rejected) (· = ·) m m') :
    Milder (· = .rejected) (· = ·) (wrapExtern m)
      (innerMachine (externQuote ins outs) A consts (flatShape outs.length) m') where
  type := hm.type
  runs := by
    refine alike_init.2 (same_of_bisim (m := wrapExtern m)
      (m' := innerMachine (externQuote ins outs) A consts (flatShape outs.length) m')
      (fun s r => s.2 = r.clock ∧
        SameState (· = .rejected) (· = ·) m m' s.1 (show m'.σ × Unit from r.nodes).1)
      (fun s r i hs => ?_) _ _ ⟨rfl, alike_init.1 h.runs⟩)
    have h0 : (REnv.set (fun _ => none) "inputs" (.val i)) "inputs" = some (.val i) := set_self _ _ _
    obtain ⟨sσ, k⟩ := s
    obtain ⟨hk, hs⟩ := hs
    show Fit _ (Candle.implicitClock _ _ _ _) (RFn.call _ _ _ _ _ _ _)
    unfold Candle.implicitClock RFn.call
    simp only [externQuote, Macro.implicitClock, Macro.tick, rexec, reval, h0, ok_bind, RVal.asVal,
      RVal.asBool]
    by_cases hi : i.firstIsNil = true
    · simp only [hi, if_true, ok_bind]
      exact ⟨by rw [hm.type], hk, hs⟩
    · simp only [hi, if_false, Bool.false_eq_true]
      have hi' : i.firstIsNil = false := by simpa using hi
      rcases bind_inputs ins i (REnv.set (fun _ => none) "inputs" (.val i)) with
        ⟨h2, ha⟩ | ⟨env, he, hin⟩
      · rw [hm.inputs sσ i hi' h2 ha]; exact fit_rej _
      · rw [he]
        simp only [ok_bind, hin, h0]
        have hst := same_step hs i
        obtain ⟨rc, rh, rn, rf, rr⟩ := r
        obtain ⟨rn, ru⟩ := rn
        dsimp only at hst hk hs ⊢
        cases hms : m.step sσ i with
        | error p =>
          rw [hms] at hst
          cases hms' : m'.step rn i with
          | error q =>
            rw [hms'] at hst
            simp only [States.stepAt, hms']
            exact hst
          | ok b =>
            rw [hms'] at hst
            rw [show p = .rejected from hst]
            exact fit_rej _
        | ok a =>
          obtain ⟨o, sσ'⟩ := a
          rw [hms] at hst
          cases hms' : m'.step rn i with
          | error q => rw [hms'] at hst; exact hst.elim
          | ok b =>
            obtain ⟨o', rn'⟩ := b
            rw [hms'] at hst
            obtain ⟨ho, hs'⟩ := hst
            dsimp only at ho hs'
            subst ho
            simp only [States.stepAt, hms', ok_bind]
            obtain ⟨env', h1, h2⟩ := bind_outputs (A := A) (consts := consts) (rs := [m']) outs hn o
              (hm.outputs _ _ _ _ hi' hms) env
            rw [h1]
            simp only [ok_bind]
            have h3 := h2 ⟨rc + 1, rh, (rn', ru), rf, rr⟩
            simp only [reval] at h3
            rw [h3]
            simp only [ok_bind]
            exact ⟨rfl, by show k + 1 = rc + 1; rw [hk], hs'⟩

end

theorem constNames_linked {A : Arith} {X : Extern} : ∀ {ds : List Decl} {g0 g : Globals},
    linkConsts A X g0 ds = .ok g → ∀ x v, g x = some v → g0 x = some v ∨ x ∈ constNames ds
  | [], g0, g, h, x, v, hx => by cases h; exact .inl hx
  | .const c :: ds, g0, g, h, x, v, hx => by
    unfold linkConsts at h
    split at h
    · rcases constNames_linked h x v hx with h' | h'
      · by_cases hc : x = c.name
        · exact .inr (hc ▸ List.mem_cons_self)
        · rw [if_neg hc] at h'; exact .inl h'
      · exact .inr (List.mem_cons_of_mem _ h')
    · cases h
  | .extConst c :: ds, g0, g, h, x, v, hx => by
    unfold linkConsts at h
    split at h
    · rcases constNames_linked h x v hx with h' | h'
      · by_cases hc : x = c.name
        · exact .inr (hc ▸ List.mem_cons_self)
        · rw [if_neg hc] at h'; exact .inl h'
      · exact .inr (List.mem_cons_of_mem _ h')
    · cases h
  | .node n :: ds, g0, g, h, x, v, hx => by
    unfold linkConsts at h; exact constNames_linked h x v hx
  | .extNode n :: ds, g0, g, h, x, v, hx => by
    unfold linkConsts at h; exact constNames_linked h x v hx

theorem globName_inj {uid : Nat} {x y : String} (h : globName uid x = globName uid y) : x = y := by
  have := Props.C39_sanitized_injective _ _ h
  injection this

theorem nodeName_inj {uid : Nat} {x y : String} (h : nodeName uid x = nodeName uid y) : x = y := by
  have := Props.C39_sanitized_injective _ _ h
  injection this

theorem rustConsts_linked {A : Arith} {X : Extern} {uid : Nat} {ds : List Decl} {g : Globals}
    (h : linkConsts A X (fun _ => none) ds = .ok g) (x : String) :
    rustConsts uid g ds (globName uid x) = g x := by
  unfold rustConsts
  cases hf : (constNames ds).find? (fun y => globName uid y = globName uid x) with
  | some y =>
    have := List.find?_some hf
    rw [globName_inj (of_decide_eq_true this)]
  | none =>
    cases hx : g x with
    | none => rfl
    | some v =>
      rcases constNames_linked h x v hx with h' | h'
      · cases h'
      · exact absurd (List.find?_eq_none.1 hf x h') (by simp)

/-- The structs emitted so far behave as the nodes. -/
def TableSim (uid : Nat) (N : String → Option Machine) (N' : String → Option Machine) : Prop :=
  ∀ f, match N f, N' (nodeName uid f) with
    | none, none => True
    | some m, some m' => Milder (· = .rejected) (· = ·) m m'
    | _, _ => False

theorem TableSim.set {uid : Nat} {N N' : String → Option Machine} (h : TableSim uid N N') (f : String)
    {m m' : Machine} (hm : Milder (· = .rejected) (· = ·) m m') :
    TableSim uid (fun g => if g = f then some m else N g)
      (fun y => if y = nodeName uid f then some m' else N' y) := by
  intro g
  by_cases hgf : g = f
  · subst hgf; simp only [if_true]; exact hm
  · have : nodeName uid g ≠ nodeName uid f := fun h => hgf (nodeName_inj h)
    simp only [if_neg hgf, if_neg this]; exact h g

theorem milder_refl (m : Machine) : Milder (· = .rejected) (· = ·) m m :=
  ⟨rfl, fun _ => both_refl (fun _ => rfl) _⟩

theorem subnodes_fit {uid : Nat} {N N' : String → Option Machine} (h : TableSim uid N N') :
    ∀ bs : List NodeInstance, match subnodes N bs, rustSubnodes uid N' bs with
      | none, none => True
      | some ms, some rs => AllAlike (· = .rejected) (· = ·) ms rs
      | _, _ => False
  | [] => by simp only [subnodes, rustSubnodes]; exact .nil
  | b :: bs => by
    have h1 := h b.name
    have h2 := subnodes_fit h bs
    simp only [subnodes, rustSubnodes]
    cases hb : N b.name <;> cases hb' : N' (nodeName uid b.name) <;> rw [hb, hb'] at h1 <;>
      cases hs : subnodes N bs <;> cases hs' : rustSubnodes uid N' bs <;> rw [hs, hs'] at h2 <;>
      first
      | exact h1.elim
      | exact h2.elim
      | trivial
      | exact .cons h1 h2

/-- The external nodes are as declared, and those of `X` behave as those of `X'` unless rejected. -/
structure ExternFit (X X' : Extern) (ds : List Decl) : Prop where
  none : ∀ f, X.nodes f = none ↔ X'.nodes f = none
  some : ∀ f m m', X.nodes f = some m → X'.nodes f = some m' → Milder (· = .rejected) (· = ·) m m'
  names : ∀ n, .extNode n ∈ ds → (n.outputs.map (·.name)).Nodup
  strict : ∀ n m, .extNode n ∈ ds → X.nodes n.name = .some m →
    Strict n.inputs.length n.outputs.length m

theorem ExternFit.tail {X X' : Extern} {d : Decl} {ds : List Decl} (h : ExternFit X X' (d :: ds)) :
    ExternFit X X' ds :=
  ⟨h.none, h.some, fun n hn => h.names n (List.mem_cons_of_mem _ hn),
    fun n m hn => h.strict n m (List.mem_cons_of_mem _ hn)⟩

theorem rustNodes_fit {uid : Nat} {A : Arith} {X X' : Extern} {g : Globals}
    {consts : String → Option Scalar} (hg : ∀ x v, g x = some v → consts (globName uid x) = some v) :
    ∀ (ds : List Decl) {N N' : String → Option Machine}, ExternFit X X' ds → TableSim uid N N' →
    Both (· = ·) (TableSim uid) (linkNodesTwice A X g N ds) (rustNodes uid A X' consts N' ds)
  | [], N, N', _, h => h
  | .const _ :: ds, N, N', hX, h => by
    unfold linkNodesTwice rustNodes; exact rustNodes_fit hg ds hX.tail h
  | .extConst _ :: ds, N, N', hX, h => by
    unfold linkNodesTwice rustNodes; exact rustNodes_fit hg ds hX.tail h
  | .extNode n :: ds, N, N', hX, h => by
    unfold linkNodesTwice rustNodes
    cases hm : X.nodes n.name with
    | none => rw [(hX.none _).1 hm]; exact rfl
    | some m =>
      cases hm' : X'.nodes n.name with
      | none => rw [(hX.none _).2 hm'] at hm; cases hm
      | some m' =>
        exact rustNodes_fit hg ds hX.tail (h.set _ (extern_fit (hX.names n List.mem_cons_self)
          (hX.strict n m List.mem_cons_self hm) (hX.some _ _ _ hm hm')))
  | .node n :: ds, N, N', hX, h => by
    unfold linkNodesTwice rustNodes
    have := subnodes_fit h n.blocks
    cases hs : subnodes N n.blocks <;> cases hs' : rustSubnodes uid N' n.blocks <;>
      rw [hs, hs'] at this
    · exact rfl
    · exact this.elim
    · exact this.elim
    · exact rustNodes_fit hg ds hX.tail (h.set _ (machine_fit hg n this))

/-- The items emitted for a program behave as its items. -/
theorem linkRust_fit (uid : Nat) (A : Arith) {X X' : Extern} {ds : List Decl}
    (hc : X.consts = X'.consts) (hX : ExternFit X X' ds) :
    Both (· = ·) (fun I I' : Items => (∀ x, I.consts x = I'.consts (globName uid x)) ∧
      TableSim uid I.nodes I'.nodes) (linkTwice A X ds) (linkRust uid A X' ds) := by
  unfold linkTwice linkRust
  rw [← linkConsts_alike hc A]
  cases hc : linkConsts A X (fun _ => none) ds with
  | error p => exact rfl
  | ok g =>
    dsimp only
    have hg := rustConsts_linked (uid := uid) hc
    have := rustNodes_fit (uid := uid) (A := A) (X := X) (X' := X') (g := g)
      (consts := rustConsts uid g ds) (fun x v h => by rw [hg, h]) ds hX (N := fun _ => none) (N' := fun _ => none) (fun _ => trivial)
    cases hN : linkNodesTwice A X g (fun _ => none) ds <;>
      cases hN' : rustNodes uid A X' (rustConsts uid g ds) (fun _ => none) ds <;> rw [hN, hN'] at this
    · exact this
    · exact this.elim
    · exact this.elim
    · exact ⟨fun x => (hg x).symm, this⟩

end Chandeliers.Quo
