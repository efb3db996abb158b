import Verif.Lemmas.LegalStmts
import Verif.Lemmas.Reads
import Mathlib.Order.WellFounded
import Mathlib.Data.Fintype.EquivFin

/-! The variables that a source expression needs at once are those that its translation needs. -/

set_option autoImplicit false

namespace Chandeliers.Den
open Chandeliers.San Chandeliers.Spec Chandeliers.Syn Chandeliers.Spec.Static

/-- Everything that the expression requires is so. -/
def Req (P : Reference → Prop) (x : Expr) : Prop := ∀ r ∈ x.requires, P r

/-- All these variables are so, if they are read now. -/
def Now (P : Reference → Prop) (v : View) (ys : List String) : Prop :=
  v.depth = 0 → ∀ y ∈ ys, y ∈ v.shadow → P (.localVarName y)

section
variable {P : Reference → Prop}

theorem now_append {v : View} {a b : List String} : Now P v (a ++ b) ↔ Now P v a ∧ Now P v b := by
  simp only [Now, List.mem_append]
  grind

theorem now_nil {v : View} : Now P v [] := fun _ _ h => by simp at h

theorem req_nil {x : Expr} (h : x.requires = []) : Req P x := fun r hr => by rw [h] at hr; simp at hr

theorem req_append {x : Expr} {a b : Expr} (h : x.requires = a.requires ++ b.requires) :
    Req P x ↔ Req P a ∧ Req P b := by
  simp only [Req, h, List.mem_append]
  grind

theorem req_same {x : Expr} {a : Expr} (h : x.requires = a.requires) : Req P x ↔ Req P a := by
  simp only [Req, h]

theorem req_three {x a b c : Expr} (h : x.requires = a.requires ++ (b.requires ++ c.requires)) :
    Req P x ↔ Req P a ∧ Req P b ∧ Req P c := by
  simp only [Req, h, List.mem_append]
  grind

theorem req_dummyParen {a : Expr} : Req P (.dummyParen a) ↔ Req P a := req_same (by rw [Expr.requires])
theorem req_dummyPre {a : Expr} : Req P (.dummyPre a) ↔ Req P a := req_same (by rw [Expr.requires])
theorem req_un {op : UnOp} {a : Expr} : Req P (.un op a) ↔ Req P a := req_same (by rw [Expr.requires])
theorem req_substep {d id : Nat} {a : Expr} : Req P (.substep d id a) ↔ Req P a :=
  req_same (by rw [Expr.requires])
theorem req_bin {op : BinOp} {a b : Expr} : Req P (.bin op a b) ↔ Req P a ∧ Req P b :=
  req_append (by rw [Expr.requires])
theorem req_cmp {op : CmpOp} {a b : Expr} : Req P (.cmp op a b) ↔ Req P a ∧ Req P b :=
  req_append (by rw [Expr.requires])
theorem req_clock {op : ClockOp} {a b : Expr} : Req P (.clock op a b) ↔ Req P a ∧ Req P b :=
  req_append (by rw [Expr.requires])
theorem req_later {d : Nat} {a b : Expr} : Req P (.later d a b) ↔ Req P a ∧ Req P b :=
  req_append (by rw [Expr.requires])
theorem req_flip {d : Nat} {a b : Expr} : Req P (.flip d a b) ↔ Req P a ∧ Req P b :=
  req_append (by rw [Expr.requires])
theorem req_ifx {a b c : Expr} : Req P (.ifx a b c) ↔ Req P a ∧ Req P b ∧ Req P c :=
  req_three (by rw [Expr.requires])
theorem req_merge {a b c : Expr} : Req P (.merge a b c) ↔ Req P a ∧ Req P b ∧ Req P c :=
  req_three (by rw [Expr.requires])

theorem req_paren {xs : List Expr} {tr : Bool} :
    Req P (parenthesise xs tr) ↔ ∀ x ∈ xs, Req P x := by
  unfold parenthesise
  split
  · rw [req_dummyParen]; simp
  · simp only [Req, Expr.requires, mem_requiresList]
    grind

theorem req_compose {op : LOp} {a b : Expr} : Req P (op.compose a b) ↔ Req P a ∧ Req P b := by
  cases op <;> exact req_append (by simp only [LOp.compose, Expr.requires])
end

section
variable {P : Reference → Prop} {C : ExprCtx}

mutual
theorem comes_req (hg : ∀ x, P (.globalVarName x))
    (hi : ∀ id b, .initRegister id (some b) none ∈ C.stmts → (P (.initRegister id) ↔ Req P b))
    (hn : ∀ id, .initRegister id none none ∈ C.stmts → P (.initRegister id)) :
    (e : Src) → {v : View} → {x : Expr} → Comes C v e x → (Req P x ↔ Now P v (instant e))
  | .lit l, v, x, h => by
    rw [Comes] at h
    obtain ⟨y, h, rfl⟩ := h
    rw [instant]
    exact ⟨fun _ => now_nil, fun _ => req_nil (by rw [Expr.requires])⟩
  | .var y, v, x, h => by
    rw [Comes] at h
    subst h
    rw [instant]
    simp only [Now, List.mem_singleton, forall_eq]
    split
    · rename_i hy
      cases hd : v.depth with
      | zero => simp [Req, Expr.requires, hy]
      | succ d => simp [Req, Expr.requires]
    · rename_i hy
      simp [Req, Expr.requires, hy, hg]
  | .paren es tr, v, x, h => by
    rw [Comes] at h
    obtain ⟨xs, h, rfl⟩ := h
    rw [instant, req_paren, comes_reqs hg hi hn es h]
  | .left e rest, v, x, h => by
    rw [Comes] at h
    obtain ⟨a, h1, h2⟩ := h
    rw [instant, now_append, left_req hg hi hn rest h2, comes_req hg hi hn e h1]
  | .cmp e rest, v, x, h => by
    rw [Comes] at h
    obtain ⟨a, h1, h2⟩ := h
    rw [instant, now_append, cmp_req hg hi hn rest h2, comes_req hg hi hn e h1]
  | .fby e rest, v, x, h => by
    rw [Comes] at h
    obtain ⟨a, h1, h2⟩ := h
    rw [instant, fby_req hg hi hn rest h2, comes_req hg hi hn e h1]
  | .arrow e rest, v, x, h => by
    rw [Comes] at h
    obtain ⟨a, h1, h2⟩ := h
    rw [instant, now_append, then_req hg hi hn rest h2, comes_req hg hi hn e h1]
  | .ifx c y z, v, x, h => by
    rw [Comes] at h
    obtain ⟨c', y', n', h1, h2, h3, rfl⟩ := h
    rw [instant, now_append, now_append, req_ifx, comes_req hg hi hn c h1,
      comes_req hg hi hn y h2, comes_req hg hi hn z h3]
  | .merge c y z, v, x, h => by
    rw [Comes] at h
    obtain ⟨c', y', n', h1, h2, h3, rfl⟩ := h
    rw [instant, now_append, now_append, req_merge, comes_req hg hi hn c h1,
      comes_req hg hi hn y h2, comes_req hg hi hn z h3]
  | .call f args tr, v, x, h => by
    rw [Comes] at h
    obtain ⟨xs, id, h, rfl, hb⟩ := h
    rw [instant, req_substep, req_paren, comes_reqs hg hi hn args h]
  | .pre e, v, x, h => by
    rw [Comes] at h
    rw [instant]
    refine ⟨fun _ => now_nil, fun _ => ?_⟩
    split at h
    · obtain ⟨id, y, h1, rfl, h2, h3⟩ := h
      simpa [Req, Expr.requires] using hn id h3
    · obtain ⟨y, h1, rfl⟩ := h
      rw [req_dummyPre, comes_req hg hi hn e h1]
      intro hd
      simp [View.bump] at hd
  | .neg e, v, x, h => by
    rw [Comes] at h
    obtain ⟨y, h, rfl⟩ := h
    rw [instant, req_un, comes_req hg hi hn e h]
  | .not e, v, x, h => by
    rw [Comes] at h
    obtain ⟨y, h, rfl⟩ := h
    rw [instant, req_un, comes_req hg hi hn e h]
theorem comes_reqs (hg : ∀ x, P (.globalVarName x))
    (hi : ∀ id b, .initRegister id (some b) none ∈ C.stmts → (P (.initRegister id) ↔ Req P b))
    (hn : ∀ id, .initRegister id none none ∈ C.stmts → P (.initRegister id)) :
    (es : List Src) → {v : View} → {xs : List Expr} → ComesList C v es xs →
    ((∀ x ∈ xs, Req P x) ↔ Now P v (instants es))
  | [], v, xs, h => by
    rw [ComesList] at h
    subst h
    rw [instants]
    simp [now_nil]
  | e :: es, v, xs, h => by
    rw [ComesList] at h
    obtain ⟨y, ys, h1, h2, rfl⟩ := h
    rw [instants, now_append, List.forall_mem_cons, comes_req hg hi hn e h1, comes_reqs hg hi hn es h2]
theorem left_req (hg : ∀ x, P (.globalVarName x))
    (hi : ∀ id b, .initRegister id (some b) none ∈ C.stmts → (P (.initRegister id) ↔ Req P b))
    (hn : ∀ id, .initRegister id none none ∈ C.stmts → P (.initRegister id)) :
    (es : List (LOp × Src)) → {v : View} → {a x : Expr} → ComesLeft C v a es x →
    (Req P x ↔ Req P a ∧ Now P v (instantLeft es))
  | [], v, a, x, h => by
    rw [ComesLeft] at h
    subst h
    rw [instantLeft]
    simp [now_nil]
  | (op, e) :: es, v, a, x, h => by
    rw [ComesLeft] at h
    obtain ⟨y, h1, h2⟩ := h
    rw [instantLeft, now_append, left_req hg hi hn es h2, req_compose, comes_req hg hi hn e h1, and_assoc]
theorem cmp_req (hg : ∀ x, P (.globalVarName x))
    (hi : ∀ id b, .initRegister id (some b) none ∈ C.stmts → (P (.initRegister id) ↔ Req P b))
    (hn : ∀ id, .initRegister id none none ∈ C.stmts → P (.initRegister id)) :
    (es : List (CmpOp × Src)) → {v : View} → {a x : Expr} → ComesCmp C v a es x →
    (Req P x ↔ Req P a ∧ Now P v (instantCmp es))
  | [], v, a, x, h => by
    rw [ComesCmp] at h
    subst h
    rw [instantCmp]
    simp [now_nil]
  | (op, e) :: es, v, a, x, h => by
    rw [ComesCmp] at h
    obtain ⟨rfl, y, h1, rfl⟩ := h
    rw [instantCmp, now_append, req_cmp, comes_req hg hi hn e h1, instantCmp]
    simp [now_nil]
theorem fby_req (hg : ∀ x, P (.globalVarName x))
    (hi : ∀ id b, .initRegister id (some b) none ∈ C.stmts → (P (.initRegister id) ↔ Req P b))
    (hn : ∀ id, .initRegister id none none ∈ C.stmts → P (.initRegister id)) :
    (es : List Src) → {v : View} → {i : Nat} → {b x : Expr} → ComesFby C v i b es x →
    (Req P x ↔ Req P b)
  | [], v, i, b, x, h => by
    rw [ComesFby] at h
    rw [h]
  | e :: es, v, i, b, x, h => by
    rw [ComesFby] at h
    obtain ⟨y, a, h1, h2, h3⟩ := h
    split at h3
    · obtain ⟨id, rfl, h4, h5⟩ := h3
      rw [← hi id b h5]
      simp [Req, Expr.requires]
    · rename_i hu
      subst h3
      rw [req_later, fby_req hg hi hn es h2, comes_req hg hi hn e h1]
      refine and_iff_left fun hd => ?_
      simp [View.after, hu, View.bump] at hd
theorem then_req (hg : ∀ x, P (.globalVarName x))
    (hi : ∀ id b, .initRegister id (some b) none ∈ C.stmts → (P (.initRegister id) ↔ Req P b))
    (hn : ∀ id, .initRegister id none none ∈ C.stmts → P (.initRegister id)) :
    (es : List Src) → {v : View} → {i : Nat} → {b x : Expr} → ComesThen C v i b es x →
    (Req P x ↔ Req P b ∧ Now P v (instants es))
  | [], v, i, b, x, h => by
    rw [ComesThen] at h
    rw [h, instants]
    simp [now_nil]
  | e :: es, v, i, b, x, h => by
    rw [ComesThen] at h
    obtain ⟨y, a, h1, h2, h3⟩ := h
    rw [instants, now_append]
    have h4 : x.requires = b.requires ++ a.requires := by
      split at h3
      · obtain ⟨id, rfl⟩ := h3; rw [Expr.requires]
      · subst h3; rw [Expr.requires]
    rw [req_append h4, then_req hg hi hn es h2, comes_req hg hi hn e h1]
end
end

/-! ### Cycles -/

/-- A relation without cycles on a finite domain is well founded. -/
theorem acc_of_acyclic {α : Type} {r : α → α → Prop} (l : List α) (hl : ∀ x y, r x y → x ∈ l)
    (h : ∀ x, ¬ Relation.TransGen r x x) (x : α) : Acc (fun y x => r x y) x := by
  have wf : WellFounded (fun y x : {a // a ∈ l} => Relation.TransGen r x.1 y.1) := by
    classical
    have : Finite {a // a ∈ l} :=
      Finite.of_injective (fun a => (⟨a.1, List.mem_toFinset.2 a.2⟩ : {a // a ∈ l.toFinset}))
        fun a b h => Subtype.ext (by simpa using h)
    have h1 : IsTrans {a // a ∈ l} (fun y x => Relation.TransGen r x.1 y.1) :=
      ⟨fun _ _ _ h h' => h'.trans h⟩
    have h2 : Std.Irrefl (fun y x : {a // a ∈ l} => Relation.TransGen r x.1 y.1) := ⟨fun x => h x.1⟩
    exact Finite.wellFounded_of_trans_of_irrefl _
  have key : ∀ a : {a // a ∈ l}, Acc (fun y x => r x y) a.1 := by
    intro a
    induction a using wf.induction with
    | _ a ih =>
      refine ⟨_, fun y hy => ?_⟩
      by_cases hm : y ∈ l
      · exact ih ⟨y, hm⟩ (.single hy)
      · exact ⟨_, fun z hz => absurd (hl _ _ hz) hm⟩
  exact ⟨_, fun y hy => by
    by_cases hm : y ∈ l
    · exact key ⟨y, hm⟩
    · exact ⟨_, fun z hz => absurd (hl _ _ hz) hm⟩⟩

theorem irrefl_of_acc {α : Type} {r : α → α → Prop} {x : α} (h : Acc r x) : ¬ r x x := by
  induction h with
  | intro x _ ih => exact fun hx => ih x hx hx

theorem no_cycle_of_acc {α : Type} {r : α → α → Prop} {x : α} (h : Acc (fun y x => r x y) x) :
    ¬ Relation.TransGen r x x := by
  have h' : Acc (Relation.TransGen fun y x => r x y) x := h.transGen
  intro hc
  have : Relation.TransGen (fun y x => r x y) x x := by
    have := Relation.transGen_swap.2 hc
    exact this
  exact irrefl_of_acc h' this

/-- On the way to something that goes on, everything goes on. -/
theorem transGen_onward {α : Type} {r : α → α → Prop} {x z : α} (h : Relation.TransGen r x z)
    (hz : ∃ w, r z w) : Relation.TransGen (fun a b => r a b ∧ ∃ w, r b w) x z := by
  induction h with
  | single h => exact .single ⟨h, hz⟩
  | tail _ h ih => exact (ih ⟨_, h⟩).tail ⟨h, hz⟩

section
variable {v : View} {src : List SrcStmt} {C : ExprCtx}

theorem init_once {id : Nat} {i i' : Option Expr} {k k' : Option Expr} : {l : List Stmt} →
    (initialised l).Nodup → .initRegister id i k ∈ l → .initRegister id i' k' ∈ l → i = i' ∧ k = k'
  | [], _, h, _ => by simp at h
  | st :: l, hd, h, h' => by
    have mem : ∀ {j c}, .initRegister id j c ∈ l → id ∈ initialised l := by
      intro j c hj
      clear hd h h'
      induction l with
      | nil => simp at hj
      | cons s l ih =>
        rcases List.mem_cons.1 hj with rfl | hj
        · simp [initialised]
        · have := ih hj
          cases s <;> simp [initialised, this]
    have hd' : (initialised l).Nodup := by
      cases st <;> simp only [initialised, List.nodup_cons] at hd <;> first | exact hd | exact hd.2
    rcases List.mem_cons.1 h with rfl | h1
    · rcases List.mem_cons.1 h' with h' | h'
      · cases h'; exact ⟨rfl, rfl⟩
      · simp only [initialised, List.nodup_cons] at hd
        exact absurd (mem h') hd.1
    · rcases List.mem_cons.1 h' with rfl | h'
      · simp only [initialised, List.nodup_cons] at hd
        exact absurd (mem h1) hd.1
      · exact init_once hd' h1 h'

/-- What a register is set up from. -/
theorem uses_register (h : NodeComes v src C) {id : Nat} {i : Option Expr}
    (hi : .initRegister id i none ∈ C.stmts) (r : Reference) :
    Uses C.stmts (.initRegister id) r ↔ ∃ b, i = some b ∧ r ∈ b.requires := by
  constructor
  · rintro ⟨st, hst, hw, hr⟩
    cases hw with
    | register =>
      rename_i i' k
      obtain ⟨rfl, -⟩ := init_once h.once hi hst
      rw [reads_iff] at hr
      obtain ⟨e, he, hr⟩ := hr
      cases i with
      | none => simp [values] at he
      | some b => simp only [values, List.mem_singleton] at he; exact ⟨b, rfl, he ▸ hr⟩
  · rintro ⟨b, rfl, hr⟩
    exact ⟨_, hi, .register, reads_iff.2 ⟨b, by simp [values], hr⟩⟩

theorem uses_global {x : String} {r : Reference} : ¬ Uses C.stmts (.globalVarName x) r := by
  rintro ⟨st, -, hw, -⟩
  cases hw

/-- What a variable is defined from. -/
theorem uses_local (h : NodeComes v src C) {x : String} (r : Reference) :
    Uses C.stmts (.localVarName x) r ↔
      ∃ p e y, .def_ p e ∈ src ∧ x ∈ targets p ∧ Comes C v e y ∧ .let_ p.translate y ∈ C.stmts ∧
        r ∈ y.requires := by
  constructor
  · rintro ⟨st, hst, hw, hr⟩
    cases hw with
    | local_ hx =>
      obtain ⟨p, e, h1, rfl, h2⟩ := h.lets _ _ hst
      rw [reads_iff] at hr
      obtain ⟨_, he, hr⟩ := hr
      simp only [values, List.mem_singleton] at he
      exact ⟨p, e, _, h1, target_vars p ▸ hx, h2, hst, he ▸ hr⟩
  · rintro ⟨p, e, y, -, h2, -, h4, hr⟩
    exact ⟨_, h4, .local_ (by rw [target_vars]; exact h2), reads_iff.2 ⟨y, by simp [values], hr⟩⟩

/-- A cycle in the source is one in the translation. -/
theorem causal_of_uses (h : NodeComes v src C) (hd : v.depth = 0)
    (hs : ∀ x ∈ defined src, x ∈ v.shadow)
    (hc : ∀ r, ¬ Relation.TransGen (Uses C.stmts) r r) (x : String) :
    ¬ Relation.TransGen (DefinedFrom src) x x := by
  intro hx
  have step : ∀ a b, (DefinedFrom src a b ∧ ∃ w, DefinedFrom src b w) →
      Relation.TransGen (Uses C.stmts) (.localVarName a) (.localVarName b) := by
    rintro a b ⟨⟨p, e, h1, h2, h3⟩, w, p', e', h1', h2', -⟩
    have hb : b ∈ v.shadow := hs b (List.mem_flatMap.2 ⟨_, h1', h2'⟩)
    obtain ⟨y, hy, hl⟩ := h.defs p e h1
    have key := comes_req (P := fun r => ¬ Relation.ReflTransGen (Uses C.stmts) r (.localVarName b))
      (C := C) (fun z hz => by
        rcases Relation.ReflTransGen.cases_head hz with hz | ⟨_, hz, -⟩
        · cases hz
        · exact uses_global hz)
      (fun id i hi => by
        constructor
        · intro hn r hr hrb
          exact hn (.head ((uses_register h hi r).2 ⟨i, rfl, hr⟩) hrb)
        · intro hn hz
          rcases Relation.ReflTransGen.cases_head hz with hz | ⟨r, hz, hrb⟩
          · cases hz
          · obtain ⟨i', hi', hr⟩ := (uses_register h hi r).1 hz
            cases hi'
            exact hn r hr hrb)
      (fun id hi hz => by
        rcases Relation.ReflTransGen.cases_head hz with hz | ⟨r, hz, hrb⟩
        · cases hz
        · obtain ⟨i', hi', hr⟩ := (uses_register h hi r).1 hz
          cases hi')
      e hy
    have hn : ¬ Req (fun r => ¬ Relation.ReflTransGen (Uses C.stmts) r (.localVarName b)) y := by
      intro hq
      exact key.1 hq hd b h3 hb .refl
    simp only [Req, not_forall, not_not] at hn
    obtain ⟨r, hr, hrb⟩ := hn
    exact .head' ((uses_local h r).2 ⟨p, e, y, h1, h2, hy, hl, hr⟩) hrb
  have hw : ∃ w, DefinedFrom src x w := by
    obtain ⟨w, hw, -⟩ := Relation.TransGen.head'_iff.1 hx
    exact ⟨w, hw⟩
  have := transGen_onward hx hw
  exact hc _ (Relation.TransGen.trans_induction_on (motive := fun {a b} _ =>
    Relation.TransGen (Uses C.stmts) (.localVarName a) (.localVarName b)) this
    (fun h => step _ _ h) (fun _ _ h h' => h.trans h'))

mutual
theorem requires_acc {R : Reference → Reference → Prop} (h : NodeComes v src C)
    (hR : ∀ u w, R u w → Uses C.stmts u w)
    (hl : ∀ x, Acc (fun w u => R u w) (.localVarName x)) : (x : Expr) →
    (∀ id i, (id, i) ∈ starts x → .initRegister id i none ∈ C.stmts) →
    Req (Acc fun w u => R u w) x ∧
    ∀ id i, (id, i) ∈ starts x → Acc (fun w u => R u w) (.initRegister id)
  | .lit _, _ => ⟨req_nil (by rw [Expr.requires]), by simp [starts]⟩
  | .global y, _ => ⟨by
      simp only [Req, Expr.requires, List.mem_singleton, forall_eq]
      exact ⟨_, fun _ h => absurd (hR _ _ h) uses_global⟩, by simp [starts]⟩
  | .var y d, _ => ⟨by cases d <;> simp [Req, Expr.requires, hl], by simp [starts]⟩
  | .tuple es, hs => by
    rw [starts] at hs ⊢
    obtain ⟨h1, h2⟩ := requires_accs h hR hl es hs
    refine ⟨?_, h2⟩
    simp only [Req, Expr.requires, mem_requiresList]
    rintro r ⟨e, he, hr⟩
    exact h1 e he r hr
  | .dummyPre e, hs => by
    rw [starts] at hs ⊢
    rw [req_dummyPre]
    exact requires_acc h hR hl e hs
  | .dummyParen e, hs => by
    rw [starts] at hs ⊢
    rw [req_dummyParen]
    exact requires_acc h hR hl e hs
  | .un _ e, hs => by
    rw [starts] at hs ⊢
    rw [req_un]
    exact requires_acc h hR hl e hs
  | .substep _ _ e, hs => by
    rw [starts] at hs ⊢
    rw [req_substep]
    exact requires_acc h hR hl e hs
  | .bin _ a b, hs => by
    rw [starts] at hs ⊢
    rw [req_bin]
    obtain ⟨h1, h2⟩ := requires_acc h hR hl a fun id i hm => hs id i (by simp [hm])
    obtain ⟨h3, h4⟩ := requires_acc h hR hl b fun id i hm => hs id i (by simp [hm])
    exact ⟨⟨h1, h3⟩, fun id i hm => (List.mem_append.1 hm).elim (h2 id i) (h4 id i)⟩
  | .cmp _ a b, hs => by
    rw [starts] at hs ⊢
    rw [req_cmp]
    obtain ⟨h1, h2⟩ := requires_acc h hR hl a fun id i hm => hs id i (by simp [hm])
    obtain ⟨h3, h4⟩ := requires_acc h hR hl b fun id i hm => hs id i (by simp [hm])
    exact ⟨⟨h1, h3⟩, fun id i hm => (List.mem_append.1 hm).elim (h2 id i) (h4 id i)⟩
  | .clock _ a b, hs => by
    rw [starts] at hs ⊢
    rw [req_clock]
    obtain ⟨h1, h2⟩ := requires_acc h hR hl a fun id i hm => hs id i (by simp [hm])
    obtain ⟨h3, h4⟩ := requires_acc h hR hl b fun id i hm => hs id i (by simp [hm])
    exact ⟨⟨h1, h3⟩, fun id i hm => (List.mem_append.1 hm).elim (h2 id i) (h4 id i)⟩
  | .later _ a b, hs => by
    rw [starts] at hs ⊢
    rw [req_later]
    obtain ⟨h1, h2⟩ := requires_acc h hR hl a fun id i hm => hs id i (by simp [hm])
    obtain ⟨h3, h4⟩ := requires_acc h hR hl b fun id i hm => hs id i (by simp [hm])
    exact ⟨⟨h1, h3⟩, fun id i hm => (List.mem_append.1 hm).elim (h2 id i) (h4 id i)⟩
  | .flip _ a b, hs => by
    rw [starts] at hs ⊢
    rw [req_flip]
    obtain ⟨h1, h2⟩ := requires_acc h hR hl a fun id i hm => hs id i (by simp [hm])
    obtain ⟨h3, h4⟩ := requires_acc h hR hl b fun id i hm => hs id i (by simp [hm])
    exact ⟨⟨h1, h3⟩, fun id i hm => (List.mem_append.1 hm).elim (h2 id i) (h4 id i)⟩
  | .ifx a b c, hs => by
    rw [starts] at hs ⊢
    rw [req_ifx]
    obtain ⟨h1, h2⟩ := requires_acc h hR hl a fun id i hm => hs id i (by simp [hm])
    obtain ⟨h3, h4⟩ := requires_acc h hR hl b fun id i hm => hs id i (by simp [hm])
    obtain ⟨h5, h6⟩ := requires_acc h hR hl c fun id i hm => hs id i (by simp [hm])
    exact ⟨⟨h1, h3, h5⟩, fun id i hm => (List.mem_append.1 hm).elim (h2 id i)
      fun hm => (List.mem_append.1 hm).elim (h4 id i) (h6 id i)⟩
  | .merge a b c, hs => by
    rw [starts] at hs ⊢
    rw [req_merge]
    obtain ⟨h1, h2⟩ := requires_acc h hR hl a fun id i hm => hs id i (by simp [hm])
    obtain ⟨h3, h4⟩ := requires_acc h hR hl b fun id i hm => hs id i (by simp [hm])
    obtain ⟨h5, h6⟩ := requires_acc h hR hl c fun id i hm => hs id i (by simp [hm])
    exact ⟨⟨h1, h3, h5⟩, fun id i hm => (List.mem_append.1 hm).elim (h2 id i)
      fun hm => (List.mem_append.1 hm).elim (h4 id i) (h6 id i)⟩
  | .fetchPre id f, hs => by
    rw [starts] at hs ⊢
    obtain ⟨h1, h2⟩ := requires_acc h hR hl f fun id i hm => hs id i (by simp [hm])
    have h3 : Acc (fun w u => R u w) (.initRegister id) := by
      refine ⟨_, fun r hr => ?_⟩
      obtain ⟨b, hb, -⟩ := (uses_register h (hs id none (by simp)) r).1 (hR _ _ hr)
      cases hb
    refine ⟨by simpa [Req, Expr.requires] using h3, fun id' i hm => ?_⟩
    rcases List.mem_append.1 hm with hm | hm
    · exact h2 id' i hm
    · simp only [List.mem_singleton, Prod.mk.injEq] at hm
      rw [hm.1]; exact h3
  | .fetchFby id b f, hs => by
    rw [starts] at hs ⊢
    obtain ⟨h1, h2⟩ := requires_acc h hR hl f fun id i hm => hs id i (by simp [hm])
    obtain ⟨h3, h4⟩ := requires_acc h hR hl b fun id i hm => hs id i (by simp [hm])
    have h5 : Acc (fun w u => R u w) (.initRegister id) := by
      refine ⟨_, fun r hr => ?_⟩
      obtain ⟨b', hb, hr⟩ := (uses_register h (hs id (some b) (by simp)) r).1 (hR _ _ hr)
      cases hb
      exact h3 r hr
    refine ⟨by simpa [Req, Expr.requires] using h5, fun id' i hm => ?_⟩
    rcases List.mem_append.1 hm with hm | hm
    · exact h2 id' i hm
    rcases List.mem_append.1 hm with hm | hm
    · exact h4 id' i hm
    · simp only [List.mem_singleton, Prod.mk.injEq] at hm
      rw [hm.1]; exact h5
theorem requires_accs {R : Reference → Reference → Prop} (h : NodeComes v src C)
    (hR : ∀ u w, R u w → Uses C.stmts u w)
    (hl : ∀ x, Acc (fun w u => R u w) (.localVarName x)) : (xs : List Expr) →
    (∀ id i, (id, i) ∈ startsList xs → .initRegister id i none ∈ C.stmts) →
    (∀ x ∈ xs, Req (Acc fun w u => R u w) x) ∧
    ∀ id i, (id, i) ∈ startsList xs → Acc (fun w u => R u w) (.initRegister id)
  | [], _ => ⟨by simp, by simp [startsList]⟩
  | e :: es, hs => by
    rw [startsList] at hs ⊢
    obtain ⟨h1, h2⟩ := requires_acc h hR hl e fun id i hm => hs id i (by simp [hm])
    obtain ⟨h3, h4⟩ := requires_accs h hR hl es fun id i hm => hs id i (by simp [hm])
    exact ⟨List.forall_mem_cons.2 ⟨h1, h3⟩,
      fun id i hm => (List.mem_append.1 hm).elim (h2 id i) (h4 id i)⟩
end

/-- A cycle in the translation is one in the source. -/
theorem uses_of_causal (h : NodeComes v src C)
    (hc : ∀ x, ¬ Relation.TransGen (DefinedFrom src) x x) (r : Reference) :
    ¬ Relation.TransGen (Uses C.stmts) r r := by
  apply no_cycle_of_acc
  have local_ : ∀ x, Acc (fun w u => Uses C.stmts u w) (.localVarName x) := by
    intro x
    have hx := acc_of_acyclic (defined src) (fun x y ⟨p, e, h1, h2, _⟩ =>
      List.mem_flatMap.2 ⟨_, h1, h2⟩) hc x
    induction hx with
    | intro x _ ih =>
      refine ⟨_, fun r hr => ?_⟩
      obtain ⟨p, e, y, h1, h2, h3, h4, h5⟩ := (uses_local h r).1 hr
      refine (comes_req (P := Acc fun w u => Uses C.stmts u w) (C := C)
        (fun z => ⟨_, fun _ hz => absurd hz uses_global⟩)
        (fun id i hi => ⟨fun ha r hr => ha.inv ((uses_register h hi r).2 ⟨i, rfl, hr⟩),
          fun hq => ⟨_, fun r hr => ?_⟩⟩)
        (fun id hi => ⟨_, fun r hr => ?_⟩) e h3).2 ?_ r h5
      · obtain ⟨i', hi', hr⟩ := (uses_register h hi r).1 hr
        cases hi'
        exact hq r hr
      · obtain ⟨i', hi', hr⟩ := (uses_register h hi r).1 hr
        cases hi'
      · intro _ y hy _
        exact ih y ⟨p, e, h1, h2, hy⟩
  cases r with
  | localVarName x => exact local_ x
  | initRegister id =>
    refine ⟨_, fun r hr => ?_⟩
    obtain ⟨st, hst, hw, -⟩ := _root_.id hr
    cases hw with
    | register =>
      rename_i i k
      have := h.clocks _ _ _ hst
      subst this
      have hm := (h.started _ _).2 hst
      obtain ⟨st', hst', hm⟩ := List.mem_flatMap.1 hm
      have all : ∀ id i, (id, i) ∈ startsIn st' → .initRegister id i none ∈ C.stmts :=
        fun id i hi => (h.started _ _).1 (List.mem_flatMap.2 ⟨st', hst', hi⟩)
      cases st' with
      | let_ t x => exact ((requires_acc h (fun _ _ k => k) local_ x all).2 _ _ hm).inv hr
      | assert x => exact ((requires_acc h (fun _ _ k => k) local_ x all).2 _ _ hm).inv hr
      | _ => simp [startsIn] at hm
  | _ => exact ⟨_, fun r ⟨st, _, hw, _⟩ => by cases hw⟩

end

end Chandeliers.Den
