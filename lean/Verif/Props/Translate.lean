import Verif.Lemmas.TranslateNode
import Verif.Props.Solutions
import Verif.Spec.Chains

/-!
# C16, C17, C19, C31, C32, C40: what source expressions are translated to
-/

set_option autoImplicit false

namespace Chandeliers.Props
open Chandeliers.San Chandeliers.Spec Chandeliers.Syn Chandeliers.Den

section
variable {A : Arith} {glob : Globals} {ms : List Machine} {F : Flow}
  {nodes : String → Option Machine}

/-! ## C16 -/

/-- C16.  Without registers, the code compiled for an expression has exactly the values of the
reference semantics, `v.depth` instants later, and fails exactly when the reference semantics has
no value. -/
theorem C16_expression {e : Src} {v : View} {c c' : ExprCtx} {x : Expr}
    (h : e.translate v c = .ok (x, c')) (hu : v.useRegisters = false)
    (hL : Linked ms nodes c'.blocks) (t : Nat) :
    (den A glob ms F v.depth x t).toOption =
      ref ⟨A, v.shadow, F.X, glob, nodes⟩ e ((t : Int) - v.depth) :=
  translate_ref e v c x c' h hu hL v.depth (Nat.le_refl _) t

/-- C16.  Wherever the usual semantics of Lustre gives a value, the compiled code gives the same
value unless it fails. -/
theorem C16_lustre {e : Src} {v : View} {c c' : ExprCtx} {x : Expr}
    (h : e.translate v c = .ok (x, c')) (hu : v.useRegisters = false)
    (hL : Linked ms nodes c'.blocks) {t : Nat} {w w' : Value}
    (hw : lustre ⟨A, v.shadow, F.X, glob, nodes⟩ e t = some w)
    (hw' : den A glob ms F v.depth x (t + v.depth) = .ok w') : w = w' := by
  have := C16_expression (A := A) (glob := glob) (F := F) h hu hL (t + v.depth)
  rw [hw', show ((t + v.depth : Nat) : Int) - v.depth = t by omega] at this
  exact lustre_ref e t w w' hw this.symm

/-- C16.  Whole nodes: the equations of the compiled node have the same solutions as the equations
of the source. -/
theorem C16_node {n : SrcNode} {n' : Node} (h : n.translate false = .ok n')
    (hL : Linked ms nodes n'.blocks) (is : List Value) :
    Solution A glob ms F n' is ↔ SrcSolution ⟨A, SrcNode.vars n, F.X, glob, nodes⟩ n is :=
  solution_translate h hL is

/-! ## C17 -/

theorem refThen_arm {W : World} : ∀ {es : List Src} {i : Nat} {t : Int} {L : List Value},
    refThen W i es t = some L → ∀ {j : Nat} {e : Src}, es[j]? = some e →
    (t = i + j ∨ (j + 1 = es.length ∧ (i : Int) + j ≤ t)) → ∀ {w : Value}, L.head? = some w →
    ref W e t = some w
  | [], i, t, L, h, j, e, hj, hc, w, hw => by simp at hj
  | a :: es, i, t, L, h, j, e, hj, hc, w, hw => by
    unfold refThen at h
    obtain ⟨L', h1, h⟩ := some_bind.1 h
    have hne := refThen_ne W es _ _ L' h1
    cases j with
    | zero =>
      simp only [List.getElem?_cons_zero, Option.some.injEq] at hj
      subst hj
      rw [if_neg] at h
      · obtain ⟨w', h2, h⟩ := some_bind.1 h
        cases h
        cases hw
        exact h2
      · rintro ⟨h3, h4⟩
        rcases hc with hc | ⟨hc, _⟩
        · omega
        · exact h3 (hne.2 (by simpa using hc))
    | succ j =>
      simp only [List.getElem?_cons_succ] at hj
      have hes : es ≠ [] := by rintro rfl; simp at hj
      have hlt : (i : Int) + (j + 1 : Nat) ≤ t := by
        rcases hc with hc | ⟨_, hc⟩ <;> omega
      rw [if_pos ⟨fun h => hes (hne.1 h), by omega⟩] at h
      cases h
      refine refThen_arm h1 hj ?_ hw
      rcases hc with hc | ⟨hc, hc'⟩
      · left; omega
      · right
        simp only [List.length_cons] at hc
        exact ⟨by omega, by omega⟩

/-- C17.  Without registers, a chain `e₀ -> e₁ -> … -> eₙ` has the value of `eᵢ` at instant `i` for
`i < n`, and the value of `eₙ` from instant `n` on. -/
theorem C17_chain {e₀ : Src} {es : List Src} {v : View} {c c' : ExprCtx} {x : Expr}
    (h : (Src.arrow e₀ es).translate v c = .ok (x, c')) (hu : v.useRegisters = false)
    (hL : Linked ms nodes c'.blocks) {t : Nat} {w : Value}
    (hw : den A glob ms F v.depth x (t + v.depth) = .ok w) {i : Nat} {e : Src}
    (hi : (e₀ :: es)[i]? = some e) (ht : t = i ∨ (i = es.length ∧ i ≤ t)) :
    ref ⟨A, v.shadow, F.X, glob, nodes⟩ e t = some w := by
  have := C16_expression (A := A) (glob := glob) (F := F) h hu hL (t + v.depth)
  rw [hw, show ((t + v.depth : Nat) : Int) - v.depth = t by omega] at this
  unfold ref at this
  obtain ⟨L, h1, h2⟩ := some_bind.1 this.symm
  have hne := refThen_ne _ es _ _ L h1
  cases i with
  | zero =>
    simp only [List.getElem?_cons_zero, Option.some.injEq] at hi
    subst hi
    rw [if_neg] at h2
    · exact h2
    · rintro ⟨h3, h4⟩
      rcases ht with ht | ⟨ht, _⟩
      · omega
      · exact h3 (hne.2 (List.length_eq_zero_iff.1 ht.symm))
  | succ i =>
    simp only [List.getElem?_cons_succ] at hi
    have hes : es ≠ [] := by rintro rfl; simp at hi
    rw [if_pos ⟨fun h => hes (hne.1 h), by omega⟩] at h2
    refine refThen_arm h1 hi ?_ h2
    rcases ht with ht | ⟨ht, ht'⟩
    · left; omega
    · right; omega

theorem ref_paren {W : World} {e : Src} {b : Bool} {t : Int} : ref W (.paren [e] b) t = ref W e t := by
  simp only [ref, refList]
  cases ref W e t <;> rfl

theorem ref_nested {W : World} : ∀ (es : List Src) (e : Src) (t : Int) (w : Value),
    ref W (nestedArrows e es) t = some w →
    (t ≤ 0 → ref W e t = some w) ∧ (0 < t → ref W ((e :: es).getLast (by simp)) t = some w)
  | [], e, t, w, h => ⟨fun _ => h, fun _ => h⟩
  | e' :: es, e, t, w, h => by
    unfold nestedArrows ref at h
    obtain ⟨L, h1, h2⟩ := some_bind.1 h
    simp only [refThen, Option.bind_eq_bind, Option.bind_some, ne_eq, not_true_eq_false, false_and,
      if_false, Option.pure_def, ref_paren, Option.bind_eq_some_iff, Option.some.injEq] at h1
    obtain ⟨w', h1, rfl⟩ := h1
    refine ⟨fun ht => ?_, fun ht => ?_⟩
    · rw [if_neg (by omega)] at h2
      exact h2
    · rw [if_pos ⟨by simp, ht⟩] at h2
      cases h2
      have := (ref_nested es e' t w h1).2 ht
      rw [List.getLast_cons (by simp)]
      exact this

/-- C17.  With parentheses, `e₀ -> (e₁ -> (… -> eₙ))` has the value of `e₀` at the first instant and
the value of `eₙ` ever after. -/
theorem C17_nested {e₀ : Src} {es : List Src} {v : View} {c c' : ExprCtx} {x : Expr}
    (h : (nestedArrows e₀ es).translate v c = .ok (x, c')) (hu : v.useRegisters = false)
    (hL : Linked ms nodes c'.blocks) {t : Nat} {w : Value}
    (hw : den A glob ms F v.depth x (t + v.depth) = .ok w) :
    ref ⟨A, v.shadow, F.X, glob, nodes⟩ (if t = 0 then e₀ else (e₀ :: es).getLast (by simp)) t
      = some w := by
  have := C16_expression (A := A) (glob := glob) (F := F) h hu hL (t + v.depth)
  rw [hw, show ((t + v.depth : Nat) : Int) - v.depth = t by omega] at this
  have := ref_nested es e₀ t w this.symm
  split
  · exact this.1 (by omega)
  · exact this.2 (by omega)

/-! ## C19 -/

theorem ref_pres {W : World} : ∀ (n : Nat) (e : Src) (t : Int), ref W (pres n e) t = ref W e (t - n)
  | 0, e, t => by simp [pres]
  | n + 1, e, t => by
    rw [pres, ref, ref_pres n e]
    congr 1
    omega

/-- C19.  Without registers, a call under `n` `pre` returns nil before instant `n`; at an instant
`n + k`, it returns what a new instance of the node answers to the arguments of the call, from
their first value to their value at instant `k`. -/
theorem C19_delayed_call {f : String} {args : List Src} {b : Bool} {n : Nat} {v : View}
    {c c' : ExprCtx} {x : Expr} (h : (pres n (.call f args b)).translate v c = .ok (x, c'))
    (hu : v.useRegisters = false) (hd : v.depth = 0) (hL : Linked ms nodes c'.blocks)
    {m : Machine} (hm : nodes f = some m) (t : Nat) :
    (den A glob ms F 0 x t).toOption =
      if t < n then some (Tup.allNil Scalar m.outTy)
      else callAt m (fun u => do
        return tupleValue (← refList ⟨A, v.shadow, F.X, glob, nodes⟩ args u)) (t - n) := by
  have := C16_expression (A := A) (glob := glob) (F := F) h hu hL t
  rw [hd] at this
  rw [this, ref_pres, ref]
  simp only [hm]
  by_cases ht : t < n
  · rw [if_pos (by omega), if_pos ht]
  · rw [if_neg (by omega), if_neg ht]
    rw [show ((t : Int) - (0 : Nat) - n).toNat = t - n by omega]

/-! ## C40 -/

/-- C40.  A name that the node declares denotes its variable, read in the past if need be. -/
theorem C40_local {y : String} {v : View} (hy : y ∈ v.shadow) (c : ExprCtx) :
    (Src.var y).translate v c = .ok (.var y v.depth, c) ∧
      ∀ t, den A glob ms F 0 (.var y v.depth) t =
        .ok (.leaf (if t < v.depth then .nil else F.X y (t - v.depth))) := by
  refine ⟨?_, fun t => rfl⟩
  rw [Src.translate, if_pos hy]
  rfl

/-- C40.  A name that it does not declare denotes the constant of the program, at all instants and
under any number of `pre`, whatever the values of variables. -/
theorem C40_global {y : String} {v : View} (hy : y ∉ v.shadow) (c : ExprCtx) :
    (Src.var y).translate v c = .ok (.global y, c) ∧
      ∀ a, glob y = some a → ∀ t, den A glob ms F 0 (.global y) t = .ok (.leaf (.defined a)) := by
  refine ⟨?_, fun a ha t => ?_⟩
  · rw [Src.translate, if_neg hy]
    rfl
  · simp only [den, ha]

/-- C40.  In a node, the names that denote variables are those of its inputs, outputs and
locals. -/
theorem C40_scope (b : Bool) (n : SrcNode) (y : String) :
    y ∈ (n.view b).shadow ↔
      (∃ a ∈ n.inputs ++ n.outputs ++ n.locals, y ∈ a.ids) := by
  simp only [SrcNode.view, List.map_append, args_names, argNames, List.mem_append, List.mem_flatMap]
  constructor
  · rintro ((⟨a, h1, h2⟩ | ⟨a, h1, h2⟩) | ⟨a, h1, h2⟩)
    · exact ⟨a, .inl (.inl h1), h2⟩
    · exact ⟨a, .inl (.inr h1), h2⟩
    · exact ⟨a, .inr h1, h2⟩
  · rintro ⟨a, (h1 | h1) | h1, h2⟩
    · exact .inl (.inl ⟨a, h1, h2⟩)
    · exact .inl (.inr ⟨a, h1, h2⟩)
    · exact .inr ⟨a, h1, h2⟩

end

/-! ## C31 -/

/-- C31.  A chain of left associative operators is translated from left to right, and nested on
the left. -/
theorem C31_left {e : Src} {rest : List (LOp × Src)} {v : View} {c c' : ExprCtx} {x : Expr} :
    (Src.left e rest).translate v c = .ok (x, c') ↔
      ∃ y c₁ ys, e.translate v c = .ok (y, c₁) ∧
        Src.translateList v (rest.map (·.2)) c₁ = .ok (ys, c') ∧
        x = leftNested y ((rest.map (·.1)).zip ys) := by
  have key : ∀ (rest : List (LOp × Src)) (y : Expr) (c₁ : ExprCtx),
      Src.translateLeft v y rest c₁ = .ok (x, c') ↔
        ∃ ys, Src.translateList v (rest.map (·.2)) c₁ = .ok (ys, c') ∧
          x = leftNested y ((rest.map (·.1)).zip ys) := by
    intro rest
    induction rest with
    | nil =>
      intro y c₁
      simp only [Src.translateLeft, List.map_nil, Src.translateList, tr_pure_ok, Prod.mk.injEq,
        List.zip_nil_left, leftNested]
      constructor
      · rintro ⟨rfl, rfl⟩
        exact ⟨[], ⟨rfl, rfl⟩, rfl⟩
      · rintro ⟨_, ⟨_, h⟩, h'⟩
        exact ⟨h'.symm, h⟩
    | cons p rest ih =>
      obtain ⟨op, e⟩ := p
      intro y c₁
      simp only [Src.translateLeft, List.map_cons, Src.translateList, tr_bind_ok, tr_pure_ok, ih]
      constructor
      · rintro ⟨a, c₂, h1, ys, h2, h3⟩
        exact ⟨a :: ys, ⟨a, c₂, h1, ys, c', h2, rfl⟩, h3⟩
      · rintro ⟨ys, ⟨a, c₂, h1, ys', c₃, h2, h3⟩, h4⟩
        cases h3
        exact ⟨a, c₂, h1, ys', h2, h4⟩
  rw [Src.translate]
  simp only [tr_bind_ok, key]
  constructor
  · rintro ⟨y, c₁, h1, ys, h2, h3⟩
    exact ⟨y, c₁, ys, h1, h2, h3⟩
  · rintro ⟨y, c₁, ys, h1, h2, h3⟩
    exact ⟨y, c₁, h1, ys, h2, h3⟩

theorem then_nested {v : View} : ∀ {es : List Src} {i : Nat} {c c' : ExprCtx} {o : Option Expr},
    Src.translateThen v i es c = .ok (o, c') →
    (es = [] ∧ o = none) ∨ ∃ x, o = some x ∧ RightNested (fun _ => v) (fun i x y z =>
      if v.useRegisters then ∃ id, z = .flip id x y else z = .later (v.depth + i) x y) i es x
  | [], i, c, c', o, h => by
    unfold Src.translateThen at h
    cases tr_pure_ok.1 h
    exact .inl ⟨rfl, rfl⟩
  | e :: es, i, c, c', o, h => by
    unfold Src.translateThen at h
    obtain ⟨acc, c₁, h1, h⟩ := tr_bind_ok.1 h
    obtain ⟨before, c₂, h2, h⟩ := tr_bind_ok.1 h
    right
    rcases then_nested h1 with ⟨rfl, rfl⟩ | ⟨y, rfl, hy⟩
    · cases tr_pure_ok.1 h
      exact ⟨_, rfl, .last h2⟩
    · obtain ⟨z, c₃, h3, h⟩ := tr_bind_ok.1 h
      cases tr_pure_ok.1 h
      refine ⟨z, rfl, ?_⟩
      cases es with
      | nil => cases hy
      | cons e' es =>
        refine .step h2 hy ?_
        unfold mkThen at h3
        split at h3
        · rename_i hu
          rw [if_pos hu]
          cases h3
          exact ⟨_, rfl⟩
        · rename_i hu
          rw [if_neg hu]
          cases h3
          rfl

theorem fby_nested {v : View} : ∀ {es : List Src} {i : Nat} {c c' : ExprCtx} {o : Option Expr},
    Src.translateFby v i es c = .ok (o, c') →
    (es = [] ∧ o = none) ∨ ∃ x, o = some x ∧
      RightNested (fun i => if v.useRegisters then v else v.bump i) (fun i x y z =>
        if v.useRegisters then ∃ id, z = .fetchFby id x y else z = .later (v.depth + i) x y) i es x
  | [], i, c, c', o, h => by
    unfold Src.translateFby at h
    cases tr_pure_ok.1 h
    exact .inl ⟨rfl, rfl⟩
  | e :: es, i, c, c', o, h => by
    unfold Src.translateFby at h
    obtain ⟨acc, c₁, h1, h⟩ := tr_bind_ok.1 h
    obtain ⟨before, c₂, h2, h⟩ := tr_bind_ok.1 h
    right
    rcases fby_nested h1 with ⟨rfl, rfl⟩ | ⟨y, rfl, hy⟩
    · cases tr_pure_ok.1 h
      exact ⟨_, rfl, .last h2⟩
    · obtain ⟨z, c₃, h3, h⟩ := tr_bind_ok.1 h
      cases tr_pure_ok.1 h
      refine ⟨z, rfl, ?_⟩
      cases es with
      | nil => cases hy
      | cons e' es =>
        refine .step h2 hy ?_
        unfold mkFby at h3
        split at h3
        · rename_i hu
          rw [if_pos hu]
          cases h3
          exact ⟨_, rfl⟩
        · rename_i hu
          rw [if_neg hu]
          cases h3
          rfl

/-- C31.  A chain of `->` is nested on the right. -/
theorem C31_arrow {e : Src} {es : List Src} {v : View} {c c' : ExprCtx} {x : Expr}
    (h : (Src.arrow e es).translate v c = .ok (x, c')) :
    RightNested (fun _ => v) (fun i x y z =>
      if v.useRegisters then ∃ id, z = .flip id x y else z = .later (v.depth + i) x y)
      0 (e :: es) x := by
  have h' : Src.translateThen v 0 (e :: es) c = .ok (some x, c') := by
    unfold Src.translate at h
    unfold Src.translateThen
    obtain ⟨acc, c₁, h1, h⟩ := tr_bind_ok.1 h
    obtain ⟨before, c₂, h2, h⟩ := tr_bind_ok.1 h
    refine tr_bind_ok.2 ⟨acc, c₁, h1, tr_bind_ok.2 ⟨before, c₂, h2, ?_⟩⟩
    cases acc with
    | none => cases tr_pure_ok.1 h; rfl
    | some after => exact tr_bind_ok.2 ⟨x, c', h, rfl⟩
  rcases then_nested h' with ⟨h, _⟩ | ⟨y, h1, h2⟩
  · cases h
  · cases h1
    exact h2

/-- C31.  A chain of `fby` is nested on the right. -/
theorem C31_fby {e : Src} {es : List Src} {v : View} {c c' : ExprCtx} {x : Expr}
    (h : (Src.fby e es).translate v c = .ok (x, c')) :
    RightNested (fun i => if v.useRegisters then v else v.bump i) (fun i x y z =>
      if v.useRegisters then ∃ id, z = .fetchFby id x y else z = .later (v.depth + i) x y)
      0 (e :: es) x := by
  have h' : Src.translateFby v 0 (e :: es) c = .ok (some x, c') := by
    unfold Src.translate at h
    unfold Src.translateFby
    obtain ⟨acc, c₁, h1, h⟩ := tr_bind_ok.1 h
    obtain ⟨before, c₂, h2, h⟩ := tr_bind_ok.1 h
    refine tr_bind_ok.2 ⟨acc, c₁, h1, tr_bind_ok.2 ⟨before, c₂, h2, ?_⟩⟩
    cases acc with
    | none => cases tr_pure_ok.1 h; rfl
    | some after => exact tr_bind_ok.2 ⟨x, c', h, rfl⟩
  rcases fby_nested h' with ⟨h, _⟩ | ⟨y, h1, h2⟩
  · cases h
  · cases h1
    exact h2

/-- C31.  One comparison is translated to a comparison, its operands in order; two or more are
refused. -/
theorem C31_comparison {e : Src} {rest : List (CmpOp × Src)} {v : View} {c c' : ExprCtx} {x : Expr}
    (h : (Src.cmp e rest).translate v c = .ok (x, c')) :
    (rest = [] ∧ e.translate v c = .ok (x, c')) ∨
    ∃ op e' y y' c₁, rest = [(op, e')] ∧ e.translate v c = .ok (y, c₁) ∧
      e'.translate v c₁ = .ok (y', c') ∧ x = .cmp op y y' := by
  unfold Src.translate at h
  obtain ⟨y, c₁, h1, h⟩ := tr_bind_ok.1 h
  match rest with
  | [] =>
    unfold Src.translateCmp at h
    cases tr_pure_ok.1 h
    exact .inl ⟨rfl, h1⟩
  | [(op, e')] =>
    unfold Src.translateCmp at h
    obtain ⟨y', c₂, h2, h⟩ := tr_bind_ok.1 h
    cases tr_pure_ok.1 h
    exact .inr ⟨op, e', y, y', c₁, rfl, h1, h2, rfl⟩
  | (_, a) :: (_, b) :: rest =>
    unfold Src.translateCmp at h
    obtain ⟨_, _, _, h⟩ := tr_bind_ok.1 h
    obtain ⟨_, _, _, h⟩ := tr_bind_ok.1 h
    exact (tr_throw.1 h).elim

/-! ## C32 -/

/-- C32.  In the translation of a node, in both modes: the registers that the equations read, the
flips and the subnodes that they use are exactly those of the node, each once; and every register
is set up once and fed once, with the expressions that it is read with. -/
theorem C32_slots {b : Bool} {n : SrcNode} {n' : Node} (h : n.translate b = .ok n') :
    (n'.stmts.flatMap placesIn).Perm
      ((List.range n'.registers.length).map .reg ++ (List.range n'.flips).map .flip ++
        (List.range n'.blocks.length).map .sub) ∧
    (initialised n'.stmts).Perm (List.range n'.registers.length) ∧
    (updated n'.stmts).Perm (List.range n'.registers.length) ∧
    ∀ st ∈ n'.stmts, ∀ e ∈ evaluated st,
      (∀ id f, Part (.fetchPre id f) e →
        .updateRegister id f ∈ n'.stmts ∧ .initRegister id none none ∈ n'.stmts) ∧
      ∀ id i f, Part (.fetchFby id i f) e →
        .updateRegister id f ∈ n'.stmts ∧ .initRegister id (some i) none ∈ n'.stmts := by
  obtain ⟨c, hc, rfl⟩ := node_translate h
  obtain ⟨new, hb⟩ := built_stmts hc
  have hs : c.stmts = new := by rw [hb.stmts]; rfl
  have h1 := hb.slots
  have h2 := hb.inits
  have h3 := hb.updates
  simp only [slotsBetween, regsBetween, List.length_nil, Nat.sub_zero,
    ← List.range_eq_range'] at h1 h2 h3
  simp only [List.length_replicate, hs]
  refine ⟨by simpa using h1, h2, h3, fun st hst e he => ⟨fun id f hp => ?_, fun id i f hp => ?_⟩⟩
  · exact (hb.parts e (List.mem_flatMap.2 ⟨st, hst, he⟩) _ (mem_parts_of_part hp)).2
  · exact (hb.parts e (List.mem_flatMap.2 ⟨st, hst, he⟩) _ (mem_parts_of_part hp)).2

/-! ## Examples -/

/-- `n = 0 -> i -> pre n + c; c = counter(true); d = 0 fby pre counter(true); assert n < 3;` -/
def exSrc : SrcNode where
  name := "total"
  inputs := [⟨["i"], .int, .implicit⟩]
  outputs := [⟨["n", "d"], .int, .implicit⟩]
  locals := [⟨["c"], .int, .implicit⟩]
  defs := [
    .def_ (.var "n") (.arrow (.lit (.int 0)) [.var "i", .left (.pre (.var "n")) [(.add, .var "c")]]),
    .def_ (.var "c") (.call "counter" [.lit (.bool true)] false),
    .def_ (.var "d") (.fby (.lit (.int 0)) [.pre (.call "counter" [.lit (.bool true)] false)]),
    .assert (.cmp (.var "n") [(.lt, .lit (.int 3))])]

/-- What it becomes. -/
def exTranslated : Node where
  name := "total"
  inputs := [⟨"i", .int, .implicit, 0⟩]
  outputs := [⟨"n", .int, .implicit, 0⟩, ⟨"d", .int, .implicit, 0⟩]
  locals := [⟨"c", .int, .implicit, 0⟩]
  blocks := [⟨"counter", none⟩, ⟨"counter", none⟩]
  stmts := [
    .let_ (.single "n") (.later 0 (.lit (.int 0)) (.later 1 (.var "i" 0)
      (.bin .add (.dummyPre (.var "n" 1)) (.var "c" 0)))),
    .let_ (.single "c") (.substep 0 0 (.dummyParen (.lit (.bool true)))),
    .let_ (.single "d") (.later 0 (.lit (.int 0)) (.dummyPre (.substep 2 1 (.dummyParen (.lit (.bool true)))))),
    .assert (.cmp .lt (.var "n" 0) (.lit (.int 3)))]
  registers := []
  flips := 0

theorem exSrc_translate : exSrc.translate false = .ok exTranslated := by rfl

/-- The nodes it can call. -/
def exNodes : String → Option Machine := fun f =>
  if f = "counter" then some (exCounter.machine exArith (fun _ => none) []) else none

theorem exLinked : Linked (exSubs ++ exSubs) exNodes exTranslated.blocks := by
  intro i b h
  match i, h with
  | 0, h => cases h; rfl
  | 1, h => cases h; rfl

/-- Some streams. -/
def exX : String → Nat → Nillable Scalar := fun x t =>
  if x = "d" ∧ t = 1 then .nil else .defined (.int (
    if x = "i" then 1 else if x = "c" then Int64.ofNat t
    else if x = "n" then (if t = 0 then 0 else if t = 1 then 1 else 3) else 0))

/-- The world of the node. -/
def exWorld : World := ⟨exArith, SrcNode.vars exSrc, exX, fun _ => none, exNodes⟩

/-- Non-vacuity of C16 and C17: the definition of `n` has a value in Lustre at all instants. -/
example : ((List.range 3).map (lustre exWorld
      (.arrow (.lit (.int 0)) [.var "i", .left (.pre (.var "n")) [(.add, .var "c")]])) =
    [some (exInt 0), some (exInt 1), some (exInt 3)]) ∧
    (List.range 3).map (den exArith (fun _ => none) (exSubs ++ exSubs) ⟨exX, default, fun _ => .leaf ()⟩ 0
      (.later 0 (.lit (.int 0)) (.later 1 (.var "i" 0) (.bin .add (.dummyPre (.var "n" 1)) (.var "c" 0))))) =
    [.ok (exInt 0), .ok (exInt 1), .ok (exInt 3)] := ⟨rfl, rfl⟩

/-- Non-vacuity of C16: a solution of the source at two instants. -/
theorem exSrc_solution : SrcSolution exWorld exSrc [exInt 1, exInt 1] := by
  refine ⟨fun t i h _ => ?_, fun t ht st h => ?_⟩
  · match t, h with
    | 0, h => cases h; rfl
    | 1, h => cases h; rfl
  · simp only [List.length_cons, List.length_nil] at ht
    simp only [exSrc, List.mem_cons, List.not_mem_nil, or_false] at h
    have ht : t = 0 ∨ t = 1 := by omega
    rcases ht with rfl | rfl <;> rcases h with rfl | rfl | rfl | rfl
    · exact ⟨exInt 0, rfl, rfl⟩
    · exact ⟨exInt 0, rfl, rfl⟩
    · exact ⟨exInt 0, rfl, rfl⟩
    · rfl
    · exact ⟨exInt 1, rfl, rfl⟩
    · exact ⟨exInt 1, rfl, rfl⟩
    · exact ⟨.leaf .nil, rfl, rfl⟩
    · rfl

/-- And of the compiled node. -/
example : Solution exArith (fun _ => none) (exSubs ++ exSubs) ⟨exX, default, fun _ => .leaf ()⟩
    exTranslated [exInt 1, exInt 1] :=
  (C16_node exSrc_translate exLinked _).2 exSrc_solution

/-- Non-vacuity of C17: `0 -> i -> 7` and `0 -> (i -> 7)` at instants 0, 1 and 2. -/
example : (List.range 3).map (fun t : Nat => ref exWorld
      (.arrow (.lit (.int 0)) [.var "i", .lit (.int 7)]) t) =
      [some (exInt 0), some (exInt 1), some (exInt 7)] ∧
    (List.range 3).map (fun t : Nat => ref exWorld
      (nestedArrows (.lit (.int 0)) [.var "i", .lit (.int 7)]) t) =
      [some (exInt 0), some (exInt 7), some (exInt 7)] := ⟨rfl, rfl⟩

/-- Non-vacuity of C19: `pre pre counter(true)`. -/
example : ∃ x c', (pres 2 (.call "counter" [.lit (.bool true)] false)).translate
      (exSrc.view false) {} = .ok (x, c') ∧ Linked exSubs exNodes c'.blocks ∧
    (List.range 4).map (den exArith (fun _ => none) exSubs ⟨exX, default, fun _ => .leaf ()⟩ 0 x) =
      [.ok (.leaf .nil), .ok (.leaf .nil), .ok (exInt 0), .ok (exInt 1)] := by
  refine ⟨_, _, rfl, ?_, rfl⟩
  intro i b h
  match i, h with
  | 0, h => cases h; rfl

/-- Non-vacuity of C32: `0 fby (pre i + counter(true) -> 1)` with registers. -/
example : ∃ n', ({ exSrc with defs := [.def_ (.var "n") (.fby (.lit (.int 0)) [.paren [.arrow
      (.left (.pre (.var "i")) [(.add, .call "counter" [.lit (.bool true)] false)])
      [.lit (.int 1)]] false])] }).translate true = .ok n' ∧
    n'.registers.length = 2 ∧ n'.flips = 1 ∧ n'.blocks.length = 1 := by
  refine ⟨_, rfl, rfl, rfl, rfl⟩

/-- Non-vacuity of C31: `n < i < 3` is refused. -/
example : (Src.cmp (.var "n") [(.lt, .var "i"), (.lt, .lit (.int 3))]).translate
    (exSrc.view false) {} = .error .cmpNotAssociative := rfl

end Chandeliers.Props
