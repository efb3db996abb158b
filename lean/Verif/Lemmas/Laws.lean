import Verif.Spec.Laws
import Verif.Lemmas.Unfold
import Verif.Lemmas.Rewrite
import Verif.Props.Refactor

/-!
# Laws of the language: values, and legality
-/

set_option autoImplicit false

namespace Chandeliers.Eqn
open Chandeliers.San Chandeliers.Spec Chandeliers.Syn Chandeliers.Spec.Static Chandeliers.Err
  Chandeliers.Props Chandeliers.Rep Chandeliers.Uni

/-! ## Values -/

section
variable {W : World}

theorem ref_fby_one (a b : Src) (t : Int) : ref W (.fby a [b]) t = (do
    let v ← ref W b (t - 1)
    if t > 0 then some v else ref W a t) := by
  rw [ref, refFby, refFby]
  dsimp only [Option.bind_eq_bind, Option.bind_some]
  simp only [ne_eq, not_true_eq_false, false_and, if_false, Int.natCast_one]
  cases ref W b (t - 1) with
  | none => rfl
  | some v =>
    dsimp only [Option.bind_some, Option.pure_def]
    simp

theorem ref_arrow_one (a b : Src) (t : Int) : ref W (.arrow a [b]) t = (do
    let v ← ref W b t
    if t > 0 then some v else ref W a t) := by
  rw [ref, refThen, refThen]
  dsimp only [Option.bind_eq_bind, Option.bind_some]
  simp only [ne_eq, not_true_eq_false, false_and, if_false, Int.natCast_one]
  cases ref W b t with
  | none => rfl
  | some v =>
    dsimp only [Option.bind_some, Option.pure_def]
    simp

theorem refFby_shift (j : Nat) : ∀ (r : List Src) (i : Nat) (t : Int),
    refFby W (i + j) r t = refFby W i r (t - j)
  | [], i, t => by rw [refFby, refFby]
  | e :: r, i, t => by
    rw [refFby, refFby, show i + j + 1 = i + 1 + j by omega, refFby_shift j r (i + 1) t]
    have e1 : t - ((i + j : Nat) : Int) = t - j - i := by omega
    have e2 : (t > ((i + j : Nat) : Int)) ↔ (t - j > (i : Int)) := by omega
    rw [e1]
    simp only [e2]

theorem refList_pre : ∀ (es : List Src) (t : Int), refList W (es.map .pre) t = refList W es (t - 1)
  | [], t => by rw [List.map_nil, refList, refList]
  | e :: es, t => by rw [List.map_cons, refList, refList, ref, refList_pre es t]

theorem refLeft_pre : ∀ (r : List (LOp × Src)) (v : Value) (t : Int),
    refLeft W v (r.map fun o => (o.1, .pre o.2)) t = refLeft W v r (t - 1)
  | [], v, t => by rw [List.map_nil, refLeft, refLeft]
  | (o, e) :: r, v, t => by
    rw [List.map_cons, refLeft, refLeft, ref]
    simp only [refLeft_pre r]

theorem refCmp_pre : ∀ (r : List (CmpOp × Src)) (v : Value) (t : Int),
    refCmp W v (r.map fun o => (o.1, .pre o.2)) t = refCmp W v r (t - 1)
  | [], v, t => by rw [List.map_nil, refCmp, refCmp]
  | [(o, e)], v, t => by rw [List.map_cons, List.map_nil, refCmp, refCmp, ref]
  | _ :: _ :: _, v, t => by rw [List.map_cons, List.map_cons, refCmp, refCmp]

theorem refList_arrow : ∀ (as bs : List Src), as.length = bs.length → ∀ t : Int,
    refList W (List.zipWith (fun a b => .arrow a [b]) as bs) t = (do
      let ws ← refList W bs t
      if t > 0 then some ws else refList W as t)
  | [], [], _, t => by
    rw [List.zipWith_nil_left, refList]
    simp
  | a :: as, b :: bs, h, t => by
    rw [List.zipWith_cons_cons, refList, refList, refList, ref_arrow_one,
      refList_arrow as bs (by simpa using h) t]
    cases ref W b t with
    | none => rfl
    | some v =>
      dsimp only [Option.bind_eq_bind, Option.bind_some]
      cases refList W bs t with
      | none =>
        split
        · rfl
        · cases ref W a t <;> rfl
      | some vs =>
        split
        · rfl
        · rfl
  | [], _ :: _, h, _ => by cases h
  | _ :: _, [], h, _ => by cases h

theorem refList_fby : ∀ (as bs : List Src), as.length = bs.length → ∀ t : Int,
    refList W (List.zipWith (fun a b => .fby a [b]) as bs) t = (do
      let ws ← refList W bs (t - 1)
      if t > 0 then some ws else refList W as t)
  | [], [], _, t => by
    rw [List.zipWith_nil_left, refList, refList]
    simp
  | a :: as, b :: bs, h, t => by
    rw [List.zipWith_cons_cons, refList, refList, refList, ref_fby_one,
      refList_fby as bs (by simpa using h) t]
    cases ref W b (t - 1) with
    | none => rfl
    | some v =>
      dsimp only [Option.bind_eq_bind, Option.bind_some]
      cases refList W bs (t - 1) with
      | none =>
        split
        · rfl
        · cases ref W a t <;> rfl
      | some vs =>
        split
        · rfl
        · rfl
  | [], _ :: _, h, _ => by cases h
  | _ :: _, [], h, _ => by cases h

end

section
variable {universal : Bool} {A : Arith} {vars : List String} {clocks : String → Clock}

theorem same_symm {e e' : Src} (h : SameValue universal A vars clocks e e') :
    SameValue universal A vars clocks e' e where
  default hu S g N t := (h.default hu S g N t).symm
  universal hu S g N t := by
    obtain ⟨h1, h2, h3⟩ := h.universal hu S g N t
    exact ⟨h1.symm, h2.symm, h3.symm⟩

theorem default_only {e e' : Src}
    (h : ∀ S g N t, ref ⟨A, vars, S, g, N⟩ e t = ref ⟨A, vars, S, g, N⟩ e' t) :
    SameValue false A vars clocks e e' where
  default _ := h
  universal hu := by cases hu

theorem equation_same {e e' : Src} (h : Equation vars universal e e') :
    SameValue universal A vars clocks e e' := by
  cases h with
  | paren => exact same_symm (wraps_equal (late := false) rfl)
  | left =>
    refine ⟨fun _ S g N t => ?_, fun _ S g N t => ⟨?_, ?_, ?_⟩⟩
    · rw [ref]
      simp only [refLeft]
      exact Option.bind_fun_some _
    · rw [uni]
      simp only [uniLeft]
      exact Option.bind_fun_some _
    · rw [uniOn, uniOnLeft]
    · rw [uniShape, shapeLeft]
  | cmp =>
    refine ⟨fun _ S g N t => ?_, fun _ S g N t => ⟨?_, ?_, ?_⟩⟩
    · rw [ref]
      simp only [refCmp]
      exact Option.bind_fun_some _
    · rw [uni]
      simp only [uniCmp]
      exact Option.bind_fun_some _
    · rw [uniOn, uniOnCmp, both_true]
    · rw [uniShape]; rfl
  | fby =>
    refine ⟨fun _ S g N t => ?_, fun _ S g N t => ⟨?_, ?_, ?_⟩⟩
    · rw [ref, refFby]; simp
    · rw [uni]; rfl
    · rw [uniOn]
    · rw [uniShape]
  | arrow =>
    refine ⟨fun _ S g N t => ?_, fun _ S g N t => ⟨?_, ?_, ?_⟩⟩
    · rw [ref, refThen]; simp
    · rw [uni]; rfl
    · rw [uniOn]
    · rw [uniShape]
  | @leftAssoc u e r r' =>
    refine ⟨fun _ S g N t => ?_, fun _ S g N t => ⟨?_, ?_, ?_⟩⟩
    · rw [ref, ref, ref]
      simp only [refLeft_append]
      cases ref ⟨A, vars, S, g, N⟩ e t <;> rfl
    · rw [uni, uni, uni]
      simp only [uniLeft_append]
      cases uni ⟨A, vars, S, g, N⟩ clocks e t <;> rfl
    · rw [uniOn, uniOn, uniOn, uniOnLeft_append]
    · rw [uniShape, uniShape, uniShape, shapeLeft_append]
  | @fbyAssoc u a b r =>
    refine ⟨fun _ S g N t => ?_, fun _ S g N t => ⟨?_, ?_, ?_⟩⟩
    · rw [ref_fby_one, ref, ref, refFby, refFby_shift 1 r 1 t]
      simp only [Int.natCast_one]
      cases refFby ⟨A, vars, S, g, N⟩ 1 r (t - 1) with
      | none => rfl
      | some l =>
        dsimp only [Option.bind_eq_bind, Option.bind_some, Option.pure_def]
        by_cases hl : l = []
        · subst hl
          simp only [ne_eq, not_true_eq_false, false_and, if_false]
          cases ref ⟨A, vars, S, g, N⟩ b (t - 1) with
          | none => rfl
          | some v => simp
        · simp only [ne_eq, hl, not_false_eq_true, true_and]
          obtain ⟨v, l, rfl⟩ := List.exists_cons_of_ne_nil hl
          by_cases ht : t > 1
          · have h2 : t > 0 := by omega
            simp [ht, h2]
          · have h1 : ¬ t - 1 > 0 := by omega
            simp only [ht, h1, if_false]
            cases ref ⟨A, vars, S, g, N⟩ b (t - 1) with
            | none => rfl
            | some v => simp
    · have : uniFby ⟨A, vars, S, g, N⟩ clocks (b :: r) = uniFby ⟨A, vars, S, g, N⟩ clocks [.fby b r] := by
        funext t
        rw [uniFby, uniFby, uni]
        rfl
      rw [uni, uni, this]
      rfl
    · rw [uniOn, uniOn]
    · rw [uniShape, uniShape]
  | @arrowAssoc a b r =>
    refine ⟨fun hu => (by cases hu), fun _ S g N t => ⟨?_, ?_, ?_⟩⟩
    · have : uniArrow ⟨A, vars, S, g, N⟩ clocks (b :: r) = uniArrow ⟨A, vars, S, g, N⟩ clocks [.arrow b r] := by
        funext t
        rw [uniArrow, uniArrow, uni]
        rfl
      rw [uni, uni, this]
      rfl
    · rw [uniOn, uniOn]
    · rw [uniShape, uniShape]
  | preLit => exact default_only fun S g N t => by rw [ref, ref, ref]
  | preTuple => exact default_only fun S g N t => by rw [ref, ref, ref, refList_pre]
  | preLeft h => exact default_only fun S g N t => by rw [ref, ref, ref, ref]; simp only [refLeft_pre]
  | preCmp => exact default_only fun S g N t => by rw [ref, ref, ref, ref]; simp only [refCmp_pre]
  | preIf => exact default_only fun S g N t => by rw [ref, ref, ref, ref, ref, ref]
  | preNeg => exact default_only fun S g N t => by rw [ref, ref, ref, ref]
  | preNot => exact default_only fun S g N t => by rw [ref, ref, ref, ref]

theorem law_same {e e' : Src} (h : Law vars universal e e') :
    SameValue universal A vars clocks e e' := by
  cases h with
  | equation h => exact equation_same h
  | reverse h => exact same_symm (equation_same h)
  | arrowPre => exact default_only fun S g N t => by rw [ref_arrow_one, ref_fby_one, ref]
  | constPre h => exact default_only fun S g N t => by rw [ref, ref, ref, if_neg h, if_neg h]
  | arrowSelf =>
    refine default_only fun S g N t => ?_
    rw [ref_arrow_one]
    cases h : ref ⟨A, vars, S, g, N⟩ e' t with
    | none => rfl
    | some v => simp
  | arrowTuple h =>
    refine default_only fun S g N t => ?_
    rw [ref_arrow_one, ref, ref, ref, refList_arrow _ _ h]
    cases refList ⟨A, vars, S, g, N⟩ _ t with
    | none => rfl
    | some v =>
      dsimp only [Option.bind_eq_bind, Option.bind_some, Option.pure_def]
      split <;> rfl
  | fbyTuple h =>
    refine default_only fun S g N t => ?_
    rw [ref_fby_one, ref, ref, ref, refList_fby _ _ h]
    cases refList ⟨A, vars, S, g, N⟩ _ (t - 1) with
    | none => rfl
    | some v =>
      dsimp only [Option.bind_eq_bind, Option.bind_some, Option.pure_def]
      split <;> rfl

end

/-! ## Types -/

section
variable {S : Scope}

theorem leftTy_append : ∀ (r r' : List (LOp × Src)) (u t : TyTuple),
    LeftTy S u (r ++ r') t ↔ ∃ w, LeftTy S u r w ∧ LeftTy S w r' t
  | [], r', u, t => by
    rw [List.nil_append]
    constructor
    · intro h; exact ⟨u, by rw [LeftTy], h⟩
    · rintro ⟨w, h1, h2⟩; rw [LeftTy] at h1; subst h1; exact h2
  | (o, e) :: r, r', u, t => by
    rw [List.cons_append, LeftTy]
    simp only [leftTy_append r r']
    constructor
    · rintro ⟨w, x, h1, h2, y, h3, h4⟩
      exact ⟨y, by rw [LeftTy]; exact ⟨w, x, h1, h2, h3⟩, h4⟩
    · rintro ⟨y, h, h4⟩
      rw [LeftTy] at h
      obtain ⟨w, x, h1, h2, h3⟩ := h
      exact ⟨w, x, h1, h2, y, h3, h4⟩

theorem hasTys_pre : ∀ (es : List Src) (ts : List TyTuple),
    HasTys S (es.map .pre) ts ↔ HasTys S es ts
  | [], ts => by rw [List.map_nil]
  | e :: es, ts => by
    rw [List.map_cons, HasTys, HasTys]
    simp only [hasTys_pre es, HasTy]

theorem leftTy_pre : ∀ (r : List (LOp × Src)) (u t : TyTuple),
    LeftTy S u (r.map fun o => (o.1, .pre o.2)) t ↔ LeftTy S u r t
  | [], u, t => by rw [List.map_nil]
  | (o, e) :: r, u, t => by
    rw [List.map_cons, LeftTy, LeftTy]
    simp only [leftTy_pre r, HasTy]

theorem cmpTy_pre : ∀ (r : List (CmpOp × Src)) (u t : TyTuple),
    CmpTy S u (r.map fun o => (o.1, .pre o.2)) t ↔ CmpTy S u r t
  | [], u, t => by rw [List.map_nil]
  | (o, e) :: r, u, t => by
    rw [List.map_cons, CmpTy, CmpTy]
    simp only [List.map_eq_nil_iff, HasTy]

theorem equation_ty {vars : List String} {u : Bool} {e e' : Src} (h : Equation vars u e e')
    (t : TyTuple) : HasTy S e t ↔ HasTy S e' t := by
  cases h with
  | paren =>
    rw [HasTy]
    constructor
    · rintro ⟨ts, h1, rfl⟩
      rw [HasTys] at h1
      obtain ⟨t, us, rfl, h1, h2⟩ := h1
      rw [HasTys] at h2
      subst h2
      exact h1
    · exact fun h => ⟨[t], by rw [HasTys]; exact ⟨t, [], rfl, h, by rw [HasTys]⟩, rfl⟩
  | left => rw [HasTy]; simp only [LeftTy]; exact ⟨fun ⟨_, h, e⟩ => e ▸ h, fun h => ⟨t, h, rfl⟩⟩
  | cmp => rw [HasTy]; simp only [CmpTy]; exact ⟨fun ⟨_, h, e⟩ => e ▸ h, fun h => ⟨t, h, rfl⟩⟩
  | fby => rw [HasTy, AllTy, and_true]
  | arrow => rw [HasTy, AllTy, and_true]
  | leftAssoc =>
    rw [HasTy, HasTy]
    simp only [leftTy_append, HasTy]
    exact ⟨fun ⟨u, h1, w, h2, h3⟩ => ⟨w, ⟨u, h1, h2⟩, h3⟩, fun ⟨w, ⟨u, h1, h2⟩, h3⟩ => ⟨u, h1, w, h2, h3⟩⟩
  | fbyAssoc => simp only [HasTy, AllTy, and_true]
  | arrowAssoc => simp only [HasTy, AllTy, and_true]
  | preLit => simp only [HasTy]
  | preTuple => rw [HasTy, HasTy, HasTy]; simp only [hasTys_pre]
  | preLeft => rw [HasTy, HasTy, HasTy]; simp only [leftTy_pre, HasTy]
  | preCmp => rw [HasTy, HasTy, HasTy]; simp only [cmpTy_pre, HasTy]
  | preIf => simp only [HasTy]
  | preNeg => simp only [HasTy]
  | preNot => simp only [HasTy]

theorem hasTys_length : ∀ {es : List Src} {ts : List TyTuple}, HasTys S es ts → ts.length = es.length
  | [], ts, h => by rw [HasTys] at h; rw [h]; rfl
  | e :: es, ts, h => by
    rw [HasTys] at h
    obtain ⟨t, us, rfl, -, h⟩ := h
    simp [hasTys_length h]

theorem group_inj {ts us : List TyTuple} {tr : Bool} (hl : ts.length = us.length)
    (h : group ts tr = group us tr) : ts = us := by
  match ts, us, tr with
  | [], [], _ => rfl
  | [t], [u], false => simp only [group] at h; rw [h]
  | [t], [u], true => simpa [group] using h
  | t :: t' :: ts, u :: u' :: us, tr => cases tr <;> simpa [group] using h

theorem hasTys_zip {c : Src → Src → Src} (hc : ∀ a b t, HasTy S a t → HasTy S b t → HasTy S (c a b) t) :
    ∀ {as bs : List Src} {ts : List TyTuple}, as.length = bs.length → HasTys S as ts →
      HasTys S bs ts → HasTys S (List.zipWith c as bs) ts
  | [], [], ts, _, h, _ => h
  | a :: as, b :: bs, ts, hl, h, h' => by
    rw [HasTys] at h h'
    obtain ⟨t, us, rfl, h1, h2⟩ := h
    obtain ⟨_, _, e, h3, h4⟩ := h'
    cases e
    rw [List.zipWith_cons_cons, HasTys]
    exact ⟨t, us, rfl, hc _ _ _ h1 h3, hasTys_zip hc (by simpa using hl) h2 h4⟩

theorem law_ty {vars : List String} {u : Bool} {e e' : Src} (h : Law vars u e e')
    {t : TyTuple} (ht : HasTy S e t) : HasTy S e' t := by
  have tuple : ∀ {c : Src → Src → Src} {as bs : List Src} {tr : Bool},
      (∀ a b t, HasTy S a t → HasTy S b t → HasTy S (c a b) t) → as.length = bs.length →
      HasTy S (.paren as tr) t → HasTy S (.paren bs tr) t →
      HasTy S (.paren (List.zipWith c as bs) tr) t := by
    intro c as bs tr hc hl h1 h2
    rw [HasTy] at h1 h2 ⊢
    obtain ⟨ts, k1, rfl⟩ := h1
    obtain ⟨us, k2, k3⟩ := h2
    have := group_inj (by rw [hasTys_length k1, hasTys_length k2, hl]) k3
    subst this
    exact ⟨ts, hasTys_zip hc hl k1 k2, rfl⟩
  cases h with
  | equation h => exact (equation_ty h t).1 ht
  | reverse h => exact (equation_ty h t).2 ht
  | arrowPre => simpa only [HasTy, AllTy] using ht
  | constPre => rw [HasTy]; exact ht
  | arrowSelf => rw [HasTy] at ht; exact ht.1
  | arrowTuple h =>
    rw [HasTy, AllTy, AllTy] at ht
    exact tuple (fun a b t h1 h2 => by rw [HasTy, AllTy, AllTy]; exact ⟨h1, h2, trivial⟩) h ht.1 ht.2.1
  | fbyTuple h =>
    rw [HasTy, AllTy, AllTy] at ht
    exact tuple (fun a b t h1 h2 => by rw [HasTy, AllTy, AllTy]; exact ⟨h1, h2, trivial⟩) h ht.1 ht.2.1

/-! ## Clocks -/

theorem leftClk_append : ∀ (r r' : List (LOp × Src)) (k₀ k : Clk),
    LeftClk S k₀ (r ++ r') k ↔ ∃ w, LeftClk S k₀ r w ∧ LeftClk S w r' k
  | [], r', u, t => by
    rw [List.nil_append]
    constructor
    · intro h; exact ⟨u, by rw [LeftClk], h⟩
    · rintro ⟨w, h1, h2⟩; rw [LeftClk] at h1; subst h1; exact h2
  | (o, e) :: r, r', u, t => by
    rw [List.cons_append, LeftClk]
    simp only [LeftClk.eq_def S u ((o, e) :: r)]
    cases guard o with
    | none =>
      simp only [leftClk_append r r']
      exact ⟨fun ⟨k, h1, h2, w, h3, h4⟩ => ⟨w, ⟨k, h1, h2, h3⟩, h4⟩,
        fun ⟨w, ⟨k, h1, h2, h3⟩, h4⟩ => ⟨k, h1, h2, w, h3, h4⟩⟩
    | some g =>
      simp only [leftClk_append r r']
      exact ⟨fun ⟨k, h1, h2, w, h3, h4⟩ => ⟨w, ⟨k, h1, h2, h3⟩, h4⟩,
        fun ⟨w, ⟨k, h1, h2, h3⟩, h4⟩ => ⟨k, h1, h2, w, h3, h4⟩⟩

theorem always_meet {k l : Clk} (hc : Compatible k l) :
    Always (Clk.meet k l) ↔ Always k ∧ Always l := by
  unfold Compatible at hc
  rcases hc with rfl | rfl | rfl
  · cases l <;> simp [Clk.meet, Always]
  · cases k <;> simp [Clk.meet, Always]
  · cases k <;> simp [Clk.meet, Always]

theorem same_always {k l : Clk} (h : SameClk k l) : Always k ↔ Always l := by
  rcases h with rfl | ⟨h1, h2⟩
  · rfl
  · exact ⟨fun _ => h2, fun _ => h1⟩

theorem guard_pointwise {o : LOp} (h : Pointwise o) : guard o = none := by
  obtain ⟨h1, h2⟩ := h
  cases o <;> first | rfl | contradiction

theorem leftClk_pre (hS : S.universalPre = false) : ∀ (r : List (LOp × Src)), (∀ o ∈ r, Pointwise o.1) →
    ∀ k₀ k : Clk, (Always k₀ ∧ LeftClk S k₀ (r.map fun o => (o.1, .pre o.2)) k) ↔
      (LeftClk S k₀ r k ∧ Always k)
  | [], _, k₀, k => by
    rw [List.map_nil, LeftClk]
    exact ⟨fun ⟨h, e⟩ => ⟨e, e ▸ h⟩, fun ⟨e, h⟩ => ⟨e ▸ h, e⟩⟩
  | (o, e) :: r, hp, k₀, k => by
    have ih := leftClk_pre hS r fun o ho => hp o (List.mem_cons_of_mem _ ho)
    have hg := guard_pointwise (hp _ (List.mem_cons_self ..))
    dsimp only at hg
    rw [List.map_cons, LeftClk, LeftClk]
    simp only [hg, HasClk, hS, forall_const]
    constructor
    · rintro ⟨h0, k₁, ⟨h1, h2⟩, h3, h4⟩
      obtain ⟨h5, h6⟩ := (ih _ _).1 ⟨(always_meet h3).2 ⟨h0, h2⟩, h4⟩
      exact ⟨⟨k₁, h1, h3, h5⟩, h6⟩
    · rintro ⟨⟨k₁, h1, h3, h5⟩, h6⟩
      obtain ⟨h7, h8⟩ := (ih _ _).2 ⟨h5, h6⟩
      obtain ⟨h9, h10⟩ := (always_meet h3).1 h7
      exact ⟨h9, k₁, ⟨h1, h10⟩, h3, h8⟩

theorem cmpClk_pre (hS : S.universalPre = false) : ∀ (r : List (CmpOp × Src)) (k₀ k : Clk),
    (Always k₀ ∧ CmpClk S k₀ (r.map fun o => (o.1, .pre o.2)) k) ↔ (CmpClk S k₀ r k ∧ Always k)
  | [], k₀, k => by
    rw [List.map_nil, CmpClk]
    exact ⟨fun ⟨h, e⟩ => ⟨e, e ▸ h⟩, fun ⟨e, h⟩ => ⟨e ▸ h, e⟩⟩
  | (o, e) :: r, k₀, k => by
    rw [List.map_cons, CmpClk, CmpClk]
    simp only [HasClk, hS, forall_const]
    constructor
    · rintro ⟨h0, k₁, ⟨h1, h2⟩, h3, rfl⟩
      exact ⟨⟨k₁, h1, h3, rfl⟩, (always_meet h3).2 ⟨h0, h2⟩⟩
    · rintro ⟨⟨k₁, h1, h3, rfl⟩, h6⟩
      obtain ⟨h9, h10⟩ := (always_meet h3).1 h6
      exact ⟨h9, k₁, ⟨h1, h10⟩, h3, rfl⟩

theorem sameClks_pre (hS : S.universalPre = false) {k : Clk} (hk : Always k) : ∀ es : List Src,
    SameClks S k (es.map .pre) ↔ SameClks S k es
  | [] => by rw [List.map_nil]
  | e :: es => by
    rw [List.map_cons, SameClks, SameClks, sameClks_pre hS hk es]
    simp only [HasClk, hS, forall_const]
    refine and_congr_left fun _ => exists_congr fun k' => ?_
    exact ⟨fun ⟨h1, h2⟩ => ⟨h1.1, h2⟩, fun ⟨h1, h2⟩ => ⟨⟨h1, (same_always h2).1 hk⟩, h2⟩⟩

theorem equation_clk {vars : List String} {u : Bool} {e e' : Src} (h : Equation vars u e e')
    (hS : S.universalPre = u) (k : Clk) : HasClk S e k ↔ HasClk S e' k := by
  cases h with
  | paren => rw [HasClk, TupleClk, SameClks, and_true]
  | left => rw [HasClk]; simp only [LeftClk]; exact ⟨fun ⟨_, h, e⟩ => e ▸ h, fun h => ⟨k, h, rfl⟩⟩
  | cmp => rw [HasClk]; simp only [CmpClk]; exact ⟨fun ⟨_, h, e⟩ => e ▸ h, fun h => ⟨k, h, rfl⟩⟩
  | fby => rw [HasClk]; simp only [ChainClk]; exact ⟨fun ⟨_, h, e⟩ => e ▸ h, fun h => ⟨k, h, rfl⟩⟩
  | arrow => rw [HasClk]; simp only [ChainClk]; exact ⟨fun ⟨_, h, e⟩ => e ▸ h, fun h => ⟨k, h, rfl⟩⟩
  | leftAssoc =>
    rw [HasClk, HasClk]
    simp only [leftClk_append, HasClk]
    exact ⟨fun ⟨u, h1, w, h2, h3⟩ => ⟨w, ⟨u, h1, h2⟩, h3⟩, fun ⟨w, ⟨u, h1, h2⟩, h3⟩ => ⟨u, h1, w, h2, h3⟩⟩
  | fbyAssoc =>
    simp only [HasClk, ChainClk]
    refine exists_congr fun k₀ => and_congr_right fun _ => ?_
    exact ⟨fun ⟨k₁, k₂, h1, h2, h3⟩ => ⟨k₂, k₂, ⟨k₁, h1, h2⟩, rfl, h3⟩,
      fun ⟨k₁, k₂, ⟨k₃, h1, h2⟩, e, h3⟩ => ⟨k₃, k₂, h1, e ▸ h2, h3⟩⟩
  | arrowAssoc =>
    simp only [HasClk, ChainClk]
    refine exists_congr fun k₀ => and_congr_right fun _ => ?_
    exact ⟨fun ⟨k₁, k₂, h1, h2, h3⟩ => ⟨k₂, k₂, ⟨k₁, h1, h2⟩, rfl, h3⟩,
      fun ⟨k₁, k₂, ⟨k₃, h1, h2⟩, e, h3⟩ => ⟨k₃, k₂, h1, e ▸ h2, h3⟩⟩
  | preLit => simp only [HasClk]; exact ⟨fun h => h.1, fun h => ⟨h, fun _ => h ▸ trivial⟩⟩
  | @preTuple es tr =>
    simp only [HasClk, hS, forall_const]
    cases es with
    | nil => simp only [List.map_nil, TupleClk]; exact ⟨fun h => h.1, fun h => ⟨h, h ▸ trivial⟩⟩
    | cons e es =>
      simp only [List.map_cons, TupleClk, HasClk, hS, forall_const]
      constructor
      · rintro ⟨⟨h1, h2⟩, h3⟩; exact ⟨⟨h1, h3⟩, (sameClks_pre hS h3 es).2 h2⟩
      · rintro ⟨⟨h1, h3⟩, h2⟩; exact ⟨⟨h1, (sameClks_pre hS h3 es).1 h2⟩, h3⟩
  | @preLeft a r h =>
    simp only [HasClk, hS, forall_const]
    constructor
    · rintro ⟨⟨k₀, h1, h2⟩, h3⟩
      obtain ⟨h4, h5⟩ := (leftClk_pre hS r h k₀ k).2 ⟨h2, h3⟩
      exact ⟨k₀, ⟨h1, h4⟩, h5⟩
    · rintro ⟨k₀, ⟨h1, h4⟩, h5⟩
      obtain ⟨h2, h3⟩ := (leftClk_pre hS r h k₀ k).1 ⟨h4, h5⟩
      exact ⟨⟨k₀, h1, h2⟩, h3⟩
  | @preCmp a r =>
    simp only [HasClk, hS, forall_const]
    constructor
    · rintro ⟨⟨k₀, h1, h2⟩, h3⟩
      obtain ⟨h4, h5⟩ := (cmpClk_pre hS r k₀ k).2 ⟨h2, h3⟩
      exact ⟨k₀, ⟨h1, h4⟩, h5⟩
    · rintro ⟨k₀, ⟨h1, h4⟩, h5⟩
      obtain ⟨h2, h3⟩ := (cmpClk_pre hS r k₀ k).1 ⟨h4, h5⟩
      exact ⟨⟨k₀, h1, h2⟩, h3⟩
  | preIf =>
    simp only [HasClk, hS, forall_const]
    constructor
    · rintro ⟨⟨k₁, k₂, k₃, h1, h2, h3, h4, h5, rfl⟩, h6⟩
      obtain ⟨h7, h8⟩ := (always_meet h5).1 h6
      obtain ⟨h9, h10⟩ := (always_meet h4).1 h7
      exact ⟨k₁, k₂, k₃, ⟨h1, h9⟩, ⟨h2, h10⟩, ⟨h3, h8⟩, h4, h5, rfl⟩
    · rintro ⟨k₁, k₂, k₃, ⟨h1, h9⟩, ⟨h2, h10⟩, ⟨h3, h8⟩, h4, h5, rfl⟩
      exact ⟨⟨k₁, k₂, k₃, h1, h2, h3, h4, h5, rfl⟩,
        (always_meet h5).2 ⟨(always_meet h4).2 ⟨h9, h10⟩, h8⟩⟩
  | preNeg => simp only [HasClk]
  | preNot => simp only [HasClk]

theorem sameClks_zip {c : Src → Src → Src} (hc : ∀ a b k k', HasClk S a k → HasClk S b k' → HasClk S (c a b) k)
    {k k' : Clk} : ∀ {as bs : List Src}, as.length = bs.length → SameClks S k as → SameClks S k' bs →
      SameClks S k (List.zipWith c as bs)
  | [], [], _, h, _ => h
  | a :: as, b :: bs, hl, h, h' => by
    rw [SameClks] at h h'
    obtain ⟨⟨k₁, h1, h2⟩, h3⟩ := h
    obtain ⟨⟨k₂, h4, h5⟩, h6⟩ := h'
    rw [List.zipWith_cons_cons, SameClks]
    exact ⟨⟨k₁, hc _ _ _ _ h1 h4, h2⟩, sameClks_zip hc (by simpa using hl) h3 h6⟩

theorem tupleClk_zip {c : Src → Src → Src} (hc : ∀ a b k k', HasClk S a k → HasClk S b k' → HasClk S (c a b) k)
    {k k' : Clk} : ∀ {as bs : List Src}, as.length = bs.length → TupleClk S as k → TupleClk S bs k' →
      TupleClk S (List.zipWith c as bs) k
  | [], [], _, h, _ => h
  | a :: as, b :: bs, hl, h, h' => by
    rw [TupleClk] at h h'
    rw [List.zipWith_cons_cons, TupleClk]
    exact ⟨hc _ _ _ _ h.1 h'.1, sameClks_zip hc (by simpa using hl) h.2 h'.2⟩

theorem law_clk {vars : List String} {u : Bool} {e e' : Src} (h : Law vars u e e')
    (hS : S.universalPre = u) (hv : ∀ x, x ∉ vars → S.var x = none) {k : Clk} (hk : HasClk S e k) :
    HasClk S e' k := by
  cases h with
  | equation h => exact (equation_clk h hS k).1 hk
  | reverse h => exact (equation_clk h hS k).2 hk
  | arrowPre =>
    simp only [HasClk, ChainClk, hS, Bool.false_eq_true, if_false] at hk ⊢
    obtain ⟨k₀, h1, k₁, k₂, h2, h3, rfl⟩ := hk
    exact ⟨_, h1, k₁, k₂, h2.1, h3, rfl⟩
  | constPre h =>
    simp only [HasClk, hv _ h] at hk ⊢
    exact ⟨hk, fun _ => hk ▸ trivial⟩
  | arrowSelf =>
    simp only [HasClk, ChainClk, hS, Bool.false_eq_true, if_false] at hk ⊢
    obtain ⟨k₀, h1, k₁, k₂, h2, h3, rfl⟩ := hk
    exact h1
  | arrowTuple h =>
    simp only [HasClk, ChainClk, hS, Bool.false_eq_true, if_false] at hk ⊢
    obtain ⟨k₀, h1, k₁, k₂, h2, h3, rfl⟩ := hk
    refine tupleClk_zip (fun a b k k' h1 h2 => ?_) h h1 h2
    simp only [HasClk, ChainClk, hS, Bool.false_eq_true, if_false]
    exact ⟨k, h1, k', k', h2, rfl, rfl⟩
  | fbyTuple h =>
    simp only [HasClk, ChainClk, hS, Bool.false_eq_true, if_false] at hk ⊢
    obtain ⟨k₀, h1, k₁, k₂, h2, h3, rfl⟩ := hk
    refine tupleClk_zip (fun a b k k' h1 h2 => ?_) h h1 h2
    simp only [HasClk, ChainClk, hS, Bool.false_eq_true, if_false]
    exact ⟨k, h1, k', k', h2, rfl, rfl⟩

end

/-! ## Initialisation -/

section
variable {S : Scope}

theorem leftReady_append : ∀ (r r' : List (LOp × Src)) (d n : Nat),
    LeftReady S d n (r ++ r') ↔ LeftReady S d n r ∧ LeftReady S d n r'
  | [], r', d, n => by rw [List.nil_append, LeftReady, true_and]
  | (o, e) :: r, r', d, n => by
    rw [List.cons_append, LeftReady, LeftReady, leftReady_append r r', and_assoc]

theorem fbyReady_delay (hS : S.universalPre = false) : ∀ (r : List Src) (d n n' i : Nat),
    FbyReady S d n (i + 1) r ↔ FbyReady S (d + 1) n' i r
  | [], d, n, n', i => by rw [FbyReady, FbyReady]
  | e :: r, d, n, n', i => by
    simp only [FbyReady, hS, Bool.false_eq_true, if_false]
    rw [fbyReady_delay hS r d n n' (i + 1), show d + (i + 1) = d + 1 + i by omega]

theorem fbyReady_any (hS : S.universalPre = true) : ∀ (r : List Src) (d n i j : Nat),
    FbyReady S d n i r ↔ FbyReady S d n j r
  | [], d, n, i, j => by rw [FbyReady, FbyReady]
  | e :: r, d, n, i, j => by
    simp only [FbyReady, hS, if_true]
    rw [fbyReady_any hS r d n (i + 1) (j + 1)]

theorem arrowReady_delay (hS : S.universalPre = true) : ∀ (r : List Src) (d n i : Nat),
    ArrowReady S d n (i + 1) r ↔ ArrowReady S d (n + 1) i r
  | [], d, n, i => by rw [ArrowReady, ArrowReady]
  | e :: r, d, n, i => by
    simp only [ArrowReady, hS, if_true]
    rw [arrowReady_delay hS r d n (i + 1), show n + (i + 1) = n + 1 + i by omega]

theorem allReady_pre (hS : S.universalPre = false) : ∀ (es : List Src) (d n : Nat),
    AllReady S d n (es.map .pre) ↔ AllReady S (d + 1) n es
  | [], d, n => by rw [List.map_nil, AllReady, AllReady]
  | e :: es, d, n => by
    rw [List.map_cons, AllReady, AllReady, allReady_pre hS es, Static.Ready]
    simp only [hS, Bool.false_eq_true, if_false]

theorem leftReady_pre (hS : S.universalPre = false) : ∀ (es : List (LOp × Src)) (d n : Nat),
    LeftReady S d n (es.map fun o => (o.1, .pre o.2)) ↔ LeftReady S (d + 1) n es
  | [], d, n => by rw [List.map_nil, LeftReady, LeftReady]
  | e :: es, d, n => by
    rw [List.map_cons, LeftReady, LeftReady, leftReady_pre hS es, Static.Ready]
    simp only [hS, Bool.false_eq_true, if_false]

theorem cmpReady_pre (hS : S.universalPre = false) : ∀ (es : List (CmpOp × Src)) (d n : Nat),
    CmpReady S d n (es.map fun o => (o.1, .pre o.2)) ↔ CmpReady S (d + 1) n es
  | [], d, n => by rw [List.map_nil, CmpReady, CmpReady]
  | e :: es, d, n => by
    rw [List.map_cons, CmpReady, CmpReady, cmpReady_pre hS es, Static.Ready]
    simp only [hS, Bool.false_eq_true, if_false]

theorem equation_ready {vars : List String} {u : Bool} {e e' : Src} (h : Equation vars u e e')
    (hS : S.universalPre = u) (d n : Nat) : Static.Ready S d n e ↔ Static.Ready S d n e' := by
  cases h with
  | paren => simp only [Static.Ready, AllReady, and_true]
  | left => simp only [Static.Ready, LeftReady, and_true]
  | cmp => simp only [Static.Ready, CmpReady, and_true]
  | fby => simp only [Static.Ready, FbyReady, and_true]
  | arrow => simp only [Static.Ready, ArrowReady, and_true]
  | leftAssoc => rw [Static.Ready, Static.Ready, Static.Ready, leftReady_append, and_assoc]
  | @fbyAssoc _ a b r =>
    cases u with
    | false =>
      simp only [Static.Ready, FbyReady, hS, Bool.false_eq_true, if_false, and_true]
      rw [fbyReady_delay hS r d n (d + 1) 1]
    | true =>
      simp only [Static.Ready, FbyReady, hS, if_true, and_true]
      rw [fbyReady_any hS r d n (1 + 1) 1]
  | @arrowAssoc a b r =>
    simp only [Static.Ready, ArrowReady, hS, if_true, and_true]
    rw [arrowReady_delay hS r d n 1]
  | preLit => simp only [Static.Ready, hS, Bool.false_eq_true, if_false]
  | preTuple => simp only [Static.Ready, hS, Bool.false_eq_true, if_false, allReady_pre hS]
  | preLeft => simp only [Static.Ready, hS, Bool.false_eq_true, if_false, leftReady_pre hS]
  | preCmp => simp only [Static.Ready, hS, Bool.false_eq_true, if_false, cmpReady_pre hS]
  | preIf => simp only [Static.Ready, hS, Bool.false_eq_true, if_false]
  | preNeg => simp only [Static.Ready, hS, Bool.false_eq_true, if_false]
  | preNot => simp only [Static.Ready, hS, Bool.false_eq_true, if_false]

theorem allReady_zip {c : Src → Src → Src} {d n d' n' : Nat}
    (hc : ∀ a b, Static.Ready S d n a → Static.Ready S d' n' b → Static.Ready S d n (c a b)) :
    ∀ {as bs : List Src}, as.length = bs.length → AllReady S d n as → AllReady S d' n' bs →
      AllReady S d n (List.zipWith c as bs)
  | [], [], _, h, _ => h
  | a :: as, b :: bs, hl, h, h' => by
    rw [AllReady] at h h'
    rw [List.zipWith_cons_cons, AllReady]
    exact ⟨hc _ _ h.1 h'.1, allReady_zip hc (by simpa using hl) h.2 h'.2⟩

theorem law_ready {vars : List String} {u : Bool} {e e' : Src} (h : Law vars u e e')
    (hS : S.universalPre = u) (hv : ∀ x, x ∉ vars → S.var x = none) {d n : Nat}
    (hr : Static.Ready S d n e) : Static.Ready S d n e' := by
  cases h with
  | equation h => exact (equation_ready h hS d n).1 hr
  | reverse h => exact (equation_ready h hS d n).2 hr
  | arrowPre => simpa only [Static.Ready, FbyReady, ArrowReady, hS, Bool.false_eq_true, if_false] using hr
  | constPre h =>
    simp only [Static.Ready, hS, Bool.false_eq_true, if_false, hv _ h]
    intro hx
    cases hx
  | arrowSelf => rw [Static.Ready] at hr; exact hr.1
  | arrowTuple h =>
    simp only [Static.Ready, ArrowReady, hS, Bool.false_eq_true, if_false, and_true] at hr ⊢
    refine allReady_zip (fun a b h1 h2 => ?_) h hr.1 hr.2
    simp only [Static.Ready, ArrowReady, hS, Bool.false_eq_true, if_false, and_true]
    exact ⟨h1, h2⟩
  | fbyTuple h =>
    simp only [Static.Ready, FbyReady, hS, Bool.false_eq_true, if_false, and_true] at hr ⊢
    refine allReady_zip (fun a b h1 h2 => ?_) h hr.1 hr.2
    simp only [Static.Ready, FbyReady, hS, Bool.false_eq_true, if_false, and_true]
    exact ⟨h1, h2⟩

end

/-! ## Dependencies -/

theorem instantLeft_append : ∀ r r' : List (LOp × Src),
    instantLeft (r ++ r') = instantLeft r ++ instantLeft r'
  | [], r' => by rw [List.nil_append, instantLeft, List.nil_append]
  | (o, e) :: r, r' => by
    rw [List.cons_append, instantLeft, instantLeft, instantLeft_append r r', List.append_assoc]

theorem instants_pre : ∀ es : List Src, instants (es.map .pre) = []
  | [] => by rw [List.map_nil, instants]
  | e :: es => by rw [List.map_cons, instants, instants_pre es, Static.instant]; rfl

theorem instantLeft_pre : ∀ es : List (LOp × Src), instantLeft (es.map fun o => (o.1, .pre o.2)) = []
  | [] => by rw [List.map_nil, instantLeft]
  | e :: es => by rw [List.map_cons, instantLeft, instantLeft_pre es, Static.instant]; rfl

theorem instantCmp_pre : ∀ es : List (CmpOp × Src), instantCmp (es.map fun o => (o.1, .pre o.2)) = []
  | [] => by rw [List.map_nil, instantCmp]
  | e :: es => by rw [List.map_cons, instantCmp, instantCmp_pre es, Static.instant]; rfl

theorem equation_instant {vars : List String} {u : Bool} {e e' : Src} (h : Equation vars u e e') :
    instant e = instant e' := by
  cases h <;> simp [Static.instant, instants, instantLeft, instantCmp, instantLeft_append,
    instants_pre, instantLeft_pre, instantCmp_pre]

theorem instants_zip {c : Src → Src → Src} {y : String}
    (hc : ∀ a b, y ∈ instant (c a b) → y ∈ instant a ∨ y ∈ instant b) :
    ∀ {as bs : List Src}, y ∈ instants (List.zipWith c as bs) → y ∈ instants as ∨ y ∈ instants bs
  | [], bs, h => by rw [List.zipWith_nil_left, instants] at h; cases h
  | a :: as, [], h => by rw [List.zipWith_nil_right, instants] at h; cases h
  | a :: as, b :: bs, h => by
    rw [List.zipWith_cons_cons, instants, List.mem_append] at h
    rw [instants, instants, List.mem_append, List.mem_append]
    rcases h with h | h
    · rcases hc _ _ h with h | h <;> simp [h]
    · rcases instants_zip hc h with h | h <;> simp [h]

theorem instants_fby : ∀ {as bs : List Src} {y : String},
    y ∈ instants (List.zipWith (fun a b => .fby a [b]) as bs) → y ∈ instants as
  | [], bs, y, h => by rw [List.zipWith_nil_left, instants] at h; cases h
  | a :: as, [], y, h => by rw [List.zipWith_nil_right, instants] at h; cases h
  | a :: as, b :: bs, y, h => by
    rw [List.zipWith_cons_cons, instants, List.mem_append, Static.instant] at h
    rw [instants, List.mem_append]
    exact h.imp id instants_fby

theorem law_instant {vars : List String} {u : Bool} {e e' : Src} (h : Law vars u e e') :
    ∀ y ∈ instant e', y ∈ instant e := by
  intro y hy
  cases h with
  | equation h => rw [equation_instant h]; exact hy
  | reverse h => rw [← equation_instant h]; exact hy
  | arrowPre => simpa [Static.instant, instants] using hy
  | constPre => simp [Static.instant] at hy
  | arrowSelf => simpa [Static.instant, instants] using hy
  | arrowTuple =>
    rw [Static.instant] at hy
    simp only [Static.instant, instants, List.append_nil, List.mem_append]
    exact instants_zip (fun a b h => by simpa [Static.instant, instants] using h) hy
  | fbyTuple =>
    rw [Static.instant] at hy
    simp only [Static.instant]
    exact instants_fby hy

theorem calleesLeft_append : ∀ r r' : List (LOp × Src),
    calleesLeft (r ++ r') = calleesLeft r ++ calleesLeft r'
  | [], r' => by rw [List.nil_append, calleesLeft, List.nil_append]
  | (o, e) :: r, r' => by
    rw [List.cons_append, calleesLeft, calleesLeft, calleesLeft_append r r', List.append_assoc]

theorem calleesList_pre : ∀ es : List Src, calleesList (es.map .pre) = calleesList es
  | [] => by rw [List.map_nil]
  | e :: es => by rw [List.map_cons, calleesList, calleesList, calleesList_pre es, callees]

theorem calleesLeft_pre : ∀ es : List (LOp × Src),
    calleesLeft (es.map fun o => (o.1, .pre o.2)) = calleesLeft es
  | [] => by rw [List.map_nil]
  | e :: es => by rw [List.map_cons, calleesLeft, calleesLeft, calleesLeft_pre es, callees]

theorem calleesCmp_pre : ∀ es : List (CmpOp × Src),
    calleesCmp (es.map fun o => (o.1, .pre o.2)) = calleesCmp es
  | [] => by rw [List.map_nil]
  | e :: es => by rw [List.map_cons, calleesCmp, calleesCmp, calleesCmp_pre es, callees]

theorem equation_callees {vars : List String} {u : Bool} {e e' : Src} (h : Equation vars u e e') :
    callees e = callees e' := by
  cases h <;> simp [callees, calleesList, calleesLeft, calleesCmp, calleesLeft_append,
    calleesList_pre, calleesLeft_pre, calleesCmp_pre]

theorem calleesList_zip {c : Src → Src → Src} {y : String}
    (hc : ∀ a b, y ∈ callees (c a b) → y ∈ callees a ∨ y ∈ callees b) :
    ∀ {as bs : List Src}, y ∈ calleesList (List.zipWith c as bs) →
      y ∈ calleesList as ∨ y ∈ calleesList bs
  | [], bs, h => by rw [List.zipWith_nil_left, calleesList] at h; cases h
  | a :: as, [], h => by rw [List.zipWith_nil_right, calleesList] at h; cases h
  | a :: as, b :: bs, h => by
    rw [List.zipWith_cons_cons, calleesList, List.mem_append] at h
    rw [calleesList, calleesList, List.mem_append, List.mem_append]
    rcases h with h | h
    · rcases hc _ _ h with h | h <;> simp [h]
    · rcases calleesList_zip hc h with h | h <;> simp [h]

theorem law_callees {vars : List String} {u : Bool} {e e' : Src} (h : Law vars u e e') :
    ∀ y ∈ callees e', y ∈ callees e := by
  intro y hy
  cases h with
  | equation h => rw [equation_callees h]; exact hy
  | reverse h => rw [← equation_callees h]; exact hy
  | arrowPre => simpa [callees, calleesList] using hy
  | constPre => simp [callees] at hy
  | arrowSelf => simpa [callees, calleesList] using hy
  | arrowTuple =>
    rw [callees] at hy
    simp only [callees, calleesList, List.append_nil, List.mem_append]
    exact calleesList_zip (fun a b h => by simpa [callees, calleesList] using h) hy
  | fbyTuple =>
    rw [callees] at hy
    simp only [callees, calleesList, List.append_nil, List.mem_append]
    exact calleesList_zip (fun a b h => by simpa [callees, calleesList] using h) hy

/-! ## Nodes with registers -/

theorem guardsLeft_append : ∀ r r' : List (LOp × Src),
    guardsLeft (r ++ r') = guardsLeft r ++ guardsLeft r'
  | [], r' => by rw [List.nil_append, guardsLeft, List.nil_append]
  | (o, e) :: r, r' => by
    rw [List.cons_append, guardsLeft, guardsLeft, guardsLeft_append r r']
    simp only [List.append_assoc]

theorem flatLeft_append : ∀ r r' : List (LOp × Src),
    noOneTupleLeft (r ++ r') = (noOneTupleLeft r && noOneTupleLeft r')
  | [], r' => by rw [List.nil_append, noOneTupleLeft, Bool.true_and]
  | (o, e) :: r, r' => by
    rw [List.cons_append, noOneTupleLeft, noOneTupleLeft, flatLeft_append r r', Bool.and_assoc]

theorem equation_tidy {vars : List String} {e e' : Src} (h : Equation vars true e e') :
    guards e = guards e' ∧ noOneTuple e = noOneTuple e' := by
  cases h <;> simp [guards, guardsList, guardsLeft, guardsCmp, guardsLeft_append, noOneTuple,
    noOneTuples, noOneTupleLeft, noOneTupleCmp, flatLeft_append, Bool.and_assoc]

theorem law_tidy {vars : List String} {e e' : Src} (h : Law vars true e e') :
    guards e = guards e' ∧ noOneTuple e = noOneTuple e' := by
  cases h with
  | equation h => exact equation_tidy h
  | reverse h => exact ⟨(equation_tidy h).1.symm, (equation_tidy h).2.symm⟩

/-! ## Nodes -/

theorem not_var {as : List ArgsTy} {x : String} (h : x ∉ argNames as) :
    (varsOf as).find? (fun v => v.name = x) = none := by
  rw [List.find?_eq_none]
  intro v hv
  simp only [varsOf, List.mem_flatMap, List.mem_map] at hv
  obtain ⟨a, ha, y, hy, rfl⟩ := hv
  simp only [decide_eq_true_eq]
  rintro rfl
  exact h (List.mem_flatMap.2 ⟨a, ha, hy⟩)

/-- A node with laws applied to its expressions. -/
abbrev LawNode (u : Bool) (n n' : SrcNode) : Prop :=
  ExchangedNode (fun _ => Law (SrcNode.vars n) u) n n'

theorem law_keepsNode : KeepsNode LawNode where
  name h := h.name
  inputs h := by rw [h.inputs]
  outputs h := by rw [h.outputs]
  legal := by
    intro o consts nodes n n' h hl
    have hv : ∀ x, x ∉ SrcNode.vars n → (scope o consts nodes n).var x = none := fun x hx =>
      not_var (by
        intro hm
        refine hx ?_
        simpa [SrcNode.vars, argNames] using hm)
    refine legalNode_exchanged (Z := Eq) h ⟨fun h k => law_ty h k,
      fun h k => ⟨_, law_clk h rfl hv k, .refl _⟩, fun h _ k => law_ready h rfl hv k,
      fun h y hy => ⟨y, law_instant h y hy, rfl⟩⟩ (fun _ => rfl) (fun _ _ h => .inl h) hl
  calls h := calls_exchanged h (C := []) (fun h y hy => .inl (law_callees h y hy))
    (fun g h => by cases h)

theorem law_tidyNode {n n' : SrcNode} (h : LawNode true n n') (ht : Tidy n) : Tidy n' :=
  tidy_exchanged h (fun h y hy => .inl (by rw [(law_tidy h).1]; exact hy))
    (fun h k => by rw [← (law_tidy h).2]; exact k) ht

end Chandeliers.Eqn
