import Verif.Lemmas.Samples

/-!
# Values of expressions, for the programs that come with the project
-/

set_option autoImplicit false

namespace Chandeliers.Smp
open San Syn Err Spec Spec.Samples Props

section
variable (W : World) (a b c : Src) (t : Int)

theorem ref_left0 : ref W (.left a []) t = ref W a t := by
  simp [ref, refLeft]

theorem ref_left1 (op : LOp) : ref W (.left a [(op, b)]) t =
    (ref W a t).bind fun x => (ref W b t).bind fun y => applyLOp W.arith op x y := by
  simp [ref, refLeft]

theorem ref_left2 (op op' : LOp) : ref W (.left a [(op, b), (op', c)]) t =
    ((ref W a t).bind fun x => (ref W b t).bind fun y => applyLOp W.arith op x y).bind fun x =>
      (ref W c t).bind fun y => applyLOp W.arith op' x y := by
  simp [ref, refLeft]
  cases ref W a t <;> cases ref W b t <;> rfl

theorem ref_cmp0 : ref W (.cmp a []) t = ref W a t := by
  simp [ref, refCmp]

theorem ref_cmp1 (op : CmpOp) : ref W (.cmp a [(op, b)]) t =
    (ref W a t).bind fun x => (ref W b t).bind fun y => applyCmp W.arith op x y := by
  simp [ref, refCmp]

theorem ref_fby0 : ref W (.fby a []) t = ref W a t := by
  simp [ref, refFby]

theorem ref_fby1 : ref W (.fby a [b]) t =
    (ref W b (t - 1)).bind fun v => if t > 0 then some v else ref W a t := by
  simp [ref, refFby]
  cases ref W b (t - 1) <;> simp

theorem ref_fby2 : ref W (.fby a [b, c]) t =
    (ref W c (t - 2)).bind fun w => if t > 1 then some w else
      (ref W b (t - 1)).bind fun v => if t > 0 then some v else ref W a t := by
  simp [ref, refFby]
  cases ref W c (t - 2) with
  | none => rfl
  | some w =>
    simp only [Option.bind_some]
    by_cases h : t > 1
    · simp [h, show t > 0 by omega]
    · simp only [h, and_false, if_false]
      cases ref W b (t - 1) <;> simp

theorem ref_arrow0 : ref W (.arrow a []) t = ref W a t := by
  simp [ref, refThen]

theorem ref_arrow1 : ref W (.arrow a [b]) t =
    (ref W b t).bind fun v => if t > 0 then some v else ref W a t := by
  simp [ref, refThen]
  cases ref W b t <;> simp

theorem ref_arrow2 : ref W (.arrow a [b, c]) t =
    (ref W c t).bind fun w => if t > 1 then some w else
      (ref W b t).bind fun v => if t > 0 then some v else ref W a t := by
  simp [ref, refThen]
  cases ref W c t with
  | none => rfl
  | some w =>
    simp only [Option.bind_some]
    by_cases h : t > 1
    · simp [h, show t > 0 by omega]
    · simp only [h, and_false, if_false]
      cases ref W b t <;> simp

theorem ref_paren1 (tr : Bool) : ref W (.paren [a] tr) t = ref W a t := by
  simp [ref, refList]
  cases ref W a t <;> rfl

theorem ref_pre : ref W (.pre a) t = ref W a (t - 1) := by
  simp [ref]

theorem ref_not : ref W (.not a) t = (ref W a t).bind (applyUn W.arith .not) := by
  simp [ref]

theorem ref_int (n : Int) (h : -2 ^ 63 ≤ n ∧ n < 2 ^ 63) : ref W (.lit (.int n)) t = some (vInt n) := by
  simp only [ref, litValue, h, and_self, if_true]; rfl

theorem ref_bool (b : Bool) : ref W (.lit (.bool b)) t = some (vBool b) := rfl

theorem ref_float (f : F64) : ref W (.lit (.float (some f))) t = some (vFloat f) := rfl

end

section
variable {A : Arith} {vs : List String} {S : String → Nat → Nillable Scalar}
  {g : String → Option Scalar} {N : String → Option Machine}

theorem ref_var {x : String} (h : x ∈ vs) (u : Nat) :
    ref ⟨A, vs, S, g, N⟩ (.var x) u = some (.leaf (S x u)) := by
  simp only [ref, h, if_true]
  rw [if_neg (by omega)]
  rfl

theorem ref_past {x : String} (h : x ∈ vs) {t : Int} (ht : t < 0) :
    ref ⟨A, vs, S, g, N⟩ (.var x) t = some (.leaf .nil) := by
  simp only [ref, h, if_true, ht]

theorem ref_glob {x : String} (h : x ∉ vs) {v : Scalar} (hv : g x = some v) (t : Int) :
    ref ⟨A, vs, S, g, N⟩ (.var x) t = some (.leaf (.defined v)) := by
  simp only [ref, h, if_false, hv, Option.map_some]

/-- A call to a node whose answers are known. -/
theorem ref_call {f : String} {m : Machine} (hm : N f = some m) {n : Nat} {inp out : Nat → Value}
    (h : Answers m n inp out) {args : List Src} {tr : Bool} {t : Nat} (ht : t < n)
    (ha : ∀ u ≤ t, (refList ⟨A, vs, S, g, N⟩ args u).map tupleValue = some (inp u)) :
    ref ⟨A, vs, S, g, N⟩ (.call f args tr) t = some (out t) := by
  simp only [ref, hm]
  rw [if_neg (by omega)]
  refine callAt_answers h ht fun u hu => ?_
  have := ha u hu
  revert this
  cases refList ⟨A, vs, S, g, N⟩ args u <;> simp

/-- A call before the first instant. -/
theorem ref_call_past {f : String} {m : Machine} (hm : N f = some m) {args : List Src} {tr : Bool} {t : Int}
    (ht : t < 0) : ref ⟨A, vs, S, g, N⟩ (.call f args tr) t = some (Tup.allNil Scalar m.outTy) := by
  simp only [ref, hm, ht, if_true]

theorem refList0 (t : Int) : refList ⟨A, vs, S, g, N⟩ [] t = some [] := by simp [refList]

theorem refList_cons (e : Src) (es : List Src) (t : Int) : refList ⟨A, vs, S, g, N⟩ (e :: es) t =
    (ref ⟨A, vs, S, g, N⟩ e t).bind fun v => (refList ⟨A, vs, S, g, N⟩ es t).map (v :: ·) := by
  simp only [refList]
  cases ref ⟨A, vs, S, g, N⟩ e t <;> cases refList ⟨A, vs, S, g, N⟩ es t <;> rfl

end

theorem Answers.unique {m : Machine} {n : Nat} {inp out out' : Nat → Value} (h : Answers m n inp out)
    (h' : Answers m n inp out') : ∀ t < n, out t = out' t := by
  intro t ht
  have h1 := h (t + 1) (by omega)
  rw [h' (t + 1) (by omega)] at h1
  have h2 := congrArg (fun l => l[t]?) (Except.ok.inj h1)
  simpa using h2.symm

/-- A run that is longer than the known answers. -/
theorem longer {A : Arith} {g : String → Option Scalar} {N : String → Option Machine}
    {attrs : List Attribute} {src : SrcNode} {m : Machine} (hm : Means A g N attrs src m)
    (hu : hasAny attrs ["universal_pre"] = false) {inp out : Nat → Value}
    (hp : ∀ t, present (inp t) = true) {n : Nat} (ha : Answers m n inp out)
    (hs : ∀ S, (∀ t < n, together (S · t) (argNames src.outputs) = out t) →
      ¬ ∀ t ≤ n, Solves A g N src S inp t) : Panics m inp n := by
  intro k hk os hr
  obtain ⟨S, hS⟩ := solution hm hu hp hr
  exact hs S (Answers.unique (answers hm hu hp fun t ht => hS t (by omega)) ha)
    fun t ht => hS t (by omega)

/-! ## Arithmetic -/

theorem toInt_ofInt {z : Int} (h : -2 ^ 63 ≤ z ∧ z < 2 ^ 63) : (Int64.ofInt z).toInt = z := by
  rw [Int64.toInt_ofInt]
  rw [Int.bmod_eq_of_le] <;> simp [Int64.size] <;> omega

theorem _root_.Chandeliers.Spec.Samples.Fits.toInt {z : Int} (h : Fits z) : (Int64.ofInt z).toInt = z := toInt_ofInt h

theorem checked_fits {A : Arith} {z : Int} (h : Fits z) : checked A z = .ok (Int64.ofInt z) := by
  simp [checked, h.toInt]

theorem checked_not {A : Arith} (hA : A.overflowChecks = true) {z : Int} (h : ¬ Fits z) :
    checked A z = .error .arith := by
  have hne : (Int64.ofInt z).toInt ≠ z := by
    intro he
    have h1 := (Int64.ofInt z).le_toInt
    have h2 := (Int64.ofInt z).toInt_lt
    exact h (by rw [he] at h1 h2; exact ⟨h1, h2⟩)
  unfold checked
  rw [if_neg hne, if_pos hA]

theorem int_leaf (z : Int) : (Tup.leaf (Nillable.defined (Scalar.int (Int64.ofInt z))) : Value) = vInt z :=
  rfl

theorem bool_leaf (b : Bool) : (Tup.leaf (Nillable.defined (Scalar.bool b)) : Value) = vBool b := rfl

theorem int_inj {x y : Int} (hx : Fits x) (hy : Fits y) (h : vInt x = vInt y) : x = y := by
  have : Int64.ofInt x = Int64.ofInt y := by
    simpa [vInt] using h
  rw [← hx.toInt, ← hy.toInt, this]

theorem add_int {A : Arith} {x y : Int} (hx : Fits x) (hy : Fits y) (h : Fits (x + y)) :
    applyLOp A .add (vInt x) (vInt y) = some (vInt (x + y)) := by
  simp [applyLOp, applyBin, vInt, Nillable.binop, scalarBin, intBin, hx.toInt, hy.toInt,
    checked_fits h, Except.map, Except.toOption]

theorem add_overflow {A : Arith} (hA : A.overflowChecks = true) {x y : Int} (hx : Fits x) (hy : Fits y)
    (h : ¬ Fits (x + y)) : applyLOp A .add (vInt x) (vInt y) = none := by
  simp [applyLOp, applyBin, vInt, Nillable.binop, scalarBin, intBin, hx.toInt, hy.toInt,
    checked_not hA h, Except.map, Except.toOption]

theorem nil_add {A : Arith} (v : Nillable Scalar) :
    applyLOp A .add (.leaf .nil) (.leaf v) = some (.leaf .nil) := by
  simp [applyLOp, applyBin, Nillable.binop, Except.toOption]

theorem add_nil {A : Arith} (v : Nillable Scalar) :
    applyLOp A .add (.leaf v) (.leaf .nil) = some (.leaf .nil) := by
  cases v <;> simp [applyLOp, applyBin, Nillable.binop, Except.toOption]

theorem or_bool {A : Arith} (x y : Bool) : applyLOp A .or (vBool x) (vBool y) = some (vBool (x || y)) := rfl

theorem and_bool {A : Arith} (x y : Bool) : applyLOp A .and (vBool x) (vBool y) = some (vBool (x && y)) := rfl

theorem not_bool {A : Arith} (x : Bool) : applyUn A .not (vBool x) = some (vBool !x) := rfl

theorem ne_bool {A : Arith} (x y : Bool) : applyCmp A .ne (vBool x) (vBool y) = some (vBool (x != y)) := by
  cases x <;> cases y <;> rfl

theorem eq_bool {A : Arith} (x y : Bool) : applyCmp A .eq (vBool x) (vBool y) = some (vBool (x == y)) := by
  cases x <;> cases y <;> rfl

theorem cmp_int {A : Arith} (op : CmpOp) (x y : Int64) :
    applyCmp A op (.leaf (.defined (.int x))) (.leaf (.defined (.int y))) =
      some (.leaf ((Candle.cmp (scalarEq A) (scalarPcmp A) op (.defined (.int x)) (.defined (.int y))).map .bool)) := by
  simp [applyCmp, scalarCmp, comparable, Except.toOption]

theorem lt_int {A : Arith} {x y : Int} (hx : Fits x) (hy : Fits y) :
    applyCmp A .lt (vInt x) (vInt y) = some (vBool (decide (x < y))) := by
  unfold vInt
  rw [cmp_int]
  simp only [Candle.cmp, Candle.nillableCmpOrd, Nillable.cmp, scalarPcmp, hx.toInt, hy.toInt]
  by_cases h : x < y
  · simp [h, vBool, Nillable.map, Int.compare_eq_lt.2 h]
  · have : compare x y ≠ .lt := fun e => h (Int.compare_eq_lt.1 e)
    simp [h, vBool, Nillable.map, this]

theorem le_int {A : Arith} {x y : Int} (hx : Fits x) (hy : Fits y) :
    applyCmp A .le (vInt x) (vInt y) = some (vBool (decide (x ≤ y))) := by
  unfold vInt
  rw [cmp_int]
  simp only [Candle.cmp, Candle.nillableCmpOrd, Nillable.cmp, scalarPcmp, hx.toInt, hy.toInt]
  by_cases h : x ≤ y
  · have : compare x y ≠ .gt := fun e => absurd (Int.compare_eq_gt.1 e) (by omega)
    simp [h, vBool, Nillable.map, this]
  · simp [h, vBool, Nillable.map, Int.compare_eq_gt.2 (show y < x by omega)]

theorem eq_int {A : Arith} {x y : Int} (hx : Fits x) (hy : Fits y) :
    applyCmp A .eq (vInt x) (vInt y) = some (vBool (decide (x = y))) := by
  unfold vInt
  rw [cmp_int]
  simp only [Candle.cmp, Candle.nillableCmpEq, Nillable.eq, scalarEq]
  by_cases h : x = y
  · subst h; simp [vBool, Nillable.map]
  · have : Int64.ofInt x ≠ Int64.ofInt y := fun e => h (by rw [← hx.toInt, ← hy.toInt, e])
    have : (Int64.ofInt x == Int64.ofInt y) = false := by simp [this]
    rw [this]
    simp [h, vBool, Nillable.map]

end Chandeliers.Smp
