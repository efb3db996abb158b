import Verif.Lemmas.SamplePrints
import Verif.Lemmas.SampleSetup
import Verif.Props.Std

/-!
# Lemmas about programs that come with the project: constants, sums
-/

set_option autoImplicit false

namespace Chandeliers.Smp
open San Syn Err Spec Spec.Samples Props

/-- Whether the program is accepted without a message and consists of these constants; those without a value are
external. -/
def declares (ts : List Tok) (cs : List (String × TyBase × Option Expr)) : Bool :=
  match expand ts with
  | some (.done [] (some p)) => go p.decls cs
  | _ => false
where
  go : List San.Decl → List (String × TyBase × Option Expr) → Bool
    | [], [] => true
    | .const c :: ds, (x, ty, some e) :: cs => decide (c.name = x ∧ c.ty = ty) && (sameExpr c.value e && go ds cs)
    | .extConst c :: ds, (x, ty, none) :: cs => decide (c.name = x ∧ c.ty = ty) && go ds cs
    | _, _ => false

/-- The declaration. -/
def declaration : String × TyBase × Option Expr → San.Decl
  | (x, ty, some e) => .const ⟨x, ty, e⟩
  | (x, ty, none) => .extConst ⟨x, ty⟩

theorem declares_go : {ds : List San.Decl} → {cs : List (String × TyBase × Option Expr)} →
    declares.go ds cs = true → ds = cs.map declaration
  | [], [], _ => rfl
  | .const c :: ds, (x, ty, some e) :: cs, h => by
    simp only [declares.go, Bool.and_eq_true, decide_eq_true_eq] at h
    obtain ⟨⟨rfl, rfl⟩, h1, h2⟩ := h
    rw [declares_go h2, ← sameExpr_eq _ _ h1]
    rfl
  | .extConst c :: ds, (x, ty, none) :: cs, h => by
    simp only [declares.go, Bool.and_eq_true, decide_eq_true_eq] at h
    obtain ⟨⟨rfl, rfl⟩, h2⟩ := h
    rw [declares_go h2]
    rfl
  | [], _ :: _, h | .const _ :: _, [], h | .extConst _ :: _, [], h | .node _ :: _, _, h | .extNode _ :: _, _, h
  | .const _ :: _, (_, _, none) :: _, h | .extConst _ :: _, (_, _, some _) :: _, h => by
    simp [declares.go] at h

theorem emits_consts {ts : List Tok} {cs : List (String × TyBase × Option Expr)} (h : declares ts cs = true)
    (uid : Nat) (A : Arith) (X : Extern) {g : Globals}
    (hl : linkConsts A X (fun _ => none) (cs.map declaration) = .ok g) :
    ∃ I, Emits uid A X ts I ∧ ∀ x, constOf uid I x = g x := by
  unfold declares at h
  split at h
  · rename_i p he
    have hd := declares_go h
    have hp : ∃ q, parseProg ts = some q ∧ decl (compile q) = .done [] (some p) := by
      unfold expand at he
      cases hq : parseProg ts with
      | none => rw [hq] at he; cases he
      | some q => rw [hq] at he; exact ⟨q, rfl, by simpa using he⟩
    obtain ⟨q, -, hq⟩ := hp
    obtain ⟨k, hk⟩ := C69_program hq uid
    have hn : ∀ (cs : List (String × TyBase × Option Expr)) C N,
        rustNodes uid A X C N (cs.map declaration) = .ok N := by
      intro cs C N
      induction cs with
      | nil => rfl
      | cons c cs ih => obtain ⟨x, ty, e⟩ := c; cases e <;> exact ih
    refine ⟨⟨rustConsts uid g p.decls, fun _ => none⟩, ⟨p, he, k, fun n hn' => ?_⟩, fun x => ?_⟩
    · rw [hk n hn', linkRust, hd, hl]
      simp only [hn]
    · rw [← hd] at hl
      exact Quo.rustConsts_linked hl x
  · cases h

/-- The constants, in the order in which they are emitted. -/
def constsDecls : List (String × TyBase × Option Expr) :=
  [("Z", .int, none), ("B", .int, some (.global "Z")), ("A", .int, some (.bin .add (.global "B") (.global "Z"))),
   ("C", .int, some (.global "A")), ("W", .int, none), ("E", .int, some (.bin .add (.global "W") (.global "Z"))),
   ("D", .int, some (.bin .add (.global "C") (.global "E")))]

theorem consts_compile : declares constsText constsDecls = true := by decide +kernel

theorem sum_ints {A : Arith} {x y : Int} (hx : Fits x) (hy : Fits y) (h : Fits (x + y)) :
    scalarBin A .add (.int (Int64.ofInt x)) (.int (Int64.ofInt y)) = .ok (.int (Int64.ofInt (x + y))) := by
  simp [scalarBin, intBin, hx.toInt, hy.toInt, checked_fits h, Except.map]

theorem consts_link {A : Arith} {X : Extern} {w z : Int} (hW : X.consts "W" = some (.int (Int64.ofInt w)))
    (hZ : X.consts "Z" = some (.int (Int64.ofInt z))) (hw : Fits w) (hz : Fits z) (h1 : Fits (z + z))
    (h2 : Fits (w + z)) (h3 : Fits (z + z + (w + z))) :
    ∃ g, linkConsts A X (fun _ => none) (constsDecls.map declaration) = .ok g ∧
      g "A" = some (.int (Int64.ofInt (z + z))) ∧ g "B" = some (.int (Int64.ofInt z)) ∧
      g "C" = some (.int (Int64.ofInt (z + z))) ∧ g "D" = some (.int (Int64.ofInt (z + z + (w + z)))) ∧
      g "E" = some (.int (Int64.ofInt (w + z))) := by
  have e1 := sum_ints (A := { A with overflowChecks := true }) hz hz h1
  have e2 := sum_ints (A := { A with overflowChecks := true }) hw hz h2
  have e3 := sum_ints (A := { A with overflowChecks := true }) h1 h2 h3
  generalize Int64.ofInt (z + z) = i, Int64.ofInt (w + z) = j, Int64.ofInt (z + z + (w + z)) = k, Int64.ofInt z = m,
    Int64.ofInt w = n at *
  simp [constsDecls, declaration, linkConsts, Const.eval, Expr.constTokens, CExpr.eval, hW, hZ, e1, e2, e3, bind,
    Except.bind, pure]

/-- The node. -/
def sum_add : SrcNode :=
  ⟨"add", [⟨["a", "b"], .int, .implicit⟩], [⟨["sum"], .int, .implicit⟩], [], [.def_ (.var "sum") (.left
    (.left (.cmp (.fby (.arrow (.left (.left (.left (.var "a") []) []) [(.add, .left (.left (.var "b")
    []) [])]) []) []) []) []) [])]⟩

/-- What `sumText` reads as. -/
def sumTree : SrcProg :=
  [⟨[⟨"export", [], [], 0⟩, ⟨"rustc_allow", ["dead_code"], [], 0⟩], .node sum_add⟩]

theorem sum_reads : parseProg sumText = some sumTree := rfl

section
variable {A : Arith} {g : String → Option Scalar} {N : String → Option Machine}

theorem adds_solves {a b : Nat → Int} {n : Nat} (ha : ∀ t < n, Fits (a t)) (hb : ∀ t < n, Fits (b t))
    (hs : ∀ t < n, Fits (a t + b t)) {t : Nat} (ht : t < n) :
    Solves A g N sum_add (ints fun x t => if x = "a" then a t else if x = "b" then b t else a t + b t)
      (fun t => pair (vInt (a t)) (vInt (b t))) t := by
  refine ⟨fun h => rfl, fun st hst => ?_⟩
  simp only [sum_add, List.mem_cons, List.not_mem_nil, or_false] at hst
  subst hst
  refine ⟨vInt (a t + b t), ?_, rfl⟩
  ladder
  rw [ref_var (by decide), ref_var (by decide)]
  exact add_int (A := A) (ha t ht) (hb t ht) (hs t ht)
end

/-! ## Assertions on the result of `float_of_int` -/

/-- The node. -/
def cast_test : SrcNode :=
  ⟨"test", [], [], [⟨["x"], .float, .implicit⟩], [.def_ (.var "x") (.left (.left (.cmp (.fby
    (.arrow (.left (.left (.left (.call "float_of_int" [.left (.left (.cmp (.fby (.arrow (.left
    (.left (.left (.lit (.int 5)) []) []) []) []) []) []) []) []] false) []) []) []) []) []) [])
    []) []), .assert (.left (.left (.cmp (.fby (.arrow (.left (.left (.left (.var "x") []) [])
    []) []) []) [(.gt, .fby (.arrow (.left (.left (.left (.lit (.float (some ⟨0⟩))) []) []) [])
    []) [])]) []) [])]⟩

/-- The node. -/
def failing_failing : SrcNode :=
  ⟨"failing", [], [], [⟨["x"], .float, .implicit⟩], [.def_ (.var "x") (.left (.left (.cmp (.fby
    (.arrow (.left (.left (.left (.call "float_of_int" [.left (.left (.cmp (.fby (.arrow (.left
    (.left (.left (.lit (.int 5)) []) []) []) []) []) []) []) []] false) []) []) []) []) []) [])
    []) []), .assert (.left (.left (.cmp (.fby (.arrow (.left (.left (.left (.var "x") []) [])
    []) []) []) [(.le, .fby (.arrow (.left (.left (.left (.lit (.float (some ⟨0⟩))) []) []) [])
    []) [])]) []) [])]⟩

/-- What `castText` reads as. -/
def castTree : SrcProg :=
  [⟨[], .extNode "float_of_int" [⟨["i"], .int, .implicit⟩] [⟨["f"], .float, .implicit⟩]⟩,
   ⟨[⟨"pub", [], [], 0⟩], .node cast_test⟩]

theorem cast_reads : parseProg castText = some castTree := rfl

/-- What `failingText` reads as. -/
def failingTree : SrcProg :=
  [⟨[], .extNode "float_of_int" [⟨["i"], .int, .implicit⟩] [⟨["f"], .float, .implicit⟩]⟩,
   ⟨[⟨"pub", [], [], 0⟩], .node failing_failing⟩]

theorem failing_reads : parseProg failingText = some failingTree := rfl

theorem distinct_of {p : SrcProg} (h : p.all (fun d => decide (meaning d.attrs).generics.Nodup) = true) :
    DistinctGenerics p := fun d hd => by simpa using List.all_eq_true.1 h d hd

theorem cast_extern {X : Extern} {c : Machine} {attrs : List Attribute} {src : SrcNode}
    (hc : X.nodes "float_of_int" = some c) (hr : Respects c (.single .int) (.single .float)) :
    ExternOk X [⟨[], .extNode "float_of_int" [⟨["i"], .int, .implicit⟩] [⟨["f"], .float, .implicit⟩]⟩,
      ⟨attrs, .node src⟩] ∧
    UnitOutputs X [⟨[], .extNode "float_of_int" [⟨["i"], .int, .implicit⟩] [⟨["f"], .float, .implicit⟩]⟩,
      ⟨attrs, .node src⟩] := by
  refine ⟨⟨fun a x ty hm => ?_, fun a f ins outs hm => ?_⟩, fun a f ins outs m hm he => ?_⟩
  · simp at hm
  · simp only [List.mem_cons, SrcDecl.mk.injEq, SrcItem.extNode.injEq, reduceCtorEq, and_false, List.not_mem_nil,
      or_false] at hm
    obtain ⟨rfl, rfl, rfl, rfl⟩ := hm
    exact ⟨c, hc, fun θ => hr⟩
  · simp only [List.mem_cons, SrcDecl.mk.injEq, SrcItem.extNode.injEq, reduceCtorEq, and_false, List.not_mem_nil,
      or_false] at hm
    obtain ⟨rfl, rfl, rfl, rfl⟩ := hm
    cases he

theorem cast_respects (L : Rust) : Respects (floatOfInt L) (.single .int) (.single .float) :=
  (pointwise_ok (t := .int) (u := .float) fun x hx => by
    cases x <;> first | exact absurd hx id | exact ⟨_, rfl, trivial⟩).1

theorem cast_forever (L : Rust) : Forever (floatOfInt L) (fun _ => vInt 5) (fun _ => vFloat (L.asFloat 5)) := by
  intro n k _
  refine run_of_runFrom (s := ()) ?_
  show (floatOfInt L).runFrom () _ = _
  generalize List.range k = l
  induction l with
  | nil => rfl
  | cons t l ih => exact runFrom_cons (s₁ := ()) rfl ih

theorem cmp_float {A : Arith} {x y : F64} {o : Ordering} (h : A.fcmp x y = some o) :
    applyCmp A .gt (vFloat x) (vFloat y) = some (vBool (o == .gt)) ∧
      applyCmp A .le (vFloat x) (vFloat y) = some (vBool (o != .gt)) := by
  simp only [applyCmp, vFloat, scalarCmp, comparable, if_true, Candle.cmp, Candle.nillableCmpOrd, Nillable.cmp,
    scalarPcmp, h, Except.toOption]
  cases o <;> exact ⟨rfl, rfl⟩

section
variable {A : Arith} {g : String → Option Scalar} {N : String → Option Machine}

theorem cast_solves {m : Machine} (hm : N "float_of_int" = some m) {x : F64} {n : Nat}
    (ha : Answers m n (fun _ => vInt 5) fun _ => vFloat x) (hx : A.fcmp x ⟨0⟩ = some .gt) {t : Nat} (ht : t < n) :
    Solves A g N cast_test (fun _ _ => .defined (.float x)) (fun _ => vUnit) t := by
  refine ⟨fun h => absurd rfl h, fun st hst => ?_⟩
  simp only [cast_test, List.mem_cons, List.not_mem_nil, or_false] at hst
  rcases hst with rfl | rfl
  · refine ⟨vFloat x, ?_, rfl⟩
    ladder
    refine ref_call hm ha ht fun u hu => ?_
    simp only [refList_cons, refList0]
    ladder
    rw [ref_int _ _ 5 (by omega)]
    rfl
  · simp only [SrcHolds]
    ladder
    rw [ref_var (by decide)]
    exact (cmp_float hx).1

theorem cast_fails {m : Machine} (hm : N "float_of_int" = some m) {x : F64}
    (ha : Answers m 1 (fun _ => vInt 5) fun _ => vFloat x) (hx : A.fcmp x ⟨0⟩ = some .gt)
    {S : String → Nat → Nillable Scalar} : ¬ Solves A g N failing_failing S (fun _ => vUnit) 0 := by
  intro h
  obtain ⟨v, h1, h2⟩ := h.2 _ (List.mem_cons_self ..)
  have h3 := h.2 _ (List.mem_cons_of_mem _ (List.mem_cons_self ..))
  revert h1 h3
  simp only [SrcHolds]
  ladder
  rw [ref_call hm ha (t := 0) (by omega) (fun u _ => by
    simp only [refList_cons, refList0]
    ladder
    rw [ref_int _ _ 5 (by omega)]
    rfl), ref_var (by decide)]
  intro h1
  cases h1
  have e1 : S "x" 0 = .defined (.float x) := h2
  rw [e1]
  intro h3
  have := (cmp_float hx).2.symm.trans h3
  simp [vBool] at this
end

end Chandeliers.Smp
