import Verif.Lemmas.Machine
import Verif.San.Run
import Verif.Props.Legal

/-!
# `#[main]` and `#[test]` in whole programs

C35.
-/

set_option autoImplicit false

namespace Chandeliers.Props
open Chandeliers.Err Chandeliers.San Chandeliers.Spec Chandeliers.Syn Chandeliers.Spec.Static

/-- How many iterations are left after `k`. -/
def leftAfter (n k : Nat) : Option Nat := if n = 0 then none else some (n - k)

theorem next_running {m : Machine} {left : Option Nat} (hl : left ≠ some 0) (s : m.σ) :
    Driver.next m (.running left s) = match m.step s (.leaf (.defined .unit)) with
      | .error p => .panicked p
      | .ok (o, s') => match o.trusted with
        | .error p => .panicked p
        | .ok _ => .running (left.map (· - 1)) s' := by
  rcases left with _ | _ | l
  · rfl
  · exact absurd rfl hl
  · rfl

/-- The driver follows the run, for a node that never returns nil. -/
theorem driver_after {m : Machine}
    (hm : ∀ k os, m.run (List.replicate k (.leaf (.defined .unit))) = .ok os → ∀ o ∈ os, ∃ v, o.trusted = .ok v)
    (n : Nat) : (k : Nat) → (n = 0 ∨ k ≤ n) → Driver.after m n k =
      match m.runFrom m.init (List.replicate k (.leaf (.defined .unit))) with
      | .ok (_, s) => .running (leftAfter n k) s
      | .error p => .panicked p
  | 0, _ => by
    simp only [Driver.after, Driver.start, List.replicate_zero, Machine.runFrom, leftAfter]
    split <;> simp
  | k + 1, hk => by
    have ih := driver_after hm n k (by omega)
    have ho := hm (k + 1)
    unfold Machine.run at ho
    rw [List.replicate_succ', runFrom_append] at ho ⊢
    simp only [Driver.after]
    rw [ih]
    cases hr : m.runFrom m.init (List.replicate k (.leaf (.defined .unit))) with
    | error p => rfl
    | ok x =>
      obtain ⟨os, s⟩ := x
      rw [hr] at ho
      have hl : leftAfter n k ≠ some 0 := by
        unfold leftAfter
        rcases hk with h | h
        · simp [h]
        · rw [if_neg (by omega)]
          simp only [ne_eq, Option.some.injEq]
          omega
      dsimp only
      rw [next_running hl]
      simp only [runFrom_single, bind, Except.bind] at ho ⊢
      cases hs : m.step s (.leaf (.defined .unit)) with
      | error p => rfl
      | ok y =>
        obtain ⟨o, s'⟩ := y
        simp only [hs] at ho ⊢
        obtain ⟨v, hv⟩ := ho _ rfl o (by simp)
        rw [hv]
        simp only [leftAfter, Driver.running.injEq, and_true]
        by_cases h0 : n = 0
        · simp [h0]
        · simp only [h0, if_false, Option.map_some, Option.some.injEq]
          omega

theorem run_ok_iff {m : Machine} {is : List Value} :
    (∃ os, m.run is = .ok os) ↔ ∃ os s, m.runFrom m.init is = .ok (os, s) := by
  unfold Machine.run
  cases m.runFrom m.init is with
  | error p => simp [bind, Except.bind]
  | ok x => obtain ⟨os, s⟩ := x; simp [bind, Except.bind]

/-- With `n > 0`, the driver returns exactly when `n` steps succeed; otherwise it panics. -/
theorem driver_returns {m : Machine}
    (hm : ∀ k os, m.run (List.replicate k (.leaf (.defined .unit))) = .ok os → ∀ o ∈ os, ∃ v, o.trusted = .ok v)
    {n : Nat} (hn : n > 0) :
    (Driver.after m n (n + 1) = .returned ↔ ∃ os, m.run (List.replicate n (.leaf (.defined .unit))) = .ok os) ∧
    (Driver.after m n (n + 1) = .returned ∨ ∃ p, Driver.after m n (n + 1) = .panicked p ∧
      m.run (List.replicate n (.leaf (.defined .unit))) = .error p) := by
  have h := driver_after hm n n (.inr (Nat.le_refl _))
  rw [run_ok_iff]
  simp only [Driver.after]
  rw [h]
  unfold Machine.run
  cases m.runFrom m.init (List.replicate n (.leaf (.defined .unit))) with
  | error p => simp [Driver.next, bind, Except.bind]
  | ok x =>
    obtain ⟨os, s⟩ := x
    have : leftAfter n n = some 0 := by simp [leftAfter, Nat.ne_of_gt hn]
    simp [this, Driver.next]

/-- With `n = 0`, the driver goes on exactly as long as the steps succeed; otherwise it panics. -/
theorem driver_forever {m : Machine}
    (hm : ∀ k os, m.run (List.replicate k (.leaf (.defined .unit))) = .ok os → ∀ o ∈ os, ∃ v, o.trusted = .ok v)
    (k : Nat) :
    ((∃ s, Driver.after m 0 k = .running none s) ↔
      ∃ os, m.run (List.replicate k (.leaf (.defined .unit))) = .ok os) ∧
    ((∃ s, Driver.after m 0 k = .running none s) ∨ ∃ p, Driver.after m 0 k = .panicked p ∧
      m.run (List.replicate k (.leaf (.defined .unit))) = .error p) := by
  have h := driver_after hm 0 k (.inl rfl)
  rw [run_ok_iff, h]
  unfold Machine.run
  cases m.runFrom m.init (List.replicate k (.leaf (.defined .unit))) with
  | error p => simp [bind, Except.bind]
  | ok x => obtain ⟨os, s⟩ := x; simp [leftAfter]

theorem spread_all {ty : Tup Unit} : (is os : List Value) → (∀ i ∈ is, present i = true) →
    is.length = os.length → spread ty is os = os
  | [], [], _, _ => rfl
  | [], _ :: _, _, h => by simp at h
  | _ :: _, [], _, h => by simp at h
  | i :: is, o :: os, hi, h => by
    simp only [spread, hi i (List.mem_cons_self ..), if_true]
    rw [spread_all is os (fun i hm => hi i (List.mem_cons_of_mem _ hm)) (by simpa using h)]

/-- C35.  In a program that the compiler accepts, the function emitted for a node with
`#[main(n)]` or `#[test(n)]`, in the default mode.  With `n > 0` it returns exactly when the equations
of the node have a solution over `n` instants at which its assertions hold; otherwise it panics.  With
`n = 0` it never returns, and it is still running after `k` steps exactly when they have a solution over
`k` instants; otherwise it has panicked. -/
theorem C35_program (A : Arith) (X : Extern) {p : SrcProg} {p' : Prog} {w : List Report} {I : Items}
    (h : decl (compile p) = .done w (some p')) (hg : DistinctGenerics p)
    (hl : link A X p'.decls = .ok I) {attrs : List Attribute} {src : SrcNode}
    (hs : ⟨attrs, .node src⟩ ∈ p) (hu : hasAny attrs ["universal_pre"] = false) {n : Nat}
    (hn : (meaning attrs).main = some n ∨ (meaning attrs).test = some n) :
    ∃ m, I.nodes src.name = some m ∧
      (n > 0 →
        (Driver.after m n (n + 1) = .returned ↔ ∃ S,
          SrcSolution ⟨A, SrcNode.vars src, S, I.consts, I.nodes⟩ src (List.replicate n (.leaf (.defined .unit)))) ∧
        (Driver.after m n (n + 1) = .returned ∨ ∃ p, Driver.after m n (n + 1) = .panicked p)) ∧
      (n = 0 → ∀ k,
        ((∃ s, Driver.after m 0 k = .running none s) ↔ ∃ S,
          SrcSolution ⟨A, SrcNode.vars src, S, I.consts, I.nodes⟩ src (List.replicate k (.leaf (.defined .unit)))) ∧
        ((∃ s, Driver.after m 0 k = .running none s) ∨ ∃ p, Driver.after m 0 k = .panicked p)) := by
  have hL := (C50_accepted hg).1 ⟨w, p', h⟩
  have hN : LegalNode (meaning attrs) _ _ src := hL.items _ hs
  have hex : ((meaning attrs).main.isSome || (meaning attrs).test.isSome) = true := by
    rcases hn with e | e <;> simp [e]
  have hout : argNames src.outputs = [] := by
    have := congrArg (List.map Var.name) (hN.interface.executable hex).2
    rw [List.map_nil] at this
    rw [← this]
    simp [argNames, varsOf, List.map_flatMap, Function.comp_def]
  obtain ⟨m, hm, hr⟩ := C47_program A X h hl hs hu
  have hall : ∀ k, ∀ i ∈ List.replicate k (.leaf (.defined .unit)), present i = true := by
    intro k i hi
    rw [List.eq_of_mem_replicate hi]
    rfl
  have hrun : ∀ k os, m.run (List.replicate k (.leaf (.defined .unit))) = .ok os ↔
      ∃ S, SrcSolution ⟨A, SrcNode.vars src, S, I.consts, I.nodes⟩ src (List.replicate k (.leaf (.defined .unit))) ∧
        os = srcOutputs S src k := by
    intro k os
    rw [hr, List.filter_eq_self.2 (hall k)]
    refine exists_congr fun S => and_congr_right fun _ => ?_
    rw [spread_all _ _ (hall k) (by simp [srcOutputs]), List.length_replicate]
  have hunit : ∀ k os, m.run (List.replicate k (.leaf (.defined .unit))) = .ok os → ∀ o ∈ os,
      ∃ v, o.trusted = .ok v := by
    intro k os h o ho
    obtain ⟨S, -, rfl⟩ := (hrun k os).1 h
    simp only [srcOutputs, hout, together, List.map_nil, tupleValue, List.mem_map] at ho
    obtain ⟨t, -, rfl⟩ := ho
    exact ⟨_, rfl⟩
  have hsol : ∀ k, (∃ os, m.run (List.replicate k (.leaf (.defined .unit))) = .ok os) ↔ ∃ S,
      SrcSolution ⟨A, SrcNode.vars src, S, I.consts, I.nodes⟩ src (List.replicate k (.leaf (.defined .unit))) := by
    intro k
    constructor
    · rintro ⟨os, h⟩; obtain ⟨S, h, -⟩ := (hrun k os).1 h; exact ⟨S, h⟩
    · rintro ⟨S, h⟩; exact ⟨_, (hrun k _).2 ⟨S, h, rfl⟩⟩
  refine ⟨m, hm, fun hn => ?_, ?_⟩
  · obtain ⟨h1, h2⟩ := driver_returns hunit hn
    rw [h1, hsol] at *
    exact ⟨Iff.rfl, h2.imp id fun ⟨p, h, _⟩ => ⟨p, h⟩⟩
  · rintro rfl k
    obtain ⟨h1, h2⟩ := driver_forever hunit k
    rw [h1, hsol] at *
    exact ⟨Iff.rfl, h2.imp id fun ⟨p, h, _⟩ => ⟨p, h⟩⟩

/-! ## Example -/

/-- ```
#[main(3)]
node main() returns (); var n: int; let n = 0 -> pre n + 1; assert n < 3; tel
``` -/
def exMainProg (steps : Int) : SrcProg := [
  ⟨[⟨"main", [], [.int steps], 1⟩], .node {
    name := "main"
    inputs := []
    outputs := []
    locals := [⟨["n"], .int, .implicit⟩]
    defs := [.def_ (.var "n") (.arrow (.lit (.int 0))
        [.left (.pre (.var "n")) [(.add, .lit (.int 1))]]),
      .assert (.cmp (.var "n") [(.lt, .lit (.int 3))])] }⟩]

/-- Whether the function emitted for the node `f` returns. -/
def returns (p : SrcProg) (f : String) (n : Nat) : Option Bool :=
  match itemsOf ⟨fun _ => none, fun _ => none⟩ p with
  | none => none
  | some I =>
    match I.nodes f with
    | none => none
    | some m => match Driver.after m n (n + 1) with
      | .returned => some true
      | _ => some false

/-- Non-vacuity of C35: three steps succeed, four do not. -/
example : returns (exMainProg 3) "main" 3 = some true ∧ returns (exMainProg 4) "main" 4 = some false := by
  decide +kernel

/-- Non-vacuity of C35: its hypotheses. -/
example : (meaning [⟨"main", [], [.int 3], 1⟩]).main = some 3 ∧
    hasAny [⟨"main", [], [.int 3], 1⟩] ["universal_pre"] = false ∧ DistinctGenerics (exMainProg 3) := by
  refine ⟨by decide, by decide, fun d hd => ?_⟩
  simp only [exMainProg, List.mem_singleton] at hd
  subst hd
  decide

end Chandeliers.Props
