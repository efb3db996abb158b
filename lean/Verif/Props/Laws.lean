import Verif.Lemmas.Laws

/-!
# Laws of the language

C67.  Expressions can be rewritten with the laws of `Spec/Laws`, any number of times and anywhere.
-/

set_option autoImplicit false

namespace Chandeliers.Props
open Chandeliers.Err Chandeliers.San Chandeliers.Spec Chandeliers.Syn Chandeliers.Rep Chandeliers.Eqn

/-- C67.  Both sides of a law have the same value at all instants, whatever the streams of the
variables, the constants and the nodes are; one of them fails when the other does. -/
theorem C67_values (universal : Bool) (A : Arith) (vars : List String) (clocks : String → Clock)
    {e e' : Src} (h : Law vars universal e e') : SameValue universal A vars clocks e e' :=
  law_same h

/-- One step. -/
theorem laws_step (A : Arith) (X : Extern) {p r : SrcProg} {p' : Prog} {w : List Report}
    (hr : ByLaws p r) (h : decl (compile p) = .done w (some p')) (hX : ExternOk X p)
    (hg : DistinctGenerics p) (ht : TidyProg p) : ∃ w' r', decl (compile r) = .done w' (some r') ∧
      Both (· = ·)
        (fun I I' : Items => AlikeItems (fun _ _ => True) I.consts I'.consts I.nodes I'.nodes)
        (link A X p'.decls) (link A X r'.decls) := by
  obtain ⟨w', r', h'⟩ := accepted_rewritten law_keepsNode hg hr ⟨w, p', h⟩
  exact ⟨w', r', h', link_rewritten (exchanged_faced (B := fun u n _ => Law (SrcNode.vars n) u))
    (fun _ _ _ _ _ _ _ _ _ _ _ _ _ hn _ _ _ _ is outs =>
      answers_equal hn (fun h => law_same h) is outs)
    hr h h' hX hg ht (tidy_rewritten (fun h => law_tidyNode h) hr ht)⟩

theorem both_trans {x y z : Except Panic Items}
    (h : Both (· = ·) (fun I I' : Items => AlikeItems (fun _ _ => True) I.consts I'.consts I.nodes I'.nodes) x y)
    (h' : Both (· = ·) (fun I I' : Items => AlikeItems (fun _ _ => True) I.consts I'.consts I.nodes I'.nodes) y z) :
    Both (· = ·) (fun I I' : Items => AlikeItems (fun _ _ => True) I.consts I'.consts I.nodes I'.nodes) x z := by
  have key : ∀ {m m' m'' : Machine}, Alike (fun _ _ => True) m m' → Alike (fun _ _ => True) m' m'' →
      Alike (fun _ _ => True) m m'' := by
    intro m m' m'' h h'
    refine ⟨h.type.trans h'.type, fun is => ?_⟩
    have h1 := h.runs is
    have h2 := h'.runs is
    revert h1 h2
    cases m.run is <;> cases m'.run is <;> cases m''.run is <;> intro h1 h2
    · trivial
    · cases h2
    · cases h1
    · cases h1
    · cases h1
    · cases h1
    · cases h2
    · exact Eq.trans h1 h2
  cases x <;> cases y <;> cases z
  · exact Eq.trans h h'
  · cases h'
  · cases h
  · cases h
  · cases h
  · cases h
  · cases h'
  · refine ⟨h.consts.trans h'.consts, fun f => (h.none f).trans (h'.none f), fun f m m'' hm hm'' => ?_⟩
    rename_i I I' I''
    cases hm' : I'.nodes f with
    | none => rw [(h.none f).2 hm'] at hm; cases hm
    | some m' => exact key (h.nodes f m m' hm hm') (h'.nodes f m' m'' hm' hm'')

theorem both_same (x : Except Panic Items) :
    Both (· = ·) (fun I I' : Items => AlikeItems (fun _ _ => True) I.consts I'.consts I.nodes I'.nodes) x x := by
  cases x with
  | error e => rfl
  | ok I =>
    refine ⟨rfl, fun _ => Iff.rfl, fun f m m' h h' => ?_⟩
    rw [h] at h'
    cases h'
    refine ⟨rfl, fun is => ?_⟩
    cases m.run is
    · trivial
    · rfl

theorem bylaws_extern {X : Extern} {p r : SrcProg} (h : ByLaws p r) (hX : ExternOk X p) :
    ExternOk X r where
  consts a x t hm := by
    obtain ⟨d, hd, hr⟩ := mem_right h _ hm
    cases hr with
    | same => exact hX.consts a x t hd
  nodes a f i o hm := by
    obtain ⟨d, hd, hr⟩ := mem_right h _ hm
    cases hr with
    | same => exact hX.nodes a f i o hd

/-- C67.  A program is rewritten with the laws, any number of times: the new program is accepted,
rustc refuses both or neither, the constants have the same values, and every node has the same type,
returns the same outputs on the same histories and panics on the same histories. -/
theorem C67_laws (A : Arith) (X : Extern) {p r : SrcProg} {p' : Prog} {w : List Report}
    (hr : Relation.ReflTransGen ByLaws p r) (h : decl (compile p) = .done w (some p'))
    (hX : ExternOk X p) (hg : DistinctGenerics p) (ht : TidyProg p) :
    ∃ w' r', decl (compile r) = .done w' (some r') ∧
      Both (· = ·)
        (fun I I' : Items => AlikeItems (fun _ _ => True) I.consts I'.consts I.nodes I'.nodes)
        (link A X p'.decls) (link A X r'.decls) := by
  have key : ∃ w' r', decl (compile r) = .done w' (some r') ∧ ExternOk X r ∧ DistinctGenerics r ∧
      TidyProg r ∧ Both (· = ·)
        (fun I I' : Items => AlikeItems (fun _ _ => True) I.consts I'.consts I.nodes I'.nodes)
        (link A X p'.decls) (link A X r'.decls) := by
    induction hr with
    | refl => exact ⟨w, p', h, hX, hg, ht, both_same _⟩
    | @tail q r _ hs ih =>
      obtain ⟨w', q', k1, k2, k3, k4, k5⟩ := ih
      obtain ⟨w'', r', j1, j2⟩ := laws_step A X hs k1 k2 k3 k4
      exact ⟨w'', r', j1, bylaws_extern hs k2, generics_rewritten hs k3,
        tidy_rewritten (fun h => law_tidyNode h) hs k4, both_trans k5 j2⟩
  obtain ⟨w', r', k1, -, -, -, k2⟩ := key
  exact ⟨w', r', k1, k2⟩

/-! ## Examples -/

/-- `node f(c: bool; x: int) returns (o: int); let o = «out»; tel` -/
def exLaw (attrs : List Attribute) (o : Src) : SrcProg :=
  [⟨attrs, .node ⟨"f", [⟨["c"], .bool, .implicit⟩, ⟨["x"], .int, .implicit⟩],
    [⟨["o"], .int, .implicit⟩], [], [.def_ (.var "o") o]⟩⟩]

/-- Applying one law to the equation. -/
theorem exLaw_step {attrs : List Attribute} {o o' : Src}
    (h : Exchanged (fun _ => Law ["c", "x", "o"] (hasAny attrs ["universal_pre"])) false o o') :
    ByLaws (exLaw attrs o) (exLaw attrs o') :=
  .cons (.node ⟨rfl, rfl, rfl, rfl, .cons (.def_ h) .nil⟩) .nil

/-- `1 -> pre (x + o)` -/
def exCount : Src := .arrow (.lit (.int 1)) [.pre (.paren [.left (.var "x") [(.add, .var "o")]] false)]

/-- `1 fby x + o` -/
def exCount' : Src := .fby (.lit (.int 1)) [.left (.var "x") [(.add, .var "o")]]

/-- `1 -> pre x + pre o` -/
def exCount'' : Src := .arrow (.lit (.int 1)) [.left (.pre (.var "x")) [(.add, .pre (.var "o"))]]

/-- The inputs of `f`. -/
def exGuarded (c : Bool) (x : Int64) : Value :=
  .tup (.leaf (.defined (.bool c))) [.leaf (.defined (.int x))]

theorem exLaw_conditions (attrs : List Attribute) (o : Src) (h : (meaning attrs).generics = [])
    (hu : hasAny attrs ["universal_pre"] = true → guards o = [] ∧ noOneTuple o = true) :
    ExternOk noExtern (exLaw attrs o) ∧ DistinctGenerics (exLaw attrs o) ∧
      TidyProg (exLaw attrs o) := by
  refine ⟨⟨fun a x t hm => ?_, fun a f i o hm => ?_⟩, fun d hd => ?_, fun a n hm hu' => ?_⟩
  · simp [exLaw] at hm
  · simp [exLaw] at hm
  · simp only [exLaw, List.mem_cons, List.not_mem_nil, or_false] at hd
    subst hd
    simp [h]
  · simp only [exLaw, List.mem_cons, List.not_mem_nil, or_false, SrcDecl.mk.injEq,
      SrcItem.node.injEq] at hm
    obtain ⟨rfl, rfl⟩ := hm
    obtain ⟨h1, h2⟩ := hu hu'
    refine ⟨⟨?_, ?_⟩, ?_⟩
    · intro a ha b x hx
      simp only [List.mem_append, List.mem_cons, List.not_mem_nil, or_false] at ha
      rcases ha with (rfl | rfl) | rfl <;> cases hx
    · intro st hst
      simp only [List.mem_cons, List.not_mem_nil, or_false] at hst
      subst hst
      simp [SrcStmt.expr, h1]
    · intro st hst
      simp only [List.mem_cons, List.not_mem_nil, or_false] at hst
      subst hst
      exact h2

/-- Non-vacuity of C67: from `1 -> pre (x + o)` to `1 fby x + o` and to `1 -> pre x + pre o`. -/
example : runIn noExtern (exLaw [] exCount) "f" [exGuarded true 2, exGuarded true 3, exGuarded true 4] =
      some [some 1, some 3, some 6] ∧
    Relation.ReflTransGen ByLaws (exLaw [] exCount) (exLaw [] exCount') ∧
    Relation.ReflTransGen ByLaws (exLaw [] exCount) (exLaw [] exCount'') ∧
    runIn noExtern (exLaw [] exCount'') "f" [exGuarded true 2, exGuarded true 3, exGuarded true 4] =
      some [some 1, some 3, some 6] := by
  have first : ByLaws (exLaw [] exCount) (exLaw [] (.arrow (.lit (.int 1))
      [.pre (.left (.var "x") [(.add, .var "o")])])) :=
    exLaw_step (.arrow .lit (.cons (.pre (.here (.equation .paren))) .nil))
  refine ⟨by decide +kernel, ?_, ?_, by decide +kernel⟩
  · exact .tail (.single first) (exLaw_step (.here .arrowPre))
  · refine .tail (.single first) (exLaw_step (.arrow .lit (.cons (.here (.equation
      (.preLeft fun o ho => ?_))) .nil)))
    simp only [List.mem_cons, List.not_mem_nil, or_false] at ho
    subst ho
    exact ⟨by simp, by simp⟩

/-- Non-vacuity of C67, with registers: `1 -> 2 -> x` is `1 -> (2 -> x)`. -/
example : ∃ w p', decl (compile (exLaw universal (.arrow (.lit (.int 1)) [.lit (.int 2), .var "x"]))) =
      .done w (some p') ∧
    ByLaws (exLaw universal (.arrow (.lit (.int 1)) [.lit (.int 2), .var "x"]))
      (exLaw universal (.arrow (.lit (.int 1)) [.arrow (.lit (.int 2)) [.var "x"]])) ∧
    ExternOk noExtern (exLaw universal (.arrow (.lit (.int 1)) [.lit (.int 2), .var "x"])) ∧
    DistinctGenerics (exLaw universal (.arrow (.lit (.int 1)) [.lit (.int 2), .var "x"])) ∧
    TidyProg (exLaw universal (.arrow (.lit (.int 1)) [.lit (.int 2), .var "x"])) := by
  have h : runIn noExtern (exLaw universal (.arrow (.lit (.int 1)) [.lit (.int 2), .var "x"])) "f"
    [exGuarded true 7, exGuarded true 8, exGuarded true 9] = some [some 1, some 8, some 9] := by decide +kernel
  obtain ⟨w, p', I, m, h1, h2, -⟩ := runIn_items h
  exact ⟨w, p', h1, exLaw_step (.here (.equation .arrowAssoc)),
    exLaw_conditions _ _ rfl fun _ => by decide⟩

/-- Not a law without registers: `a -> b -> c` is not `a -> (b -> c)`. -/
theorem C67_not_arrow_assoc :
    runIn noExtern (exLaw [] (.arrow (.lit (.int 1)) [.lit (.int 2), .var "x"])) "f"
      [exGuarded true 7, exGuarded true 8, exGuarded true 9] = some [some 1, some 2, some 9] ∧
    runIn noExtern (exLaw [] (.arrow (.lit (.int 1)) [.paren [.arrow (.lit (.int 2)) [.var "x"]] false]))
      "f" [exGuarded true 7, exGuarded true 8, exGuarded true 9] = some [some 1, some 8, some 9] := by
  constructor <;> decide +kernel

/-- Not a law with registers: `0 fby e` is not `0 -> pre e` (here `e` is `pre x`, and it is only used
from the second instant on). -/
theorem C67_not_fby_universal :
    runIn noExtern (exLaw universal (.arrow (.lit (.int 1))
      [.paren [.fby (.lit (.int 0)) [.pre (.var "x")]] false])) "f"
      [exGuarded true 7, exGuarded true 8, exGuarded true 9] = some [some 1, some 0, some 7] ∧
    runIn noExtern (exLaw universal (.arrow (.lit (.int 1))
      [.paren [.arrow (.lit (.int 0)) [.pre (.pre (.var "x"))]] false])) "f"
      [exGuarded true 7, exGuarded true 8, exGuarded true 9] = some [some 1, none, some 7] := by
  constructor <;> decide +kernel

/-- Not a law: `(a -> b) / (c -> d)` is not `a / c -> b / d`, which divides too early. -/
theorem C67_not_arrow_operator :
    runIn noExtern (exLaw [] (.left (.paren [.arrow (.lit (.int 8)) [.lit (.int 8)]] false)
      [(.div, .paren [.arrow (.lit (.int 1)) [.var "x"]] false)])) "f"
      [exGuarded true 0, exGuarded true 2] = some [some 8, some 4] ∧
    runIn noExtern (exLaw [] (.arrow (.left (.lit (.int 8)) [(.div, .lit (.int 1))])
      [.left (.lit (.int 8)) [(.div, .var "x")]])) "f" [exGuarded true 0, exGuarded true 2] = none := by
  constructor <;> decide +kernel

/-- The laws of `Law` that are not in `Equation` only keep programs legal from left to right:
`0 fby (x when c)` is accepted, and `0 -> pre (x when c)` is not. -/
theorem C67_one_way :
    (outcome (exLaw [] (.fby (.lit (.int 0)) [.paren [.left (.var "x") [(.when, .var "c")]] false]))).isSome
      = true ∧
    (outcome (exLaw [] (.arrow (.lit (.int 0))
      [.pre (.paren [.left (.var "x") [(.when, .var "c")]] false)]))).isSome = false := by
  constructor <;> decide +kernel

end Chandeliers.Props
