import Verif.Lemmas.Unfold
import Verif.Lemmas.Rewrite
import Verif.Props.AnyOrder

/-! # C60: equal expressions can be exchanged -/

set_option autoImplicit false

namespace Chandeliers.Props
open Chandeliers.Err Chandeliers.San Chandeliers.Spec Chandeliers.Syn Chandeliers.Rep Chandeliers.Prg

/-- C60.  In the nodes of a program, expressions are exchanged for others that have the same value at
all instants, whatever the values of the variables.  If both programs are accepted, rustc refuses both
or neither, the constants have the same values, and every node has the same type, returns the same
outputs on the same histories and panics on the same histories. -/
theorem C60_exchange (A : Arith) (X : Extern) {p r : SrcProg} {p' r' : Prog} {w w' : List Report}
    (hr : List.Forall₂ (Rewritten fun universal n n' => ExchangedNode
      (fun _ e e' => SameValue universal A (SrcNode.vars n) (SrcNode.clocks n) e e') n n') p r)
    (h : decl (compile p) = .done w (some p')) (h' : decl (compile r) = .done w' (some r'))
    (hX : ExternOk X p) (hg : DistinctGenerics p) (ht : TidyProg p) (ht' : TidyProg r) :
    Both (· = ·) (fun I I' : Items => AlikeItems (fun _ _ => True) I.consts I'.consts I.nodes I'.nodes)
      (link A X p'.decls) (link A X r'.decls) :=
  link_rewritten (exchanged_faced (B := fun u n _ e e' =>
      SameValue u A (SrcNode.vars n) (SrcNode.clocks n) e e'))
    (fun _ _ _ _ _ _ _ _ _ _ _ _ _ hn _ _ _ _ is outs => answers_equal hn (fun h => h) is outs)
    hr h h' hX hg ht ht'

/-- C60.  Parentheses can be added in any places where not only a variable may stand: the program is
still accepted, and it does the same. -/
theorem C60_parentheses (A : Arith) (X : Extern) {p r : SrcProg} {p' : Prog} {w : List Report}
    (hr : List.Forall₂ (Rewritten fun _ n n' => ExchangedNode Wraps n n') p r)
    (h : decl (compile p) = .done w (some p')) (hX : ExternOk X p) (hg : DistinctGenerics p)
    (ht : TidyProg p) : ∃ w' r', decl (compile r) = .done w' (some r') ∧
      Both (· = ·)
        (fun I I' : Items => AlikeItems (fun _ _ => True) I.consts I'.consts I.nodes I'.nodes)
        (link A X p'.decls) (link A X r'.decls) := by
  obtain ⟨w', r', h'⟩ := accepted_rewritten wraps_keepsNode hg hr ⟨w, p', h⟩
  exact ⟨w', r', h', link_rewritten (exchanged_faced (B := fun _ _ => Wraps))
    (fun _ _ _ _ _ _ _ _ _ _ _ _ _ hn _ _ _ _ is outs => answers_equal hn wraps_equal is outs)
    hr h h' hX hg ht (tidy_rewritten (fun h => wraps_tidy h) hr ht)⟩

/-- C60.  In the nodes of a program, uses of a variable are replaced by its definition: the program is
still accepted, and it does the same.  With registers this holds without further conditions; without,
a definition that has a value before the first instant must not get under a delay. -/
theorem C60_unfold (A : Arith) (X : Extern) {p r : SrcProg} {p' : Prog} {w : List Report}
    (hr : List.Forall₂ (Rewritten UnfoldedNode) p r)
    (h : decl (compile p) = .done w (some p')) (hX : ExternOk X p) (hg : DistinctGenerics p)
    (ht : TidyProg p) : ∃ w' r', decl (compile r) = .done w' (some r') ∧
      Both (· = ·)
        (fun I I' : Items => AlikeItems (fun _ _ => True) I.consts I'.consts I.nodes I'.nodes)
        (link A X p'.decls) (link A X r'.decls) := by
  obtain ⟨w', r', h'⟩ := accepted_rewritten unfolded_keepsNode hg hr ⟨w, p', h⟩
  exact ⟨w', r', h', link_rewritten unfolded_faced
    (fun _ _ _ _ _ _ _ _ _ _ _ _ _ hn hi _ hL _ is outs => answers_unfolded hn hi hL is outs)
    hr h h' hX hg ht (tidy_rewritten (fun h => unfolded_tidy h) hr ht)⟩

/-- C60, the other way round: uses of the definition are replaced by the variable.  Here acceptance of
the new program `p` is asked for. -/
theorem C60_fold (A : Arith) (X : Extern) {p r : SrcProg} {p' r' : Prog} {w w' : List Report}
    (hr : List.Forall₂ (Rewritten UnfoldedNode) p r)
    (h : decl (compile p) = .done w (some p')) (h' : decl (compile r) = .done w' (some r'))
    (hX : ExternOk X p) (hg : DistinctGenerics p) (ht : TidyProg p) :
    Both (· = ·) (fun I I' : Items => AlikeItems (fun _ _ => True) I.consts I'.consts I.nodes I'.nodes)
      (link A X p'.decls) (link A X r'.decls) :=
  link_rewritten unfolded_faced
    (fun _ _ _ _ _ _ _ _ _ _ _ _ _ hn hi _ hL _ is outs => answers_unfolded hn hi hL is outs)
    hr h h' hX hg ht (tidy_rewritten (fun h => unfolded_tidy h) hr ht)

theorem refLeft_append (W : World) (t : Int) : ∀ (r r' : List (LOp × Src)) (v : Value),
    refLeft W v (r ++ r') t = (refLeft W v r t).bind fun w => refLeft W w r' t
  | [], r', v => by rw [List.nil_append, refLeft]; rfl
  | (op, e) :: r, r', v => by
    rw [List.cons_append, refLeft, refLeft]
    cases ref W e t with
    | none => rfl
    | some w =>
      dsimp only [Option.bind_eq_bind, Option.bind_some]
      cases applyLOp W.arith op v w with
      | none => rfl
      | some u => exact refLeft_append W t r r' u

theorem uniLeft_append (W : World) (D : String → Clock) (t : Nat) :
    ∀ (r r' : List (LOp × Src)) (v : Value),
    uniLeft W D v (r ++ r') t = (uniLeft W D v r t).bind fun w => uniLeft W D w r' t
  | [], r', v => by rw [List.nil_append, uniLeft]; rfl
  | (op, e) :: r, r', v => by
    rw [List.cons_append, uniLeft, uniLeft]
    cases uni W D e t with
    | none => rfl
    | some w =>
      dsimp only [Option.bind_eq_bind, Option.bind_some]
      cases applyLOp W.arith op v w with
      | none => rfl
      | some u => exact uniLeft_append W D t r r' u

theorem uniOnLeft_append (W : World) (D : String → Clock) (t : Nat) :
    ∀ (r r' : List (LOp × Src)) (v : Option Bool),
    uniOnLeft W D v (r ++ r') t = uniOnLeft W D (uniOnLeft W D v r t) r' t
  | [], r', v => by rw [List.nil_append, uniOnLeft]
  | (op, e) :: r, r', v => by
    cases op <;> simp only [List.cons_append, uniOnLeft, uniOnLeft_append W D t r r']

theorem shapeLeft_append : ∀ (r r' : List (LOp × Src)) (s : Tup Unit),
    shapeLeft s (r ++ r') = shapeLeft (shapeLeft s r) r'
  | [], r', v => by rw [List.nil_append, shapeLeft]
  | (op, e) :: r, r', v => by
    cases op <;> simp only [List.cons_append, shapeLeft, shapeLeft_append r r']

/-- C60.  An instance of equal values: `e ∘₁ e₁ … ∘ₙ eₙ` is `(e ∘₁ e₁ … ∘ᵢ eᵢ) … ∘ₙ eₙ`. -/
theorem C60_prefix (universal : Bool) (A : Arith) (vars : List String) (clocks : String → Clock)
    (e : Src) (r r' : List (LOp × Src)) :
    SameValue universal A vars clocks (.left e (r ++ r')) (.left (.paren [.left e r] false) r') where
  default _ S g N t := by
    rw [ref, ref, ref, refList, refList, ref]
    cases ref ⟨A, vars, S, g, N⟩ e t with
    | none => rfl
    | some v =>
      dsimp only [Option.bind_eq_bind, Option.bind_some]
      rw [refLeft_append]
      cases refLeft ⟨A, vars, S, g, N⟩ v r t <;> rfl
  universal _ S g N t := by
    refine ⟨?_, ?_, ?_⟩
    · rw [uni, uni, uni, uniList, uniList, uni]
      cases uni ⟨A, vars, S, g, N⟩ clocks e t with
      | none => rfl
      | some v =>
        dsimp only [Option.bind_eq_bind, Option.bind_some]
        rw [uniLeft_append]
        cases uniLeft ⟨A, vars, S, g, N⟩ clocks v r t <;> rfl
    · rw [uniOn, uniOn, uniOn, uniOnAll, uniOnAll, uniOn, uniOnLeft_append, Uni.both_true]
    · rw [uniShape, uniShape, uniShape, uniShape, shapeLeft_append]

/-! ## C26, with registers -/

/-- The same node with its equations in another order. -/
def Reordered (_ : Bool) (n n' : SrcNode) : Prop :=
  ∃ defs, defs.Perm n.defs ∧ n' = { n with defs := defs }

theorem reordered_answers {A : Arith} {g : Globals} {N : String → Option Machine} {u : Bool}
    {n n' : SrcNode} (h : Reordered u n n') (is outs : List Value) :
    Answers A g N u n is outs ↔ Answers A g N u n' is outs := by
  obtain ⟨defs, hp, rfl⟩ := h
  refine exists_congr fun S => and_congr_left fun _ => ?_
  cases u with
  | false =>
    simp only [Bool.false_eq_true, if_false]
    exact ⟨fun h => ⟨h.inputs, fun t ht st hst => h.defs t ht st (hp.mem_iff.1 hst)⟩,
      fun h => ⟨h.inputs, fun t ht st hst => h.defs t ht st (hp.mem_iff.2 hst)⟩⟩
  | true =>
    simp only [if_true]
    exact ⟨fun h => ⟨h.inputs, fun t ht st hst => h.defs t ht st (hp.mem_iff.1 hst)⟩,
      fun h => ⟨h.inputs, fun t ht st hst => h.defs t ht st (hp.mem_iff.2 hst)⟩⟩

theorem covers_redone {p r : SrcProg} (h : Covers p r) : Redone Reordered p r := by
  intro d hd
  match d with
  | ⟨a, .node n⟩ =>
    obtain ⟨defs, h1, h2⟩ := covers_node h hd
    exact ⟨_, ⟨defs, h1, rfl⟩, h2⟩
  | ⟨a, .const _⟩ => exact covers_const h hd
  | ⟨a, .extConst _ _⟩ => exact covers_extConst h hd
  | ⟨a, .extNode _ _ _⟩ => exact covers_extNode h hd

theorem reordered_symm {u : Bool} {n n' : SrcNode} (h : Reordered u n n') : Reordered u n' n := by
  obtain ⟨defs, hp, rfl⟩ := h
  exact ⟨n.defs, hp.symm, rfl⟩

theorem redone_back {p r : SrcProg} (h : Redone Reordered p r) : Redone (Back Reordered) p r := by
  intro d hd
  match d with
  | ⟨a, .node n⟩ =>
    obtain ⟨n', h1, h2⟩ := redone_node h hd
    exact ⟨n', reordered_symm h1, h2⟩
  | ⟨a, .const _⟩ => exact redone_const h hd
  | ⟨a, .extConst _ _⟩ => exact redone_extConst h hd
  | ⟨a, .extNode _ _ _⟩ => exact redone_extNode h hd

/-- C26.  Programs with registers too: whatever the order of the declarations and of the equations of
the nodes, the compiler accepts the program, and it does the same.  For nodes with registers the
conditions of C59 are asked for. -/
theorem C26_program_registers (A : Arith) (X : Extern) {p q r : SrcProg} {p' : Prog}
    {w : List Report} (h : decl (compile p) = .done w (some p')) (hX : ExternOk X p)
    (hg : DistinctGenerics p) (ht : TidyProg p) (hs : List.Forall₂ Shuffled p q) (hp : q.Perm r) :
    ∃ w' r', decl (compile r) = .done w' (some r') ∧
      Both (· = ·)
        (fun I I' : Items => AlikeItems (fun _ _ => True) I.consts I'.consts I.nodes I'.nodes)
        (link A X p'.decls) (link A X r'.decls) := by
  obtain ⟨w', r', h'⟩ := (C50_any_order hg hs hp).1 ⟨w, p', h⟩
  obtain ⟨hpr, hrp⟩ := covers_prog hs hp
  have hF : Faced Reordered := ⟨by rintro u n n' ⟨d, -, rfl⟩; rfl, by rintro u n n' ⟨d, -, rfl⟩; rfl⟩
  have ht' : TidyProg r := by
    intro attrs n hm hu
    obtain ⟨defs, h1, h2⟩ := covers_node hrp hm
    have := ht attrs _ h2 hu
    exact ⟨⟨this.clocks.declared, fun st hst => this.clocks.used st (h1.mem_iff.2 hst)⟩,
      fun st hst => this.flat st (h1.mem_iff.2 hst)⟩
  refine ⟨w', r', h', ?_⟩
  have := link_redone (A := A) (X := X) (congr_alike A) hF (lifts_alike hF
    fun _ _ _ _ _ _ _ _ _ _ _ _ _ h _ _ _ _ is outs => reordered_answers h is outs)
    (covers_redone hpr) (redone_back (covers_redone hrp)) h h' hX hg ht ht'
  revert this
  cases link A X p'.decls <;> cases link A X r'.decls <;> intro this
  · exact this
  · exact this
  · exact this
  · exact relItems_alike this

/-! ## Examples -/

/-- ```
node count(x: int) returns (n: int); let n = 0 fby (n + 1); tel
node f(x: int) returns (o: int); var c: int; let c = «def»; o = «out»; tel
``` -/
def exUnfold (attrs : List Attribute) (c o : Src) : SrcProg := [
  ⟨attrs, .node {
    name := "count"
    inputs := [⟨["x"], .int, .implicit⟩]
    outputs := [⟨["n"], .int, .implicit⟩]
    locals := []
    defs := [.def_ (.var "n") (.fby (.lit (.int 0)) [.paren [.left (.var "n") [(.add, .lit (.int 1))]] false])] }⟩,
  ⟨attrs, .node {
    name := "f"
    inputs := [⟨["x"], .int, .implicit⟩]
    outputs := [⟨["o"], .int, .implicit⟩]
    locals := [⟨["c"], .int, .implicit⟩]
    defs := [.def_ (.var "c") c, .def_ (.var "o") o] }⟩]

theorem exUnfold_extern (attrs : List Attribute) (c o : Src) :
    ExternOk noExtern (exUnfold attrs c o) := by
  constructor
  all_goals
    intros
    rename_i hm
    simp [exUnfold] at hm

theorem exUnfold_generics {attrs : List Attribute} (c o : Src) (h : (meaning attrs).generics = []) :
    DistinctGenerics (exUnfold attrs c o) := by
  intro d hd
  simp only [exUnfold, List.mem_cons, List.not_mem_nil, or_false] at hd
  rcases hd with rfl | rfl <;> simp [h]

/-- Replacing `c`, at a place that may be delayed. -/
theorem exUnfold_unfolded {attrs : List Attribute} {c : Src} {o o' : Src}
    (h : Exchanged (Unfolds (hasAny attrs ["universal_pre"]) ["x", "o", "c"] "c" c) false o o') :
    List.Forall₂ (Rewritten UnfoldedNode) (exUnfold attrs c o) (exUnfold attrs c o') := by
  refine .cons .same (.cons (.node ⟨?_, "c", c, ?_, ?_, ?_, rfl, rfl, rfl, rfl, ?_⟩) .nil)
  · intro a ha
    simp only [List.mem_append, List.mem_cons, List.not_mem_nil, or_false] at ha
    rcases ha with (rfl | rfl) | rfl <;> simp
  · simp [SrcNode.vars, argNames]
  · exact List.mem_cons_self ..
  · exact List.mem_cons_self ..
  · refine .cons (.def_ (exchanged_same _ _)) (.cons (.def_ h) .nil)

theorem exUnfold_tidy {attrs : List Attribute} {c o : Src}
    (h : hasAny attrs ["universal_pre"] = true → guards c = [] ∧ guards o = [] ∧
      noOneTuple c = true ∧ noOneTuple o = true) : TidyProg (exUnfold attrs c o) := by
  intro a n hm hu
  simp only [exUnfold, List.mem_cons, List.not_mem_nil, or_false, SrcDecl.mk.injEq,
    SrcItem.node.injEq] at hm
  rcases hm with ⟨rfl, rfl⟩ | ⟨rfl, rfl⟩
  · refine ⟨⟨?_, ?_⟩, ?_⟩
    · intro a ha b x hx
      simp only [List.mem_append, List.mem_cons, List.not_mem_nil, or_false] at ha
      rcases ha with rfl | rfl <;> cases hx
    · intro st hst
      simp only [List.mem_cons, List.not_mem_nil, or_false] at hst
      subst hst
      simp [SrcStmt.expr, guards, guardsList, guardsLeft]
    · intro st hst
      simp only [List.mem_cons, List.not_mem_nil, or_false] at hst
      subst hst
      decide
  · obtain ⟨h1, h2, h3, h4⟩ := h hu
    refine ⟨⟨?_, ?_⟩, ?_⟩
    · intro a ha b x hx
      simp only [List.mem_append, List.mem_cons, List.not_mem_nil, or_false] at ha
      rcases ha with (rfl | rfl) | rfl <;> cases hx
    · intro st hst
      simp only [List.mem_cons, List.not_mem_nil, or_false] at hst
      rcases hst with rfl | rfl <;> simp [SrcStmt.expr, h1, h2]
    · intro st hst
      simp only [List.mem_cons, List.not_mem_nil, or_false] at hst
      rcases hst with rfl | rfl
      · exact h3
      · exact h4

theorem runIn_items {X : Extern} {p : SrcProg} {f : String} {is : List Value} {vs : List (Option Int)}
    (h : runIn X p f is = some vs) : ∃ w p' I m, decl (compile p) = .done w (some p') ∧
      link exArith X p'.decls = .ok I ∧ I.nodes f = some m ∧ ∃ os, m.run is = .ok os := by
  unfold runIn at h
  cases hI : itemsOf X p with
  | none => rw [hI] at h; cases h
  | some I =>
    rw [hI] at h
    dsimp only at h
    obtain ⟨w, p', h1, h2⟩ := itemsOf_some hI
    cases hm : I.nodes f with
    | none => rw [hm] at h; cases h
    | some m =>
      rw [hm] at h
      dsimp only at h
      cases ho : m.run is with
      | error e => rw [ho] at h; cases h
      | ok os => exact ⟨w, p', I, m, h1, h2, hm, os, ho⟩

/-- `x + 1`. -/
def exPlusOne : Src := .left (.var "x") [(.add, .lit (.int 1))]

/-- `0 -> pre c + count(c)` -/
def exLateUse (c₁ c₂ : Src) : Src := .arrow (.lit (.int 0)) [.left (.pre c₁)
  [(.add, .call "count" [c₂] false)]]

/-- Non-vacuity, without registers: in `0 -> pre c + count(c)`, `c` is `x + 1`, and one use is
delayed. -/
example : runIn noExtern (exUnfold [] exPlusOne (exLateUse (.var "c") (.var "c"))) "f"
      [exInt 4, exInt 5, exInt 6] = some [some 0, some 6, some 8] ∧
    List.Forall₂ (Rewritten UnfoldedNode) (exUnfold [] exPlusOne (exLateUse (.var "c") (.var "c")))
      (exUnfold [] exPlusOne (exLateUse (.paren [exPlusOne] false) (.paren [exPlusOne] false))) ∧
    ∃ w p', decl (compile (exUnfold [] exPlusOne (exLateUse (.var "c") (.var "c")))) =
      .done w (some p') ∧ ∃ w' r', decl (compile (exUnfold [] exPlusOne
        (exLateUse (.paren [exPlusOne] false) (.paren [exPlusOne] false)))) = .done w' (some r') ∧
      Both (· = ·)
        (fun I I' : Items => AlikeItems (fun _ _ => True) I.consts I'.consts I.nodes I'.nodes)
        (link exArith noExtern p'.decls) (link exArith noExtern r'.decls) := by
  have h : runIn noExtern (exUnfold [] exPlusOne (exLateUse (.var "c") (.var "c"))) "f"
      [exInt 4, exInt 5, exInt 6] = some [some 0, some 6, some 8] := by decide +kernel
  have hr : List.Forall₂ (Rewritten UnfoldedNode)
      (exUnfold [] exPlusOne (exLateUse (.var "c") (.var "c")))
      (exUnfold [] exPlusOne (exLateUse (.paren [exPlusOne] false) (.paren [exPlusOne] false))) := by
    refine exUnfold_unfolded (.arrow .lit (.cons (.left (.pre (.here ⟨rfl, rfl, fun _ _ => rfl⟩))
      (.op (.call (.cons (.here ⟨rfl, rfl, ?_⟩) .nil)) (by simp) (by simp) .nil)) .nil))
    intro _ hl
    cases hl
  obtain ⟨w, p', I, m, h1, h2, -⟩ := runIn_items h
  exact ⟨h, hr, w, p', h1, C60_unfold exArith noExtern hr h1 (exUnfold_extern ..)
    (exUnfold_generics _ _ rfl) (exUnfold_tidy fun hu => by cases hu)⟩

/-- Non-vacuity, with registers: any use, of any definition. -/
example : runIn noExtern (exUnfold universal (.lit (.int 5)) (exLateUse (.var "c") (.var "c"))) "f"
      [exInt 4, exInt 5, exInt 6] = some [some 0, some 6, some 7] ∧
    ∃ w p', decl (compile (exUnfold universal (.lit (.int 5)) (exLateUse (.var "c") (.var "c")))) =
      .done w (some p') ∧ ∃ w' r', decl (compile (exUnfold universal (.lit (.int 5))
        (exLateUse (.paren [.lit (.int 5)] false) (.var "c")))) = .done w' (some r') ∧
      Both (· = ·)
        (fun I I' : Items => AlikeItems (fun _ _ => True) I.consts I'.consts I.nodes I'.nodes)
        (link exArith noExtern p'.decls) (link exArith noExtern r'.decls) := by
  have h : runIn noExtern (exUnfold universal (.lit (.int 5)) (exLateUse (.var "c") (.var "c"))) "f"
      [exInt 4, exInt 5, exInt 6] = some [some 0, some 6, some 7] := by decide +kernel
  have hr : List.Forall₂ (Rewritten UnfoldedNode)
      (exUnfold universal (.lit (.int 5)) (exLateUse (.var "c") (.var "c")))
      (exUnfold universal (.lit (.int 5)) (exLateUse (.paren [.lit (.int 5)] false) (.var "c"))) := by
    refine exUnfold_unfolded (.arrow .lit (.cons (.left (.pre (.here ⟨rfl, rfl, ?_⟩))
      (exchangedOps_same _ _)) .nil))
    intro hu
    cases hu
  obtain ⟨w, p', I, m, h1, h2, -⟩ := runIn_items h
  exact ⟨h, w, p', h1, C60_unfold exArith noExtern hr h1 (exUnfold_extern ..)
    (exUnfold_generics _ _ rfl) (exUnfold_tidy fun _ => by decide)⟩

/-- C60 is false without its condition on delays (F24): `c` is 5.  In `0 -> count(pre c)` the counter
starts at the second instant, and in `0 -> count(pre 5)` at the first. -/
theorem C60_not_constants :
    runIn noExtern (exUnfold [] (.lit (.int 5)) (.arrow (.lit (.int 0))
      [.call "count" [.pre (.var "c")] false])) "f" [exInt 7, exInt 7, exInt 7] =
        some [some 0, some 0, some 1] ∧
    runIn noExtern (exUnfold [] (.lit (.int 5)) (.arrow (.lit (.int 0))
      [.call "count" [.pre (.paren [.lit (.int 5)] false)] false])) "f" [exInt 7, exInt 7, exInt 7] =
        some [some 0, some 1, some 2] := by
  constructor <;> decide +kernel

/-- Non-vacuity for parentheses: `(0) -> (pre c) + count((c))`, with and without registers. -/
example (attrs : List Attribute) (ha : attrs = [] ∨ attrs = universal) :
    ∃ w p', decl (compile (exUnfold attrs exPlusOne (exLateUse (.var "c") (.var "c")))) =
      .done w (some p') ∧ ∃ w' r', decl (compile (exUnfold attrs exPlusOne (.arrow
        (.paren [.lit (.int 0)] false) [.left (.paren [.pre (.var "c")] false)
          [(.add, .call "count" [.paren [.var "c"] false] false)]]))) = .done w' (some r') ∧
      Both (· = ·)
        (fun I I' : Items => AlikeItems (fun _ _ => True) I.consts I'.consts I.nodes I'.nodes)
        (link exArith noExtern p'.decls) (link exArith noExtern r'.decls) := by
  have h : (runIn noExtern (exUnfold attrs exPlusOne (exLateUse (.var "c") (.var "c"))) "f" []) =
      some [] := by rcases ha with rfl | rfl <;> decide +kernel
  obtain ⟨w, p', I, m, h1, h2, -⟩ := runIn_items h
  refine ⟨w, p', h1, C60_parentheses exArith noExtern ?_ h1 (exUnfold_extern ..)
    (exUnfold_generics _ _ ?_) (exUnfold_tidy fun _ => by decide)⟩
  · refine .cons .same (.cons (.node ⟨rfl, rfl, rfl, rfl, ?_⟩) .nil)
    exact .cons (.def_ (exchanged_same _ _)) (.cons (.def_ (.arrow (.here rfl) (.cons (.left (.here rfl)
      (.op (.call (.cons (.here rfl) .nil)) (by simp) (by simp) .nil)) .nil))) .nil)
  · rcases ha with rfl | rfl <;> rfl

/-- `x + 1 + 2`, or `(x + 1) + 2` -/
def exThreeSum (b : Bool) : Src := if b then .left (.paren [exPlusOne] false) [(.add, .lit (.int 2))]
  else .left (.var "x") [(.add, .lit (.int 1)), (.add, .lit (.int 2))]

/-- Non-vacuity of `C60_exchange`, with and without registers. -/
example (attrs : List Attribute) (ha : attrs = [] ∨ attrs = universal) :
    ∃ w p' w' r', decl (compile (exUnfold attrs (exThreeSum false) (.var "c"))) = .done w (some p') ∧
      decl (compile (exUnfold attrs (exThreeSum true) (.var "c"))) = .done w' (some r') ∧
      Both (· = ·)
        (fun I I' : Items => AlikeItems (fun _ _ => True) I.consts I'.consts I.nodes I'.nodes)
        (link exArith noExtern p'.decls) (link exArith noExtern r'.decls) := by
  have h : (runIn noExtern (exUnfold attrs (exThreeSum false) (.var "c")) "f" []) = some [] := by
    rcases ha with rfl | rfl <;> decide +kernel
  have h' : (runIn noExtern (exUnfold attrs (exThreeSum true) (.var "c")) "f" []) = some [] := by
    rcases ha with rfl | rfl <;> decide +kernel
  obtain ⟨w, p', I, m, h1, h2, -⟩ := runIn_items h
  obtain ⟨w', r', I', m', h1', h2', -⟩ := runIn_items h'
  refine ⟨w, p', w', r', h1, h1', C60_exchange exArith noExtern ?_ h1 h1' (exUnfold_extern ..)
    (exUnfold_generics _ _ ?_) (exUnfold_tidy fun _ => by decide) (exUnfold_tidy fun _ => by decide)⟩
  · refine .cons .same (.cons (.node ⟨rfl, rfl, rfl, rfl, ?_⟩) .nil)
    exact .cons (.def_ (.here (C60_prefix _ _ _ _ (.var "x") [(.add, .lit (.int 1))]
      [(.add, .lit (.int 2))]))) (.cons (.def_ (exchanged_same _ _)) .nil)
  · rcases ha with rfl | rfl <;> rfl

/-- Non-vacuity of `C26_program_registers`: everything the other way round. -/
example : runIn noExtern (exUnfold universal exPlusOne (exLateUse (.var "c") (.var "c"))) "f"
      [exInt 4, exInt 5, exInt 6] = some [some 0, some 6, some 8] ∧
    ∃ w p' w' r', decl (compile (exUnfold universal exPlusOne (exLateUse (.var "c") (.var "c")))) =
      .done w (some p') ∧ decl (compile ((exUnfold universal exPlusOne
        (exLateUse (.var "c") (.var "c"))).map fun d => match d with
          | ⟨a, .node n⟩ => ⟨a, .node { n with defs := n.defs.reverse }⟩
          | d => d).reverse) = .done w' (some r') ∧
      Both (· = ·)
        (fun I I' : Items => AlikeItems (fun _ _ => True) I.consts I'.consts I.nodes I'.nodes)
        (link exArith noExtern p'.decls) (link exArith noExtern r'.decls) := by
  have h : runIn noExtern (exUnfold universal exPlusOne (exLateUse (.var "c") (.var "c"))) "f"
      [exInt 4, exInt 5, exInt 6] = some [some 0, some 6, some 8] := by decide +kernel
  obtain ⟨w, p', I, m, h1, h2, -⟩ := runIn_items h
  obtain ⟨w', r', h3, h4⟩ := C26_program_registers exArith noExtern h1 (exUnfold_extern ..)
    (exUnfold_generics _ _ rfl) (exUnfold_tidy fun _ => by decide)
    (.cons (.node (List.reverse_perm _)) (.cons (.node (List.reverse_perm _)) .nil))
    (List.reverse_perm _).symm
  exact ⟨h, w, p', w', r', h1, h3, h4⟩

end Chandeliers.Props
