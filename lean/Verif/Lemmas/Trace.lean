import Verif.Spec.Trace
import Verif.Lemmas.SolveRun
import Verif.Props.Steps

/-! # Printing: proofs -/

set_option autoImplicit false

namespace Chandeliers.Prt
open Chandeliers.San Chandeliers.Syn Chandeliers.Spec Chandeliers.Props

variable {α β : Type}

theorem pure_res (a : α) : (pure a : W α).res = .ok a := rfl
theorem pure_out (a : α) : (pure a : W α).out = [] := rfl

theorem bind_ok {m : W α} {f : α → W β} {a : α} (h : m.res = .ok a) :
    (m >>= f).res = (f a).res ∧ (m >>= f).out = m.out ++ (f a).out := by
  show (W.bind m f).res = _ ∧ (W.bind m f).out = _
  unfold W.bind
  rw [h]
  exact ⟨rfl, rfl⟩

theorem bind_error {m : W α} {f : α → W β} {p : Panic} (h : m.res = .error p) :
    (m >>= f).res = .error p ∧ (m >>= f).out = m.out := by
  show (W.bind m f).res = _ ∧ (W.bind m f).out = _
  unfold W.bind
  rw [h]
  exact ⟨rfl, rfl⟩

/-- What is computed does not depend on the prints. -/
theorem bind_res {m : W α} {f : α → W β} {r : R α} {g : α → R β} (h : m.res = r)
    (k : ∀ a, r = .ok a → (f a).res = g a) : (m >>= f).res = r >>= g := by
  cases r with
  | error p => exact (bind_error h).1
  | ok a => exact (bind_ok h).1.trans (k a rfl)

section
variable (A : Arith) (D : Shows) (glob : Globals) (ms : List TMachine)

theorem stepAt_res : (ms : List TMachine) → (ss : States (ms.map TMachine.quiet)) → (i : Nat) →
    (v : Value) → (stepAtW ms ss i v).res = States.stepAt (ms.map TMachine.quiet) ss i v
  | [], _, _, _ => rfl
  | m :: ms, (s, ss), 0, v => by
    show (m.step s v >>= _).res = _
    cases h : (m.step s v).res with
    | error p =>
      rw [(bind_error h).1]
      show _ = States.stepAt (m.quiet :: ms.map TMachine.quiet) (s, ss) 0 v
      have : m.quiet.step s v = .error p := h
      simp only [States.stepAt]
      rw [this]
    | ok a =>
      rw [(bind_ok h).1]
      show _ = States.stepAt (m.quiet :: ms.map TMachine.quiet) (s, ss) 0 v
      have : m.quiet.step s v = .ok a := h
      simp only [States.stepAt]
      rw [this]
      rfl
  | m :: ms, (s, ss), i + 1, v => by
    show (stepAtW ms ss i v >>= _).res = _
    have ih := stepAt_res ms ss i v
    show _ = States.stepAt (m.quiet :: ms.map TMachine.quiet) (s, ss) (i + 1) v
    simp only [States.stepAt]
    cases h : States.stepAt (ms.map TMachine.quiet) ss i v with
    | error p => rw [(bind_error (ih.trans h)).1]
    | ok a => rw [(bind_ok (ih.trans h)).1]; rfl

mutual
theorem eval_res (env : Env) : (e : Expr) → (s : WState ms) →
    (evalW A glob ms env e s).res = eval A glob (ms.map TMachine.quiet) env e s
  | .lit l, s => by rw [evalW, eval]; rfl
  | .global x, s => by
    rw [evalW, eval]
    cases glob x <;> rfl
  | .var x dt, s => by
    rw [evalW, eval]
    exact bind_res rfl fun v _ => rfl
  | .tuple es, s => by
    rw [evalW, eval]
    exact bind_res (evalList_res env es s) fun ⟨v, s⟩ _ => rfl
  | .dummyPre e, s => by rw [evalW, eval]; exact eval_res env e s
  | .dummyParen e, s => by rw [evalW, eval]; exact eval_res env e s
  | .bin op l r, s => by
    rw [evalW, eval]
    refine bind_res (eval_res env l s) fun ⟨v, s⟩ _ => ?_
    refine bind_res (eval_res env r s) fun ⟨v', s⟩ _ => ?_
    refine bind_res rfl fun _ _ => ?_
    refine bind_res rfl fun _ _ => ?_
    exact bind_res rfl fun _ _ => rfl
  | .un op e, s => by
    rw [evalW, eval]
    refine bind_res (eval_res env e s) fun ⟨v, s⟩ _ => ?_
    refine bind_res rfl fun _ _ => ?_
    exact bind_res rfl fun _ _ => rfl
  | .cmp op l r, s => by
    rw [evalW, eval]
    refine bind_res (eval_res env l s) fun ⟨v, s⟩ _ => ?_
    refine bind_res (eval_res env r s) fun ⟨v', s⟩ _ => ?_
    refine bind_res rfl fun _ _ => ?_
    refine bind_res rfl fun _ _ => ?_
    exact bind_res rfl fun _ _ => rfl
  | .clock op e b, s => by
    rw [evalW, eval]
    refine bind_res (eval_res env b s) fun ⟨v, s⟩ _ => ?_
    refine bind_res rfl fun _ _ => ?_
    refine bind_res (eval_res env e s) fun ⟨v', s⟩ _ => ?_
    cases op <;> rfl
  | .later dt e e', s => by
    rw [evalW, eval]
    refine bind_res (eval_res env e' s) fun ⟨v, s⟩ _ => ?_
    dsimp only
    split
    · rfl
    · exact eval_res env e s
  | .fetchPre id e, s => by
    rw [evalW, eval]
    cases s.regs[id]? <;> rfl
  | .fetchFby id e e', s => by
    rw [evalW, eval]
    cases s.regs[id]? <;> rfl
  | .flip id e e', s => by
    rw [evalW, eval]
    refine bind_res (eval_res env e s) fun ⟨i, s⟩ _ => ?_
    refine bind_res (eval_res env e' s) fun ⟨c, s⟩ _ => ?_
    dsimp only
    split
    · rfl
    · cases s.flips[id]? <;> rfl
  | .ifx c y n, s => by
    rw [evalW, eval]
    refine bind_res (eval_res env y s) fun ⟨v, s⟩ _ => ?_
    refine bind_res (eval_res env n s) fun ⟨v', s⟩ _ => ?_
    refine bind_res (eval_res env c s) fun ⟨v'', s⟩ _ => ?_
    exact bind_res rfl fun _ _ => rfl
  | .merge c y n, s => by
    rw [evalW, eval]
    refine bind_res (eval_res env c s) fun ⟨v, s⟩ _ => ?_
    refine bind_res rfl fun _ _ => ?_
    refine bind_res (eval_res env y s) fun ⟨v', s⟩ _ => ?_
    exact bind_res (eval_res env n s) fun ⟨v'', s⟩ _ => rfl
  | .substep dt id args, s => by
    rw [evalW, eval]
    split
    · refine bind_res (eval_res env args s) fun ⟨v, s⟩ _ => ?_
      exact bind_res (stepAt_res ms s.nodes id v) fun ⟨o, ss⟩ _ => rfl
    · cases (ms.map TMachine.quiet)[id]? <;> rfl
theorem evalList_res (env : Env) : (es : List Expr) → (s : WState ms) →
    (evalListW A glob ms env es s).res = evalList A glob (ms.map TMachine.quiet) env es s
  | [], s => by rw [evalListW, evalList]; rfl
  | e :: es, s => by
    rw [evalListW, evalList]
    refine bind_res (eval_res env e s) fun ⟨v, s⟩ _ => ?_
    exact bind_res (evalList_res env es s) fun ⟨v', s⟩ _ => rfl
end

theorem exec_res (st : Stmt) (x : Env × WState ms) :
    (execW A glob ms st x).res = exec A glob (ms.map TMachine.quiet) st x := by
  obtain ⟨env, s⟩ := x
  cases st with
  | let_ t e =>
    rw [execW, exec]
    refine bind_res (eval_res A glob ms env e s) fun ⟨v, s⟩ _ => ?_
    exact bind_res rfl fun _ _ => rfl
  | assert e =>
    rw [execW, exec]
    refine bind_res (eval_res A glob ms env e s) fun ⟨v, s⟩ _ => ?_
    refine bind_res rfl fun _ _ => ?_
    exact bind_res rfl fun _ _ => rfl
  | updateRegister id e =>
    rw [execW, exec]
    refine bind_res (eval_res A glob ms env e s) fun ⟨v, s⟩ _ => ?_
    exact bind_res rfl fun _ _ => rfl
  | initRegister id val clk =>
    unfold execW exec
    cases clk with
    | none => rfl
    | some clk =>
      refine bind_res (eval_res A glob ms env clk s) fun ⟨v, s⟩ _ => ?_
      refine bind_res rfl fun _ _ => ?_
      refine bind_res rfl fun s _ => ?_
      cases val with
      | none => rfl
      | some val =>
        refine bind_res (eval_res A glob ms env val s) fun ⟨v, s⟩ _ => ?_
        exact bind_res rfl fun _ _ => rfl

theorem execAll_res : (sts : List Stmt) → (x : Env × WState ms) →
    (execAllW A glob ms sts x).res = execAll A glob (ms.map TMachine.quiet) sts x
  | [], x => rfl
  | st :: sts, x => by
    rw [execAllW, execAll]
    exact bind_res (exec_res A glob ms st x) fun y _ => execAll_res sts y

end

/-! ## Formats -/

theorem scan_name : (x acc : List Char) → (rest : List Char) → '{' ∉ x → '}' ∉ x →
    scan (some acc) (x ++ '}' :: rest) =
      (scan none rest).map (.arg (String.ofList (acc.reverse ++ x)) :: ·)
  | [], acc, rest, _, _ => by simp [scan]
  | c :: x, acc, rest, h1, h2 => by
    simp only [List.mem_cons, not_or] at h1 h2
    have ih := scan_name x (c :: acc) rest h1.2 h2.2
    simp only [List.cons_append, scan, if_neg (Ne.symm h1.1), if_neg (Ne.symm h2.1)]
    rw [ih]
    simp

theorem scan_open {c : Char} {cs : List Char} (h : c ≠ '{') :
    scan none ('{' :: c :: cs) = scan (some []) (c :: cs) := by
  rw [scan]
  · simp
  · intro cs' _ e; simp only [List.cons.injEq] at e; exact h e.1
  · intro cs' e; exact absurd e (by decide)

theorem scan_char {c : Char} {cs : List Char} (h : c ≠ '{') (h' : c ≠ '}') :
    scan none (c :: cs) = (scan none cs).map (.char c :: ·) := by
  rw [scan]
  · simp [h, h']
  · intro cs' e; exact absurd e h
  · intro cs' e; exact absurd e h'

theorem scan_written : (ps : List Piece) →
    (∀ x, .arg x ∈ ps → '{' ∉ x.toList ∧ '}' ∉ x.toList) → scan none (written ps) = some ps
  | [], _ => rfl
  | .char c :: ps, h => by
    have ih := scan_written ps fun x hx => h x (by simp [hx])
    rw [written]
    by_cases h1 : c = '{'
    · subst h1; simp [scan, ih]
    by_cases h2 : c = '}'
    · subst h2; simp [scan, ih]
    rw [if_neg (by simp [h1, h2]), List.singleton_append, scan_char h1 h2, ih]
    rfl
  | .arg x :: ps, h => by
    have ih := scan_written ps fun x hx => h x (by simp [hx])
    obtain ⟨h1, h2⟩ := h x (by simp)
    rw [written]
    have h3 := scan_name x.toList [] (written ps) h1 h2
    have h4 : scan none ('{' :: (x.toList ++ '}' :: written ps)) =
        scan (some []) (x.toList ++ '}' :: written ps) := by
      cases e : x.toList with
      | nil => exact scan_open (by decide)
      | cons c cs =>
        rw [e] at h1
        exact scan_open (by rintro rfl; exact h1 (by simp))
    rw [h4, h3, ih]
    simp

theorem scan_name_inv : (cs acc : List Char) → {ps : List Piece} → scan (some acc) cs = some ps →
    ∃ x rest ps', cs = x ++ '}' :: rest ∧ '{' ∉ x ∧ '}' ∉ x ∧
      ps = .arg (String.ofList (acc.reverse ++ x)) :: ps' ∧ scan none rest = some ps'
  | [], acc, ps, h => by simp [scan] at h
  | c :: cs, acc, ps, h => by
    rw [scan] at h
    by_cases h1 : c = '}'
    · rw [if_pos h1, Option.map_eq_some_iff] at h
      obtain ⟨ps', h2, h3⟩ := h
      exact ⟨[], cs, ps', by simp [h1], by simp, by simp, by simp [← h3], h2⟩
    · rw [if_neg h1] at h
      by_cases h2 : c = '{'
      · rw [if_pos h2] at h; cases h
      · rw [if_neg h2] at h
        obtain ⟨x, rest, ps', k1, k2, k3, k4, k5⟩ := scan_name_inv cs (c :: acc) h
        refine ⟨c :: x, rest, ps', by simp [k1], ?_, ?_, by simp [k4], k5⟩
        · simp [k2, Ne.symm h2]
        · simp [k3, Ne.symm h1]

theorem scan_inv : (k : Nat) → (cs : List Char) → cs.length ≤ k → {ps : List Piece} →
    scan none cs = some ps →
    cs = written ps ∧ ∀ x, .arg x ∈ ps → '{' ∉ x.toList ∧ '}' ∉ x.toList
  | _, [], _, ps, h => by
    simp only [scan, Option.some.injEq] at h
    subst h
    exact ⟨rfl, by simp⟩
  | 0, _ :: _, hk, _, _ => by simp at hk
  | k + 1, c :: cs, hk, ps, h => by
    simp only [List.length_cons, Nat.add_le_add_iff_right] at hk
    by_cases h1 : c = '{'
    · subst h1
      cases cs with
      | nil => simp [scan] at h
      | cons d ds =>
        by_cases h2 : d = '{'
        · subst h2
          rw [scan, Option.map_eq_some_iff] at h
          obtain ⟨ps', h3, rfl⟩ := h
          obtain ⟨k1, k2⟩ := scan_inv k ds (by simp at hk; omega) h3
          exact ⟨by simp [written, ← k1], fun x hx => k2 x (by simpa using hx)⟩
        · rw [scan_open h2] at h
          obtain ⟨x, rest, ps', e1, e2, e3, rfl, e5⟩ := scan_name_inv _ _ h
          have hl := congrArg List.length e1
          simp only [List.length_cons, List.length_append] at hl hk
          obtain ⟨k1, k2⟩ := scan_inv k rest (by omega) e5
          refine ⟨by simp [written, e1, ← k1], fun y hy => ?_⟩
          simp only [List.reverse_nil, List.nil_append, List.mem_cons, Piece.arg.injEq] at hy
          rcases hy with rfl | hy
          · simp [e2, e3]
          · exact k2 y hy
    · by_cases h2 : c = '}'
      · subst h2
        cases cs with
        | nil => simp [scan] at h
        | cons d ds =>
          by_cases h3 : d = '}'
          · subst h3
            rw [scan, Option.map_eq_some_iff] at h
            obtain ⟨ps', h3, rfl⟩ := h
            obtain ⟨k1, k2⟩ := scan_inv k ds (by simp at hk; omega) h3
            exact ⟨by simp [written, ← k1], fun x hx => k2 x (by simpa using hx)⟩
          · rw [scan] at h
            · simp at h
            · intro cs' e; exact absurd e (by decide)
            · intro cs' _ e; simp only [List.cons.injEq] at e; exact h3 e.1
      · rw [scan_char h1 h2, Option.map_eq_some_iff] at h
        obtain ⟨ps', h3, rfl⟩ := h
        obtain ⟨k1, k2⟩ := scan_inv k cs hk h3
        refine ⟨?_, fun x hx => k2 x (by simpa using hx)⟩
        rw [written, if_neg (by simp [h1, h2]), ← k1]
        rfl

/-- Whether a format is one, and mentions only variables that exist. -/
def formatOk (fmt : String) (vars : List String) : Bool :=
  match scan none fmt.toList with
  | some ps => ps.all fun
    | .char _ => true
    | .arg x => x ∈ vars || x == "_ext" || x == "_this" || x == "_clk"
  | none => false

theorem formatOk_iff {fmt : String} {vars : List String} :
    formatOk fmt vars = true ↔ ∃ ps, Format fmt vars ps := by
  unfold formatOk
  constructor
  · intro h
    split at h
    · rename_i ps hps
      obtain ⟨k1, k2⟩ := scan_inv _ _ (Nat.le_refl _) hps
      refine ⟨ps, k1, k2, fun x hx => ?_⟩
      have := List.all_eq_true.1 h _ hx
      simp only [Bool.or_eq_true, decide_eq_true_eq, beq_iff_eq] at this
      grind
    · cases h
  · rintro ⟨ps, h⟩
    rw [h.text, scan_written ps h.plain]
    simp only [List.all_eq_true]
    intro q hq
    cases q with
    | char c => rfl
    | arg x =>
      have := h.vars x hq
      simp only [Bool.or_eq_true, decide_eq_true_eq, beq_iff_eq]
      grind

theorem render_spell {look : String → Option String} {look' : String → String} : (ps : List Piece) →
    (∀ x, .arg x ∈ ps → look x = some (look' x)) → render look ps = some (spell look' ps)
  | [], _ => rfl
  | .char c :: ps, h => by
    rw [render, spell, render_spell ps fun x hx => h x (by simp [hx])]
    rfl
  | .arg x :: ps, h => by
    rw [render, spell, render_spell ps fun x hx => h x (by simp [hx]), h x (by simp)]

/-- A block prints its text. -/
theorem nillable_onScreen (D : Shows) : (v : Nillable Scalar) → D.nillable v = onScreen D v
  | .nil => rfl
  | .defined (.int _) => rfl
  | .defined (.bool true) => rfl
  | .defined (.bool false) => rfl
  | .defined (.float _) => rfl
  | .defined .unit => rfl
  | .defined (.other _ _) => rfl

theorem printBlock_ok {D : Shows} {file : TraceFile} {fmt ext this : String} {clk : Nat}
    {vs : List TyVar} {env : Env} {ps : List Piece} {X : String → Nillable Scalar}
    (hf : Format fmt (vs.map (·.name)) ps) (he : ∀ v ∈ vs, env v.name = some (X v.name)) :
    printBlock D file fmt ext this clk vs env =
      ⟨.ok (), message file (spell (shown D ext this clk (vs.map (·.name)) X) ps)⟩ := by
  unfold printBlock
  rw [if_pos (by simp only [List.all_eq_true]; intro v hv; simp [he v hv])]
  unfold printFmt
  rw [hf.text, scan_written ps hf.plain]
  have := render_spell (look := traceVars D ext this clk vs env)
    (look' := shown D ext this clk (vs.map (·.name)) X) ps (by
      intro x hx
      unfold traceVars shown
      by_cases h : x ∈ vs.map (·.name)
      · rw [if_pos h, if_pos h]
        obtain ⟨v, hv, rfl⟩ := List.mem_map.1 h
        rw [he v hv, Option.map_some, nillable_onScreen]
      · rw [if_neg h, if_neg h]
        rcases (hf.vars x hx).resolve_left h with rfl | rfl | rfl
        · simp
        · simp
        · simp)
  simp only [Option.bind_some, this]
  rfl

theorem tracePre_ok {D : Shows} {trace : Option TraceOpt} {ext this : String} {clk : Nat}
    {inputs locals outputs : List TyVar} {env : Env} {pre post : List Piece}
    {X : String → Nillable Scalar} (hf : TraceFits trace inputs locals outputs pre post)
    (he : ∀ v ∈ inputs, env v.name = some (X v.name)) :
    tracePre D trace ext this clk inputs env = ⟨.ok (), told D trace ext this clk inputs X pre⟩ := by
  cases trace with
  | none => rfl
  | some t =>
    obtain ⟨file, i, o⟩ := t
    exact printBlock_ok (hf.pre file i o rfl) he

theorem tracePost_ok {D : Shows} {trace : Option TraceOpt} {ext this : String} {clk : Nat}
    {inputs locals outputs : List TyVar} {env : Env} {pre post : List Piece}
    {X : String → Nillable Scalar} (hf : TraceFits trace inputs locals outputs pre post)
    (he : ∀ v ∈ inputs ++ locals ++ outputs, env v.name = some (X v.name)) :
    tracePost D trace ext this clk inputs locals outputs env =
      ⟨.ok (), told D trace ext this clk (inputs ++ locals ++ outputs) X post⟩ := by
  cases trace with
  | none => rfl
  | some t =>
    obtain ⟨file, i, o⟩ := t
    exact printBlock_ok (hf.post file i o rfl) he

/-- Whether the formats mention only variables that exist. -/
def traceOk (trace : Option TraceOpt) (inputs locals outputs : List TyVar) : Bool :=
  match trace with
  | some (_, i, o) => formatOk (inputFmt i inputs) (inputs.map (·.name)) &&
    formatOk (outputFmt o outputs) ((inputs ++ locals ++ outputs).map (·.name))
  | none => true

theorem traceOk_iff {trace : Option TraceOpt} {inputs locals outputs : List TyVar} :
    traceOk trace inputs locals outputs = true ↔
      ∃ pre post, TraceFits trace inputs locals outputs pre post := by
  cases trace with
  | none =>
    refine ⟨fun _ => ⟨[], [], ⟨fun _ _ _ h => (by cases h), fun _ _ _ h => (by cases h)⟩⟩, fun _ => rfl⟩
  | some t =>
    obtain ⟨file, i, o⟩ := t
    simp only [traceOk, Bool.and_eq_true, formatOk_iff]
    constructor
    · rintro ⟨⟨pre, h1⟩, post, h2⟩
      refine ⟨pre, post, ⟨?_, ?_⟩⟩
      · rintro _ _ _ ⟨⟩; exact h1
      · rintro _ _ _ ⟨⟩; exact h2
    · rintro ⟨pre, post, h⟩
      exact ⟨⟨pre, h.pre _ _ _ rfl⟩, post, h.post _ _ _ rfl⟩

/-- The same for a program. -/
def progOk (trace : String → Option TraceOpt) (ds : List San.Decl) : Bool :=
  ds.all fun
    | .node n => traceOk (trace n.name) n.inputs n.locals n.outputs
    | .extNode n => traceOk (trace n.name) n.inputs [] n.outputs
    | _ => true

theorem progOk_iff {trace : String → Option TraceOpt} {ds : List San.Decl} :
    progOk trace ds = true ↔ ProgFits trace ds := by
  simp only [progOk, List.all_eq_true]
  constructor
  · intro h
    exact ⟨fun n hn => traceOk_iff.1 (h _ hn), fun n hn => traceOk_iff.1 (h _ hn)⟩
  · intro h d hd
    cases d with
    | node n => exact traceOk_iff.2 (h.1 n hd)
    | extNode n => exact traceOk_iff.2 (h.2 n hd)
    | const c => rfl
    | extConst c => rfl

/-! ## What a node prints -/

theorem printed_nil {ms : List TMachine} : PrintedBy ms [] := ⟨[], rfl, by simp⟩

theorem printed_append {ms : List TMachine} {a b : List Out} (ha : PrintedBy ms a)
    (hb : PrintedBy ms b) : PrintedBy ms (a ++ b) := by
  obtain ⟨ca, rfl, ha⟩ := ha
  obtain ⟨cb, rfl, hb⟩ := hb
  refine ⟨ca ++ cb, by simp, fun c hc => ?_⟩
  rcases List.mem_append.1 hc with h | h
  · exact ha c h
  · exact hb c h

theorem printed_bind {ms : List TMachine} {m : W α} {f : α → W β} (hm : PrintedBy ms m.out)
    (hf : ∀ a, PrintedBy ms (f a).out) : PrintedBy ms (m >>= f).out := by
  cases h : m.res with
  | error p => rw [(bind_error h).2]; exact hm
  | ok a => rw [(bind_ok h).2]; exact printed_append hm (hf a)

theorem printed_lift {ms : List TMachine} {r : R α} {f : α → W β}
    (hf : ∀ a, PrintedBy ms (f a).out) : PrintedBy ms ((liftM r : W α) >>= f).out :=
  printed_bind printed_nil hf

theorem stepAt_printed : (ms : List TMachine) → (ss : States (ms.map TMachine.quiet)) → (i : Nat) →
    (v : Value) → PrintedBy ms (stepAtW ms ss i v).out
  | [], _, _, _ => printed_nil
  | m :: ms, (s, ss), 0, v => by
    refine printed_bind ?_ fun _ => printed_nil
    exact ⟨[(m.step s v).out], by simp, fun c hc => ⟨m, by simp, s, v, by simpa using hc⟩⟩
  | m :: ms, (s, ss), i + 1, v => by
    refine printed_bind ?_ fun _ => printed_nil
    obtain ⟨calls, h1, h2⟩ := stepAt_printed ms ss i v
    refine ⟨calls, h1, fun c hc => ?_⟩
    obtain ⟨m', h3, h4⟩ := h2 c hc
    exact ⟨m', by simp [h3], h4⟩

section
variable {A : Arith} {D : Shows} {glob : Globals} {ms : List TMachine}

mutual
theorem eval_printed (env : Env) : (e : Expr) → (s : WState ms) →
    PrintedBy ms (evalW A glob ms env e s).out
  | .lit l, s => by rw [evalW]; exact printed_nil
  | .global x, s => by rw [evalW]; cases glob x <;> exact printed_nil
  | .var x dt, s => by rw [evalW]; exact printed_lift fun _ => printed_nil
  | .tuple es, s => by
    rw [evalW]; exact printed_bind (evalList_printed env es s) fun _ => printed_nil
  | .dummyPre e, s => by rw [evalW]; exact eval_printed env e s
  | .dummyParen e, s => by rw [evalW]; exact eval_printed env e s
  | .bin op l r, s => by
    rw [evalW]
    refine printed_bind (eval_printed env l s) fun _ => printed_bind (eval_printed env r _) fun _ => ?_
    exact printed_lift fun _ => printed_lift fun _ => printed_lift fun _ => printed_nil
  | .un op e, s => by
    rw [evalW]
    refine printed_bind (eval_printed env e s) fun _ => ?_
    exact printed_lift fun _ => printed_lift fun _ => printed_nil
  | .cmp op l r, s => by
    rw [evalW]
    refine printed_bind (eval_printed env l s) fun _ => printed_bind (eval_printed env r _) fun _ => ?_
    exact printed_lift fun _ => printed_lift fun _ => printed_lift fun _ => printed_nil
  | .clock op e b, s => by
    rw [evalW]
    refine printed_bind (eval_printed env b s) fun _ => printed_lift fun _ => ?_
    refine printed_bind (eval_printed env e _) fun _ => ?_
    cases op <;> exact printed_nil
  | .later dt e e', s => by
    rw [evalW]
    refine printed_bind (eval_printed env e' s) fun ⟨v, s⟩ => ?_
    dsimp only
    split
    · exact printed_nil
    · exact eval_printed env e s
  | .fetchPre id e, s => by rw [evalW]; cases s.regs[id]? <;> exact printed_nil
  | .fetchFby id e e', s => by rw [evalW]; cases s.regs[id]? <;> exact printed_nil
  | .flip id e e', s => by
    rw [evalW]
    refine printed_bind (eval_printed env e s) fun ⟨i, s⟩ => ?_
    refine printed_bind (eval_printed env e' s) fun ⟨c, s⟩ => ?_
    dsimp only
    split
    · exact printed_nil
    · cases s.flips[id]? <;> exact printed_nil
  | .ifx c y n, s => by
    rw [evalW]
    refine printed_bind (eval_printed env y s) fun _ => printed_bind (eval_printed env n _) fun _ => ?_
    exact printed_bind (eval_printed env c _) fun _ => printed_lift fun _ => printed_nil
  | .merge c y n, s => by
    rw [evalW]
    refine printed_bind (eval_printed env c s) fun _ => printed_lift fun _ => ?_
    exact printed_bind (eval_printed env y _) fun _ => printed_bind (eval_printed env n _) fun _ =>
      printed_nil
  | .substep dt id args, s => by
    rw [evalW]
    split
    · refine printed_bind (eval_printed env args s) fun ⟨v, s⟩ => ?_
      exact printed_bind (stepAt_printed ms s.nodes id v) fun _ => printed_nil
    · cases (ms.map TMachine.quiet)[id]? <;> exact printed_nil
theorem evalList_printed (env : Env) : (es : List Expr) → (s : WState ms) →
    PrintedBy ms (evalListW A glob ms env es s).out
  | [], s => by rw [evalListW]; exact printed_nil
  | e :: es, s => by
    rw [evalListW]
    exact printed_bind (eval_printed env e s) fun _ => printed_bind (evalList_printed env es _) fun _ =>
      printed_nil
end

theorem exec_printed (st : Stmt) (x : Env × WState ms) : PrintedBy ms (execW A glob ms st x).out := by
  obtain ⟨env, s⟩ := x
  cases st with
  | let_ t e =>
    rw [execW]
    exact printed_bind (eval_printed env e s) fun _ => printed_lift fun _ => printed_nil
  | assert e =>
    rw [execW]
    exact printed_bind (eval_printed env e s) fun _ => printed_lift fun _ => printed_lift fun _ =>
      printed_nil
  | updateRegister id e =>
    rw [execW]
    exact printed_bind (eval_printed env e s) fun _ => printed_lift fun _ => printed_nil
  | initRegister id val clk =>
    unfold execW
    cases clk with
    | none => exact printed_nil
    | some clk =>
      refine printed_bind (eval_printed env clk s) fun _ => printed_lift fun _ => printed_lift fun s => ?_
      cases val with
      | none => exact printed_nil
      | some val =>
        exact printed_bind (eval_printed env val s) fun _ => printed_lift fun _ => printed_nil

theorem execAll_printed : (sts : List Stmt) → (x : Env × WState ms) →
    PrintedBy ms (execAllW A glob ms sts x).out
  | [], x => printed_nil
  | st :: sts, x => by
    rw [execAllW]
    exact printed_bind (exec_printed st x) fun y => execAll_printed sts y

/-! ## One instant -/

/-- The values in an environment. -/
def valuesOf (env : Env) (x : String) : Nillable Scalar := (env x).getD .nil

theorem valuesOf_eq {env : Env} {x : String} (h : ∃ v, env x = some v) :
    env x = some (valuesOf env x) := by
  obtain ⟨v, h⟩ := h
  simp [valuesOf, h]

theorem inputs_bound {vs : List TyVar} {i : Value} {env env' : Env}
    (h : bindTarget (inputPattern vs) i env = .ok env') : ∀ v ∈ vs, ∃ w, env' v.name = some w := by
  intro v hv
  refine (Den.bindTarget_inv _ h).2.1 v.name ?_
  rw [Den.vars_inputPattern]
  exact List.mem_map.2 ⟨v, hv, rfl⟩

theorem all_bound {n : Node} (hd : ∀ v ∈ n.outputs ++ n.locals, ∃ st ∈ n.stmts, v.name ∈ binds st)
    {env env' : Env} {s s' : WState ms} (hin : ∀ v ∈ n.inputs, ∃ w, env v.name = some w)
    (h : execAll A glob (ms.map TMachine.quiet) n.stmts (env, s) = .ok (env', s')) :
    ∀ v ∈ n.inputs ++ n.locals ++ n.outputs, ∃ w, env' v.name = some w := by
  obtain ⟨b1, b2, _, _⟩ := Den.execAll_keeps h
  intro v hv
  by_cases hb : v.name ∈ n.stmts.flatMap binds
  · exact b2 _ hb
  · rw [b1 _ hb]
    simp only [List.mem_append] at hv
    rcases hv with (hv | hv) | hv
    · exact hin v hv
    · obtain ⟨st, h1, h2⟩ := hd v (by simp [hv])
      exact absurd (List.mem_flatMap.2 ⟨st, h1, h2⟩) hb
    · obtain ⟨st, h1, h2⟩ := hd v (by simp [hv])
      exact absurd (List.mem_flatMap.2 ⟨st, h1, h2⟩) hb

/-- Printing changes nothing to what a node does in an instant. -/
theorem body_res {n : Node} {trace : Option TraceOpt} (hf : NodeFits trace n)
    (hd : ∀ v ∈ n.outputs ++ n.locals, ∃ st ∈ n.stmts, v.name ∈ binds st) (s : WState ms) (i : Value) :
    (n.bodyW A D glob ms trace s i).res = n.body A glob (ms.map TMachine.quiet) s i := by
  obtain ⟨pre, post, hf⟩ := hf
  unfold Node.bodyW Node.body
  refine bind_res rfl fun env he => ?_
  have hin := inputs_bound he
  rw [tracePre_ok hf fun v hv => valuesOf_eq (hin v hv)]
  refine (bind_ok rfl).1.trans ?_
  refine bind_res (execAll_res A glob ms n.stmts (env, s)) fun ⟨env', s'⟩ he' => ?_
  have hall := all_bound hd hin he'
  dsimp only
  rw [tracePost_ok hf fun v hv => valuesOf_eq (hall v hv)]
  refine (bind_ok rfl).1.trans ?_
  refine bind_res rfl fun _ _ => bind_res rfl fun _ _ => bind_res rfl fun _ _ => ?_
  exact bind_res rfl fun _ _ => rfl

theorem machine_quiet {n : Node} {trace : Option TraceOpt} (hf : NodeFits trace n)
    (hd : ∀ v ∈ n.outputs ++ n.locals, ∃ st ∈ n.stmts, v.name ∈ binds st) :
    (n.machineW A D glob ms trace).quiet = n.machine A glob (ms.map TMachine.quiet) := by
  unfold Node.machineW TMachine.quiet Node.machine Node.step implicitClockW Candle.implicitClock
  congr
  funext s i
  dsimp only
  split
  · rfl
  · exact body_res hf hd s i

end

theorem extern_bound {inputs outputs : List TyVar} {env env' : Env} {o : Value}
    (hin : ∀ v ∈ inputs, ∃ w, env v.name = some w)
    (he : bindTarget (inputPattern outputs) o env = .ok env') :
    ∀ v ∈ inputs ++ [] ++ outputs, ∃ w, env' v.name = some w := by
  intro v hv
  obtain ⟨b1, b2, _⟩ := Den.bindTarget_inv _ he
  by_cases hb : v.name ∈ (inputPattern outputs).vars
  · exact b2 _ hb
  · rw [b1 _ hb]
    simp only [List.append_nil, List.mem_append] at hv
    refine hv.elim (hin v) fun hv => absurd ?_ hb
    rw [Den.vars_inputPattern]
    exact List.mem_map.2 ⟨v, hv, rfl⟩

theorem wrapExtern_quiet {D : Shows} {n : ExtNode} {trace : Option TraceOpt} (hf : ExtFits trace n)
    (m : TMachine) : (wrapExternW D trace n m).quiet = wrapExtern m.quiet := by
  obtain ⟨pre, post, hf⟩ := hf
  unfold wrapExternW TMachine.quiet wrapExtern implicitClockW Candle.implicitClock
  congr
  funext s i
  dsimp only
  split
  · rfl
  · cases he : bindTarget (inputPattern n.inputs) i (fun _ => none) with
    | error p =>
      dsimp only
      cases hr : (m.step s.1 i).res with
      | error p => exact (bind_error hr).1
      | ok r => exact (bind_ok hr).1
    | ok env =>
      have hin := inputs_bound he
      dsimp only
      rw [tracePre_ok hf fun v hv => valuesOf_eq (hin v hv)]
      refine (bind_ok rfl).1.trans ?_
      cases hr : (m.step s.1 i).res with
      | error p => exact (bind_error hr).1
      | ok r =>
        refine (bind_ok hr).1.trans ?_
        dsimp only
        cases he' : bindTarget (inputPattern n.outputs) r.1 env with
        | error p =>
          have e : (Except.ok env : R Env).bind (bindTarget (inputPattern n.outputs) r.1) = .error p := he'
          rw [e]
          rfl
        | ok env' =>
          have e : (Except.ok env : R Env).bind (bindTarget (inputPattern n.outputs) r.1) = .ok env' := he'
          rw [e]
          dsimp only
          rw [tracePost_ok hf fun v hv => valuesOf_eq (extern_bound hin he' v hv)]
          exact (bind_ok rfl).1

/-! ## Instants and runs -/

section
variable {A : Arith} {D : Shows} {glob : Globals} {ms : List TMachine}

theorem silent_lift {r : R α} {f : α → W β} (hf : ∀ a, (f a).out = []) :
    ((liftM r : W α) >>= f).out = [] := by
  cases h : r with
  | error p => rw [(bind_error (m := liftM (Except.error p : R α)) rfl).2]; rfl
  | ok a => rw [(bind_ok (m := liftM (Except.ok a : R α)) rfl).2, hf a]; rfl

/-- What a node prints in an instant. -/
theorem body_out {n : Node} {trace : Option TraceOpt} {pre post : List Piece}
    (hf : TraceFits trace n.inputs n.locals n.outputs pre post)
    (hd : ∀ v ∈ n.outputs ++ n.locals, ∃ st ∈ n.stmts, v.name ∈ binds st) (s : WState ms) {i : Value}
    {X : String → Nillable Scalar} (hX : Assigns X (inputPattern n.inputs) i) :
    ∃ mid, PrintedBy ms mid ∧
      (∀ env s', Den.inner A glob (ms.map TMachine.quiet) n s i = .ok (env, s') →
        (n.bodyW A D glob ms trace s i).out =
          told D trace "      " n.name s.clock n.inputs X pre ++ mid ++
          told D trace "      " n.name s.clock (n.inputs ++ n.locals ++ n.outputs) (valuesOf env) post) ∧
      (∀ p, Den.inner A glob (ms.map TMachine.quiet) n s i = .error p →
        (n.bodyW A D glob ms trace s i).out =
          told D trace "      " n.name s.clock n.inputs X pre ++ mid) := by
  obtain ⟨env0, h1, h2⟩ := Den.bindTarget_of_assigns _ (env := fun _ => none) hX
  have hin : ∀ v ∈ n.inputs, env0 v.name = some (X v.name) := by
    intro v hv
    rw [h2, Den.vars_inputPattern, if_pos (List.mem_map.2 ⟨v, hv, rfl⟩)]
  have e : Den.inner A glob (ms.map TMachine.quiet) n s i =
      execAll A glob (ms.map TMachine.quiet) n.stmts (env0, s) := by
    simp only [Den.inner, h1]
    rfl
  refine ⟨(execAllW A glob ms n.stmts (env0, s)).out, execAll_printed _ _, fun env s' h => ?_,
    fun p h => ?_⟩
  · rw [e] at h
    unfold Node.bodyW
    rw [h1, (bind_ok (a := env0) rfl).2, tracePre_ok hf hin, (bind_ok rfl).2]
    have h3 := (execAll_res A glob ms n.stmts (env0, s)).trans h
    have hall := all_bound hd (fun v hv => ⟨_, hin v hv⟩) h
    rw [(bind_ok h3).2]
    dsimp only
    rw [tracePost_ok hf fun v hv => valuesOf_eq (hall v hv), (bind_ok rfl).2,
      (execAll_frame A glob _ _ h).1, silent_lift]
    · show [] ++ _ = _
      simp
    · intro _
      exact silent_lift fun _ => silent_lift fun _ => silent_lift fun _ => rfl
  · rw [e] at h
    unfold Node.bodyW
    rw [h1, (bind_ok (a := env0) rfl).2, tracePre_ok hf hin, (bind_ok rfl).2]
    have h3 := (execAll_res A glob ms n.stmts (env0, s)).trans h
    rw [(bind_error h3).2]
    rfl

theorem bind_pure_out {m : W α} {f : α → β} : (m >>= fun a => pure (f a)).out = m.out := by
  cases h : m.res with
  | error p => exact (bind_error h).2
  | ok a => rw [(bind_ok h).2]; exact List.append_nil _

theorem run_cons_out {m : TMachine} {s s' : m.σ} {i o : Value} {is : List Value}
    (h : (m.step s i).res = .ok (o, s')) :
    (m.runFrom s (i :: is)).out = (m.step s i).out ++ (m.runFrom s' is).out := by
  simp only [TMachine.runFrom]
  refine (bind_ok h).2.trans ?_
  congr 1
  exact bind_pure_out

theorem spell_congr {f g : String → String} : (ps : List Piece) → (∀ x, f x = g x) →
    spell f ps = spell g ps
  | [], _ => rfl
  | .char c :: ps, h => by rw [spell, spell, spell_congr ps h]
  | .arg x :: ps, h => by rw [spell, spell, spell_congr ps h, h x]

theorem told_congr {D : Shows} {trace : Option TraceOpt} {ext this : String} {clk : Nat}
    {vars : List TyVar} {X Y : String → Nillable Scalar} {ps : List Piece}
    (h : ∀ v ∈ vars, X v.name = Y v.name) :
    told D trace ext this clk vars X ps = told D trace ext this clk vars Y ps := by
  cases trace with
  | none => rfl
  | some t =>
    unfold told
    dsimp only
    rw [spell_congr ps]
    intro x
    unfold shown
    split
    · rename_i hx
      obtain ⟨v, hv, rfl⟩ := List.mem_map.1 hx
      rw [h v hv]
    · rfl

/-- What a node prints over a history without panic. -/
theorem run_out {F : Flow} {n : Node} {trace : Option TraceOpt} {pre post : List Piece}
    (hw : WiredInOrder n) (hf : TraceFits trace n.inputs n.locals n.outputs pre post) {hi : Nat} :
    ∀ {is : List Value} {t : Nat} {s : WState ms}, t + (is.filter present).length ≤ hi →
    Den.Start A glob F n t hi s →
    (∀ j i, (is.filter present)[j]? = some i → Assigns (F.X · (t + j)) (inputPattern n.inputs) i) →
    (∀ j, j < (is.filter present).length → ∀ st ∈ n.stmts,
      Holds A glob (ms.map TMachine.quiet) F (t + j) st) →
    ∃ mid : Nat → List Out, (∀ j, PrintedBy ms (mid j)) ∧
      ((n.machineW A D glob ms trace).runFrom s is).out =
        (List.range (is.filter present).length).flatMap fun j =>
          told D trace "      " n.name (t + j) n.inputs (F.X · (t + j)) pre ++ mid j ++
          told D trace "      " n.name (t + j) (n.inputs ++ n.locals ++ n.outputs) (F.X · (t + j)) post
  | [], t, s, _, _, _, _ => ⟨fun _ => [], fun _ => printed_nil, rfl⟩
  | i :: is, t, s, hhi, hs, hin, hh => by
    cases hp : i.firstIsNil with
    | true =>
      have e : (i :: is).filter present = is.filter present := by simp [present, hp]
      rw [e] at hhi hin hh ⊢
      obtain ⟨mid, h1, h2⟩ := run_out hw hf hhi hs hin hh
      refine ⟨mid, h1, ?_⟩
      have h3 : (n.machineW A D glob ms trace).step s i = pure (Tup.allNil Scalar n.outTy, s) := by
        simp [Node.machineW, implicitClockW, hp]
      have h4 : ((n.machineW A D glob ms trace).step s i).res = .ok (Tup.allNil Scalar n.outTy, s) := by
        rw [h3]; rfl
      rw [run_cons_out h4, h3, pure_out, List.nil_append, h2]
    | false =>
      have e : (i :: is).filter present = i :: is.filter present := by simp [present, hp]
      rw [e] at hhi hin hh ⊢
      simp only [List.length_cons] at hhi
      have hin0 := hin 0 i rfl
      obtain ⟨env, s1, h1, h2⟩ := Den.inner_of_holds hw (by omega) hs hin0 (hh 0 (by simp))
      obtain ⟨s2, h3, h4⟩ := Den.finish_ok hw.toWired h2
      have hb : n.body A glob (ms.map TMachine.quiet) s i = .ok (outputAt F n t, s2) := by
        rw [Den.body_eq, h1]; exact h3
      obtain ⟨m0, h5, h6, _⟩ := body_out (A := A) (D := D) (glob := glob) (ms := ms) hf hw.defined s hin0
      obtain ⟨mid, h7, h8⟩ := run_out hw hf (is := is) (t := t + 1) (s := s2) (by omega) h4
        (fun j k hk => by
          have := hin (j + 1) k (by simpa using hk)
          rwa [show t + (j + 1) = t + 1 + j by omega] at this)
        (fun j hj st hst => by
          have := hh (j + 1) (by simp; omega) st hst
          rwa [show t + (j + 1) = t + 1 + j by omega] at this)
      refine ⟨fun | 0 => m0 | j + 1 => mid j, fun j => by cases j; exact h5; exact h7 _, ?_⟩
      have h9 : (n.machineW A D glob ms trace).step s i = n.bodyW A D glob ms trace s i := by
        simp [Node.machineW, implicitClockW, hp]
      have h10 : (n.bodyW A D glob ms trace s i).res = .ok (outputAt F n t, s2) :=
        (body_res ⟨pre, post, hf⟩ hw.defined s i).trans hb
      rw [← h9] at h10
      have h11 : ∀ v ∈ n.inputs ++ n.locals ++ n.outputs, valuesOf env v.name = F.X v.name t := by
        intro v hv
        have : env v.name = some (F.X v.name t) := by
          apply h2.vars
          rw [List.append_assoc, List.mem_append] at hv
          rcases hv with hv | hv
          · exact List.mem_append_left _ (List.mem_map.2 ⟨v, hv, rfl⟩)
          · obtain ⟨st, hst, hb⟩ := hw.defined v (by
              simp only [List.mem_append] at hv ⊢; exact hv.symm)
            exact List.mem_append_right _ (List.mem_flatMap.2 ⟨st, hst, hb⟩)
        simp [valuesOf, this]
      rw [run_cons_out h10, h9, h6 env s1 h1, h8, told_congr (X := valuesOf env) (Y := (F.X · t)) h11, hs.clock]
      simp only [List.length_cons, List.range_succ_eq_map, List.flatMap_cons, List.flatMap_map,
        Nat.add_zero]
      congr 1
      congr 1
      funext j
      simp only [Nat.succ_eq_add_one]
      rw [show t + 1 + j = t + (j + 1) by omega]

end

/-- What the wrapper of an external node prints in an instant. -/
theorem extern_out {D : Shows} {n : ExtNode} {trace : Option TraceOpt} {pre post : List Piece}
    (hf : TraceFits trace n.inputs [] n.outputs pre post) (m : TMachine) (s : m.σ × Nat) {i : Value}
    (hi : i.firstIsNil = false) {X : String → Nillable Scalar}
    (hX : Assigns X (inputPattern n.inputs) i) :
    (∀ o s' Y, (m.step s.1 i).res = .ok (o, s') → Assigns Y (inputPattern n.outputs) o →
      (∀ v ∈ n.inputs, Y v.name = X v.name) →
      ((wrapExternW D trace n m).step s i).out =
        told D trace "[ext] " n.name s.2 n.inputs X pre ++ (m.step s.1 i).out ++
        told D trace "[ext] " n.name s.2 (n.inputs ++ n.outputs) Y post) ∧
    (∀ p, (m.step s.1 i).res = .error p →
      ((wrapExternW D trace n m).step s i).out =
        told D trace "[ext] " n.name s.2 n.inputs X pre ++ (m.step s.1 i).out) := by
  obtain ⟨env, h1, h2⟩ := Den.bindTarget_of_assigns _ (env := fun _ => none) hX
  have hin : ∀ v ∈ n.inputs, env v.name = some (X v.name) := by
    intro v hv
    rw [h2, Den.vars_inputPattern, if_pos (List.mem_map.2 ⟨v, hv, rfl⟩)]
  unfold wrapExternW implicitClockW
  simp only [hi, Bool.false_eq_true, if_false, h1]
  rw [tracePre_ok hf hin]
  refine ⟨fun o s' Y hr hY hXY => ?_, fun p hr => ?_⟩
  · refine (bind_ok rfl).2.trans ?_
    rw [List.append_assoc]
    congr 1
    refine (bind_ok hr).2.trans ?_
    congr 1
    dsimp only
    obtain ⟨env', h3, h4⟩ := Den.bindTarget_of_assigns _ (env := env) hY
    have e : (Except.ok env : R Env).bind (bindTarget (inputPattern n.outputs) o) = .ok env' := h3
    rw [e]
    dsimp only
    rw [tracePost_ok hf (X := Y)]
    · refine (bind_ok rfl).2.trans ?_
      rw [pure_out]
      simp
    · intro v hv
      rw [h4]
      split
      · rfl
      · rename_i hn
        rw [Den.vars_inputPattern] at hn
        simp only [List.append_nil, List.mem_append] at hv
        rcases hv with hv | hv
        · rw [hin v hv, hXY v hv]
        · exact absurd (List.mem_map.2 ⟨v, hv, rfl⟩) hn
  · refine (bind_ok rfl).2.trans ?_
    congr 1
    exact (bind_error hr).2

/-! ## Programs -/

section
variable {A : Arith} {D : Shows} {X : ExternW} {trace : String → Option TraceOpt} {g : Globals}

theorem subnodes_quiet {N : String → Option TMachine} : (bs : List NodeInstance) →
    subnodes (fun f => (N f).map TMachine.quiet) bs =
      (subnodesW N bs).map fun ms => ms.map TMachine.quiet
  | [] => rfl
  | b :: bs => by
    simp only [subnodes, subnodesW, subnodes_quiet bs]
    cases N b.name <;> cases subnodesW N bs <;> rfl

/-- Every output and local of the nodes is defined. -/
def AllDefined (ds : List San.Decl) : Prop :=
  ∀ n, .node n ∈ ds → ∀ v ∈ n.outputs ++ n.locals, ∃ st ∈ n.stmts, v.name ∈ binds st

theorem linkNodes_quiet : (ds : List San.Decl) → {N : String → Option TMachine} →
    ProgFits trace ds → AllDefined ds →
    linkNodes A X.quiet g (fun f => (N f).map TMachine.quiet) ds =
      (linkNodesW A D X trace g N ds).map fun N f => (N f).map TMachine.quiet
  | [], _, _, _ => rfl
  | d :: ds, N, hf, hd => by
    have hf' : ProgFits trace ds :=
      ⟨fun n hn => hf.1 n (by simp [hn]), fun n hn => hf.2 n (by simp [hn])⟩
    have hd' : AllDefined ds := fun n hn => hd n (by simp [hn])
    cases d with
    | const c => exact linkNodes_quiet ds hf' hd'
    | extConst c => exact linkNodes_quiet ds hf' hd'
    | node n =>
      simp only [linkNodes, linkNodesW, subnodes_quiet]
      cases subnodesW N n.blocks with
      | none => rfl
      | some ms =>
        simp only [Option.map_some]
        rw [← linkNodes_quiet ds hf' hd']
        congr 1
        funext f
        by_cases h : f = n.name
        · simp only [if_pos h, Option.map_some]
          rw [machine_quiet (hf.1 n (by simp)) (hd n (by simp))]
        · simp only [if_neg h]
    | extNode n =>
      simp only [linkNodes, linkNodesW, ExternW.quiet]
      cases X.nodes n.name with
      | none => rfl
      | some m =>
        simp only [Option.map_some]
        have := linkNodes_quiet ds hf' hd'
          (N := fun f => if f = n.name then some (wrapExternW D (trace n.name) n m) else N f)
        rw [← this]
        simp only [ExternW.quiet]
        congr 1
        funext f
        by_cases h : f = n.name
        · simp only [if_pos h, Option.map_some]
          rw [wrapExtern_quiet (hf.2 n (by simp))]
        · simp only [if_neg h]

theorem link_quiet {ds : List San.Decl} (hf : ProgFits trace ds) (hd : AllDefined ds) :
    link A X.quiet ds = (linkW A D X trace ds).map ItemsW.quiet := by
  unfold link linkW
  cases linkConsts A X.quiet (fun _ => none) ds with
  | error p => rfl
  | ok g =>
    dsimp only
    have := linkNodes_quiet (A := A) (D := D) (X := X) (g := g) (N := fun _ => none) ds hf hd
    simp only [Option.map_none] at this
    rw [this]
    cases linkNodesW A D X trace g (fun _ => none) ds <;> rfl

/-- The machines print only such messages. -/
def Only (P : Out → Prop) (m : TMachine) : Prop := ∀ s v, ∀ o ∈ (m.step s v).out, P o

theorem only_printed {P : Out → Prop} {ms : List TMachine} (h : ∀ m ∈ ms, Only P m) {out : List Out}
    (hp : PrintedBy ms out) : ∀ o ∈ out, P o := by
  obtain ⟨calls, rfl, hc⟩ := hp
  intro o ho
  obtain ⟨c, h1, h2⟩ := List.mem_flatten.1 ho
  obtain ⟨m, h3, s, v, rfl⟩ := hc c h1
  exact h m h3 s v o h2

theorem only_nil {P : Out → Prop} : ∀ o ∈ ([] : List Out), P o := by simp

theorem only_bind {P : Out → Prop} {α β : Type} {m : W α} {f : α → W β} (hm : ∀ o ∈ m.out, P o)
    (hf : ∀ a, m.res = .ok a → ∀ o ∈ (f a).out, P o) : ∀ o ∈ (m >>= f).out, P o := by
  cases h : m.res with
  | error p => rw [(bind_error h).2]; exact hm
  | ok a =>
    rw [(bind_ok h).2]
    intro o ho
    exact (List.mem_append.1 ho).elim (hm o) (hf a h o)

theorem node_only {P : Out → Prop} {ms : List TMachine} (h : ∀ m ∈ ms, Only P m) {n : Node}
    {trace : Option TraceOpt} {pre post : List Piece}
    (hf : TraceFits trace n.inputs n.locals n.outputs pre post)
    (hd : ∀ v ∈ n.outputs ++ n.locals, ∃ st ∈ n.stmts, v.name ∈ binds st)
    (h1 : ∀ clk Y, ∀ o ∈ told D trace "      " n.name clk n.inputs Y pre, P o)
    (h2 : ∀ clk Y, ∀ o ∈ told D trace "      " n.name clk (n.inputs ++ n.locals ++ n.outputs) Y post, P o) :
    Only P (n.machineW A D g ms trace) := by
  intro s i
  cases hp : i.firstIsNil with
  | true =>
    have e : (n.machineW A D g ms trace).step s i = pure (Tup.allNil Scalar n.outTy, s) := by
      simp [Node.machineW, implicitClockW, hp]
    rw [e]
    exact only_nil
  | false =>
    have e : (n.machineW A D g ms trace).step s i = n.bodyW A D g ms trace s i := by
      simp [Node.machineW, implicitClockW, hp]
    rw [e]
    unfold Node.bodyW
    refine only_bind only_nil fun env he => ?_
    have hin := inputs_bound he
    rw [tracePre_ok hf fun v hv => valuesOf_eq (hin v hv)]
    refine only_bind (h1 _ _) fun _ _ => ?_
    refine only_bind (only_printed h (execAll_printed _ _)) fun ⟨env', s'⟩ he' => ?_
    have hall := all_bound hd hin ((execAll_res A g ms n.stmts (env, s)).symm.trans he')
    dsimp only
    rw [tracePost_ok hf fun v hv => valuesOf_eq (hall v hv)]
    refine only_bind (h2 _ _) fun _ _ => ?_
    refine only_bind only_nil fun _ _ => only_bind only_nil fun _ _ => only_bind only_nil fun _ _ => ?_
    exact only_bind only_nil fun _ _ => only_nil

theorem extern_only {P : Out → Prop} {m : TMachine} (h : Only P m) {n : ExtNode}
    {trace : Option TraceOpt} {pre post : List Piece}
    (hf : TraceFits trace n.inputs [] n.outputs pre post)
    (h1 : ∀ clk Y, ∀ o ∈ told D trace "[ext] " n.name clk n.inputs Y pre, P o)
    (h2 : ∀ clk Y, ∀ o ∈ told D trace "[ext] " n.name clk (n.inputs ++ n.outputs) Y post, P o) :
    Only P (wrapExternW D trace n m) := by
  rintro ⟨s, k⟩ i
  unfold wrapExternW implicitClockW
  dsimp only
  cases hp : i.firstIsNil with
  | true =>
    simp only [if_true]
    exact only_nil
  | false =>
    simp only [Bool.false_eq_true, if_false]
    cases he : bindTarget (inputPattern n.inputs) i (fun _ => none) with
    | error p => exact only_bind (h s i) fun ⟨o, s'⟩ _ => only_nil
    | ok env =>
      have hin := inputs_bound he
      dsimp only
      rw [tracePre_ok hf fun v hv => valuesOf_eq (hin v hv)]
      refine only_bind (h1 _ _) fun _ _ => only_bind (h s i) fun ⟨o, s'⟩ _ => ?_
      dsimp only
      cases he' : bindTarget (inputPattern n.outputs) o env with
      | error p =>
        have e : (Except.ok env : R Env).bind (bindTarget (inputPattern n.outputs) o) = .error p := he'
        rw [e]
        exact only_nil
      | ok env' =>
        have e : (Except.ok env : R Env).bind (bindTarget (inputPattern n.outputs) o) = .ok env' := he'
        rw [e]
        dsimp only
        rw [tracePost_ok hf fun v hv => valuesOf_eq (extern_bound hin he' v hv)]
        refine only_bind ?_ fun _ _ => only_nil
        have := h2 k (valuesOf env')
        simpa using this

theorem subnodes_only {P : Out → Prop} {N : String → Option TMachine}
    (h : ∀ f m, N f = some m → Only P m) : (bs : List NodeInstance) → {ms : List TMachine} →
    subnodesW N bs = some ms → ∀ m ∈ ms, Only P m
  | [], ms, e, m, hm => by cases e; cases hm
  | b :: bs, ms, e, m, hm => by
    simp only [subnodesW] at e
    cases h1 : N b.name with
    | none => simp [h1] at e
    | some m' =>
      cases h2 : subnodesW N bs with
      | none => simp [h1, h2] at e
      | some ms' =>
        simp only [h1, h2, Option.some.injEq] at e
        subst e
        rcases List.mem_cons.1 hm with rfl | hm
        · exact h _ _ h1
        · exact subnodes_only h bs h2 m hm

theorem linkNodes_only {P : Out → Prop} : (ds : List San.Decl) → {N N' : String → Option TMachine} →
    ProgFits trace ds → AllDefined ds →
    (∀ f m, X.nodes f = some m → Only P m) →
    (∀ n, .node n ∈ ds → ∀ pre post, TraceFits (trace n.name) n.inputs n.locals n.outputs pre post →
      (∀ clk Y, ∀ o ∈ told D (trace n.name) "      " n.name clk n.inputs Y pre, P o) ∧
      ∀ clk Y, ∀ o ∈ told D (trace n.name) "      " n.name clk (n.inputs ++ n.locals ++ n.outputs) Y post,
        P o) →
    (∀ n, .extNode n ∈ ds → ∀ pre post, TraceFits (trace n.name) n.inputs [] n.outputs pre post →
      (∀ clk Y, ∀ o ∈ told D (trace n.name) "[ext] " n.name clk n.inputs Y pre, P o) ∧
      ∀ clk Y, ∀ o ∈ told D (trace n.name) "[ext] " n.name clk (n.inputs ++ n.outputs) Y post, P o) →
    (∀ f m, N f = some m → Only P m) → linkNodesW A D X trace g N ds = .ok N' →
    ∀ f m, N' f = some m → Only P m
  | [], N, N', _, _, _, _, _, hN, e => by cases e; exact hN
  | d :: ds, N, N', hf, hd, hX, h1, h2, hN, e => by
    have hf' : ProgFits trace ds :=
      ⟨fun n hn => hf.1 n (by simp [hn]), fun n hn => hf.2 n (by simp [hn])⟩
    have hd' : AllDefined ds := fun n hn => hd n (by simp [hn])
    have h1' := fun n (hn : .node n ∈ ds) => h1 n (by simp [hn])
    have h2' := fun n (hn : .extNode n ∈ ds) => h2 n (by simp [hn])
    cases d with
    | const c => exact linkNodes_only ds hf' hd' hX h1' h2' hN e
    | extConst c => exact linkNodes_only ds hf' hd' hX h1' h2' hN e
    | node n =>
      simp only [linkNodesW] at e
      cases hs : subnodesW N n.blocks with
      | none => simp [hs] at e
      | some ms =>
        simp only [hs] at e
        refine linkNodes_only ds hf' hd' hX h1' h2' (fun f m hm => ?_) e
        by_cases hfn : f = n.name
        · simp only [if_pos hfn, Option.some.injEq] at hm
          subst hm
          obtain ⟨pre, post, hfit⟩ := hf.1 n (by simp)
          obtain ⟨k1, k2⟩ := h1 n (by simp) pre post hfit
          exact node_only (subnodes_only hN _ hs) hfit (hd n (by simp)) k1 k2
        · simp only [if_neg hfn] at hm
          exact hN f m hm
    | extNode n =>
      simp only [linkNodesW] at e
      cases hs : X.nodes n.name with
      | none => simp [hs] at e
      | some mx =>
        simp only [hs] at e
        refine linkNodes_only ds hf' hd' hX h1' h2' (fun f m hm => ?_) e
        by_cases hfn : f = n.name
        · simp only [if_pos hfn, Option.some.injEq] at hm
          subst hm
          obtain ⟨pre, post, hfit⟩ := hf.2 n (by simp)
          obtain ⟨k1, k2⟩ := h2 n (by simp) pre post hfit
          exact extern_only (hX _ _ hs) hfit k1 k2
        · simp only [if_neg hfn] at hm
          exact hN f m hm

end

/-! ## The default formats -/

/-- Plain text. -/
def chars (s : String) : List Piece := s.toList.map .char

/-- `a={a}, b={b}`. -/
def fields : List String → List Piece
  | [] => []
  | [x] => chars (x ++ "=") ++ [.arg x]
  | x :: y :: xs => chars (x ++ "=") ++ .arg x :: (chars ", " ++ fields (y :: xs))

/-- The default formats. -/
def defaultPieces (arrow : String) (vars : List String) : List Piece :=
  .arg "_ext" :: .arg "_this" :: (chars (arrow ++ "(") ++ fields vars ++ chars ")\n")

theorem written_append : (ps qs : List Piece) → written (ps ++ qs) = written ps ++ written qs
  | [], _ => rfl
  | .char c :: ps, qs => by simp [written, written_append ps qs]
  | .arg x :: ps, qs => by simp [written, written_append ps qs]

theorem written_chars' : (cs : List Char) → '{' ∉ cs → '}' ∉ cs → written (cs.map .char) = cs
  | [], _, _ => rfl
  | c :: cs, h1, h2 => by
    simp only [List.mem_cons, not_or] at h1 h2
    rw [List.map_cons, written, if_neg (by simp [Ne.symm h1.1, Ne.symm h2.1]),
      written_chars' cs h1.2 h2.2]
    rfl

theorem written_chars {s : String} (h1 : '{' ∉ s.toList) (h2 : '}' ∉ s.toList) :
    written (chars s) = s.toList := written_chars' _ h1 h2

theorem spell_append (f : String → String) : (ps qs : List Piece) →
    spell f (ps ++ qs) = spell f ps ++ spell f qs
  | [], _ => by simp [spell]
  | .char c :: ps, qs => by simp [spell, spell_append f ps qs, String.append_assoc]
  | .arg x :: ps, qs => by simp [spell, spell_append f ps qs, String.append_assoc]

theorem spell_chars (f : String → String) (s : String) : spell f (chars s) = s := by
  have : ∀ cs : List Char, spell f (cs.map .char) = String.ofList cs := by
    intro cs
    induction cs with
    | nil => rfl
    | cons c cs ih =>
      rw [List.map_cons, spell, ih]
      apply String.toList_inj.1
      simp
  rw [chars, this, String.ofList_toList]

/-- Names without braces. -/
def NoBraces (vars : List String) : Prop := ∀ x ∈ vars, '{' ∉ x.toList ∧ '}' ∉ x.toList

theorem fields_written : (vars : List String) → NoBraces vars →
    written (fields vars) =
      (", ".intercalate (vars.map fun x => x ++ "={" ++ x ++ "}")).toList
  | [], _ => rfl
  | [x], h => by
    obtain ⟨h1, h2⟩ := h x (by simp)
    rw [fields, written_append, written_chars (by simp [h1]) (by simp [h2])]
    simp [written]
  | x :: y :: xs, h => by
    obtain ⟨h1, h2⟩ := h x (by simp)
    have ih := fields_written (y :: xs) fun z hz => h z (by simp [hz])
    rw [fields, written_append, written_chars (by simp [h1]) (by simp [h2]), written, written_append,
      written_chars (by decide) (by decide), ih]
    simp only [List.map_cons, String.intercalate_cons_cons]
    simp

theorem fields_spell (f : String → String) : (vars : List String) →
    spell f (fields vars) = ", ".intercalate (vars.map fun x => x ++ "=" ++ f x)
  | [] => rfl
  | [x] => by
    rw [fields, spell_append, spell_chars]
    simp [spell]
  | x :: y :: xs => by
    have ih := fields_spell f (y :: xs)
    rw [fields, spell_append, spell_chars, spell, spell_append, spell_chars, ih]
    simp only [List.map_cons, String.intercalate_cons_cons, String.append_assoc]

theorem fields_args : (vars : List String) → ∀ x, .arg x ∈ fields vars → x ∈ vars
  | [], x, h => by cases h
  | [y], x, h => by
    simp [fields, chars] at h
    simp [h]
  | y :: z :: xs, x, h => by
    simp only [fields, chars, List.mem_append, List.mem_map, List.mem_cons, reduceCtorEq, and_false,
      exists_const, false_or, Piece.arg.injEq] at h
    rcases h with h | h
    · simp [h]
    · have := fields_args (z :: xs) x h
      simp only [List.mem_cons] at this ⊢
      exact .inr this

theorem default_format {arrow fmt : String} {vs all : List TyVar} (hb : NoBraces (vs.map (·.name)))
    (ha : arrow = " <- " ∨ arrow = " -> ") (hs : ∀ v ∈ vs, v ∈ all)
    (hfmt : fmt = "{_ext}{_this}" ++ arrow ++ fmtStrings vs ++ "\n") :
    Format fmt (all.map (·.name)) (defaultPieces arrow (vs.map (·.name))) := by
  have hargs : ∀ x, .arg x ∈ defaultPieces arrow (vs.map (·.name)) →
      x = "_ext" ∨ x = "_this" ∨ x ∈ vs.map (·.name) := by
    intro x hx
    simp only [defaultPieces, chars, List.mem_cons, List.mem_append, List.mem_map, reduceCtorEq,
      and_false, exists_const, false_or, or_false, Piece.arg.injEq] at hx
    rcases hx with rfl | rfl | hx
    · simp
    · simp
    · exact .inr (.inr (fields_args _ x hx))
  refine ⟨?_, fun x hx => ?_, fun x hx => ?_⟩
  · subst hfmt
    rw [defaultPieces, written, written, written_append, written_append, fields_written _ hb,
      written_chars, written_chars (by decide) (by decide)]
    · simp only [fmtStrings, List.map_map, Function.comp_def]
      simp
    · rcases ha with rfl | rfl <;> decide
    · rcases ha with rfl | rfl <;> decide
  · rcases hargs x hx with rfl | rfl | h
    · decide
    · decide
    · exact hb x h
  · rcases hargs x hx with rfl | rfl | h
    · simp
    · simp
    · obtain ⟨v, hv, rfl⟩ := List.mem_map.1 h
      exact .inl (List.mem_map.2 ⟨v, hs v hv, rfl⟩)

theorem default_text {D : Shows} {ext this arrow : String} {clk : Nat} {vars all : List String}
    {X : String → Nillable Scalar} (h1 : "_ext" ∉ all) (h2 : "_this" ∉ all)
    (hs : ∀ x ∈ vars, x ∈ all) :
    spell (shown D ext this clk all X) (defaultPieces arrow vars) =
      defaultLine D ext this arrow vars X := by
  have hf : (vars.map fun x => x ++ "=" ++ shown D ext this clk all X x) =
      vars.map fun x => x ++ "=" ++ onScreen D (X x) := by
    apply List.map_congr_left
    intro x hx
    rw [shown, if_pos (hs x hx)]
  rw [defaultPieces, spell, spell, spell_append, spell_append, spell_chars, spell_chars,
    fields_spell, hf, defaultLine]
  have e1 : shown D ext this clk all X "_ext" = ext := by simp [shown, h1]
  have e2 : shown D ext this clk all X "_this" = this := by simp [shown, h2]
  rw [e1, e2]
  simp only [String.append_assoc]

end Chandeliers.Prt
