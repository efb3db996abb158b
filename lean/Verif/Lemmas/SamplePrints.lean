import Verif.Lemmas.SampleRefs
import Verif.Lemmas.SamplePrev
import Verif.Lemmas.Trace
import Verif.Props.Trace
import Verif.Spec.SamplePrints

/-!
# What the programs that come with the project print
-/

set_option autoImplicit false

namespace Chandeliers.Smp
open San Syn Err Spec Spec.Samples Props Prt

/-- The computation succeeds, with this result and these prints. -/
def Gives {α : Type} (m : W α) (a : α) (out : List Out) : Prop := m = ⟨.ok a, out⟩

theorem Gives.bind {α β : Type} {m : W α} {f : α → W β} {a : α} {b : β} {o o' : List Out}
    (h : Gives m a o) (h' : Gives (f a) b o') : Gives (m >>= f) b (o ++ o') := by
  unfold Gives at *
  subst h
  show W.bind _ f = _
  simp [W.bind, h']

theorem Gives.quiet {α β : Type} {m : W α} {f : α → W β} {a : α} {b : β} {o : List Out}
    (h : Gives m a []) (h' : Gives (f a) b o) : Gives (m >>= f) b o := h.bind h'

theorem gives_ok {α : Type} {r : R α} {a : α} (h : r = .ok a) : Gives (liftM r : W α) a [] := by
  subst h; rfl

section
variable {A : Arith} {glob : Globals} {ms : List TMachine} {env : Env} {s : WState ms}

theorem gives_var {x : String} {v : Nillable Scalar} (h : env x = some v) :
    Gives (evalW A glob ms env (.var x 0) s) (.leaf v, s) [] := by
  rw [evalW]
  refine Gives.quiet (a := .leaf v) (gives_ok ?_) ?_
  · simp [readVar, h]
  · rfl

theorem gives_ago {x : String} {v : Nillable Scalar} {h : AnyHist} {d : Nat} (hx : s.hist x = some h)
    (hv : h.2.ago (d + 1) = .ok v) : Gives (evalW A glob ms env (.var x (d + 1)) s) (.leaf v, s) [] := by
  rw [evalW]
  refine Gives.quiet (a := .leaf v) (gives_ok ?_) ?_
  · simp [readVar, hx, hv, Except.map]
  · rfl

theorem gives_lit {l : San.Lit} : Gives (evalW A glob ms env (.lit l) s) (.leaf (.defined l.scalar), s) [] := by
  rw [evalW]; rfl

theorem gives_unit : Gives (evalW A glob ms env (.tuple []) s) (vUnit, s) [] := by
  rw [evalW, evalListW]; rfl

theorem gives_bin {op : BinOp} {l r : Expr} {x y v : Nillable Scalar}
    (hl : Gives (evalW A glob ms env l s) (.leaf x, s) []) (hr : Gives (evalW A glob ms env r s) (.leaf y, s) [])
    (hv : x.binop (scalarBin A op) y = .ok v) : Gives (evalW A glob ms env (.bin op l r) s) (.leaf v, s) [] := by
  rw [evalW]
  exact hl.quiet <| hr.quiet <| (gives_ok rfl).quiet <| (gives_ok rfl).quiet <| (gives_ok hv).quiet rfl

theorem gives_cmp {op : CmpOp} {l r : Expr} {x y v : Nillable Scalar}
    (hl : Gives (evalW A glob ms env l s) (.leaf x, s) []) (hr : Gives (evalW A glob ms env r s) (.leaf y, s) [])
    (hv : scalarCmp A op x y = .ok v) : Gives (evalW A glob ms env (.cmp op l r) s) (.leaf v, s) [] := by
  rw [evalW]
  exact hl.quiet <| hr.quiet <| (gives_ok rfl).quiet <| (gives_ok rfl).quiet <| (gives_ok hv).quiet rfl

theorem gives_paren {e : Expr} {v : Value} (h : Gives (evalW A glob ms env e s) (v, s) []) :
    Gives (evalW A glob ms env (.dummyParen e) s) (v, s) [] := by
  rw [evalW]; exact h

theorem gives_when {e b : Expr} {v : Value} {c : Bool} (he : Gives (evalW A glob ms env e s) (v, s) [])
    (hb : Gives (evalW A glob ms env b s) (.leaf (.defined (.bool c)), s) []) :
    Gives (evalW A glob ms env (.clock .when e b) s) (Candle.when (.defined c) v, s) [] := by
  rw [evalW]
  exact hb.quiet <| (gives_ok rfl).quiet <| he.quiet rfl

theorem gives_whenot {e b : Expr} {v : Value} {c : Bool} (he : Gives (evalW A glob ms env e s) (v, s) [])
    (hb : Gives (evalW A glob ms env b s) (.leaf (.defined (.bool c)), s) []) :
    Gives (evalW A glob ms env (.clock .whenot e b) s) (Candle.whenot (.defined c) v, s) [] := by
  rw [evalW]
  exact hb.quiet <| (gives_ok rfl).quiet <| he.quiet rfl

theorem gives_later {d : Nat} {e e' : Expr} {v v' : Value} (he : Gives (evalW A glob ms env e s) (v, s) [])
    (he' : Gives (evalW A glob ms env e' s) (v', s) []) :
    Gives (evalW A glob ms env (.later d e e') s) (if s.clock > d then v' else v, s) [] := by
  rw [evalW]
  refine he'.quiet ?_
  show Gives (if s.clock > d then _ else _) _ _
  split
  · rfl
  · exact he

theorem gives_let {x : String} {e : Expr} {v : Nillable Scalar} (h : Gives (evalW A glob ms env e s) (.leaf v, s) []) :
    Gives (execW A glob ms (.let_ (.single x) e) (env, s)) (env.set x v, s) [] := by
  rw [execW]
  exact h.quiet <| (gives_ok rfl).quiet rfl
end

/-- Whatever its state, the machine prints this. -/
def Prints (m : TMachine) (v : Value) (out : List Out) : Prop := ∀ s, ∃ r, Gives (m.step s v) r out

theorem stepAt_prints {m : TMachine} {v : Value} {out : List Out} (h : Prints m v out) :
    (ms : List TMachine) → (ss : States (ms.map TMachine.quiet)) → (i : Nat) → ms[i]? = some m →
    ∃ r, Gives (stepAtW ms ss i v) r out
  | m' :: ms, (s, ss), 0, hi => by
    cases hi
    obtain ⟨r, hr⟩ := h s
    refine ⟨(r.1, (r.2, ss)), ?_⟩
    rw [stepAtW, ← List.append_nil out]
    exact hr.bind rfl
  | m' :: ms, (s, ss), i + 1, hi => by
    obtain ⟨r, hr⟩ := stepAt_prints h ms ss i hi
    refine ⟨(r.1, (s, r.2)), ?_⟩
    rw [stepAtW, ← List.append_nil out]
    exact hr.bind rfl

theorem gives_call {A : Arith} {glob : Globals} {ms : List TMachine} {env : Env} {s : WState ms} {i : Nat} {e : Expr}
    {m : TMachine} {v : Value} {out : List Out} (hm : ms[i]? = some m) (h : Prints m v out)
    (he : Gives (evalW A glob ms env e s) (v, s) []) :
    ∃ ss, Gives (execW A glob ms (.let_ (.multiple []) (.substep 0 i e)) (env, s)) (env, { s with nodes := ss }) out := by
  obtain ⟨r, hr⟩ := stepAt_prints h ms s.nodes i hm
  refine ⟨r.2, ?_⟩
  rw [execW, evalW, if_pos (Nat.zero_le _), ← List.append_nil out]
  refine Gives.bind (a := (r.1, { s with nodes := r.2 })) ?_ ?_
  rotate_left
  · refine Gives.quiet (a := env) (gives_ok ?_) ?_
    · rw [bindTarget]
    · rfl
  refine he.quiet ?_
  rw [← List.append_nil out]
  exact hr.bind rfl


section
variable {A : Arith} {D : Shows} {glob : Globals} {ms : List TMachine} {n : Node} {trace : Option TraceOpt}

theorem gives_body {v : Value} {s s1 s2 s3 s4 : WState ms} {env env' : Env} {outs : List Value} {o1 o2 o3 : List Out}
    (hb : bindTarget (inputPattern n.inputs) v (fun _ => none) = .ok env)
    (h1 : Gives (tracePre D trace "      " n.name s.clock n.inputs env) () o1)
    (h2 : Gives (execAllW A glob ms n.stmts (env, s)) (env', s1) o2)
    (h3 : Gives (tracePost D trace "      " n.name s1.clock n.inputs n.locals n.outputs env') () o3)
    (u1 : updHists (ms.map TMachine.quiet) env' (posNames n.inputs) { s1 with clock := s1.clock + 1 } = .ok s2)
    (u2 : updHists (ms.map TMachine.quiet) env' (posNames n.outputs) s2 = .ok s3)
    (u3 : updHists (ms.map TMachine.quiet) env' (posNames n.locals) s3 = .ok s4)
    (hr : readOutputs env' n.outputs = .ok outs) :
    Gives (n.bodyW A D glob ms trace s v) (tupleValue outs, { s4 with regs := s4.regs.map Register.commit })
      (o1 ++ (o2 ++ o3)) := by
  unfold Node.bodyW
  refine (gives_ok hb).quiet (h1.bind (h2.bind ?_))
  rw [← List.append_nil o3]
  exact h3.bind ((gives_ok u1).quiet ((gives_ok u2).quiet ((gives_ok u3).quiet ((gives_ok hr).quiet rfl))))

theorem step_present {v : Value} {s : WState ms} {r : Value × WState ms} {out : List Out} (h : v.firstIsNil = false)
    (hb : Gives (n.bodyW A D glob ms trace s v) r out) : Gives ((n.machineW A D glob ms trace).step s v) r out := by
  have : (n.machineW A D glob ms trace).step s v = n.bodyW A D glob ms trace s v := by
    simp [Node.machineW, implicitClockW, h]
  rw [this]
  exact hb

theorem step_absent {v : Value} {s : WState ms} (h : v.firstIsNil = true) :
    Gives ((n.machineW A D glob ms trace).step s v) (Tup.allNil Scalar n.outTy, s) [] := by
  have : (n.machineW A D glob ms trace).step s v = pure (Tup.allNil Scalar n.outTy, s) := by
    simp [Node.machineW, implicitClockW, h]
  rw [this]
  rfl
end

/-- A node that does nothing. -/
def mute (name : String) (inputs : List TyVar) : Node := ⟨name, inputs, [], [], [], [], [], 0⟩

/-- With its attribute `#[trace(fmt)]`. -/
def muteW (A : Arith) (D : Shows) (glob : Globals) (name fmt : String) (inputs : List TyVar) : TMachine :=
  (mute name inputs).machineW A D glob [] (some (.stdOut, .empty, .str fmt))

theorem mute_absent {A : Arith} {D : Shows} {glob : Globals} {name fmt : String} {inputs : List TyVar} {v : Value}
    (h : v.firstIsNil = true) : Prints (muteW A D glob name fmt inputs) v [] := fun _ => ⟨_, step_absent h⟩

theorem printFmt_gives {file : TraceFile} {fmt text : String} {look : String → Option String}
    (h : (scan none fmt.toList).bind (render look) = some text) : Gives (printFmt file fmt look) () (message file text) := by
  unfold printFmt
  rw [h]
  rfl

theorem mute_present {A : Arith} {D : Shows} {glob : Globals} {name fmt text : String} {inputs : List TyVar}
    {v : Value} {env : Env} (h : v.firstIsNil = false) (hp : posNames inputs = [])
    (hb : bindTarget (inputPattern inputs) v (fun _ => none) = .ok env)
    (he : inputs.all (fun v => (env v.name).isSome) = true)
    (ht : ∀ clk, (scan none fmt.toList).bind (render (traceVars D "      " name clk inputs env)) = some text) :
    Prints (muteW A D glob name fmt inputs) v (message .stdOut text) := by
  intro (s : WState [])
  suffices hs : ∃ r, Gives ((mute name inputs).bodyW A D glob [] (some (.stdOut, .empty, .str fmt)) s v) r
      (message .stdOut text) from hs.imp fun _ => step_present h
  refine ⟨(tupleValue [], { s with clock := s.clock + 1, regs := s.regs.map Register.commit }), ?_⟩
  rw [show message .stdOut text = message .stdOut "" ++ ([] ++ message .stdOut text) by simp [message]]
  refine gives_body (s := s) (s1 := s) (env' := env) hb ?_ ?_ ?_ (s2 := { s with clock := s.clock + 1 }) ?_
    (s3 := { s with clock := s.clock + 1 }) ?_
    (s4 := { s with clock := s.clock + 1 }) ?_ (outs := []) rfl
  · show Gives (printBlock ..) _ _
    unfold printBlock
    rw [show (mute name inputs).inputs = inputs from rfl, if_pos he]
    exact printFmt_gives rfl
  · rfl
  · show Gives (printBlock ..) _ _
    unfold printBlock
    rw [show (mute name inputs).inputs ++ (mute name inputs).locals ++ (mute name inputs).outputs = inputs by
      simp [mute], if_pos he]
    exact printFmt_gives (ht _)
  · rw [show posNames (mute name inputs).inputs = [] from hp]
    rfl
  · rfl
  · rfl

theorem fizz_prints {A : Arith} {D : Shows} {glob : Globals} :
    Prints (muteW A D glob "fizz" "Fizz" []) vUnit (message .stdOut "Fizz") :=
  mute_present rfl rfl rfl rfl fun _ => rfl

theorem buzz_prints {A : Arith} {D : Shows} {glob : Globals} :
    Prints (muteW A D glob "buzz" "Buzz" []) vUnit (message .stdOut "Buzz") :=
  mute_present rfl rfl rfl rfl fun _ => rfl

theorem newline_prints {A : Arith} {D : Shows} {glob : Globals} :
    Prints (muteW A D glob "newline" "\n" []) vUnit (message .stdOut "\n") :=
  mute_present rfl rfl rfl rfl fun _ => rfl

theorem id_prints {A : Arith} {D : Shows} {glob : Globals} {z : Int} (hz : Fits z) :
    Prints (muteW A D glob "id" "{n}" [⟨"n", .int, .implicit, 0⟩]) (vInt z) (message .stdOut (toString z)) := by
  refine mute_present rfl rfl (env := Env.set (fun _ => none) "n" (.defined (.int (Int64.ofInt z)))) rfl rfl fun clk => ?_
  rw [show scan none "{n}".toList = some [.arg "n"] from rfl]
  simp [render, traceVars, Env.set, Shows.nillable, Shows.scalar, hz.toInt]

/-- The node `main`. -/
def fizzMain : Node where
  name := "main"
  inputs := []
  outputs := []
  locals := [⟨"n", .int, .implicit, 1⟩, ⟨"div_3", .bool, .implicit, 0⟩, ⟨"div_5", .bool, .implicit, 0⟩,
    ⟨"div_either", .bool, .implicit, 0⟩]
  blocks := [⟨"fizz", some []⟩, ⟨"buzz", some []⟩, ⟨"id", some []⟩, ⟨"newline", some []⟩]
  stmts := [.let_ (.single "n") (.later 0 (.lit (.int 1)) (.bin .add (.var "n" 1) (.lit (.int 1)))),
    .let_ (.single "div_3") (.cmp .eq (.dummyParen (.bin .rem (.var "n" 0) (.lit (.int 3)))) (.lit (.int 0))),
    .let_ (.single "div_5") (.cmp .eq (.dummyParen (.bin .rem (.var "n" 0) (.lit (.int 5)))) (.lit (.int 0))),
    .let_ (.single "div_either") (.bin .bitOr (.var "div_3" 0) (.var "div_5" 0)),
    .let_ (.multiple []) (.substep 0 0 (.dummyParen (.clock .when (.tuple []) (.var "div_3" 0)))),
    .let_ (.multiple []) (.substep 0 1 (.dummyParen (.clock .when (.tuple []) (.var "div_5" 0)))),
    .let_ (.multiple []) (.substep 0 2 (.dummyParen (.clock .whenot (.var "n" 0) (.var "div_either" 0)))),
    .let_ (.multiple []) (.substep 0 3 (.tuple []))]
  registers := []
  flips := 0

/-- What it prints for the number `n`. -/
def fizzOut (n : Nat) : List Out :=
  (if n % 3 = 0 then message .stdOut "Fizz" else []) ++ ((if n % 5 = 0 then message .stdOut "Buzz" else []) ++
    ((if n % 3 = 0 ∨ n % 5 = 0 then [] else message .stdOut (toString (n : Int))) ++ message .stdOut "\n"))

/-- The state of `main` before instant `t`. -/
def FizzState {ms : List TMachine} (t : Nat) (s : WState ms) : Prop :=
  s.clock = t ∧ ∃ h : Hist Scalar 0, s.hist "n" = some ⟨0, h⟩ ∧
    h.ago 1 = .ok (if t = 0 then .nil else .defined (.int (Int64.ofInt t)))

theorem rem_small {A : Arith} {n k : Nat} (hn : n < 2 ^ 63) (hk : 0 < k ∧ k < 100) :
    intBin A .rem (Int64.ofInt n) (Int64.ofInt k) = .ok (Int64.ofInt ((n % k : Nat) : Int)) := by
  have h1 : (Int64.ofInt n).toInt = n := toInt_ofInt ⟨by omega, by omega⟩
  have h2 : (Int64.ofInt k).toInt = k := toInt_ofInt ⟨by omega, by omega⟩
  have h3 : Int64.ofInt k ≠ 0 := fun e => by
    have := congrArg Int64.toInt e
    rw [h2] at this
    simp at this
    omega
  have h4 : (n : Int).tdiv k = ((n / k : Nat) : Int) := rfl
  have h5 : (n : Int).tmod k = ((n % k : Nat) : Int) := rfl
  have h6 : n / k ≤ n := Nat.div_le_self ..
  simp only [intBin, h3, if_false, h1, h2, h4, h5]
  generalize n / k = q at h6
  rw [toInt_ofInt ⟨by omega, by omega⟩, if_pos rfl]

theorem rem_defined {A : Arith} {n k : Nat} (hn : n < 2 ^ 63) (hk : 0 < k ∧ k < 100) :
    Nillable.binop (scalarBin A .rem) (.defined (.int (Int64.ofInt n))) (.defined (.int (Int64.ofInt k))) =
      .ok (.defined (.int (Int64.ofInt ((n % k : Nat) : Int)))) := by
  show Except.map _ (Except.map _ (intBin A .rem _ _)) = _
  rw [rem_small hn hk]
  rfl

theorem eq_zero {A : Arith} {z : Nat} (hz : z < 2 ^ 63) :
    scalarCmp A .eq (.defined (.int (Int64.ofInt z))) (.defined (.int (Int64.ofInt 0))) = .ok (.defined (.bool (z == 0))) := by
  simp only [scalarCmp, comparable, if_true, Candle.cmp, Candle.nillableCmpEq, Nillable.eq, scalarEq]
  by_cases h : z = 0
  · subst h; simp [Nillable.map]
  · have : Int64.ofInt z ≠ Int64.ofInt 0 := fun e => h (by
      have := congrArg Int64.toInt e
      rw [toInt_ofInt ⟨by omega, by omega⟩, toInt_ofInt ⟨by omega, by omega⟩] at this
      omega)
    have : (Int64.ofInt z == Int64.ofInt 0) = false := by simpa using this
    rw [this]
    simp [h, Nillable.map]

theorem fizz_step {A : Arith} {D : Shows} {g : Globals} {t : Nat} (ht : t + 1 < 2 ^ 63)
    {ms : List TMachine} (hms : ms = [muteW A D g "fizz" "Fizz" [], muteW A D g "buzz" "Buzz" [],
      muteW A D g "id" "{n}" [⟨"n", .int, .implicit, 0⟩], muteW A D g "newline" "\n" []])
    {s : WState ms} (hs : FizzState t s) :
    ∃ s', FizzState (t + 1) s' ∧
      Gives ((fizzMain.machineW A D g ms none).step s vUnit) (vUnit, s') (fizzOut (t + 1)) := by
  obtain ⟨hc, h, hh, ha⟩ := hs
  let n : Nillable Scalar := .defined (.int (Int64.ofInt ((t + 1 : Nat) : Int)))
  let e1 := Env.set (fun _ => none) "n" n
  let b3 : Bool := (t + 1) % 3 == 0
  let b5 : Bool := (t + 1) % 5 == 0
  let e2 := e1.set "div_3" (.defined (.bool b3))
  let e3 := e2.set "div_5" (.defined (.bool b5))
  let e4 := e3.set "div_either" (.defined (.bool (b3 || b5)))
  have k1 : Gives (execW A g ms fizzMain.stmts[0] (fun _ => none, s)) (e1, s) [] := by
    refine gives_let ?_
    have hb : Gives (evalW A g ms (fun _ => none) (.bin .add (.var "n" 1) (.lit (.int 1))) s)
        (.leaf (if t = 0 then .nil else n), s) [] := by
      refine gives_bin (gives_ago hh ha) gives_lit ?_
      split
      · rfl
      · show Except.map _ (Except.map _ (checked A _)) = _
        rw [toInt_ofInt ⟨by omega, by omega⟩]
        rw [show ((t : Int) + Int64.toInt 1) = ((t + 1 : Nat) : Int) by
          rfl, checked_fits ⟨by omega, by omega⟩]
        rfl
    have := gives_later (d := 0) (A := A) (glob := g) (ms := ms) (env := fun _ => none) (s := s)
      (gives_lit (l := .int 1)) hb
    rw [hc] at this
    cases t with
    | zero => exact this
    | succ t => exact this
  have k2 : Gives (execW A g ms fizzMain.stmts[1] (e1, s)) (e2, s) [] := by
    refine gives_let (gives_cmp (gives_paren (gives_bin (gives_var rfl) gives_lit ?_)) gives_lit (eq_zero ?_))
    · exact rem_defined (k := 3) ht (by omega)
    · omega
  have k3 : Gives (execW A g ms fizzMain.stmts[2] (e2, s)) (e3, s) [] := by
    refine gives_let (gives_cmp (gives_paren (gives_bin (gives_var rfl) gives_lit ?_)) gives_lit (eq_zero ?_))
    · exact rem_defined (k := 5) ht (by omega)
    · omega
  have k4 : Gives (execW A g ms fizzMain.stmts[3] (e3, s)) (e4, s) [] :=
    gives_let (gives_bin (gives_var rfl) (gives_var rfl) rfl)
  have p0 : Prints (muteW A D g "fizz" "Fizz" []) (Candle.when (.defined b3) vUnit)
      (if (t + 1) % 3 = 0 then message .stdOut "Fizz" else []) := by
    by_cases h3 : (t + 1) % 3 = 0
    · rw [if_pos h3, show b3 = true by simpa [b3] using h3]; exact fizz_prints
    · rw [if_neg h3, show b3 = false by simpa [b3] using h3]; exact mute_absent rfl
  have p1 : Prints (muteW A D g "buzz" "Buzz" []) (Candle.when (.defined b5) vUnit)
      (if (t + 1) % 5 = 0 then message .stdOut "Buzz" else []) := by
    by_cases h5 : (t + 1) % 5 = 0
    · rw [if_pos h5, show b5 = true by simpa [b5] using h5]; exact buzz_prints
    · rw [if_neg h5, show b5 = false by simpa [b5] using h5]; exact mute_absent rfl
  have p2 : Prints (muteW A D g "id" "{n}" [⟨"n", .int, .implicit, 0⟩])
      (Candle.whenot (.defined (b3 || b5)) (vInt ((t + 1 : Nat) : Int)))
      (if (t + 1) % 3 = 0 ∨ (t + 1) % 5 = 0 then [] else message .stdOut (toString ((t + 1 : Nat) : Int))) := by
    by_cases h35 : (t + 1) % 3 = 0 ∨ (t + 1) % 5 = 0
    · rw [if_pos h35, show (b3 || b5) = true by simpa [b3, b5] using h35]; exact mute_absent rfl
    · rw [if_neg h35, show (b3 || b5) = false by simpa [b3, b5] using h35]
      exact id_prints ⟨by omega, by omega⟩
  obtain ⟨s5, k5⟩ := gives_call (A := A) (glob := g) (ms := ms) (env := e4) (s := s) (i := 0) (by rw [hms]; rfl) p0
    (gives_paren (gives_when gives_unit (gives_var (x := "div_3") rfl)))
  obtain ⟨s6, k6⟩ := gives_call (A := A) (glob := g) (ms := ms) (env := e4) (s := { s with nodes := s5 }) (i := 1)
    (by rw [hms]; rfl) p1 (gives_paren (gives_when gives_unit (gives_var (x := "div_5") rfl)))
  obtain ⟨s7, k7⟩ := gives_call (A := A) (glob := g) (ms := ms) (env := e4) (s := { s with nodes := s6 }) (i := 2)
    (by rw [hms]; rfl) p2 (gives_paren (gives_whenot (gives_var (x := "n") rfl) (gives_var (x := "div_either") rfl)))
  obtain ⟨s8, k8⟩ := gives_call (A := A) (glob := g) (ms := ms) (env := e4) (s := { s with nodes := s7 }) (i := 3)
    (by rw [hms]; rfl) newline_prints gives_unit
  refine ⟨{ s with nodes := s8, clock := s.clock + 1, regs := s.regs.map Register.commit,
                   hist := fun y => if y = "n" then some ⟨0, h.update n⟩ else s.hist y }, ⟨by rw [← hc], _, rfl, ?_⟩, ?_⟩
  · show (h.update n).ago 1 = _
    rw [if_neg (Nat.succ_ne_zero t)]
    cases h
    rfl
  · refine step_present rfl ?_
    rw [← List.append_nil (fizzOut (t + 1)), ← List.nil_append (fizzOut (t + 1) ++ [])]
    refine gives_body (outs := []) (env := fun _ => none) (env' := e4) (s1 := { s with nodes := s8 })
      (s2 := { s with nodes := s8, clock := s.clock + 1 }) (s3 := { s with nodes := s8, clock := s.clock + 1 })
      (s4 := { s with nodes := s8, clock := s.clock + 1,
                      hist := fun y => if y = "n" then some ⟨0, h.update n⟩ else s.hist y })
      rfl rfl ?_ rfl rfl rfl ?_ rfl
    · refine k1.quiet <| k2.quiet <| k3.quiet <| k4.quiet ?_
      unfold fizzOut
      refine k5.bind <| k6.bind <| k7.bind ?_
      rw [← List.append_nil (message _ _)]
      exact k8.bind rfl
    · show updHists _ _ ["n"] _ = _
      simp only [updHists, updHist]
      rw [hh]
      rfl

theorem join_append (l l' : List String) : String.join (l ++ l') = String.join l ++ String.join l' := by
  induction l with
  | nil => simp
  | cons a l ih => simp [ih, String.append_assoc]

theorem message_join (f : TraceFile) (t : String) : String.join ((message f t).map (·.text)) = t := by
  unfold message
  split
  · subst_vars; rfl
  · simp

/-- A machine that goes from a state where `P t` holds to one where `P (t + 1)` holds, and prints `line t`. -/
theorem writes_of {m : TMachine} {P : Nat → m.σ → Prop} {inp res : Nat → Value} {out : Nat → List Out}
    {line : Nat → String} {n : Nat} (h0 : P 0 m.init)
    (hs : ∀ t < n, ∀ s, P t s → ∃ s', P (t + 1) s' ∧ Gives (m.step s (inp t)) (res t, s') (out t))
    (ho : ∀ t, (∀ o ∈ out t, o.file = .stdOut) ∧ String.join ((out t).map (·.text)) = line t) :
    ∀ k ≤ n, Tells m inp res line k := by
  have key : ∀ k t s, P t s → t + k ≤ n → ∃ s' o, m.runFrom s ((List.range' t k).map inp) =
      ⟨.ok ((List.range' t k).map res, s'), o⟩ ∧ (∀ x ∈ o, x.file = .stdOut) ∧
      String.join (o.map (·.text)) = String.join ((List.range' t k).map line) := by
    intro k
    induction k with
    | zero => exact fun t s _ _ => ⟨s, [], rfl, nofun, rfl⟩
    | succ k ih =>
      intro t s hp hk
      obtain ⟨s1, h1, hg⟩ := hs t (by omega) s hp
      obtain ⟨s2, o, h2, h3, h4⟩ := ih (t + 1) s1 h1 (by omega)
      refine ⟨s2, out t ++ o, ?_, ?_, ?_⟩
      · rw [List.range'_succ, List.map_cons, TMachine.runFrom]
        refine Gives.bind hg ?_
        rw [← List.append_nil o]
        exact Gives.bind h2 rfl
      · intro x hx
        rcases List.mem_append.1 hx with hx | hx
        · exact (ho t).1 x hx
        · exact h3 x hx
      · rw [List.map_append, join_append, (ho t).2, h4, List.range'_succ]
        simp
  intro k hk
  unfold Tells
  rw [List.range_eq_range']
  exact key k 0 _ h0 (by omega)

theorem message_out (t : String) : ∀ o ∈ message .stdOut t, o.file = .stdOut := by
  intro o ho
  unfold message at ho
  split at ho
  · cases ho
  · simp only [List.mem_singleton] at ho
    rw [ho]

theorem fizz_line (n : Nat) : (∀ o ∈ fizzOut n, o.file = .stdOut) ∧
    String.join ((fizzOut n).map (·.text)) = fizzbuzz n ++ "\n" := by
  have hm := message_out
  unfold fizzOut
  constructor
  · intro o ho
    simp only [List.mem_append] at ho
    rcases ho with ho | ho | ho | ho
    · split at ho
      · exact hm _ o ho
      · cases ho
    · split at ho
      · exact hm _ o ho
      · cases ho
    · split at ho
      · cases ho
      · exact hm _ o ho
    · exact hm _ o ho
  · simp only [List.map_append, join_append, message_join, fizzbuzz]
    by_cases h3 : n % 3 = 0 <;> by_cases h5 : n % 5 = 0
    · have : n % 15 = 0 := by omega
      simp [h3, h5, this, message_join]
    · have : n % 15 ≠ 0 := by omega
      simp [h3, h5, this, message_join]
    · have : n % 15 ≠ 0 := by omega
      simp [h3, h5, this, message_join]
    · have : n % 15 ≠ 0 := by omega
      simp [h3, h5, this, message_join]
      rfl

/-- `zero_then_one`. -/
def zeroOne : Node where
  name := "zero_then_one"
  inputs := []
  outputs := []
  locals := [⟨"i", .int, .implicit, 0⟩]
  blocks := []
  stmts := [.let_ (.single "i") (.later 0 (.lit (.int 0)) (.lit (.int 1)))]
  registers := []
  flips := 0

mutual
/-- Whether two expressions are equal. -/
def sameExpr : Expr → Expr → Bool
  | .lit a, .lit b => decide (a = b)
  | .global a, .global b => decide (a = b)
  | .var a n, .var b k => decide (a = b) && decide (n = k)
  | .tuple es, .tuple fs => sameExprs es fs
  | .dummyParen a, .dummyParen b => sameExpr a b
  | .bin o a b, .bin o' a' b' => decide (o = o') && (sameExpr a a' && sameExpr b b')
  | .cmp o a b, .cmp o' a' b' => decide (o = o') && (sameExpr a a' && sameExpr b b')
  | .clock o a b, .clock o' a' b' => decide (o = o') && (sameExpr a a' && sameExpr b b')
  | .later n a b, .later k a' b' => decide (n = k) && (sameExpr a a' && sameExpr b b')
  | .substep n i a, .substep k j b => decide (n = k) && (decide (i = j) && sameExpr a b)
  | _, _ => false
/-- Whether two lists of expressions are equal. -/
def sameExprs : List Expr → List Expr → Bool
  | [], [] => true
  | e :: es, f :: fs => sameExpr e f && sameExprs es fs
  | _, _ => false
end

mutual
theorem sameExpr_eq : (a b : Expr) → sameExpr a b = true → a = b
  | .lit a, b, h => by cases b <;> simp_all [sameExpr]
  | .global a, b, h => by cases b <;> simp_all [sameExpr]
  | .var a n, b, h => by cases b <;> simp_all [sameExpr]
  | .tuple es, b, h => by
    cases b <;> simp only [sameExpr, Bool.false_eq_true] at h
    rw [sameExprs_eq _ _ h]
  | .dummyParen a, b, h => by
    cases b <;> simp only [sameExpr, Bool.false_eq_true] at h
    rw [sameExpr_eq _ _ h]
  | .bin o a b, x, h => by
    cases x <;> simp only [sameExpr, Bool.false_eq_true, Bool.and_eq_true, decide_eq_true_eq] at h
    rw [h.1, sameExpr_eq _ _ h.2.1, sameExpr_eq _ _ h.2.2]
  | .cmp o a b, x, h => by
    cases x <;> simp only [sameExpr, Bool.false_eq_true, Bool.and_eq_true, decide_eq_true_eq] at h
    rw [h.1, sameExpr_eq _ _ h.2.1, sameExpr_eq _ _ h.2.2]
  | .clock o a b, x, h => by
    cases x <;> simp only [sameExpr, Bool.false_eq_true, Bool.and_eq_true, decide_eq_true_eq] at h
    rw [h.1, sameExpr_eq _ _ h.2.1, sameExpr_eq _ _ h.2.2]
  | .later o a b, x, h => by
    cases x <;> simp only [sameExpr, Bool.false_eq_true, Bool.and_eq_true, decide_eq_true_eq] at h
    rw [h.1, sameExpr_eq _ _ h.2.1, sameExpr_eq _ _ h.2.2]
  | .substep n i a, x, h => by
    cases x <;> simp only [sameExpr, Bool.false_eq_true, Bool.and_eq_true, decide_eq_true_eq] at h
    rw [h.1, h.2.1, sameExpr_eq _ _ h.2.2]
  | .dummyPre _, b, h | .un _ _, b, h | .fetchPre _ _, b, h | .fetchFby _ _ _, b, h | .flip _ _ _, b, h
  | .ifx _ _ _, b, h | .merge _ _ _, b, h => by simp [sameExpr] at h
theorem sameExprs_eq : (a b : List Expr) → sameExprs a b = true → a = b
  | [], b, h => by cases b <;> simp_all [sameExprs]
  | e :: es, b, h => by
    cases b <;> simp only [sameExprs, Bool.false_eq_true, Bool.and_eq_true] at h
    rw [sameExpr_eq _ _ h.1, sameExprs_eq _ _ h.2]
end

/-- Whether two statements are equal. -/
def sameStmt : Stmt → Stmt → Bool
  | .let_ (.single x) e, .let_ (.single y) f => decide (x = y) && sameExpr e f
  | .let_ (.multiple []) e, .let_ (.multiple []) f => sameExpr e f
  | .let_ (.multiple [.single x, .single y, .single z]) e, .let_ (.multiple [.single x', .single y', .single z']) f =>
    decide (x = x' ∧ y = y' ∧ z = z') && sameExpr e f
  | .assert e, .assert f => sameExpr e f
  | _, _ => false

theorem sameStmt_eq {a b : Stmt} (h : sameStmt a b = true) : a = b := by
  unfold sameStmt at h
  split at h
  · simp only [Bool.and_eq_true, decide_eq_true_eq] at h
    rw [h.1, sameExpr_eq _ _ h.2]
  · rw [sameExpr_eq _ _ h]
  · simp only [Bool.and_eq_true, decide_eq_true_eq] at h
    obtain ⟨⟨rfl, rfl, rfl⟩, h⟩ := h
    rw [sameExpr_eq _ _ h]
  · rw [sameExpr_eq _ _ h]
  · cases h

/-- Whether two lists of statements are equal. -/
def sameStmts : List Stmt → List Stmt → Bool
  | [], [] => true
  | a :: as', b :: bs => sameStmt a b && sameStmts as' bs
  | _, _ => false

theorem sameStmts_eq : {a b : List Stmt} → sameStmts a b = true → a = b
  | [], b, h => by cases b <;> simp_all [sameStmts]
  | e :: es, b, h => by
    cases b <;> simp only [sameStmts, Bool.false_eq_true, Bool.and_eq_true] at h
    rw [sameStmt_eq h.1, sameStmts_eq h.2]

/-- Whether two nodes without registers are equal. -/
def sameNode (n k : Node) : Bool :=
  decide (n.name = k.name ∧ n.inputs = k.inputs ∧ n.outputs = k.outputs ∧ n.locals = k.locals ∧
    n.blocks = k.blocks ∧ n.flips = k.flips) && (sameStmts n.stmts k.stmts && (n.registers.isEmpty && k.registers.isEmpty))

theorem sameNode_eq {n k : Node} (h : sameNode n k = true) : n = k := by
  simp only [sameNode, Bool.and_eq_true, decide_eq_true_eq, List.isEmpty_iff] at h
  obtain ⟨⟨h1, h2, h3, h4, h5, h6⟩, h7, h8, h9⟩ := h
  have h7 := sameStmts_eq h7
  cases n; cases k
  simp only at *
  subst_vars
  rfl

/-- Whether the program is accepted without a message and consists of these nodes. -/
def compilesTo (ts : List Tok) (ns : List Node) : Bool :=
  match expand ts with
  | some (.done [] (some p)) => go p.decls ns
  | _ => false
where
  go : List San.Decl → List Node → Bool
    | [], [] => true
    | .node n :: ds, k :: ks => sameNode n k && go ds ks
    | _, _ => false

theorem compilesTo_go : {ds : List San.Decl} → {ns : List Node} → compilesTo.go ds ns = true → ds = ns.map .node
  | [], ns, h => by cases ns <;> simp_all [compilesTo.go]
  | .node n :: ds, ns, h => by
    cases ns <;> simp only [compilesTo.go, Bool.false_eq_true, Bool.and_eq_true] at h
    rw [sameNode_eq h.1, compilesTo_go h.2]
    rfl
  | .const _ :: _, _, h | .extConst _ :: _, _, h | .extNode _ :: _, _, h => by simp [compilesTo.go] at h

theorem expand_of {ts : List Tok} {ns : List Node} (h : compilesTo ts ns = true) :
    ∃ p', expand ts = some (.done [] (some p')) ∧ p'.decls = ns.map .node := by
  unfold compilesTo at h
  split at h
  · rename_i p he
    exact ⟨p, he, compilesTo_go h⟩
  · cases h

theorem zeroOne_compiles : compilesTo zeroOneText [zeroOne] = true := by decide +kernel

theorem fizz_compiles : compilesTo fizzbuzzText [mute "fizz" [], mute "buzz" [],
    mute "id" [⟨"n", .int, .implicit, 0⟩], mute "newline" [], fizzMain] = true := by decide +kernel

theorem fizz_links (A : Arith) (D : Shows) (X : ExternW) (trace : String → Option TraceOpt)
    (h1 : trace "fizz" = some (.stdOut, .empty, .str "Fizz")) (h2 : trace "buzz" = some (.stdOut, .empty, .str "Buzz"))
    (h3 : trace "id" = some (.stdOut, .empty, .str "{n}"))
    (h4 : trace "newline" = some (.stdOut, .empty, .str "\n")) (h5 : trace "main" = none) :
    ∃ I, linkW A D X trace ([mute "fizz" [], mute "buzz" [], mute "id" [⟨"n", .int, .implicit, 0⟩],
        mute "newline" [], fizzMain].map San.Decl.node) = .ok I ∧
      I.nodes "main" = some (fizzMain.machineW A D (fun _ => none) [muteW A D (fun _ => none) "fizz" "Fizz" [],
        muteW A D (fun _ => none) "buzz" "Buzz" [],
        muteW A D (fun _ => none) "id" "{n}" [⟨"n", .int, .implicit, 0⟩],
        muteW A D (fun _ => none) "newline" "\n" []] none) := by
  unfold muteW
  rw [← h1, ← h2, ← h3, ← h4, ← h5]
  exact ⟨_, rfl, rfl⟩

theorem zeroOne_links (A : Arith) (D : Shows) (X : ExternW) (trace : String → Option TraceOpt)
    (h : trace "zero_then_one" = some (.stdOut, .empty, .str "{i}")) :
    ∃ I, linkW A D X trace ([zeroOne].map San.Decl.node) = .ok I ∧
      I.nodes "zero_then_one" =
        some (zeroOne.machineW A D (fun _ => none) [] (some (.stdOut, .empty, .str "{i}"))) := by
  rw [← h]
  exact ⟨_, rfl, rfl⟩

theorem fizz_writes {A : Arith} {D : Shows} {g : Globals} {ms : List TMachine}
    (hms : ms = [muteW A D g "fizz" "Fizz" [], muteW A D g "buzz" "Buzz" [],
      muteW A D g "id" "{n}" [⟨"n", .int, .implicit, 0⟩], muteW A D g "newline" "\n" []]) :
    ∀ k < 2 ^ 63, Tells (fizzMain.machineW A D g ms none) (fun _ => vUnit) (fun _ => vUnit)
      (fun t => fizzbuzz (t + 1) ++ "\n") k := by
  intro k hk
  refine writes_of (P := FizzState) (out := fun t => fizzOut (t + 1)) (n := 2 ^ 63 - 1) ?_ ?_ ?_ k (by omega)
  · exact ⟨rfl, Hist.default 0, rfl, rfl⟩
  · exact fun t ht s hs => fizz_step (by omega) hms hs
  · exact fun t => fizz_line _

theorem zeroOne_step {A : Arith} {D : Shows} {g : Globals} {t : Nat} {s : WState []} (hs : s.clock = t) :
    ∃ s' : WState [], s'.clock = t + 1 ∧
      Gives ((zeroOne.machineW A D g [] (some (.stdOut, .empty, .str "{i}"))).step s vUnit) (vUnit, s')
        (message .stdOut (if t = 0 then "0" else "1")) := by
  refine ⟨{ s with clock := s.clock + 1, regs := s.regs.map Register.commit }, by simp [hs], step_present rfl ?_⟩
  rw [show message .stdOut (if t = 0 then "0" else "1") = message .stdOut "" ++ ([] ++
    message .stdOut (if t = 0 then "0" else "1")) by simp [message]]
  refine gives_body (outs := []) (env := fun _ => none)
    (env' := Env.set (fun _ => none) "i" (.defined (.int (if t = 0 then 0 else 1)))) (s1 := s)
    (s2 := { s with clock := s.clock + 1 }) (s3 := { s with clock := s.clock + 1 })
    (s4 := { s with clock := s.clock + 1 }) rfl ?_ ?_ ?_ rfl rfl rfl rfl
  · exact printFmt_gives (file := .stdOut) (fmt := "") (text := "")
      (look := traceVars D "      " "zero_then_one" s.clock [] fun _ => none) rfl
  · have := gives_let (x := "i") (A := A) (glob := g) (ms := []) (env := fun _ => none) (s := s)
      (e := .later 0 (.lit (.int 0)) (.lit (.int 1))) (v := .defined (.int (if t = 0 then 0 else 1))) (by
        have := gives_later (A := A) (glob := g) (ms := []) (env := fun _ => none) (s := s) (d := 0)
          (gives_lit (l := .int 0)) (gives_lit (l := .int 1))
        rw [hs] at this
        cases t <;> exact this)
    exact this.quiet rfl
  · refine printFmt_gives (file := .stdOut) (fmt := "{i}") (look := traceVars D "      " "zero_then_one" s.clock [⟨"i", .int, .implicit, 0⟩]
      (Env.set (fun _ => none) "i" (.defined (.int (if t = 0 then 0 else 1))))) ?_
    by_cases h : t = 0
    · simp only [h, if_true]; rfl
    · simp only [h, if_false]; rfl

theorem zeroOne_writes {A : Arith} {D : Shows} {g : Globals} (k : Nat) :
    Tells (zeroOne.machineW A D g [] (some (.stdOut, .empty, .str "{i}"))) (fun _ => vUnit) (fun _ => vUnit)
      (fun t => if t = 0 then "0" else "1") k := by
  refine writes_of (P := fun t (s : WState []) => s.clock = t)
    (out := fun t => message .stdOut (if t = 0 then "0" else "1")) (n := k) rfl ?_ ?_ k (Nat.le_refl k)
  · exact fun t _ s hs => zeroOne_step hs
  · intro t
    exact ⟨message_out _, message_join ..⟩

/-! ## `format` and `addition_correct` -/

/-- The node `foo` of the module `format`. -/
def fooNode : Node where
  name := "foo"
  inputs := [⟨"a", .int, .implicit, 0⟩, ⟨"b", .int, .implicit, 0⟩, ⟨"c", .int, .implicit, 0⟩]
  outputs := [⟨"x", .int, .implicit, 0⟩, ⟨"y", .int, .implicit, 0⟩, ⟨"z", .int, .implicit, 0⟩]
  locals := []
  blocks := []
  stmts := [.let_ (.multiple [.single "x", .single "y", .single "z"]) (.tuple [.var "a" 0, .var "b" 0, .var "c" 0])]
  registers := []
  flips := 0

theorem foo_compiles : compilesTo formatText [fooNode] = true := by decide +kernel

theorem foo_links (A : Arith) (D : Shows) (X : ExternW) (trace : String → Option TraceOpt)
    (h : trace "foo" = some (.stdOut, .default, .default)) :
    ∃ I, linkW A D X trace ([fooNode].map San.Decl.node) = .ok I ∧
      I.nodes "foo" = some (fooNode.machineW A D (fun _ => none) [] (some (.stdOut, .default, .default))) := by
  rw [← h]
  exact ⟨_, rfl, rfl⟩

/-- The variables of `foo`. -/
def fooVars (a b c : Int) (x : String) : Nillable Scalar :=
  .defined (.int (Int64.ofInt (if x = "a" ∨ x = "x" then a else if x = "b" ∨ x = "y" then b else c)))

theorem defaultLine_three {D : Shows} {ext this arrow x y z : String} {X : String → Nillable Scalar} :
    defaultLine D ext this arrow [x, y, z] X = ext ++ this ++ arrow ++ "(" ++ (x ++ "=" ++ onScreen D (X x) ++ ", " ++
      (y ++ "=" ++ onScreen D (X y)) ++ ", " ++ (z ++ "=" ++ onScreen D (X z))) ++ ")\n" := by
  rfl

theorem foo_screen (D : Shows) {n : Int} (h : Fits n) :
    onScreen D (.defined (.int (Int64.ofInt n))) = toString n := by
  simp [onScreen, h.toInt]

theorem foo_text {D : Shows} {a b c : Int} (ha : Fits a) (hb : Fits b) (hc : Fits c) :
    defaultLine D "      " "foo" " <- " ["a", "b", "c"] (fooVars a b c) ++
      defaultLine D "      " "foo" " -> " ["x", "y", "z"] (fooVars a b c) = fooLine a b c := by
  have e1 : onScreen D (fooVars a b c "a") = toString a := foo_screen D ha
  have e2 : onScreen D (fooVars a b c "b") = toString b := foo_screen D hb
  have e3 : onScreen D (fooVars a b c "c") = toString c := foo_screen D hc
  have e4 : onScreen D (fooVars a b c "x") = toString a := foo_screen D ha
  have e5 : onScreen D (fooVars a b c "y") = toString b := foo_screen D hb
  have e6 : onScreen D (fooVars a b c "z") = toString c := foo_screen D hc
  rw [defaultLine_three, defaultLine_three, e1, e2, e3, e4, e5, e6]
  unfold fooLine
  generalize toString a = a, toString b = b, toString c = c
  apply String.toList_injective
  simp only [String.toList_append, List.append_assoc]
  rfl

theorem foo_body {A : Arith} {g : Globals} {a b c : Int} (s : WState []) :
    Gives (execAllW A g [] fooNode.stmts
      (Env.set (Env.set (Env.set (fun _ => none) "a" (.defined (.int (Int64.ofInt a)))) "b"
        (.defined (.int (Int64.ofInt b)))) "c" (.defined (.int (Int64.ofInt c))), s))
      (Env.set (Env.set (Env.set (Env.set (Env.set (Env.set (fun _ => none) "a" (.defined (.int (Int64.ofInt a)))) "b"
        (.defined (.int (Int64.ofInt b)))) "c" (.defined (.int (Int64.ofInt c)))) "x"
        (.defined (.int (Int64.ofInt a)))) "y" (.defined (.int (Int64.ofInt b)))) "z"
        (.defined (.int (Int64.ofInt c))), s) [] := by
  rfl

/-- The two lines. -/
def fooOut (D : Shows) (a b c : Int) : List Out :=
  [⟨.stdOut, defaultLine D "      " "foo" " <- " ["a", "b", "c"] (fooVars a b c)⟩,
   ⟨.stdOut, defaultLine D "      " "foo" " -> " ["x", "y", "z"] (fooVars a b c)⟩]

theorem fooOut_text {D : Shows} {a b c : Int} (ha : Fits a) (hb : Fits b) (hc : Fits c) :
    (∀ o ∈ fooOut D a b c, o.file = .stdOut) ∧
      String.join ((fooOut D a b c).map (·.text)) = fooLine a b c := by
  constructor
  · intro o ho
    simp only [fooOut, List.mem_cons, List.not_mem_nil, or_false] at ho
    rcases ho with rfl | rfl <;> rfl
  · rw [← foo_text (D := D) ha hb hc]
    simp only [fooOut, List.map_cons, List.map_nil, String.join_cons, String.join_nil, String.append_empty]

theorem foo_step {A : Arith} {D : Shows} {g : Globals} {a b c : Int} (s : WState []) : ∃ s' : WState [],
      Gives ((fooNode.machineW A D g [] (some (.stdOut, .default, .default))).step s
        (triple (vInt a) (vInt b) (vInt c))) (triple (vInt a) (vInt b) (vInt c), s') (fooOut D a b c) := by
  obtain ⟨pre, post, hf, hl⟩ := C51_default D .stdOut (inputs := fooNode.inputs) (locals := fooNode.locals)
    (outputs := fooNode.outputs) (by decide)
  obtain ⟨h1, h2⟩ := hl "      " "foo" s.clock (fooVars a b c)
  refine ⟨{ s with clock := s.clock + 1, regs := s.regs.map Register.commit }, step_present rfl ?_⟩
  rw [show fooOut D a b c = told D (some (.stdOut, .default, .default)) "      " "foo" s.clock fooNode.inputs
    (fooVars a b c) pre ++ ([] ++ told D (some (.stdOut, .default, .default)) "      " "foo" s.clock
      (fooNode.inputs ++ fooNode.locals ++ fooNode.outputs) (fooVars a b c) post) by rw [h1, h2]; rfl]
  · refine gives_body (outs := [vInt a, vInt b, vInt c])
      (s2 := { s with clock := s.clock + 1 }) (s3 := { s with clock := s.clock + 1 })
      (s4 := { s with clock := s.clock + 1 }) rfl
      (tracePre_ok (X := fooVars a b c) hf ?_) (foo_body s) (tracePost_ok (X := fooVars a b c) hf ?_) rfl rfl rfl rfl
    · intro v hv
      simp only [fooNode, List.mem_cons, List.not_mem_nil, or_false] at hv
      rcases hv with rfl | rfl | rfl <;> rfl
    · intro v hv
      simp only [fooNode, List.append_nil, List.cons_append, List.nil_append, List.mem_cons, List.not_mem_nil,
        or_false] at hv
      rcases hv with rfl | rfl | rfl | rfl | rfl | rfl <;> rfl

/-- The node `addition_correct`. -/
def addNode : Node where
  name := "addition_correct"
  inputs := []
  outputs := []
  locals := []
  blocks := []
  stmts := [.assert (.cmp .eq (.bin .add (.lit (.int 1)) (.lit (.int 1))) (.lit (.int 2)))]
  registers := []
  flips := 0

theorem add_compiles : compilesTo addText [addNode] = true := by decide +kernel

theorem add_links (A : Arith) (D : Shows) (X : ExternW) (trace : String → Option TraceOpt)
    (h : trace "addition_correct" = some (.stdOut, .str "<- {_clk}", .str "-> {_clk}")) :
    ∃ I, linkW A D X trace ([addNode].map San.Decl.node) = .ok I ∧
      I.nodes "addition_correct" =
        some (addNode.machineW A D (fun _ => none) [] (some (.stdOut, .str "<- {_clk}", .str "-> {_clk}"))) := by
  rw [← h]
  exact ⟨_, rfl, rfl⟩

theorem add_step {A : Arith} {D : Shows} {g : Globals} {t : Nat} {s : WState []} (hs : s.clock = t) :
    ∃ s' : WState [], s'.clock = t + 1 ∧
      Gives ((addNode.machineW A D g [] (some (.stdOut, .str "<- {_clk}", .str "-> {_clk}"))).step s vUnit)
        (vUnit, s') (message .stdOut ("<- " ++ toString t) ++ ([] ++ message .stdOut ("-> " ++ toString t))) := by
  refine ⟨{ s with clock := s.clock + 1, regs := s.regs.map Register.commit }, by simp [hs], step_present rfl ?_⟩
  refine gives_body (outs := []) (env := fun _ => none) (env' := fun _ => none) (s1 := s)
    (s2 := { s with clock := s.clock + 1 }) (s3 := { s with clock := s.clock + 1 })
    (s4 := { s with clock := s.clock + 1 }) rfl ?_ ?_ ?_ rfl rfl rfl rfl
  · refine printFmt_gives (file := .stdOut) (fmt := "<- {_clk}")
      (look := traceVars D "      " "addition_correct" s.clock [] fun _ => none) ?_
    rw [hs]
    refine (show _ = some (String.singleton '<' ++ (String.singleton '-' ++ (String.singleton ' ' ++
      (toString t ++ "")))) from rfl).trans (congrArg some ?_)
    apply String.toList_injective
    simp only [String.toList_append, String.append_empty]
    rfl
  · rfl
  · refine printFmt_gives (file := .stdOut) (fmt := "-> {_clk}")
      (look := traceVars D "      " "addition_correct" s.clock [] fun _ => none) ?_
    rw [hs]
    refine (show _ = some (String.singleton '-' ++ (String.singleton '>' ++ (String.singleton ' ' ++
      (toString t ++ "")))) from rfl).trans (congrArg some ?_)
    apply String.toList_injective
    simp only [String.toList_append, String.append_empty]
    rfl

/-- `foo`, with numbers that fit in 64 bits. -/
theorem foo_tells {A : Arith} {D : Shows} {g : Globals} (a b c : Nat → Int)
    (h : ∀ t, Fits (a t) ∧ Fits (b t) ∧ Fits (c t)) (k : Nat) :
    Tells (fooNode.machineW A D g [] (some (.stdOut, .default, .default)))
      (fun t => triple (vInt (a t)) (vInt (b t)) (vInt (c t)))
      (fun t => triple (vInt (a t)) (vInt (b t)) (vInt (c t))) (fun t => fooLine (a t) (b t) (c t)) k := by
  refine writes_of (P := fun _ _ => True) (out := fun t => fooOut D (a t) (b t) (c t)) (n := k) trivial ?_ ?_ k
    (Nat.le_refl k)
  · exact fun t _ s _ => (foo_step s).imp fun _ hs => ⟨trivial, hs⟩
  · exact fun t => fooOut_text (h t).1 (h t).2.1 (h t).2.2

theorem add_tells {A : Arith} {D : Shows} {g : Globals} (k : Nat) :
    Tells (addNode.machineW A D g [] (some (.stdOut, .str "<- {_clk}", .str "-> {_clk}"))) (fun _ => vUnit)
      (fun _ => vUnit) (fun t => s!"<- {t}-> {t}") k := by
  refine writes_of (P := fun t (s : WState []) => s.clock = t)
    (out := fun t => message .stdOut ("<- " ++ toString t) ++ ([] ++ message .stdOut ("-> " ++ toString t))) (n := k)
    rfl ?_ ?_ k (Nat.le_refl k)
  · exact fun t _ s hs => add_step hs
  · intro t
    refine ⟨fun o ho => ?_, ?_⟩
    · rcases List.mem_append.1 ho with ho | ho
      · exact message_out _ o ho
      · exact message_out _ o (by simpa using ho)
    · simp only [List.map_append, join_append, message_join, List.nil_append]
      simp [String.append_assoc, toString]

end Chandeliers.Smp
