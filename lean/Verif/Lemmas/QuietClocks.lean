import Verif.Lemmas.Quiet
import Verif.Lemmas.Clockcheck

/-!
# Clock checking of well-typed nodes does not abort
-/

set_option autoImplicit false

namespace Chandeliers.Quiet
open Chandeliers.San Chandeliers.Spec Chandeliers.Err Chandeliers.Err.Chk

section
variable {σ : Type} {P : σ → Prop}

theorem isImplicit (k : Clk) : Quiet P (k.isImplicit : Chk Diag σ Unit) fun _ => True := by
  cases k <;> first | exact unit | exact error _

theorem clkIdentical (k l : Clk) : Quiet P (k.identical l : Chk Diag σ Unit) fun _ => True := by
  cases k <;> cases l <;> simp only [Clk.identical] <;>
    first | exact unit | exact error _ | (split <;> first | exact unit | exact error _)

theorem clkRefine (k l : Clk) : Quiet P (k.refine l : Chk Diag σ Clk) fun _ => True := by
  cases k <;> cases l <;> simp only [Clk.refine] <;>
    first | exact unit | exact error _ | (split <;> first | exact unit | exact error _)

theorem asClock (op : ClockOp) (e : Expr) :
    Quiet P (e.asClock op : Chk Diag σ Clk) fun _ => True := by
  unfold Expr.asClock
  split
  · cases op <;> exact unit
  · exact error _

end

/-- These variables have clocks. -/
def Known (V : String → Prop) (c : ClkCtx) : Prop := ∀ x, V x → (c.local_ x).isSome

variable {V : String → Prop} {Γ : TyEnv}

theorem clockOf {x : String} (h : V x) : Quiet (Known V) (San.clockOf x) fun _ => True := by
  unfold San.clockOf
  refine bind get fun c hc => ?_
  obtain ⟨k, hk⟩ := Option.isSome_iff_exists.1 (hc x h)
  rw [hk]
  exact unit

theorem saveClock (id : Nat) (k : Clk) : Quiet (Known V) (San.saveClock id k) fun _ => True :=
  modify fun _ hs => hs

mutual
theorem clockcheck (hV : ∀ x t, Γ.vars x = some t → V x) : {e : Expr} → {t : TyTuple} →
    HasType Γ e t → Quiet (Known V) e.clockcheck fun _ => True
  | _, _, .lit => by simp only [Expr.clockcheck]; exact unit
  | _, _, .global _ => by simp only [Expr.clockcheck]; exact unit
  | _, _, .var h => by simp only [Expr.clockcheck]; exact clockOf (hV _ _ h)
  | _, _, .dummyPre h => by
    simp only [Expr.clockcheck]
    exact bind (clockcheck hV h) fun k _ => bind (isImplicit k) fun _ _ => unit
  | _, _, .dummyParen h => by simp only [Expr.clockcheck]; exact clockcheck hV h
  | _, _, .tuple .nil => by simp only [Expr.clockcheck]; exact unit
  | _, _, .tuple (.cons h hs) => by
    simp only [Expr.clockcheck]
    have h1 := clockcheck hV h
    exact bind h1 fun k _ => bind h1 fun k' _ => bind (clkIdentical k k') fun _ _ =>
      bind (clockcheckList hV k hs) fun _ _ => unit
  | _, _, .bin hl hr _ => by
    simp only [Expr.clockcheck]
    exact bind (both (clockcheck hV hl) (clockcheck hV hr)) fun _ _ => clkRefine _ _
  | _, _, .un he _ => by simp only [Expr.clockcheck]; exact clockcheck hV he
  | _, _, .cmp hl hr _ => by
    simp only [Expr.clockcheck]
    exact bind (both (clockcheck hV hl) (clockcheck hV hr)) fun _ _ => clkRefine _ _
  | _, _, .clock he hb => by
    simp only [Expr.clockcheck]
    exact bind (clockcheck hV he) fun _ _ => bind (clockcheck hV hb) fun _ _ =>
      bind (asClock _ _) fun _ _ => bind (clkRefine _ _) fun _ _ => unit
  | _, _, .later he he' => by
    simp only [Expr.clockcheck]
    exact bind (both (clockcheck hV he) (clockcheck hV he')) fun _ _ =>
      bind (opt (isImplicit _)) fun _ _ => bind (opt (isImplicit _)) fun _ _ => unit
  | _, _, .flip he he' => by
    simp only [Expr.clockcheck]
    exact bind (both (clockcheck hV he) (clockcheck hV he')) fun _ _ =>
      bind (clkIdentical _ _) fun _ _ => unit
  | _, _, .ifx hb hy hn => by
    simp only [Expr.clockcheck]
    exact bind (opt (clockcheck hV hb)) fun _ k1 => bind (opt (clockcheck hV hy)) fun _ k2 =>
      bind (opt (clockcheck hV hn)) fun _ k3 => bind (ofOption k1) fun _ _ =>
      bind (ofOption k2) fun _ _ => bind (ofOption k3) fun _ _ => bind (clkRefine _ _) fun _ _ =>
      clkRefine _ _
  | _, _, .merge hb hy hn => by
    simp only [Expr.clockcheck]
    exact bind (opt (asClock _ _)) fun _ k4 => bind (opt (asClock _ _)) fun _ k5 =>
      bind (opt (clockcheck hV hb)) fun _ k1 => bind (opt (clockcheck hV hy)) fun _ k2 =>
      bind (opt (clockcheck hV hn)) fun _ k3 => bind (ofOption k1) fun _ _ =>
      bind (ofOption k2) fun _ _ => bind (ofOption k3) fun _ _ => bind (ofOption k4) fun _ _ =>
      bind (clkRefine _ _) fun _ _ => bind (ofOption k5) fun _ _ => bind (clkRefine _ _) fun _ _ =>
      unit
  | _, _, .substep he _ => by simp only [Expr.clockcheck]; exact clockcheck hV he
  | _, _, .fetchPre he _ => by
    simp only [Expr.clockcheck]
    exact bind (clockcheck hV he) fun _ _ => bind (saveClock _ _) fun _ _ => unit
  | _, _, .fetchFby he he' _ => by
    simp only [Expr.clockcheck]
    exact bind (clockcheck hV he') fun _ _ => bind (clockcheck hV he) fun _ _ =>
      bind (clkIdentical _ _) fun _ _ => bind (saveClock _ _) fun _ _ => unit
theorem clockcheckList (hV : ∀ x t, Γ.vars x = some t → V x) (k : Clk) : {es : List Expr} →
    {ts : List TyTuple} → HasTypes Γ es ts →
    Quiet (Known V) (Expr.clockcheckList k es) fun _ => True
  | _, _, .nil => by simp only [Expr.clockcheckList]; exact unit
  | _, _, .cons h hs => by
    simp only [Expr.clockcheckList]
    exact bind (clockcheck hV h) fun _ _ => bind (clkIdentical _ _) fun _ _ => clockcheckList hV k hs
end

mutual
theorem targetClk (hV : ∀ x t, Γ.vars x = some t → V x) : {v : VarTuple} → {t : TyTuple} →
    TargetType Γ.vars v t → Quiet (Known V) v.clockcheck fun _ => True
  | _, _, .single h => by simp only [VarTuple.clockcheck]; exact clockOf (hV _ _ h)
  | _, _, .multiple .nil => by simp only [VarTuple.clockcheck]; exact unit
  | _, _, .multiple (.cons h hs) => by
    simp only [VarTuple.clockcheck]
    exact bind (targetClk hV h) fun k _ => bind (targetClk hV h) fun k' _ =>
      bind (clkIdentical k k') fun _ _ => bind (targetsClk hV k hs) fun _ _ => unit
theorem targetsClk (hV : ∀ x t, Γ.vars x = some t → V x) (k : Clk) : {vs : List VarTuple} →
    {ts : List TyTuple} → TargetTypes Γ.vars vs ts →
    Quiet (Known V) (VarTuple.clockcheckList k vs) fun _ => True
  | _, _, .nil => by simp only [VarTuple.clockcheckList]; exact unit
  | _, _, .cons h hs => by
    simp only [VarTuple.clockcheckList]
    exact bind (targetClk hV h) fun _ _ => bind (clkIdentical _ _) fun _ _ => targetsClk hV k hs
end

theorem stmtClk (hV : ∀ x t, Γ.vars x = some t → V x) {st : Stmt} (h : StmtTyped Γ st) :
    Quiet (Known V) st.clockcheck fun _ => True := by
  cases h with
  | let_ hx he =>
    refine bind (targetClk hV hx) fun _ _ => bind (clockcheck hV he) fun _ _ => ?_
    split
    · exact unit
    · exact clkIdentical _ _
  | assert he => exact bind (clockcheck hV he) fun _ _ => isImplicit _
  | updateRegister => exact unit
  | initRegister => exact unit

theorem checkInterface {σ : Type} {P : σ → Prop} : (vs : List TyVar) →
    Quiet P (San.checkInterface vs : Chk Diag σ Unit) fun _ => True
  | [] => unit
  | v :: vs => bind (isImplicit _) fun _ _ => checkInterface vs

theorem clocksOf_isSome {x : String} : {vs : List TyVar} → x ∈ vs.map (·.name) →
    (clocksOf vs x).isSome
  | v :: vs, h => by
    simp only [clocksOf]
    cases hc : clocksOf vs x with
    | some k => simp
    | none =>
      rcases List.mem_cons.1 h with rfl | h
      · simp
      · have := clocksOf_isSome h
        simp [hc] at this

/-- A node with well-typed equations whose registers are all read by its equations. -/
theorem nodeClk {σ : Type} {P : σ → Prop} {n : Node}
    (hv : Γ.vars = typeIn (n.inputs ++ n.outputs ++ n.locals))
    (ht : ∀ st ∈ n.stmts, StmtTyped Γ st)
    (hr : ∀ id ∈ initialised n.stmts, ∃ f, (id, f) ∈ n.stmts.flatMap fetchesIn) :
    Quiet P (n.clockcheck : Chk Diag σ Node) fun _ => True := by
  unfold Node.clockcheck
  have key : ∀ a, ((Chk.inScope (n.stmts.map Stmt.clockcheck)) (a,
      (⟨clocksOf (n.inputs ++ n.outputs ++ n.locals), fun _ => none⟩ : ClkCtx))).1 ≠ .abort := by
    intro a
    refine (inScope (P := Known fun x => x ∈ (n.inputs ++ n.outputs ++ n.locals).map (·.name)) _
      (fun m hm => ?_) _ _ fun x hx => clocksOf_isSome hx).1
    obtain ⟨st, hst, rfl⟩ := List.mem_map.1 hm
    refine stmtClk (fun x t hx => ?_) (ht st hst)
    simp only [hv, typeIn, Option.map_eq_some_iff] at hx
    obtain ⟨v, hv, -⟩ := hx
    exact List.mem_map.2 ⟨v, List.mem_of_find?_eq_some hv, by simpa using List.find?_some hv⟩
  refine bind (checkInterface _) fun _ _ => ?_
  intro a s hs
  have h1 := key a
  rw [run_bind, local_run]
  rcases e : Chk.inScope (n.stmts.map Stmt.clockcheck) (a,
      (⟨clocksOf (n.inputs ++ n.outputs ++ n.locals), fun _ => none⟩ : ClkCtx)) with ⟨r, a', c⟩
  rw [e] at h1
  cases r with
  | abort => exact absurd rfl h1
  | none => exact ⟨by simp, hs, fun _ _ => trivial⟩
  | some u =>
    dsimp only
    have hran := (Chandeliers.Clk.stmts_clk_sound n.stmts _ _ _ e).1
    have hl := (Chandeliers.Clk.fillClocks_some c.clockOfRegister n.stmts _).2 ⟨fun id hid => ?_, rfl⟩
    rw [hl]
    · exact unit a' s hs
    · rcases hran.regs id with ⟨f, k, -, -, h⟩ | ⟨h, -⟩
      · exact Option.isSome_iff_exists.2 ⟨_, h⟩
      · obtain ⟨f, hf⟩ := hr id hid
        exact absurd hf (h f)

theorem progClk {σ : Type} {P : σ → Prop} : (ds : List San.Decl) →
    (∀ n, San.Decl.node n ∈ ds → Quiet P (n.clockcheck : Chk Diag σ Node) fun _ => True) →
    Quiet P (progClockcheck ds : Chk Diag σ _) fun _ => True
  | [], _ => unit
  | .node n :: ds, h => by
    unfold progClockcheck
    exact bind (h n (by simp)) fun _ _ => bind (progClk ds fun n hn => h n (by simp [hn]))
      fun _ _ => unit
  | .extNode n :: ds, h => by
    unfold progClockcheck
    exact bind (checkInterface _) fun _ _ => bind (progClk ds fun n hn => h n (by simp [hn]))
      fun _ _ => unit
  | .const c :: ds, h => by
    unfold progClockcheck
    exact bind (progClk ds fun n hn => h n (by simp [hn])) fun _ _ => unit
  | .extConst c :: ds, h => by
    unfold progClockcheck
    exact bind (progClk ds fun n hn => h n (by simp [hn])) fun _ _ => unit

/-! ## Positivity -/

mutual
theorem positive : (e : Expr) → (k : Nat) →
    Quiet (fun _ : Depths => True) (e.checkPositive k) fun _ => True
  | .lit _, _ => by simp only [Expr.checkPositive]; exact unit
  | .global _, _ => by simp only [Expr.checkPositive]; exact unit
  | .var x d, k => by
    simp only [Expr.checkPositive]
    split
    · exact modify fun _ _ => trivial
    · exact error _
  | .tuple es, k => by simp only [Expr.checkPositive]; exact positives es k
  | .dummyPre e, k => by simp only [Expr.checkPositive]; exact positive e k
  | .dummyParen e, k => by simp only [Expr.checkPositive]; exact positive e k
  | .un _ e, k => by simp only [Expr.checkPositive]; exact positive e k
  | .bin _ l r, k => by
    simp only [Expr.checkPositive]; exact bind (positive l k) fun _ _ => positive r k
  | .cmp _ l r, k => by
    simp only [Expr.checkPositive]; exact bind (positive l k) fun _ _ => positive r k
  | .ifx c y n, k => by
    simp only [Expr.checkPositive]
    exact bind (positive c k) fun _ _ => bind (positive y k) fun _ _ => positive n k
  | .later d l r, k => by
    simp only [Expr.checkPositive]; exact bind (positive l k) fun _ _ => positive r _
  | .flip _ l r, k => by
    simp only [Expr.checkPositive]; exact bind (positive l k) fun _ _ => positive r _
  | .substep _ _ e, k => by simp only [Expr.checkPositive]; exact positive e k
  | .clock _ e b, k => by
    simp only [Expr.checkPositive]; exact bind (positive b k) fun _ _ => positive e k
  | .merge c y n, k => by
    simp only [Expr.checkPositive]
    exact bind (positive c k) fun _ _ => bind (positive y k) fun _ _ => positive n k
  | .fetchFby _ i e, k => by
    simp only [Expr.checkPositive]; exact bind (positive i k) fun _ _ => positive e k
  | .fetchPre _ e, k => by
    simp only [Expr.checkPositive]
    split
    · exact positive e _
    · exact error _
theorem positives : (es : List Expr) → (k : Nat) →
    Quiet (fun _ : Depths => True) (Expr.checkPositiveList es k) fun _ => True
  | [], _ => by simp only [Expr.checkPositiveList]; exact unit
  | e :: es, k => by
    simp only [Expr.checkPositiveList]; exact bind (positive e k) fun _ _ => positives es k
end

theorem positiveAll : (sts : List Stmt) →
    Quiet (fun _ : Depths => True) (checkPositiveAll sts) fun _ => True
  | [] => unit
  | st :: sts => by
    unfold checkPositiveAll
    refine bind (Q := fun _ => True) ?_ fun _ _ => positiveAll sts
    cases st with
    | let_ _ e => exact positive e 0
    | assert e => exact positive e 0
    | _ => exact unit

theorem progPositive {σ : Type} {P : σ → Prop} : (ds : List San.Decl) →
    Quiet P (progMakePositive ds : Chk Diag σ _) fun _ => True
  | [] => unit
  | d :: ds => by
    unfold progMakePositive
    refine bind (Q := fun _ => True) ?_ fun _ _ => bind (progPositive ds) fun _ _ => unit
    cases d with
    | node n =>
      exact bind (bind (local_init fun a => (positiveAll n.stmts a _ trivial).1) fun _ _ => unit)
        fun _ _ => unit
    | _ => exact unit

end Chandeliers.Quiet
