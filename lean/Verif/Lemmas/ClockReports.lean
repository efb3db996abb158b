import Verif.Lemmas.Clockcheck

/-! What the clock checker reports. -/

set_option autoImplicit false

namespace Chandeliers.Clk
open Chandeliers.San Chandeliers.Spec Chandeliers.Err Chandeliers.Err.Chk

section
variable {E σ α β : Type}

theorem appends_of_prefix {m : Chk E σ α} {s : EAccum E × σ} {r : Res α} {s1 : EAccum E × σ}
    (h : Appends m) (hm : m s = (r, s1)) :
    ∃ es ws, s1.1.err = s.1.err ++ es ∧ s1.1.warn = s.1.warn ++ ws := by
  have := h.grows s
  rw [hm] at this
  exact this

theorem appends_of_none {m : Chk E σ α} {s : EAccum E × σ} {s1 : EAccum E × σ}
    (h : Appends m) (hm : m s = (.none, s1)) : ∃ e es, s1.1.err = s.1.err ++ e :: es := by
  have := h.none_err s (by rw [hm])
  rw [hm] at this
  exact this

/-- A failure that is only looked at later. -/
theorem appends_opt {m : Chk E σ α} {f : Option α → Chk E σ β} (hm : Appends m)
    (hs : ∀ a, Appends (f (.some a))) (hn : After (f .none)) : Appends (opt m >>= f) := by
  refine ⟨fun s => ?_, fun s h => ?_⟩
  · rw [opt_bind]
    rcases hs' : m s with ⟨r, s1⟩
    obtain ⟨es, ws, h1, h2⟩ := appends_of_prefix hm hs'
    cases r with
    | some a =>
      obtain ⟨es', ws', h3, h4⟩ := (hs a).grows s1
      exact ⟨es ++ es', ws ++ ws', by simp_all, by simp_all⟩
    | none =>
      obtain ⟨es', ws', h3, h4⟩ := hn.grows s1
      exact ⟨es ++ es', ws ++ ws', by simp_all, by simp_all⟩
    | abort => exact ⟨es, ws, h1, h2⟩
  · rw [opt_bind] at h ⊢
    rcases hs' : m s with ⟨r, s1⟩
    rw [hs'] at h
    cases r with
    | some a =>
      obtain ⟨es, ws, h1, -⟩ := appends_of_prefix hm hs'
      obtain ⟨e, es', h2⟩ := (hs a).none_err _ h
      dsimp only at h2 ⊢
      cases es with
      | nil => exact ⟨e, es', by rw [h2, h1]; simp⟩
      | cons e0 es0 => exact ⟨e0, es0 ++ e :: es', by rw [h2, h1]; simp⟩
    | none =>
      obtain ⟨e, es, h1⟩ := appends_of_none hm hs'
      obtain ⟨es', ws', h3, -⟩ := hn.grows s1
      exact ⟨e, es ++ es', by dsimp only at h3 ⊢; rw [h3, h1]; simp⟩
    | abort => cases h

/-- A failure that is not looked at. -/
theorem appends_drop {m : Chk E σ α} {f : Option α → Chk E σ β} (hm : Appends m)
    (hf : ∀ o, Appends (f o)) : Appends (opt m >>= f) := by
  refine ⟨fun s => ?_, fun s h => ?_⟩
  · rw [opt_bind]
    rcases hs' : m s with ⟨r, s1⟩
    obtain ⟨es, ws, h1, h2⟩ := appends_of_prefix hm hs'
    cases r with
    | some a =>
      obtain ⟨es', ws', h3, h4⟩ := (hf (.some a)).grows s1
      exact ⟨es ++ es', ws ++ ws', by simp_all, by simp_all⟩
    | none =>
      obtain ⟨es', ws', h3, h4⟩ := (hf .none).grows s1
      exact ⟨es ++ es', ws ++ ws', by simp_all, by simp_all⟩
    | abort => exact ⟨es, ws, h1, h2⟩
  · rw [opt_bind] at h ⊢
    rcases hs' : m s with ⟨r, s1⟩
    rw [hs'] at h
    obtain ⟨es, ws, h1, -⟩ := appends_of_prefix hm hs'
    cases r with
    | some a =>
      obtain ⟨e, es', h2⟩ := (hf (.some a)).none_err _ h
      dsimp only at h2 ⊢
      cases es with
      | nil => exact ⟨e, es', by rw [h2, h1]; simp⟩
      | cons e0 es0 => exact ⟨e0, es0 ++ e :: es', by rw [h2, h1]; simp⟩
    | none =>
      obtain ⟨e, es', h2⟩ := (hf .none).none_err _ h
      dsimp only at h2 ⊢
      cases es with
      | nil => exact ⟨e, es', by rw [h2, h1]; simp⟩
      | cons e0 es0 => exact ⟨e0, es0 ++ e :: es', by rw [h2, h1]; simp⟩
    | abort => cases h

theorem appends_pure (a : α) : Appends (pure a : Chk E σ α) := (honest_pure a).appends

theorem appends_some {f : α → Chk E σ β} {a : α} (h : Appends (f a)) :
    Appends (ofOption (.some a) >>= f : Chk E σ β) := h

theorem appends_both {m : Chk E σ α} {n : Chk E σ β} (hm : Appends m) (hn : Appends n) :
    Appends (both m n) := by
  show Appends (opt m >>= fun x => opt n >>= fun y => ofOption x >>= fun x => ofOption y >>= fun y =>
    pure (x, y))
  refine appends_opt hm (fun a => appends_opt hn (fun b => ?_) ?_) (after_opt hn fun o => ?_)
  · exact appends_pure (a, b)
  · exact after_some after_none
  · exact after_none

theorem appends_inScope : ∀ (ms : List (Chk E σ Unit)), (∀ m ∈ ms, Appends m) → Appends (inScope ms)
  | [], _ => appends_pure ()
  | m :: ms, h => by
    have hm := h m (List.mem_cons_self ..)
    have hms := appends_inScope ms (fun m hm => h m (List.mem_cons_of_mem _ hm))
    refine ⟨fun s => ?_, fun s hr => ?_⟩
    · rw [inScope_cons]
      rcases hs : m s with ⟨r, s1⟩
      obtain ⟨es, ws, h1, h2⟩ := appends_of_prefix hm hs
      rcases hs' : inScope ms s1 with ⟨r', s2⟩
      obtain ⟨es', ws', h3, h4⟩ := appends_of_prefix hms hs'
      cases r <;> cases r' <;> simp only [hs']
      all_goals first
        | exact ⟨es, ws, h1, h2⟩
        | exact ⟨es ++ es', ws ++ ws', by simp_all, by simp_all⟩
    · rw [inScope_cons] at hr ⊢
      rcases hs : m s with ⟨r, s1⟩
      rw [hs] at hr
      obtain ⟨es, ws, h1, -⟩ := appends_of_prefix hm hs
      rcases hs' : inScope ms s1 with ⟨r', s2⟩
      obtain ⟨es', ws', h3, -⟩ := appends_of_prefix hms hs'
      cases r with
      | some u =>
        simp only [hs'] at hr ⊢
        subst hr
        obtain ⟨e, es2, h5⟩ := appends_of_none hms hs'
        cases es with
        | nil => exact ⟨e, es2, by rw [h5, h1]; simp⟩
        | cons e0 es0 => exact ⟨e0, es0 ++ e :: es2, by rw [h5, h1]; simp⟩
      | none =>
        obtain ⟨e, es2, h5⟩ := appends_of_none hm hs
        have : s2.1.err = s.1.err ++ e :: (es2 ++ es') := by rw [h3, h5]; simp
        cases r' <;> simp only [hs'] at hr ⊢
        · exact ⟨_, _, this⟩
        · exact ⟨_, _, this⟩
        · cases hr
      | abort => cases hr

end

theorem appends_isImplicit {σ : Type} (k : Clk) : Appends (k.isImplicit : Chk Diag σ Unit) := by
  cases k
  · exact appends_pure _
  · exact appends_pure _
  · exact (honest_error _).appends
  · exact (honest_error _).appends

theorem appends_identical {σ : Type} (k l : Clk) : Appends (k.identical l : Chk Diag σ Unit) := by
  cases k <;> cases l <;> simp only [Clk.identical] <;> (try split) <;>
    first
      | exact appends_pure _
      | exact (honest_error _).appends

theorem appends_refine {σ : Type} (k l : Clk) : Appends (k.refine l : Chk Diag σ Clk) := by
  cases k <;> cases l <;> simp only [Clk.refine] <;> (try split) <;>
    first
      | exact appends_pure _
      | exact (honest_error _).appends

theorem appends_clockOf (x : String) : Appends (clockOf x) := by
  refine appends_bind honest_get.appends fun c => ?_
  cases c.local_ x
  · exact honest_abort.appends
  · exact appends_pure _

theorem appends_asClock {σ : Type} (op : ClockOp) (e : Expr) :
    Appends (e.asClock op : Chk Diag σ Clk) := by
  cases e
  case var x d =>
    cases op
    · exact appends_pure _
    · exact appends_pure _
  all_goals exact (honest_error _).appends

theorem appends_save (id : Nat) (k : Clk) : Appends (saveClock id k) :=
  (honest_modify _).appends

mutual
theorem clockcheck_appends : (e : Expr) → Appends e.clockcheck
  | .lit _ => by rw [Expr.clockcheck]; exact appends_pure _
  | .global _ => by rw [Expr.clockcheck]; exact appends_pure _
  | .var x _ => by rw [Expr.clockcheck]; exact appends_clockOf x
  | .dummyParen e => by rw [Expr.clockcheck]; exact clockcheck_appends e
  | .dummyPre e => by
    rw [Expr.clockcheck]
    exact appends_bind (clockcheck_appends e) fun k => appends_bind (appends_isImplicit k) fun _ =>
      appends_pure _
  | .bin _ l r => by
    rw [Expr.clockcheck]
    exact appends_bind (appends_both (clockcheck_appends l) (clockcheck_appends r)) fun p =>
      appends_refine p.1 p.2
  | .cmp _ l r => by
    rw [Expr.clockcheck]
    exact appends_bind (appends_both (clockcheck_appends l) (clockcheck_appends r)) fun p =>
      appends_refine p.1 p.2
  | .un _ e => by rw [Expr.clockcheck]; exact clockcheck_appends e
  | .later _ l r => by
    rw [Expr.clockcheck]
    exact appends_bind (appends_both (clockcheck_appends l) (clockcheck_appends r)) fun p =>
      appends_drop (appends_isImplicit p.1) fun _ => appends_drop (appends_isImplicit p.2) fun _ =>
        appends_pure _
  | .flip _ l r => by
    rw [Expr.clockcheck]
    exact appends_bind (appends_both (clockcheck_appends l) (clockcheck_appends r)) fun p =>
      appends_bind (appends_identical p.2 p.1) fun _ => appends_pure _
  | .clock op e b => by
    rw [Expr.clockcheck]
    exact appends_bind (clockcheck_appends e) fun _ => appends_bind (clockcheck_appends b) fun _ =>
      appends_bind (appends_asClock op b) fun _ => appends_bind (appends_refine _ _) fun _ =>
        appends_pure _
  | .substep _ _ e => by rw [Expr.clockcheck]; exact clockcheck_appends e
  | .tuple [] => by rw [Expr.clockcheck]; exact appends_pure _
  | .tuple (e :: es) => by
    rw [Expr.clockcheck]
    exact appends_bind (clockcheck_appends e) fun k => appends_bind (clockcheck_appends e) fun _ =>
      appends_bind (appends_identical _ _) fun _ => appends_bind (clockcheckList_appends k es)
        fun _ => appends_pure _
  | .ifx c y n => by
    rw [Expr.clockcheck]
    refine appends_opt (clockcheck_appends c)
      (fun a => appends_opt (clockcheck_appends y)
        (fun b => appends_opt (clockcheck_appends n) (fun d => ?_) ?_)
        (after_opt (clockcheck_appends n) fun o => ?_))
      (after_opt (clockcheck_appends y) fun o => after_opt (clockcheck_appends n) fun o' => ?_)
    · exact appends_some (appends_some (appends_some (appends_bind (appends_refine _ _) fun _ =>
        appends_refine _ _)))
    · exact after_some (after_some after_none)
    · exact after_some after_none
    · exact after_none
  | .merge c y n => by
    rw [Expr.clockcheck]
    have hy := clockcheck_appends y
    have hn := clockcheck_appends n
    have hc := clockcheck_appends c
    refine appends_opt (appends_asClock _ _)
      (fun a => appends_opt (appends_asClock _ _) (fun b => appends_opt hc
        (fun d => appends_opt hy (fun e => appends_opt hn (fun f => ?_) ?_)
          (after_opt hn fun o => ?_)) (after_opt hy fun o => after_opt hn fun o' => ?_)) ?_) ?_
    · exact appends_some (appends_some (appends_some (appends_some
        (appends_bind (appends_refine _ _) fun _ => appends_some
          (appends_bind (appends_refine _ _) fun _ => appends_pure _)))))
    · exact after_some (after_some after_none)
    · exact after_some after_none
    · exact after_none
    · refine after_opt hc fun s => after_opt hy fun o => after_opt hn fun o' => ?_
      cases s with
      | none => exact after_none
      | some s =>
        refine after_some ?_
        cases o with
        | none => exact after_none
        | some y =>
          refine after_some ?_
          cases o' with
          | none => exact after_none
          | some n =>
            exact after_some (after_some (after_bind (appends_refine _ _) fun _ => after_none))
    · refine after_opt (appends_asClock _ _) fun q => after_opt hc fun s => after_opt hy fun o =>
        after_opt hn fun o' => ?_
      cases s with
      | none => exact after_none
      | some s =>
        refine after_some ?_
        cases o with
        | none => exact after_none
        | some y =>
          refine after_some ?_
          cases o' with
          | none => exact after_none
          | some n => exact after_some after_none
  | .fetchPre id f => by
    rw [Expr.clockcheck]
    exact appends_bind (clockcheck_appends f) fun _ => appends_bind (appends_save _ _) fun _ =>
      appends_pure _
  | .fetchFby id i f => by
    rw [Expr.clockcheck]
    exact appends_bind (clockcheck_appends f) fun _ => appends_bind (clockcheck_appends i) fun _ =>
      appends_bind (appends_identical _ _) fun _ => appends_bind (appends_save _ _) fun _ =>
        appends_pure _
theorem clockcheckList_appends (k : Clk) : (es : List Expr) → Appends (Expr.clockcheckList k es)
  | [] => by rw [Expr.clockcheckList]; exact appends_pure _
  | e :: es => by
    rw [Expr.clockcheckList]
    exact appends_bind (clockcheck_appends e) fun _ => appends_bind (appends_identical _ _) fun _ =>
      clockcheckList_appends k es
end

mutual
theorem target_appends : (v : VarTuple) → Appends v.clockcheck
  | .single x => by rw [VarTuple.clockcheck]; exact appends_clockOf x
  | .multiple [] => by rw [VarTuple.clockcheck]; exact appends_pure _
  | .multiple (v :: vs) => by
    rw [VarTuple.clockcheck]
    exact appends_bind (target_appends v) fun k => appends_bind (target_appends v) fun _ =>
      appends_bind (appends_identical _ _) fun _ => appends_bind (targets_appends k vs)
        fun _ => appends_pure _
theorem targets_appends (k : Clk) : (vs : List VarTuple) → Appends (VarTuple.clockcheckList k vs)
  | [] => by rw [VarTuple.clockcheckList]; exact appends_pure _
  | v :: vs => by
    rw [VarTuple.clockcheckList]
    exact appends_bind (target_appends v) fun _ => appends_bind (appends_identical _ _) fun _ =>
      targets_appends k vs
end

theorem stmt_appends (st : Stmt) : Appends st.clockcheck := by
  cases st with
  | assert e =>
    rw [Stmt.clockcheck]
    exact appends_bind (clockcheck_appends e) fun k => appends_isImplicit k
  | let_ v e =>
    rw [Stmt.clockcheck]
    refine appends_bind (target_appends v) fun k => appends_bind (clockcheck_appends e) fun k' => ?_
    split
    · exact appends_pure _
    · exact appends_identical _ _
  | updateRegister _ _ => rw [Stmt.clockcheck]; exact appends_pure _
  | initRegister _ _ _ => rw [Stmt.clockcheck]; exact appends_pure _

theorem interface_appends {σ : Type} : (vs : List TyVar) →
    Appends (checkInterface vs : Chk Diag σ Unit)
  | [] => by rw [checkInterface]; exact appends_pure _
  | v :: vs => by
    rw [checkInterface]
    exact appends_bind (appends_isImplicit _) fun _ => interface_appends vs

theorem appends_local {σ τ α : Type} (init : τ) {m : Chk Diag τ α} (h : Appends m) :
    Appends (Chk.local_ init m : Chk Diag σ (α × τ)) := by
  refine ⟨fun s => ?_, fun s hn => ?_⟩
  · obtain ⟨a, s⟩ := s
    rw [local_run]
    have := h.grows (a, init)
    rcases hm : m (a, init) with ⟨r, a', t⟩
    rw [hm] at this
    cases r <;> exact this
  · obtain ⟨a, s⟩ := s
    rw [local_run] at hn ⊢
    have := h.none_err (a, init)
    rcases hm : m (a, init) with ⟨r, a', t⟩
    rw [hm] at this hn
    cases r with
    | none => exact this rfl
    | some x => cases hn
    | abort => cases hn

theorem node_appends {σ : Type} (n : Node) : Appends (n.clockcheck : Chk Diag σ Node) := by
  unfold Node.clockcheck
  refine appends_bind (interface_appends _) fun _ => appends_bind
    (appends_local _ (appends_inScope _ fun m hm => ?_)) fun p => ?_
  · obtain ⟨st, -, rfl⟩ := List.mem_map.1 hm
    exact stmt_appends st
  · dsimp only
    split
    · exact appends_pure _
    · exact honest_abort.appends

theorem prog_appends {σ : Type} : (ds : List Decl) → Appends (progClockcheck ds : Chk Diag σ _)
  | [] => by rw [progClockcheck]; exact appends_pure _
  | .node n :: ds => by
    rw [progClockcheck]
    exact appends_bind (node_appends n) fun _ => appends_bind (prog_appends ds) fun _ =>
      appends_pure _
  | .extNode n :: ds => by
    rw [progClockcheck]
    exact appends_bind (interface_appends _) fun _ => appends_bind (prog_appends ds) fun _ =>
      appends_pure _
  | .const c :: ds => by
    rw [progClockcheck]
    exact appends_bind (prog_appends ds) fun _ => appends_pure _
  | .extConst c :: ds => by
    rw [progClockcheck]
    exact appends_bind (prog_appends ds) fun _ => appends_pure _

end Chandeliers.Clk
