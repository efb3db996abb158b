import Verif.Lemmas.BlameProg
import Verif.Lemmas.Program

/-!
# Messages about clocks and depths
-/

set_option autoImplicit false

namespace Chandeliers.Tell
open Chandeliers.San Chandeliers.Spec Chandeliers.Err Chandeliers.Err.Chk Chandeliers.Den

/-! ## Clocks -/

/-- The context has these clocks. -/
def Clks (K : String → Option Clk) (c : ClkCtx) : Prop := Clk.clks c = K

section
variable {σ : Type} {I : σ → Prop} {P : Diag → Prop} {K : String → Option Clk}

theorem clockOf_tells {x : String} :
    Tells (Clks K) P (San.clockOf x) fun k => K x = some k := by
  unfold San.clockOf
  refine bind get fun c hc => ?_
  cases h : c.local_ x with
  | none => exact abort
  | some k => exact pure (by rw [← hc]; simp [Clk.clks, h])

theorem implicit_tells {k : Clk} (h : ¬ Always k → P (.clkTooSlow k)) :
    Tells I P (k.isImplicit : Chk Diag σ Unit) fun _ => Always k := by
  cases k with
  | implicit => exact pure trivial
  | adaptative => exact pure trivial
  | on x => exact error (h (by simp [Always]))
  | off x => exact error (h (by simp [Always]))

theorem identical_tells {k l : Clk} (h : ¬ SameClk k l → P (.clkNotIdentical k l)) :
    Tells I P (k.identical l : Chk Diag σ Unit) fun _ => SameClk k l := by
  intro a s hs
  refine ⟨?_, ?_, ?_⟩
  · cases k <;> cases l <;> simp only [Clk.identical] <;> (try split) <;> exact hs
  · cases k <;> cases l <;> simp only [Clk.identical] <;> (try split) <;>
      first
        | exact .refl a
        | (refine .one a (h ?_); simp [SameClk, Always]; try assumption)
  · intro x hx
    rcases hr : (k.identical l : Chk Diag σ Unit) (a, s) with ⟨r, s'⟩
    rw [hr] at hx
    cases hx
    exact (Clk.identical_some.1 hr).1

theorem refine_tells {k l : Clk} (h : ∀ d, CannotMix k l d → P d) :
    Tells I P (k.refine l : Chk Diag σ Clk) fun k' => Compatible k l ∧ k' = Clk.meet k l := by
  intro a s hs
  refine ⟨?_, ?_, ?_⟩
  · cases k <;> cases l <;> simp only [Clk.refine] <;> (try split) <;> exact hs
  · cases k <;> cases l <;> simp only [Clk.refine] <;> (try split) <;>
      first
        | exact .refl a
        | exact .one a (h _ (.slowRight rfl (by simp [Always])))
        | exact .one a (h _ (.slowLeft (by simp [Always]) rfl))
        | exact .one a (h _ (.incomparable (by simp [Always]) (by simp [Always]) (by simp; try assumption)))
  · intro x hx
    rcases hr : (k.refine l : Chk Diag σ Clk) (a, s) with ⟨r, s'⟩
    rw [hr] at hx
    cases hx
    exact ⟨(Clk.refine_some.1 hr).1, (Clk.refine_some.1 hr).2.1⟩

theorem asClock_tells {op : ClockOp} {e : Expr} (h : (∀ x dt, e ≠ .var x dt) → P (.notAClock e)) :
    Tells I P (e.asClock op : Chk Diag σ Clk) fun k => ∃ x d, e = .var x d ∧ k = guardClk op x := by
  cases e with
  | var x d => cases op <;> exact pure ⟨x, d, rfl, rfl⟩
  | _ => simp only [Expr.asClock]; exact error (h (by simp))

theorem save_tells {id : Nat} {k : Clk} : Tells (Clks K) P (saveClock id k) fun _ => True :=
  modify fun _ h => h

end

/-- A message about the clocks of an expression or of what is inside. -/
def ClkBlames (K : String → Option Clk) (e : Expr) (d : Diag) : Prop :=
  ∃ c, Inside c e ∧ ClockBlame K c d

theorem ClkBlames.up {K : String → Option Clk} {c e : Expr} (h : Under c e) {d : Diag}
    (hd : ClkBlames K c d) : ClkBlames K e d := by
  obtain ⟨b, h1, h2⟩ := hd
  exact ⟨b, h1.tail h, h2⟩

theorem ClkBlames.here {K : String → Option Clk} {e : Expr} {d : Diag} (h : ClockBlame K e d) :
    ClkBlames K e d := ⟨e, .refl, h⟩

theorem hasClock_unique {b : Bool} {K : String → Option Clk} : {e : Expr} → {k k' : Clk} →
    HasClock b K e k → HasClock b K e k' → k = k'
  | _, _, _, .lit, .lit => rfl
  | _, _, _, .global, .global => rfl
  | _, _, _, .var h, .var h' => by rw [h] at h'; exact Option.some.inj h'
  | _, _, _, .dummyParen h, .dummyParen h' => hasClock_unique h h'
  | _, _, _, .dummyPre h _, .dummyPre h' _ => hasClock_unique h h'
  | _, _, _, .bin h1 h2 _, .bin h1' h2' _ => by
    rw [hasClock_unique h1 h1', hasClock_unique h2 h2']
  | _, _, _, .cmp h1 h2 _, .cmp h1' h2' _ => by
    rw [hasClock_unique h1 h1', hasClock_unique h2 h2']
  | _, _, _, .un h, .un h' => hasClock_unique h h'
  | _, _, _, .later h _ _, .later h' _ _ => hasClock_unique h h'
  | _, _, _, .flip _ h _, .flip _ h' _ => hasClock_unique h h'
  | _, _, _, .clock _ _ _, .clock _ _ _ => rfl
  | _, _, _, .substep h, .substep h' => hasClock_unique h h'
  | _, _, _, .empty, .empty => rfl
  | _, _, _, .tuple h _, .tuple h' _ => hasClock_unique h h'
  | _, _, _, .ifx h1 h2 h3 _ _, .ifx h1' h2' h3' _ _ => by
    rw [hasClock_unique h1 h1', hasClock_unique h2 h2', hasClock_unique h3 h3']
  | _, _, _, .merge h _ _ _ _, .merge h' _ _ _ _ => by rw [h] at h'; exact Option.some.inj h'
  | _, _, _, .fetchPre h, .fetchPre h' => hasClock_unique h h'
  | _, _, _, .fetchFby h _ _, .fetchFby h' _ _ => hasClock_unique h h'

mutual
theorem exprClk_tells {K : String → Option Clk} : (e : Expr) →
    Tells (Clks K) (ClkBlames K e) e.clockcheck fun k => HasClock false K e k
  | .lit l => by rw [Expr.clockcheck]; exact pure .lit
  | .global x => by rw [Expr.clockcheck]; exact pure .global
  | .var x d => by rw [Expr.clockcheck]; exact weaken clockOf_tells fun k h => .var h
  | .dummyParen e => by
    rw [Expr.clockcheck]
    exact weaken (because (exprClk_tells e) fun d h => h.up (.operand .dummyParen))
      fun k h => .dummyParen h
  | .dummyPre e => by
    rw [Expr.clockcheck]
    refine bind (because (exprClk_tells e) fun d h => h.up (.operand .dummyPre)) fun k hk => ?_
    exact bind (implicit_tells fun h => .here (.slow .pre hk h)) fun _ h => pure (.dummyPre hk h)
  | .bin op l r => by
    rw [Expr.clockcheck]
    refine bind (both (because (exprClk_tells l) fun d h => h.up (.operand .binL))
      (because (exprClk_tells r) fun d h => h.up (.operand .binR))) fun p hp => ?_
    obtain ⟨k, k'⟩ := p
    refine weaken (refine_tells fun d h => .here (.mixed .bin hp.1 hp.2 h)) ?_
    rintro k ⟨h1, rfl⟩
    exact .bin hp.1 hp.2 h1
  | .cmp op l r => by
    rw [Expr.clockcheck]
    refine bind (both (because (exprClk_tells l) fun d h => h.up (.operand .cmpL))
      (because (exprClk_tells r) fun d h => h.up (.operand .cmpR))) fun p hp => ?_
    obtain ⟨k, k'⟩ := p
    refine weaken (refine_tells fun d h => .here (.mixed .cmp hp.1 hp.2 h)) ?_
    rintro k ⟨h1, rfl⟩
    exact .cmp hp.1 hp.2 h1
  | .un op e => by
    rw [Expr.clockcheck]
    exact weaken (because (exprClk_tells e) fun d h => h.up (.operand .un)) fun k h => .un h
  | .later dt l r => by
    rw [Expr.clockcheck]
    refine bind (both (because (exprClk_tells l) fun d h => h.up (.operand .laterBefore))
      (because (exprClk_tells r) fun d h => h.up (.operand .laterAfter))) fun p hp => ?_
    obtain ⟨k, k'⟩ := p
    refine bind (opt (implicit_tells fun h => .here (.slow .before hp.1 h))) fun _ _ => ?_
    refine bind (opt (implicit_tells fun h => .here (.slow .after hp.2 h))) fun _ _ => ?_
    exact pure (.later hp.1 hp.2 (by simp))
  | .flip id l r => by
    rw [Expr.clockcheck]
    refine bind (both (because (exprClk_tells l) fun d h => h.up (.operand .flipInitial))
      (because (exprClk_tells r) fun d h => h.up (.operand .flipContinued))) fun p hp => ?_
    obtain ⟨k, k'⟩ := p
    refine bind (identical_tells fun h => .here (.together .flip hp.2 hp.1 h)) fun _ h => ?_
    exact pure (.flip hp.1 hp.2 h)
  | .clock op e g => by
    rw [Expr.clockcheck]
    refine bind (because (exprClk_tells e) fun d h => h.up (.operand .clockInner)) fun k hk => ?_
    refine bind (because (exprClk_tells g) fun d h => h.up (.operand .clockGuard)) fun k' hk' => ?_
    refine bind (asClock_tells fun h => .here (.notAClock .guard h)) fun new hnew => ?_
    refine bind (refine_tells fun d h => .here (.mixed .clock hk hk' h)) fun _ h => ?_
    obtain ⟨x, dt, rfl, rfl⟩ := hnew
    cases hk' with
    | var hk' => exact pure (.clock hk hk' h.1)
  | .substep d id e => by
    rw [Expr.clockcheck]
    exact weaken (because (exprClk_tells e) fun d h => h.up (.operand .arg)) fun k h => .substep h
  | .tuple [] => by rw [Expr.clockcheck]; exact pure .empty
  | .tuple (e :: es) => by
    rw [Expr.clockcheck]
    have he : Tells (Clks K) (ClkBlames K (.tuple (e :: es))) e.clockcheck
        fun k => HasClock false K e k :=
      because (exprClk_tells e) fun d h => h.up (.operand (.tuple (by simp)))
    refine bind he fun k hk => ?_
    refine bind he fun k' hk' => ?_
    have : SameClk k k' := by rw [hasClock_unique hk hk']; exact Clk.sameClk_refl k'
    refine bind (identical_tells fun h => absurd this h) fun _ _ => ?_
    refine bind (because (listClk_tells (P := ClkBlames K (.tuple (e :: es))) k es ?_ ?_)
      fun d h => h) fun _ h => pure (.tuple hk h)
    · intro c hc d hd
      exact hd.up (.operand (.tuple (by simp [hc])))
    · intro c hc k' hk' h
      exact .here (.together (.tuple hc) hk hk' h)
  | .ifx c y n => by
    rw [Expr.clockcheck]
    refine bind (opt (because (exprClk_tells c) fun d h => h.up (.operand .ifCond))) fun _ h1 => ?_
    refine bind (opt (because (exprClk_tells y) fun d h => h.up (.operand .ifYes))) fun _ h2 => ?_
    refine bind (opt (because (exprClk_tells n) fun d h => h.up (.operand .ifNo))) fun _ h3 => ?_
    refine bind (ofOption h1) fun k hk => bind (ofOption h2) fun k' hk' =>
      bind (ofOption h3) fun k'' hk'' => ?_
    refine bind (refine_tells fun d h => .here (.mixed .ifx hk hk' h)) ?_
    rintro _ ⟨h4, rfl⟩
    refine weaken (refine_tells fun d h => .here (.otherwise hk hk' hk'' h)) ?_
    rintro _ ⟨h5, rfl⟩
    exact .ifx hk hk' hk'' h4 h5
  | .merge g y n => by
    rw [Expr.clockcheck]
    refine bind (opt (asClock_tells fun h => .here (.notAClock .switch h))) fun _ h1 => ?_
    refine bind (opt (asClock_tells fun h => .here (.notAClock .switch h))) fun _ h2 => ?_
    refine bind (opt (because (exprClk_tells g) fun d h => h.up (.operand .mergeSwitch))) fun _ h3 => ?_
    refine bind (opt (because (exprClk_tells y) fun d h => h.up (.operand .mergeOn))) fun _ h4 => ?_
    refine bind (opt (because (exprClk_tells n) fun d h => h.up (.operand .mergeOff))) fun _ h5 => ?_
    refine bind (ofOption h3) fun k hk => bind (ofOption h4) fun ky hy =>
      bind (ofOption h5) fun kn hn => ?_
    refine bind (ofOption h1) ?_
    rintro _ ⟨x, dt, rfl, rfl⟩
    refine bind (refine_tells fun d h => .here (.mergeOn hy h)) fun _ h6 => ?_
    refine bind (ofOption h2) ?_
    rintro _ ⟨x, dt, e, rfl⟩
    cases e
    refine bind (refine_tells fun d h => .here (.mergeOff hn h)) fun _ h7 => ?_
    cases hk with
    | var hk => exact pure (.merge hk hy hn h6.1 h7.1)
  | .fetchPre id f => by
    rw [Expr.clockcheck]
    refine bind (because (exprClk_tells f) fun d h => h.up .pre) fun k hk => ?_
    exact bind save_tells fun _ _ => pure (.fetchPre hk)
  | .fetchFby id i f => by
    rw [Expr.clockcheck]
    refine bind (because (exprClk_tells f) fun d h => h.up .fbyNext) fun k hk => ?_
    refine bind (because (exprClk_tells i) fun d h => h.up .fbyInit) fun k' hk' => ?_
    refine bind (identical_tells fun h => .here (.together .fby hk hk' h)) fun _ h => ?_
    exact bind save_tells fun _ _ => pure (.fetchFby hk hk' h)
theorem listClk_tells {K : String → Option Clk} {P : Diag → Prop} (k : Clk) : (es : List Expr) →
    (∀ c ∈ es, ∀ d, ClkBlames K c d → P d) →
    (∀ c ∈ es, ∀ k', HasClock false K c k' → ¬ SameClk k k' → P (.clkNotIdentical k k')) →
    Tells (Clks K) P (Expr.clockcheckList k es) fun _ => HaveClock false K es k
  | [], _, _ => by rw [Expr.clockcheckList]; exact pure .nil
  | e :: es, h1, h2 => by
    rw [Expr.clockcheckList]
    refine bind (because (exprClk_tells e) (h1 e (by simp))) fun k' hk' => ?_
    refine bind (identical_tells (h2 e (by simp) k' hk')) fun _ h => ?_
    exact weaken (listClk_tells k es (fun c hc => h1 c (by simp [hc])) fun c hc => h2 c (by simp [hc]))
      fun _ h' => .cons hk' h h'
end

theorem targetClock_unique {K : String → Option Clk} : {v : VarTuple} → {k k' : Clk} →
    TargetClock K v k → TargetClock K v k' → k = k'
  | _, _, _, .single h, .single h' => by rw [h] at h'; exact Option.some.inj h'
  | _, _, _, .empty, .empty => rfl
  | _, _, _, .tuple h _, .tuple h' _ => targetClock_unique h h'

/-- A message about the clocks of the targets of an equation. -/
def TargetBlames (K : String → Option Clk) (v : VarTuple) (d : Diag) : Prop :=
  ∃ w ws w' k k', Relation.ReflTransGen UnderTarget (.multiple (w :: ws)) v ∧ w' ∈ ws ∧
    TargetClock K w k ∧ TargetClock K w' k' ∧ ¬ SameClk k k' ∧ d = .clkNotIdentical k k'

mutual
theorem targetClk_tells {K : String → Option Clk} : (v : VarTuple) →
    Tells (Clks K) (TargetBlames K v) v.clockcheck fun k => TargetClock K v k
  | .single x => by rw [VarTuple.clockcheck]; exact weaken clockOf_tells fun k h => .single h
  | .multiple [] => by rw [VarTuple.clockcheck]; exact pure .empty
  | .multiple (v :: vs) => by
    rw [VarTuple.clockcheck]
    have up : ∀ w ∈ v :: vs, ∀ d, TargetBlames K w d → TargetBlames K (.multiple (v :: vs)) d := by
      rintro w hw d ⟨a, as, b, k, k', h1, h2⟩
      exact ⟨a, as, b, k, k', h1.tail (.elem hw), h2⟩
    have hv : Tells (Clks K) (TargetBlames K (.multiple (v :: vs))) v.clockcheck
        fun k => TargetClock K v k := because (targetClk_tells v) (up v (by simp))
    refine bind hv fun k hk => ?_
    refine bind hv fun k' hk' => ?_
    have : SameClk k k' := by rw [targetClock_unique hk hk']; exact Clk.sameClk_refl k'
    refine bind (identical_tells fun h => absurd this h) fun _ _ => ?_
    refine bind (targetsClk_tells k vs (fun w hw => up w (by simp [hw])) fun w hw k' hk' h => ?_)
      fun _ h => pure (.tuple hk h)
    exact ⟨v, vs, w, k, k', .refl, hw, hk, hk', h, rfl⟩
theorem targetsClk_tells {K : String → Option Clk} {P : Diag → Prop} (k : Clk) :
    (vs : List VarTuple) → (∀ w ∈ vs, ∀ d, TargetBlames K w d → P d) →
    (∀ w ∈ vs, ∀ k', TargetClock K w k' → ¬ SameClk k k' → P (.clkNotIdentical k k')) →
    Tells (Clks K) P (VarTuple.clockcheckList k vs) fun _ => TargetsClock K vs k
  | [], _, _ => by rw [VarTuple.clockcheckList]; exact pure .nil
  | v :: vs, h1, h2 => by
    rw [VarTuple.clockcheckList]
    refine bind (because (targetClk_tells v) (h1 v (by simp))) fun k' hk' => ?_
    refine bind (identical_tells (h2 v (by simp) k' hk')) fun _ h => ?_
    exact weaken (targetsClk_tells k vs (fun c hc => h1 c (by simp [hc])) fun c hc => h2 c (by simp [hc]))
      fun _ h' => .cons hk' h h'
end

theorem stmtClk_tells {K : String → Option Clk} (st : Stmt) :
    Tells (Clks K) (StmtClockBlame K st) st.clockcheck fun _ => True := by
  cases st with
  | assert e =>
    rw [Stmt.clockcheck]
    refine bind (because (exprClk_tells e) ?_) fun k hk => any (implicit_tells fun h => .slow hk h)
    rintro d ⟨c, h1, h2⟩
    exact .asserted h1 h2
  | let_ v e =>
    rw [Stmt.clockcheck]
    refine bind (because (targetClk_tells v) ?_) fun k hk => ?_
    · rintro d ⟨w, ws, w', k, k', h1, h2, h3, h4, h5, rfl⟩
      exact .target h1 h2 h3 h4 h5
    refine bind (because (exprClk_tells e) ?_) fun k' hk' => ?_
    · rintro d ⟨c, h1, h2⟩
      exact .source h1 h2
    exact ite (fun _ => unit) fun _ => any (identical_tells fun h => .sides hk hk' h)
  | updateRegister _ _ => rw [Stmt.clockcheck]; exact unit
  | initRegister _ _ _ => rw [Stmt.clockcheck]; exact unit

theorem interface_tells {σ : Type} {I : σ → Prop} {P : Diag → Prop} : (vs : List TyVar) →
    (∀ v ∈ vs, ¬ Always v.clk.intoClk → P (.clkTooSlow v.clk.intoClk)) →
    Tells I P (checkInterface vs : Chk Diag σ Unit) fun _ => True
  | [], _ => by rw [checkInterface]; exact unit
  | v :: vs, h => by
    rw [checkInterface]
    exact bind (implicit_tells (h v (by simp))) fun _ _ =>
      interface_tells vs fun w hw => h w (by simp [hw])

/-- A message about the clocks of a node. -/
inductive ClkBlame (n : Node) : Diag → Prop
  | interface {v : TyVar} (hv : v ∈ n.inputs ++ n.outputs) (h : ¬ Always v.clk.intoClk) :
    ClkBlame n (.clkTooSlow v.clk.intoClk)
  | clocks {K : String → Option Clk} {st : Stmt} {d : Diag}
    (hK : Declared (n.inputs ++ n.outputs ++ n.locals) K) (hst : st ∈ n.stmts)
    (h : StmtClockBlame K st d) : ClkBlame n d

theorem nodeClk_tells {σ : Type} {I : σ → Prop} {n : Node}
    (hn : ((n.inputs ++ n.outputs ++ n.locals).map (·.name)).Nodup) :
    Tells I (ClkBlame n) (n.clockcheck : Chk Diag σ Node) fun _ => True := by
  unfold Node.clockcheck
  refine bind (interface_tells _ fun v hv h => .interface hv h) fun _ _ => ?_
  refine bind (local_ (I' := Clks (Clk.clks ⟨clocksOf (n.inputs ++ n.outputs ++ n.locals), fun _ => none⟩))
    rfl (inScope _ fun m hm => ?_)) fun p _ => ?_
  · obtain ⟨st, hst, rfl⟩ := List.mem_map.1 hm
    exact because (stmtClk_tells st) fun d hd => .clocks (Clk.declared_clocksOf hn _) hst hd
  · obtain ⟨_, c⟩ := p
    simp only
    cases fillClocks c.clockOfRegister n.stmts with
    | none => exact abort
    | some _ => exact unit

theorem progClk_tells {σ : Type} {I : σ → Prop} {P : Diag → Prop} : (ds : List San.Decl) →
    (∀ n, .node n ∈ ds → ((n.inputs ++ n.outputs ++ n.locals).map (·.name)).Nodup ∧
      ∀ d, ClkBlame n d → P d) →
    (∀ n, .extNode n ∈ ds → ∀ v ∈ n.inputs ++ n.outputs, ¬ Always v.clk.intoClk →
      P (.clkTooSlow v.clk.intoClk)) →
    Tells I P (progClockcheck ds : Chk Diag σ _) fun _ => True
  | [], _, _ => by rw [progClockcheck]; exact unit
  | x :: ds, h1, h2 => by
    have ih := progClk_tells (σ := σ) (I := I) (P := P) ds (fun n hn => h1 n (by simp [hn]))
      fun n hn => h2 n (by simp [hn])
    cases x with
    | node n =>
      rw [progClockcheck]
      exact bind (because (nodeClk_tells (h1 n (by simp)).1) (h1 n (by simp)).2) fun _ _ =>
        bind ih fun _ _ => unit
    | extNode n =>
      rw [progClockcheck]
      exact bind (interface_tells _ (h2 n (by simp))) fun _ _ => bind ih fun _ _ => unit
    | const c => rw [progClockcheck]; exact bind ih fun _ _ => unit
    | extConst c => rw [progClockcheck]; exact bind ih fun _ _ => unit

/-! ## Depths -/

/-- A message about a depth inside an expression that is evaluated `n` instants after the start. -/
def Deep (n : Nat) (e : Expr) (d : Diag) : Prop :=
  (∃ x av att, Reached n e av (.var x att) ∧ av < att ∧ d = .notPositive x av att) ∨
    ∃ id f, Reached n e 0 (.fetchPre id f) ∧ d = .shallowPre f

theorem Deep.up {n m : Nat} {c e : Expr} (h : ∀ k b, Reached m c k b → Reached n e k b) {d : Diag}
    (hd : Deep m c d) : Deep n e d := by
  rcases hd with ⟨x, av, att, h1, h2⟩ | ⟨id, f, h1, h2⟩
  · exact .inl ⟨x, av, att, h _ _ h1, h2⟩
  · exact .inr ⟨id, f, h _ _ h1, h2⟩

theorem Deep.op {n : Nat} {c e : Expr} (h : Operand c e) (hl : ∀ d b a, e ≠ .later d b a)
    (hf : ∀ id i a, e ≠ .flip id i a) {d : Diag} (hd : Deep n c d) : Deep n e d :=
  hd.up fun _ _ hr => .operand h hl hf hr

mutual
theorem exprPos_tells {I : Depths → Prop} (hI : ∀ m m', I m → I m') : (e : Expr) → (n : Nat) →
    Tells I (Deep n e) (e.checkPositive n) fun _ => True
  | .lit _, n => by simp only [Expr.checkPositive]; exact unit
  | .global _, n => by simp only [Expr.checkPositive]; exact unit
  | .var x dt, n => by
    simp only [Expr.checkPositive]
    refine ite (fun _ => modify fun m hm => hI m _ hm) fun h => error (.inl ⟨x, n, dt, .here, ?_, rfl⟩)
    simpa [allows] using h
  | .tuple es, n => by
    simp only [Expr.checkPositive]
    refine because (listPos_tells hI es n) ?_
    rintro d ⟨c, hc, hd⟩
    exact hd.op (.tuple hc) (by simp) (by simp)
  | .dummyPre e, n => by
    simp only [Expr.checkPositive]
    exact because (exprPos_tells hI e n) fun d hd => hd.op .dummyPre (by simp) (by simp)
  | .dummyParen e, n => by
    simp only [Expr.checkPositive]
    exact because (exprPos_tells hI e n) fun d hd => hd.op .dummyParen (by simp) (by simp)
  | .un _ e, n => by
    simp only [Expr.checkPositive]
    exact because (exprPos_tells hI e n) fun d hd => hd.op .un (by simp) (by simp)
  | .bin _ l r, n => by
    simp only [Expr.checkPositive]
    exact bind (because (exprPos_tells hI l n) fun d hd => hd.op .binL (by simp) (by simp)) fun _ _ =>
      because (exprPos_tells hI r n) fun d hd => hd.op .binR (by simp) (by simp)
  | .cmp _ l r, n => by
    simp only [Expr.checkPositive]
    exact bind (because (exprPos_tells hI l n) fun d hd => hd.op .cmpL (by simp) (by simp)) fun _ _ =>
      because (exprPos_tells hI r n) fun d hd => hd.op .cmpR (by simp) (by simp)
  | .ifx c y o, n => by
    simp only [Expr.checkPositive]
    exact bind (because (exprPos_tells hI c n) fun d hd => hd.op .ifCond (by simp) (by simp)) fun _ _ =>
      bind (because (exprPos_tells hI y n) fun d hd => hd.op .ifYes (by simp) (by simp)) fun _ _ =>
      because (exprPos_tells hI o n) fun d hd => hd.op .ifNo (by simp) (by simp)
  | .later dt b a, n => by
    simp only [Expr.checkPositive]
    exact bind (because (exprPos_tells hI b n) fun d hd => hd.up fun _ _ hr => .before hr) fun _ _ =>
      because (exprPos_tells hI a (dt + 1)) fun d hd => hd.up fun _ _ hr => .after hr
  | .flip _ i c, n => by
    simp only [Expr.checkPositive]
    exact bind (because (exprPos_tells hI i n) fun d hd => hd.up fun _ _ hr => .initial hr) fun _ _ =>
      because (exprPos_tells hI c (n + 1)) fun d hd => hd.up fun _ _ hr => .continued hr
  | .substep _ _ e, n => by
    simp only [Expr.checkPositive]
    exact because (exprPos_tells hI e n) fun d hd => hd.op .arg (by simp) (by simp)
  | .clock _ e g, n => by
    simp only [Expr.checkPositive]
    exact bind (because (exprPos_tells hI g n) fun d hd => hd.op .clockGuard (by simp) (by simp))
      fun _ _ => because (exprPos_tells hI e n) fun d hd => hd.op .clockInner (by simp) (by simp)
  | .merge c y o, n => by
    simp only [Expr.checkPositive]
    exact bind (because (exprPos_tells hI c n) fun d hd => hd.op .mergeSwitch (by simp) (by simp))
      fun _ _ => bind (because (exprPos_tells hI y n) fun d hd => hd.op .mergeOn (by simp) (by simp))
      fun _ _ => because (exprPos_tells hI o n) fun d hd => hd.op .mergeOff (by simp) (by simp)
  | .fetchFby _ i f, n => by
    simp only [Expr.checkPositive]
    exact bind (because (exprPos_tells hI i n) fun d hd => hd.up fun _ _ hr => .fbyInit hr) fun _ _ =>
      because (exprPos_tells hI f n) fun d hd => hd.up fun _ _ hr => .fbyNext hr
  | .fetchPre id f, n => by
    simp only [Expr.checkPositive]
    refine ite (fun h => ?_) fun h => ?_
    · obtain ⟨k, rfl⟩ : ∃ k, n = k + 1 := ⟨n - 1, by omega⟩
      exact because (exprPos_tells hI f (k + 1 - 1)) fun d hd => hd.up fun _ _ hr => .pre hr
    · obtain rfl : n = 0 := by omega
      exact error (.inr ⟨id, f, .here, rfl⟩)
theorem listPos_tells {I : Depths → Prop} (hI : ∀ m m', I m → I m') : (es : List Expr) → (n : Nat) →
    Tells I (fun d => ∃ c ∈ es, Deep n c d) (Expr.checkPositiveList es n) fun _ => True
  | [], n => by simp only [Expr.checkPositiveList]; exact unit
  | e :: es, n => by
    simp only [Expr.checkPositiveList]
    refine bind (because (exprPos_tells hI e n) fun d hd => ⟨e, by simp, hd⟩) fun _ _ =>
      because (listPos_tells hI es n) ?_
    rintro d ⟨c, hc, hd⟩
    exact ⟨c, by simp [hc], hd⟩
end

theorem Deep.blame {e : Expr} {d : Diag} (h : Deep 0 e d) : DepthBlame e d := by
  rcases h with ⟨x, av, att, h1, h2, rfl⟩ | ⟨id, f, h1, rfl⟩
  · exact .var h1 h2
  · exact .pre h1

/-- A message about the depths of a node. -/
def PosBlame (n : Node) (d : Diag) : Prop :=
  ∃ e, ((∃ v, .let_ v e ∈ n.stmts) ∨ .assert e ∈ n.stmts) ∧ DepthBlame e d

theorem stmtsPos_tells {P : Diag → Prop} : (sts : List Stmt) →
    (∀ e, ((∃ v, .let_ v e ∈ sts) ∨ .assert e ∈ sts) → ∀ d, DepthBlame e d → P d) →
    Tells (fun _ => True) P (checkPositiveAll sts) fun _ => True
  | [], _ => by simp only [checkPositiveAll]; exact unit
  | st :: sts, h => by
    simp only [checkPositiveAll]
    refine bind (Q := fun _ => True) ?_ fun _ _ => stmtsPos_tells sts fun e he => h e ?_
    · cases st with
      | let_ v e =>
        exact because (exprPos_tells (fun _ _ _ => trivial) e 0) fun d hd =>
          h e (.inl ⟨v, by simp⟩) d hd.blame
      | assert e =>
        exact because (exprPos_tells (fun _ _ _ => trivial) e 0) fun d hd =>
          h e (.inr (by simp)) d hd.blame
      | updateRegister _ _ => exact unit
      | initRegister _ _ _ => exact unit
    · rcases he with ⟨v, he⟩ | he
      · exact .inl ⟨v, by simp [he]⟩
      · exact .inr (by simp [he])

theorem progPos_tells {σ : Type} {I : σ → Prop} {P : Diag → Prop} : (ds : List San.Decl) →
    (∀ n, .node n ∈ ds → ∀ d, PosBlame n d → P d) →
    Tells I P (progMakePositive ds : Chk Diag σ _) fun _ => True
  | [], _ => by rw [progMakePositive]; exact unit
  | x :: ds, h => by
    have ih := progPos_tells (σ := σ) (I := I) (P := P) ds fun n hn => h n (by simp [hn])
    rw [progMakePositive]
    refine bind (Q := fun _ => True) ?_ fun _ _ => bind ih fun _ _ => unit
    cases x with
    | node n =>
      simp only [Decl.makePositive, Node.makePositive]
      refine bind (Q := fun _ => True) (bind (Q := fun _ => True) ?_ fun _ _ => unit) fun _ _ => unit
      exact any (local_ (I' := fun _ => True) trivial (stmtsPos_tells _ fun e he d hd =>
        h n (by simp) d ⟨e, he, hd⟩))
    | _ => exact unit

/-! ## After the type checker -/

open Chandeliers.Prg

theorem checked_node {opts : String → TyOpts} : {sigs : String → Option Sig} →
    {consts : String → Option TyBase} → {ds ds' : List San.Decl} → Checked opts sigs consts ds ds' →
    ∀ n', .node n' ∈ ds' → ∃ n ctx, .node n ∈ ds ∧ n' = n.fill ctx ∧
      ((n'.inputs ++ n'.outputs ++ n'.locals).map (·.name)).Nodup
  | _, _, _, _, .nil, n', h => by cases h
  | _, _, _, _, .const _ _ hs, n', h => by
    obtain ⟨n, ctx, h1, h2⟩ := checked_node hs n' (by simpa using h)
    exact ⟨n, ctx, by simp [h1], h2⟩
  | _, _, _, _, .extConst _ hs, n', h => by
    obtain ⟨n, ctx, h1, h2⟩ := checked_node hs n' (by simpa using h)
    exact ⟨n, ctx, by simp [h1], h2⟩
  | _, _, _, _, .extNode _ _ _ hs, n', h => by
    obtain ⟨n, ctx, h1, h2⟩ := checked_node hs n' (by simpa using h)
    exact ⟨n, ctx, by simp [h1], h2⟩
  | _, _, _, _, .node hn _ hs, n', h => by
    rcases List.mem_cons.1 h with h | h
    · cases h
      obtain ⟨⟨a, s⟩, s', h3⟩ := hn
      obtain ⟨j1, j2, j3, a', ctx, j4, rfl, -⟩ := nodeTypecheck_some.1 h3
      exact ⟨_, ctx, by simp, rfl, declsTyped_nodup j2⟩
    · obtain ⟨n, ctx, h1, h2⟩ := checked_node hs n' h
      exact ⟨n, ctx, by simp [h1], h2⟩

theorem checked_ext {opts : String → TyOpts} : {sigs : String → Option Sig} →
    {consts : String → Option TyBase} → {ds ds' : List San.Decl} → Checked opts sigs consts ds ds' →
    ∀ n, .extNode n ∈ ds' → .extNode n ∈ ds
  | _, _, _, _, .nil, n, h => by cases h
  | _, _, _, _, .const _ _ hs, n, h => by simp [checked_ext hs n (by simpa using h)]
  | _, _, _, _, .extConst _ hs, n, h => by simp [checked_ext hs n (by simpa using h)]
  | _, _, _, _, .node _ _ hs, n, h => by simp [checked_ext hs n (by simpa using h)]
  | _, _, _, _, .extNode _ _ _ hs, n, h => by
    rcases List.mem_cons.1 h with h | h
    · simp [h]
    · simp [checked_ext hs n h]

theorem clkBlame_fill {o : TyOpts} {sigs : String → Option Sig}
    {consts : String → Option TyBase} {n : Node} {ctx : TyCtx} {d : Diag}
    (h : ClkBlame (n.fill ctx) d) : NodeBlame o sigs consts n d := by
  cases h with
  | interface h h' => exact .interface h h'
  | clocks h h' h'' => exact .clocks h h' h''

theorem clockcheck_blame {σ : Type} {I : σ → Prop} {decls s t : List San.Decl}
    (h : progCausality decls = .ok s) (opts : String → TyOpts)
    (ht : Checked opts (fun _ => none) (fun _ => none) s t) :
    Tells I (Blame ⟨decls, opts⟩) (progClockcheck t : Chk Diag σ _) fun _ => True := by
  refine progClk_tells t (fun n' hn' => ?_) fun n hn v hv hk => ?_
  · obtain ⟨n, ctx, h1, rfl, h2⟩ := checked_node ht n' hn'
    exact ⟨h2, fun d hd => blame_scheduled h h1 (clkBlame_fill hd)⟩
  · exact blame_scheduled h (checked_ext ht n hn) (ExtNodeBlame.interface hv hk)

theorem withClocks_let {clk : Nat → Expr} {n : Node} {v : VarTuple} {e : Expr}
    (h : .let_ v e ∈ (Node.withClocks clk n).stmts) : .let_ v e ∈ n.stmts := by
  obtain ⟨st, h1, h2⟩ := List.mem_map.1 h
  cases st <;> simp [Stmt.withClocks] at h2
  obtain ⟨rfl, rfl⟩ := h2
  exact h1

theorem withClocks_assert {clk : Nat → Expr} {n : Node} {e : Expr}
    (h : .assert e ∈ (Node.withClocks clk n).stmts) : .assert e ∈ n.stmts := by
  obtain ⟨st, h1, h2⟩ := List.mem_map.1 h
  cases st <;> simp [Stmt.withClocks] at h2
  subst h2
  exact h1

theorem positive_blame {σ : Type} {I : σ → Prop} {decls s t u : List San.Decl}
    (h : progCausality decls = .ok s) (opts : String → TyOpts)
    (ht : Checked opts (fun _ => none) (fun _ => none) s t) (hu : List.Forall₂ Clocked t u) :
    Tells I (Blame ⟨decls, opts⟩) (progMakePositive u : Chk Diag σ _) fun _ => True := by
  refine progPos_tells u fun n₂ hn₂ d hd => ?_
  have : ∃ x ∈ t, Clocked x (.node n₂) := by
    clear ht h
    induction hu with
    | nil => cases hn₂
    | cons hc _ ih =>
      rcases List.mem_cons.1 hn₂ with rfl | hn₂
      · exact ⟨_, by simp, hc⟩
      · obtain ⟨x, hx, h⟩ := ih hn₂
        exact ⟨x, by simp [hx], h⟩
  obtain ⟨x, hx, hc⟩ := this
  cases hc with
  | @node n₁ _ hc =>
    obtain ⟨s1, s2, hc⟩ := hc
    obtain ⟨n, ctx, h1, rfl, h2⟩ := checked_node ht n₁ hx
    obtain ⟨-, -, K, -, -, clk, rfl, -⟩ := Clk.node_clk_sound h2 hc
    obtain ⟨e, he, hd⟩ := hd
    refine blame_scheduled h h1 ?_
    rcases he with ⟨v, he⟩ | he
    · exact NodeBlame.equation (withClocks_let he) hd
    · exact NodeBlame.asserted (withClocks_assert he) hd

end Chandeliers.Tell
