import Verif.Lemmas.LegalCausal
import Verif.Lemmas.QuietTranslate
import Verif.Lemmas.Passes
import Verif.Props.Schedule

/-! Legal nodes are those whose translations pass all the checks. -/

set_option autoImplicit false

namespace Chandeliers.Den
open Chandeliers.San Chandeliers.Spec Chandeliers.Syn Chandeliers.Spec.Static

/-! ### Declarations of varsOf -/

/-- What a declared variable is in the specification. -/
def toVar (v : TyVar) : Static.Var := ⟨v.name, v.ty, v.clk.intoClk⟩

theorem varsOf_eq (as : List ArgsTy) : varsOf as = (translateArgs as).map toVar := by
  simp only [varsOf, translateArgs, List.map_flatMap, List.map_map]
  rfl

theorem varsOf_append (as bs : List ArgsTy) : varsOf (as ++ bs) = varsOf as ++ varsOf bs := by
  simp [varsOf]

theorem translateArgs_append (as bs : List ArgsTy) :
    translateArgs (as ++ bs) = translateArgs as ++ translateArgs bs := by
  simp [translateArgs]

theorem find_var (vs : List TyVar) (x : String) :
    (vs.map toVar).find? (fun v => v.name = x) = (vs.find? fun v => v.name = x).map toVar := by
  rw [List.find?_map]
  rfl

theorem typeIn_find (vs : List TyVar) (x : String) :
    typeIn vs x = ((vs.map toVar).find? fun v => v.name = x).map (·.ty) := by
  rw [find_var, typeIn, Option.map_map]
  rfl

theorem find_name {vs : List TyVar} {x : String} {v : TyVar}
    (h : vs.find? (fun v => v.name = x) = some v) : v ∈ vs ∧ v.name = x :=
  ⟨List.mem_of_find?_eq_some h, by simpa using List.find?_some h⟩

theorem find_mem_var {vs : List TyVar} (hn : (vs.map (·.name)).Nodup) {v : TyVar} (h : v ∈ vs) :
    vs.find? (fun w => w.name = v.name) = some v := by
  induction vs with
  | nil => simp at h
  | cons w vs ih =>
    rw [List.map_cons, List.nodup_cons] at hn
    rw [List.find?_cons]
    rcases List.mem_cons.1 h with rfl | h
    · simp
    · have : w.name ≠ v.name := fun e => hn.1 (e ▸ List.mem_map_of_mem h)
      simp only [this, decide_false]
      exact ih hn.2 h

theorem typeIn_iff {vs : List TyVar} (hn : (vs.map (·.name)).Nodup) {x : String} {t : TyBase} :
    typeIn vs x = some t ↔ ∃ w ∈ vs, w.name = x ∧ w.ty = t := by
  rw [typeIn, Option.map_eq_some_iff]
  constructor
  · rintro ⟨w, h, rfl⟩
    exact ⟨w, (find_name h).1, (find_name h).2, rfl⟩
  · rintro ⟨w, h, rfl, rfl⟩
    exact ⟨w, find_mem_var hn h, rfl⟩

theorem clk_on {k : Clock} {x : String} : (k.intoClk = .on x ∨ k.intoClk = .off x) ↔
    ∃ a, k = .explicit a x := by
  cases k with
  | explicit a y => cases a <;> simp [Clock.intoClk]
  | _ => simp [Clock.intoClk]

theorem legalVars_snoc {vs : List TyVar} {v : TyVar} : LegalVars ((vs ++ [v]).map toVar) ↔
    LegalVars (vs.map toVar) ∧ (∀ w ∈ vs, w.name ≠ v.name) ∧
      ∀ a x, v.clk = .explicit a x → typeIn vs x = some .bool := by
  have hname : (vs.map toVar).map (·.name) = vs.map (·.name) := by simp [toVar, Function.comp_def]
  constructor
  · rintro ⟨h1, h2⟩
    rw [List.map_append, List.map_append, List.nodup_append] at h1
    obtain ⟨h1, -, h3⟩ := h1
    refine ⟨⟨h1, ?_⟩, ?_, ?_⟩
    · intro l w r e x hx
      exact h2 l w (r ++ [toVar v]) (by rw [List.map_append, e]; simp) x hx
    · intro w hw e
      exact h3 w.name (by rw [hname]; exact List.mem_map_of_mem hw) v.name (by simp [toVar]) e
    · intro a x hx
      obtain ⟨w, hw, e1, e2⟩ := h2 (vs.map toVar) (toVar v) [] (by simp) x (clk_on.2 ⟨a, hx⟩)
      obtain ⟨w', hw', rfl⟩ := List.mem_map.1 hw
      exact (typeIn_iff (hname ▸ h1)).2 ⟨w', hw', e1, e2⟩
  · rintro ⟨⟨h1, h2⟩, h3, h4⟩
    refine ⟨?_, ?_⟩
    · rw [List.map_append, List.map_append, List.nodup_append]
      refine ⟨h1, by simp, ?_⟩
      intro x hx y hy
      rw [hname] at hx
      obtain ⟨w, hw, rfl⟩ := List.mem_map.1 hx
      simp only [List.map_cons, List.map_nil, List.mem_singleton] at hy
      subst hy
      exact h3 w hw
    · intro l w r e x hx
      rw [List.map_append, List.map_cons, List.map_nil] at e
      rcases List.eq_nil_or_concat r with rfl | ⟨r', z, rfl⟩
      · have := List.append_inj_right' e rfl
        simp only [List.cons.injEq, and_true] at this
        subst this
        obtain ⟨a, ha⟩ := clk_on.1 hx
        obtain ⟨w, hw, e1, e2⟩ := (typeIn_iff (hname ▸ h1)).1 (h4 a x ha)
        have e' := List.append_inj_left' e rfl
        exact ⟨toVar w, e' ▸ List.mem_map_of_mem hw, e1, e2⟩
      · have e' : vs.map toVar = l ++ w :: r' := by
          rw [List.concat_eq_append, ← List.cons_append, ← List.append_assoc] at e
          exact List.append_inj_left' e rfl
        exact h2 l w r' e' x hx

theorem legalVars_iff {vs : List TyVar} : LegalVars (vs.map toVar) ↔ DeclsTyped vs := by
  constructor
  · induction vs using Chandeliers.snocInduction with
    | nil => exact fun _ => .nil
    | snoc vs v ih =>
      intro h
      obtain ⟨h1, h2, h3⟩ := legalVars_snoc.1 h
      exact .snoc (ih h1) h2 h3
  · intro h
    induction h with
    | nil => exact ⟨by simp, fun l v r e => by simp at e⟩
    | snoc _ h2 h3 ih => exact legalVars_snoc.2 ⟨ih, h2, h3⟩

theorem legalInterface_iff {ex : Bool} {gens : List String} {ins outs locals : List TyVar} :
    LegalInterface ex gens (ins.map toVar) (outs.map toVar) (locals.map toVar) ↔
      SigTyped ex gens ins outs locals ∧ ∀ v ∈ ins ++ outs, Always v.clk.intoClk := by
  constructor
  · rintro ⟨h1, h2, h3, h4⟩
    refine ⟨⟨?_, ?_, ?_⟩, ?_⟩
    · simpa using h1
    · intro v hv x hx
      exact h2 (toVar v) (by rw [← List.map_append, ← List.map_append]; exact List.mem_map_of_mem hv) x hx
    · intro x hx
      obtain ⟨v, hv, e⟩ := h3 x hx
      obtain ⟨w, hw, rfl⟩ := List.mem_map.1 hv
      exact ⟨w, hw, e⟩
    · intro v hv
      exact h4 (toVar v) (by rw [← List.map_append]; exact List.mem_map_of_mem hv)
  · rintro ⟨⟨h1, h2, h3⟩, h4⟩
    refine ⟨?_, ?_, ?_, ?_⟩
    · simpa using h1
    · intro v hv x hx
      rw [← List.map_append, ← List.map_append] at hv
      obtain ⟨w, hw, rfl⟩ := List.mem_map.1 hv
      exact h2 w hw x hx
    · intro x hx
      obtain ⟨v, hv, e⟩ := h3 x hx
      exact ⟨toVar v, List.mem_map_of_mem hv, e⟩
    · intro v hv
      rw [← List.map_append] at hv
      obtain ⟨w, hw, rfl⟩ := List.mem_map.1 hv
      exact h4 w hw

/-! ### The scope of a node -/

section
variable {o : NodeOptions} {consts : String → Option TyBase} {sigs : String → Option Sig}
  {src : SrcNode}

/-- All the declarations. -/
def allVars (src : SrcNode) : List TyVar :=
  translateArgs src.inputs ++ translateArgs src.outputs ++ translateArgs src.locals

theorem scope_vars : (scope o consts sigs src).vars = (allVars src).map toVar := by
  show varsOf _ = _
  rw [varsOf_eq, translateArgs_append, translateArgs_append]
  rfl

theorem scope_var (x : String) : (scope o consts sigs src).var x =
    ((allVars src).find? fun v => v.name = x).map toVar := by
  unfold Scope.var
  rw [scope_vars, find_var]

theorem scope_sees : Sees (scope o consts sigs src) (src.view o.universalPre) := by
  refine ⟨fun x => ?_, rfl⟩
  rw [scope_var, Option.isSome_map, List.find?_isSome]
  simp only [SrcNode.view, allVars, List.mem_map, decide_eq_true_eq]

theorem scope_fits {c : ExprCtx} {n : Node} (hv : n.inputs ++ n.outputs ++ n.locals = allVars src)
    (hb : n.blocks = c.blocks) : Fits (scope o consts sigs src) c (nodeEnv sigs consts n) := by
  refine ⟨fun _ => rfl, fun x => ?_, fun _ _ => trivial, fun i f hi t u => ?_⟩
  · show typeIn _ x = _
    rw [hv, typeIn_find, find_var, scope_var]
  · constructor
    · rintro ⟨b, gens, ins, outs, θ, h1, h2, h3, h4⟩
      rw [hb, hi] at h1
      cases h1
      exact ⟨gens, ins, outs, θ, h2, h3, h4⟩
    · rintro ⟨gens, ins, outs, θ, h2, h3, h4⟩
      exact ⟨⟨f, none⟩, gens, ins, outs, θ, by rw [hb]; exact hi, h2, h3, h4⟩

/-- The clocks of the variables. -/
def clocksIn (src : SrcNode) (x : String) : Option Clk :=
  ((allVars src).find? fun v => v.name = x).map (·.clk.intoClk)

theorem scope_clocks (x : String) : clocksIn src x = ((scope o consts sigs src).var x).map (·.clk) := by
  rw [scope_var, Option.map_map]
  rfl

theorem clocksIn_declared (h : ((allVars src).map (·.name)).Nodup) :
    Declared (allVars src) (clocksIn src) := by
  intro x k
  rw [clocksIn, Option.map_eq_some_iff]
  constructor
  · rintro ⟨v, hv, rfl⟩
    exact ⟨v, (find_name hv).1, (find_name hv).2, rfl⟩
  · rintro ⟨v, hv, rfl, rfl⟩
    exact ⟨v, find_mem_var h hv, rfl⟩

theorem declared_unique {vs : List TyVar} {K K' : String → Option Clk} (h : Declared vs K)
    (h' : Declared vs K') : K = K' := by
  funext x
  cases hx : K' x with
  | some k => exact (h x k).2 ((h' x k).1 hx)
  | none =>
    cases hx' : K x with
    | none => rfl
    | some k => rw [(h' x k).2 ((h x k).1 hx')] at hx; cases hx

/-! ### Statements -/

theorem legalStmt_ty {S : Scope} {st : SrcStmt} (h : LegalStmt S st) :
    ∃ t, HasTy S (SrcStmt.expr st) t := by
  cases st with
  | def_ p e => obtain ⟨⟨t, -, h⟩, -⟩ := h; exact ⟨t, h⟩
  | assert e => exact ⟨_, h.1⟩

theorem target_scope {S : Scope} : (p : Target) → {t : TyTuple} → TargetTy S p t →
    ∀ x ∈ targets p, (S.var x).isSome = true := by
  intro p
  refine Target.rec (motive_1 := fun p => ∀ {t : TyTuple}, TargetTy S p t →
    ∀ x ∈ targets p, (S.var x).isSome = true) (motive_2 := fun ps => ∀ {ts : List TyTuple},
    TargetTys S ps ts → ∀ x ∈ targetsList ps, (S.var x).isSome = true) ?_ ?_ ?_ ?_ p
  · intro y t h x hx
    rw [TargetTy] at h
    obtain ⟨v, h, -⟩ := h
    rw [targets, List.mem_singleton] at hx
    subst hx
    rw [h]; rfl
  · intro ps tr ih t h x hx
    rw [TargetTy] at h
    obtain ⟨ts, h, -⟩ := h
    rw [targets] at hx
    exact ih h x hx
  · intro ts h x hx
    simp [targetsList] at hx
  · intro p ps ih1 ih2 ts h x hx
    rw [TargetTys] at h
    obtain ⟨t, us, -, h1, h2⟩ := h
    rw [targetsList, List.mem_append] at hx
    exact hx.elim (ih1 h1 x) (ih2 h2 x)

theorem defined_scope {S : Scope} {defs : List SrcStmt} (h : ∀ st ∈ defs, LegalStmt S st)
    {x : String} (hx : x ∈ defined defs) : (S.var x).isSome = true := by
  obtain ⟨st, hst, hx⟩ := List.mem_flatMap.1 hx
  cases st with
  | def_ p e =>
    obtain ⟨⟨t, ht, -⟩, -⟩ := h _ hst
    exact target_scope p ht x hx
  | assert e => simp at hx

/-- Legal statements have a translation. -/
theorem stmts_translate {S : Scope} (v : View) : (defs : List SrcStmt) → (c : ExprCtx) →
    (∀ st ∈ defs, ∃ t, HasTy S (SrcStmt.expr st) t) →
    ∃ c', translateStmts v defs c = .ok ((), c')
  | [], c, _ => ⟨c, rfl⟩
  | st :: defs, c, h => by
    obtain ⟨t, ht⟩ := h st (by simp)
    obtain ⟨x, c₁, h1⟩ := hasTy_translates _ ht v c
    have : ∃ c₂, st.translate v c = .ok ((), c₂) := by
      cases st with
      | def_ p e =>
        exact ⟨_, tr_bind_ok.2 ⟨x, c₁, h1, rfl⟩⟩
      | assert e =>
        exact ⟨_, tr_bind_ok.2 ⟨x, c₁, h1, rfl⟩⟩
    obtain ⟨c₂, h2⟩ := this
    obtain ⟨c', h3⟩ := stmts_translate v defs c₂ fun st hst => h st (by simp [hst])
    refine ⟨c', ?_⟩
    unfold translateStmts
    exact tr_bind_ok.2 ⟨(), c₂, h2, h3⟩

/-- The translated node. -/
def built (src : SrcNode) (c : ExprCtx) : Node where
  name := src.name
  inputs := translateArgs src.inputs
  outputs := translateArgs src.outputs
  locals := translateArgs src.locals
  blocks := c.blocks
  stmts := c.stmts
  registers := List.replicate c.registers none
  flips := c.flips

theorem node_translates {b : Bool} {c : ExprCtx}
    (h : translateStmts (src.view b) src.defs {} = .ok ((), c)) :
    src.translate b = .ok (built src c) := by
  unfold SrcNode.translate
  simp only [StateT.run, h]
  rfl

theorem literal_denotes {l : Syn.Lit} (h : (literalType l).isSome = true) : Denotes l := by
  unfold literalType at h
  unfold Denotes
  split at h <;> simp_all

/-- The nodes that are called are those of the source. -/
theorem blocks_callees {v : View} {defs : List SrcStmt} {c : ExprCtx}
    (h : translateStmts v defs {} = .ok ((), c))
    (hl : ∀ st ∈ defs, LitsOk (literals (SrcStmt.expr st))) :
    ∀ b ∈ c.blocks, ∃ st ∈ defs, b.name ∈ callees (SrcStmt.expr st) := by
  have := Quiet.clean_stmts (F := fun f => ∃ st ∈ defs, f ∈ callees (SrcStmt.expr st)) v defs
    (fun e he l hm => by
      obtain ⟨st, hst, rfl⟩ := List.mem_map.1 he
      exact literal_denotes (hl st hst l hm))
    (fun e he f hf => by
      obtain ⟨st, hst, rfl⟩ := List.mem_map.1 he
      exact ⟨st, hst, hf⟩)
  exact fun b hb => (((this {} Quiet.neat_nil).2 () c h).1.2 b hb)

/-- The translated node passes the checks. -/
structure NodeOk (o : NodeOptions) (consts : String → Option TyBase) (sigs : String → Option Sig)
    (src : SrcNode) (c : ExprCtx) : Prop where
  inputs : ∀ v ∈ translateArgs src.inputs, v.name ∉ assigned c.stmts
  once : (assigned c.stmts).Nodup
  everything : ∀ v ∈ translateArgs src.locals ++ translateArgs src.outputs, v.name ∈ assigned c.stmts
  causal : ∀ r, ¬ Relation.TransGen (Uses c.stmts) r r
  typed : NodeTyped (o.main.isSome || o.test.isSome) o.generics sigs consts (built src c)
  clocked : ∃ K, NodeClocked false (built src c) K
  lets : ∀ t x, .let_ t x ∈ c.stmts → ReadsWithin 0 x
  asserts : ∀ x, .assert x ∈ c.stmts → ReadsWithin 0 x

theorem nodeOk_of_legal {c : ExprCtx}
    (h : translateStmts (src.view o.universalPre) src.defs {} = .ok ((), c))
    (hL : LegalNode o consts sigs src) : NodeOk o consts sigs src c := by
  have hn := node_comes h
  have hF : Fits (scope o consts sigs src) c (nodeEnv sigs consts (built src c)) :=
    scope_fits rfl rfl
  have hS : Sees (scope o consts sigs src) (src.view o.universalPre) := scope_sees
  have hK := fun x => scope_clocks (o := o) (consts := consts) (sigs := sigs) (src := src) x
  obtain ⟨i1, i2⟩ := legalInterface_iff.1 (by
    have := hL.interface
    rwa [varsOf_eq, varsOf_eq, varsOf_eq] at this)
  have hv : DeclsTyped (allVars src) := legalVars_iff.1 (by
    have := hL.vars
    rwa [varsOf_eq, translateArgs_append, translateArgs_append] at this)
  have hlit : ∀ st ∈ src.defs, LitsOk (literals (SrcStmt.expr st)) := fun st hst => by
    obtain ⟨t, ht⟩ := legalStmt_ty (hL.stmts st hst)
    exact (hasTy_known _ ht).1
  refine ⟨?_, ?_, ?_, uses_of_causal hn hL.causal, ⟨i1, hv, ?_, ?_⟩,
    ⟨clocksIn src, i2, clocksIn_declared (declsTyped_nodup hv), ?_⟩, ?_, ?_⟩
  · intro v hm
    rw [hn.assigned]
    exact hL.inputs (toVar v) (by rw [varsOf_eq]; exact List.mem_map_of_mem hm)
  · rw [hn.assigned]; exact hL.once
  · intro v hm
    rw [hn.assigned]
    refine hL.everything (toVar v) ?_
    rw [varsOf_eq, translateArgs_append]
    refine List.mem_map_of_mem (?_ : v ∈ _)
    rw [List.mem_append] at hm ⊢
    exact hm.symm
  · intro b hb
    obtain ⟨st, hst, hf⟩ := blocks_callees h hlit b hb
    obtain ⟨t, ht⟩ := legalStmt_ty (hL.stmts st hst)
    have := (hasTy_known _ ht).2.1 _ hf
    exact Option.isSome_iff_exists.1 this
  · intro st hst
    cases st with
    | let_ p x =>
      obtain ⟨p, e, h1, rfl, h2⟩ := hn.lets _ _ hst
      obtain ⟨⟨t, ht, he⟩, -⟩ := hL.stmts _ h1
      exact .let_ ((target_type hF.vars p).2 ht) ((comes_type hF e hS (hlit _ h1) h2).2 he)
    | assert x =>
      obtain ⟨e, h1, h2⟩ := hn.checks _ hst
      exact .assert ((comes_type hF e hS (hlit _ h1) h2).2 (hL.stmts _ h1).1)
    | updateRegister => exact .updateRegister
    | initRegister => exact .initRegister
  · intro st hst
    cases st with
    | let_ p x =>
      obtain ⟨p, e, h1, rfl, h2⟩ := hn.lets _ _ hst
      obtain ⟨-, ⟨k, k', ht, he, hk⟩, -⟩ := hL.stmts _ h1
      exact .let_ ((target_clock hK p).2 ht) ((comes_clock hK e hS h2).2 he)
        fun hu => hk fun hu' => hu ((target_unit p).2 hu')
    | assert x =>
      obtain ⟨e, h1, h2⟩ := hn.checks _ hst
      obtain ⟨-, ⟨k, he, hk⟩, -⟩ := hL.stmts _ h1
      exact .assert ((comes_clock hK e hS h2).2 he) hk
    | updateRegister => exact .updateRegister
    | initRegister => exact .initRegister
  · intro t x hst
    obtain ⟨p, e, h1, rfl, h2⟩ := hn.lets _ _ hst
    exact (comes_ready e hS h2).2 (hL.stmts _ h1).2.2
  · intro x hst
    obtain ⟨e, h1, h2⟩ := hn.checks _ hst
    exact (comes_ready e hS h2).2 (hL.stmts _ h1).2.2

theorem legal_of_nodeOk {c : ExprCtx}
    (h : translateStmts (src.view o.universalPre) src.defs {} = .ok ((), c))
    (hp : ∀ st ∈ c.stmts, printableStmt st = true)
    (hO : NodeOk o consts sigs src c) : LegalNode o consts sigs src := by
  have hn := node_comes h
  have hF : Fits (scope o consts sigs src) c (nodeEnv sigs consts (built src c)) :=
    scope_fits rfl rfl
  have hS : Sees (scope o consts sigs src) (src.view o.universalPre) := scope_sees
  obtain ⟨K, k1, k2, k3⟩ := hO.clocked
  have hK : ∀ x, K x = ((scope o consts sigs src).var x).map (·.clk) := by
    intro x
    rw [← scope_clocks, declared_unique k2 (clocksIn_declared (declsTyped_nodup hO.typed.decls))]
  have hst : ∀ st ∈ src.defs, LegalStmt (scope o consts sigs src) st := by
    intro st hst
    cases st with
    | def_ p e =>
      obtain ⟨x, h1, h2⟩ := hn.defs p e hst
      have hl : LitsOk (literals e) := comes_lits hp e h1 (hp _ h2)
      refine ⟨?_, ?_, (comes_ready e hS h1).1 (hO.lets _ _ h2)⟩
      · have := hO.typed.stmts _ h2
        cases this with
        | let_ hx he => exact ⟨_, (target_type hF.vars p).1 hx, (comes_type hF e hS hl h1).1 he⟩
      · have := k3 _ h2
        cases this with
        | let_ hx he hk =>
          exact ⟨_, _, (target_clock hK p).1 hx, (comes_clock hK e hS h1).1 he,
            fun hu => hk fun hu' => hu ((target_unit p).1 hu')⟩
    | assert e =>
      obtain ⟨x, h1, h2⟩ := hn.asserts e hst
      have hl : LitsOk (literals e) := comes_lits hp e h1 (hp _ h2)
      refine ⟨?_, ?_, (comes_ready e hS h1).1 (hO.asserts _ h2)⟩
      · have := hO.typed.stmts _ h2
        cases this with
        | assert he => exact (comes_type hF e hS hl h1).1 he
      · have := k3 _ h2
        cases this with
        | assert he hk => exact ⟨_, (comes_clock hK e hS h1).1 he, hk⟩
  refine ⟨?_, ?_, hst, ?_, ?_, ?_, ?_⟩
  · rw [varsOf_eq, varsOf_eq, varsOf_eq]
    exact legalInterface_iff.2 ⟨hO.typed.sig, k1⟩
  · rw [varsOf_eq, translateArgs_append, translateArgs_append]
    exact legalVars_iff.2 hO.typed.decls
  · intro v hv
    rw [varsOf_eq] at hv
    obtain ⟨w, hw, rfl⟩ := List.mem_map.1 hv
    rw [← hn.assigned]
    exact hO.inputs w hw
  · rw [← hn.assigned]; exact hO.once
  · intro v hv
    rw [varsOf_eq, translateArgs_append] at hv
    obtain ⟨w, hw, rfl⟩ := List.mem_map.1 hv
    rw [← hn.assigned]
    refine hO.everything w ?_
    rw [List.mem_append] at hw ⊢
    exact hw.symm
  · exact causal_of_uses hn rfl (fun x hx => (hS.shadow x).2 (defined_scope hst hx)) hO.causal

end

end Chandeliers.Den
