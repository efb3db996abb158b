import Verif.Lemmas.RenameLegal
import Verif.Lemmas.Unfold

/-!
# Nodes whose variables are renamed, and nodes of which something is removed
-/

set_option autoImplicit false

namespace Chandeliers.Rep
open Chandeliers.San Chandeliers.Spec Chandeliers.Syn Chandeliers.Spec.Static

/-! ## Left-hand sides -/

section
variable {ρ ν : String → String} {X X' : String → Nillable Scalar}
mutual
theorem gets_rename : (p : Target) → (∀ x ∈ targets p, X' (ρ x) = X x) → ∀ {v : Value},
    Target.Gets X' (renameTarget ρ p) v ↔ Target.Gets X p v
  | .var x, h, .leaf v => by
    rw [renameTarget, Target.Gets, Target.Gets, h x (by simp [targets])]
  | .var x, h, .tup _ _ => by rw [renameTarget, Target.Gets, Target.Gets]
  | .tuple [] b, h, v => by rw [renameTarget, renameTargets, Target.Gets, Target.Gets]
  | .tuple [p] b, h, v => by
    rw [targets, targetsList, targetsList, List.append_nil] at h
    rw [renameTarget, renameTargets, renameTargets, Target.Gets, Target.Gets, gets_rename p h]
  | .tuple (p :: p' :: ps) b, h, .tup a l => by
    rw [targets, targetsList, forall_append] at h
    rw [renameTarget, renameTargets, renameTargets, Target.Gets, Target.Gets, gets_rename p h.1]
    rw [← getList_rename (p' :: ps) h.2, renameTargets]
  | .tuple (p :: p' :: ps) b, h, .leaf v => by
    rw [renameTarget, renameTargets, renameTargets, Target.Gets, Target.Gets]
theorem getList_rename : (ps : List Target) → (∀ x ∈ targetsList ps, X' (ρ x) = X x) →
    ∀ {vs : List Value}, Target.GetList X' (renameTargets ρ ps) vs ↔ Target.GetList X ps vs
  | [], h, [] => by rw [renameTargets, Target.GetList, Target.GetList]
  | [], h, _ :: _ => by rw [renameTargets, Target.GetList, Target.GetList] <;> simp
  | p :: ps, h, [] => by rw [renameTargets, Target.GetList, Target.GetList] <;> simp
  | p :: ps, h, v :: vs => by
    rw [targetsList, forall_append] at h
    rw [renameTargets, Target.GetList, Target.GetList, gets_rename p h.1, getList_rename ps h.2]
end
end

/-! ## Declarations -/

section
variable {ρ ν : String → String}

theorem argNames_rename (as : List ArgsTy) :
    argNames (as.map (renameArgs ρ)) = (argNames as).map ρ := by
  simp [argNames, renameArgs, List.flatMap_map, List.map_flatMap]

theorem argTypes_rename (as : List ArgsTy) :
    argTypes (as.map (renameArgs ρ)) = argTypes as := by
  simp [argTypes, renameArgs, List.flatMap_map]

theorem vars_rename (n : SrcNode) :
    SrcNode.vars (renameNode ρ ν n) = (SrcNode.vars n).map ρ := by
  simp [SrcNode.vars, renameNode, argNames_rename]

theorem varsOf_rename (as : List ArgsTy) :
    varsOf (as.map (renameArgs ρ)) = (varsOf as).map (renVar ρ) := by
  simp [varsOf, renameArgs, List.flatMap_map, List.map_flatMap, renVar, renClock_into,
    Function.comp_def]

theorem varsOf_names (as : List ArgsTy) : (varsOf as).map (·.name) = argNames as := by
  simp [varsOf, argNames, List.map_flatMap, Function.comp_def]

theorem argNames_append (as bs : List ArgsTy) : argNames (as ++ bs) = argNames as ++ argNames bs := by
  simp [argNames]

theorem varsOf_append (as bs : List ArgsTy) : varsOf (as ++ bs) = varsOf as ++ varsOf bs := by
  simp [varsOf]

theorem vars_names (n : SrcNode) :
    (varsOf (n.inputs ++ n.outputs ++ n.locals)).map (·.name) = SrcNode.vars n := by
  rw [varsOf_names, argNames_append, argNames_append, SrcNode.vars]

theorem vars_mentions {n : SrcNode} {x : String} (h : x ∈ SrcNode.vars n) : x ∈ mentions n := by
  simp only [mentions, List.mem_append]
  exact .inl (.inl h)

theorem clock_mentions {n : SrcNode} {a : ArgsTy} (ha : a ∈ n.inputs ++ n.outputs ++ n.locals)
    {b : Bool} {x : String} (h : a.clk = .explicit b x) : x ∈ mentions n := by
  simp only [mentions, List.mem_append]
  refine .inl (.inr (List.mem_flatMap.2 ⟨a, ?_, ?_⟩))
  · exact ha
  · rw [clockNames, h]
    exact List.mem_singleton.2 rfl

theorem target_mentions {n : SrcNode} {st : SrcStmt} (hs : st ∈ n.defs) {x : String}
    (h : x ∈ stmtTargets st) : x ∈ mentions n := by
  simp only [mentions, List.mem_append]
  exact .inr (List.mem_flatMap.2 ⟨st, hs, List.mem_append.2 (.inl h)⟩)

theorem names_mentions {n : SrcNode} {st : SrcStmt} (hs : st ∈ n.defs) {x : String}
    (h : x ∈ names (SrcStmt.expr st)) : x ∈ mentions n := by
  simp only [mentions, List.mem_append]
  exact .inr (List.mem_flatMap.2 ⟨st, hs, List.mem_append.2 (.inr h)⟩)

theorem ids_vars {n : SrcNode} {a : ArgsTy} (ha : a ∈ n.inputs ++ n.outputs ++ n.locals) {x : String}
    (h : x ∈ a.ids) : x ∈ SrcNode.vars n := by
  rw [SrcNode.vars, ← argNames_append, ← argNames_append]
  exact List.mem_flatMap.2 ⟨a, ha, h⟩

/-! ## Renamed nodes: meaning -/

/-- What renaming asks for. -/
structure Ren (ρ : String → String) (n : SrcNode) : Prop where
  inj : ∀ x ∈ mentions n, ∀ y ∈ mentions n, ρ x = ρ y → x = y

theorem clocks_rename {n : SrcNode} (h : Ren ρ n) {x : String} (hx : x ∈ mentions n) :
    SrcNode.clocks (renameNode ρ ν n) (ρ x) = renameClock ρ (SrcNode.clocks n x) := by
  have : ∀ as : List ArgsTy, (∀ a ∈ as, a ∈ n.inputs ++ n.outputs ++ n.locals) →
      (match (as.map (renameArgs ρ)).find? fun a => decide (ρ x ∈ a.ids) with
        | some a => a.clk
        | none => .implicit) =
      renameClock ρ (match as.find? fun a => decide (x ∈ a.ids) with
        | some a => a.clk
        | none => .implicit) := by
    intro as
    induction as with
    | nil => intro _; rfl
    | cons a as ih =>
      intro hm
      have e : (ρ x ∈ (renameArgs ρ a).ids) ↔ x ∈ a.ids := by
        simp only [renameArgs, List.mem_map]
        constructor
        · rintro ⟨y, hy, he⟩
          rw [← h.inj y (vars_mentions (ids_vars (hm a (by simp)) hy)) x hx he]
          exact hy
        · intro hy
          exact ⟨x, hy, rfl⟩
      by_cases hx' : x ∈ a.ids
      · rw [List.map_cons, List.find?_cons_of_pos (by simpa using e.2 hx'),
          List.find?_cons_of_pos (by simpa using hx')]
        rfl
      · rw [List.map_cons, List.find?_cons_of_neg (by simpa using fun h => hx' (e.1 h)),
          List.find?_cons_of_neg (by simpa using hx')]
        exact ih fun a ha => hm a (List.mem_cons_of_mem _ ha)
  have := this _ fun a ha => ha
  simp only [SrcNode.clocks, renameNode, ← List.map_append]
  exact this

theorem clocks_mentions {n : SrcNode} {x : String} {b : Bool} {y : String}
    (h : SrcNode.clocks n x = .explicit b y) : y ∈ mentions n := by
  unfold SrcNode.clocks at h
  split at h
  · rename_i a ha
    exact clock_mentions (List.mem_of_find?_eq_some ha) h
  · cases h

theorem mem_rename {n : SrcNode} (h : Ren ρ n) {x : String} (hx : x ∈ mentions n) :
    ρ x ∈ SrcNode.vars (renameNode ρ ν n) ↔ x ∈ SrcNode.vars n := by
  rw [vars_rename, List.mem_map]
  constructor
  · rintro ⟨y, hy, he⟩
    rw [← h.inj y (vars_mentions hy) x hx he]
    exact hy
  · intro hy
    exact ⟨x, hy, rfl⟩

section
variable {A : Arith} {g g' : Globals} {N N' : String → Option Machine} {n : SrcNode}
  {S S' : String → Nat → Nillable Scalar}

theorem corr_rename (h : Ren ρ n) (hg : ∀ x ∈ mentions n, x ∉ SrcNode.vars n → g' (ρ x) = g x)
    (hN : ∀ f, N' (ν f) = N f) (hS : ∀ x ∈ mentions n, S' (ρ x) = S x) :
    CorrOn ρ ν (· ∈ mentions n) ⟨A, SrcNode.vars n, S, g, N⟩
      ⟨A, SrcNode.vars (renameNode ρ ν n), S', g', N'⟩ (SrcNode.clocks n)
      (SrcNode.clocks (renameNode ρ ν n)) where
  arith := rfl
  nodes := hN
  locals x hx := mem_rename h hx
  X x hx _ := hS x hx
  glob x hx hv := hg x hx hv
  due x hx _ t := by
    rw [clocks_rename h hx]
    cases hc : SrcNode.clocks n x with
    | explicit b y =>
      simp only [renameClock, uniDue, hS y (clocks_mentions hc)]
    | _ => rfl

theorem together_rename {X X' : String → Nillable Scalar} {xs : List String}
    (h : ∀ x ∈ xs, X' (ρ x) = X x) : together X' (xs.map ρ) = together X xs := by
  unfold together
  rw [List.map_map]
  congr 1
  exact List.map_congr_left fun x hx => by simp [h x hx]

theorem inputs_vars {x : String} (h : x ∈ argNames n.inputs) : x ∈ SrcNode.vars n := by
  simp [SrcNode.vars, h]

theorem outputs_vars {x : String} (h : x ∈ argNames n.outputs) : x ∈ SrcNode.vars n := by
  simp [SrcNode.vars, h]

theorem solution_inputs_rename (hS : ∀ x ∈ mentions n, S' (ρ x) = S x) {is : List Value} :
    (∀ t i, is[t]? = some i → argNames (renameNode ρ ν n).inputs ≠ [] →
      i = together (S' · t) (argNames (renameNode ρ ν n).inputs)) ↔
    ∀ t i, is[t]? = some i → argNames n.inputs ≠ [] → i = together (S · t) (argNames n.inputs) := by
  have e : argNames (renameNode ρ ν n).inputs = (argNames n.inputs).map ρ := argNames_rename _
  rw [e]
  refine forall_congr' fun t => forall_congr' fun i => imp_congr_right fun _ => ?_
  rw [together_rename (X := (S · t)) fun x hx => by
    show S' (ρ x) t = S x t
    rw [hS x (vars_mentions (inputs_vars hx))]]
  simp

theorem outputs_rename (hS : ∀ x ∈ mentions n, S' (ρ x) = S x) (k : Nat) :
    srcOutputs S' (renameNode ρ ν n) k = srcOutputs S n k := by
  have e : argNames (renameNode ρ ν n).outputs = (argNames n.outputs).map ρ := argNames_rename _
  unfold srcOutputs
  rw [e]
  refine List.map_congr_left fun t _ => ?_
  exact together_rename fun x hx => by
    show S' (ρ x) t = S x t
    rw [hS x (vars_mentions (outputs_vars hx))]

theorem srcSolution_rename (h : Ren ρ n)
    (hg : ∀ x ∈ mentions n, x ∉ SrcNode.vars n → g' (ρ x) = g x) (hN : ∀ f, N' (ν f) = N f)
    (hS : ∀ x ∈ mentions n, S' (ρ x) = S x) {is : List Value} :
    SrcSolution ⟨A, SrcNode.vars (renameNode ρ ν n), S', g', N'⟩ (renameNode ρ ν n) is ↔
      SrcSolution ⟨A, SrcNode.vars n, S, g, N⟩ n is := by
  have hC := corr_rename (A := A) h hg hN hS
  have hd : ∀ t : Nat, ∀ st ∈ n.defs, (SrcHolds ⟨A, SrcNode.vars (renameNode ρ ν n), S', g', N'⟩ t
      (renameStmt ρ ν st) ↔ SrcHolds ⟨A, SrcNode.vars n, S, g, N⟩ t st) := by
    intro t st hst
    cases st with
    | def_ p e =>
      have h1 := ref_rename hC.toCorr e (fun x hx => names_mentions hst hx) t
      have h2 : ∀ v, Target.Gets (S' · t) (renameTarget ρ p) v ↔ Target.Gets (S · t) p v := fun v =>
        gets_rename p fun x hx => by rw [hS x (target_mentions hst hx)]
      simp only [renameStmt, SrcHolds, h1, h2]
    | assert e =>
      have h1 := ref_rename hC.toCorr e (fun x hx => names_mentions hst hx) t
      simp only [renameStmt, SrcHolds, h1]
  constructor
  · intro hs
    exact ⟨(solution_inputs_rename hS).1 hs.inputs, fun t ht st hst =>
      (hd t st hst).1 (hs.defs t ht _ (List.mem_map_of_mem hst))⟩
  · intro hs
    refine ⟨(solution_inputs_rename hS).2 hs.inputs, fun t ht st hst => ?_⟩
    obtain ⟨st, hst', rfl⟩ := List.mem_map.1 hst
    replace hst := hst'
    exact (hd t st hst).2 (hs.defs t ht _ hst)

theorem uniSolution_rename (h : Ren ρ n)
    (hg : ∀ x ∈ mentions n, x ∉ SrcNode.vars n → g' (ρ x) = g x) (hN : ∀ f, N' (ν f) = N f)
    (hS : ∀ x ∈ mentions n, S' (ρ x) = S x) {is : List Value} :
    UniSolution ⟨A, SrcNode.vars (renameNode ρ ν n), S', g', N'⟩ (SrcNode.clocks (renameNode ρ ν n))
        (renameNode ρ ν n) is ↔
      UniSolution ⟨A, SrcNode.vars n, S, g, N⟩ (SrcNode.clocks n) n is := by
  have hC := corr_rename (A := A) h hg hN hS
  have hd : ∀ t : Nat, ∀ st ∈ n.defs, (UniHolds ⟨A, SrcNode.vars (renameNode ρ ν n), S', g', N'⟩
      (SrcNode.clocks (renameNode ρ ν n)) t
      (renameStmt ρ ν st) ↔ UniHolds ⟨A, SrcNode.vars n, S, g, N⟩ (SrcNode.clocks n) t st) := by
    intro t st hst
    cases st with
    | def_ p e =>
      have h1 := uni_rename hC e (fun x hx => names_mentions hst hx) t
      have h2 : ∀ v, Target.Gets (S' · t) (renameTarget ρ p) v ↔ Target.Gets (S · t) p v := fun v =>
        gets_rename p fun x hx => by rw [hS x (target_mentions hst hx)]
      simp only [renameStmt, UniHolds, h1, h2]
    | assert e =>
      have h1 := uni_rename hC e (fun x hx => names_mentions hst hx) t
      simp only [renameStmt, UniHolds, h1]
  constructor
  · intro hs
    exact ⟨(solution_inputs_rename hS).1 hs.inputs, fun t ht st hst =>
      (hd t st hst).1 (hs.defs t ht _ (List.mem_map_of_mem hst))⟩
  · intro hs
    refine ⟨(solution_inputs_rename hS).2 hs.inputs, fun t ht st hst => ?_⟩
    obtain ⟨st, hst', rfl⟩ := List.mem_map.1 hst
    replace hst := hst'
    exact (hd t st hst).2 (hs.defs t ht _ hst)

theorem answers_same {u : Bool} (h : Ren ρ n)
    (hg : ∀ x ∈ mentions n, x ∉ SrcNode.vars n → g' (ρ x) = g x) (hN : ∀ f, N' (ν f) = N f)
    (hS : ∀ x ∈ mentions n, S' (ρ x) = S x)
    {is outs : List Value} :
    ((if u = true then
        UniSolution ⟨A, SrcNode.vars (renameNode ρ ν n), S', g', N'⟩ (SrcNode.clocks (renameNode ρ ν n))
          (renameNode ρ ν n) is
      else SrcSolution ⟨A, SrcNode.vars (renameNode ρ ν n), S', g', N'⟩ (renameNode ρ ν n) is) ∧
        outs = srcOutputs S' (renameNode ρ ν n) is.length) ↔
    ((if u = true then UniSolution ⟨A, SrcNode.vars n, S, g, N⟩ (SrcNode.clocks n) n is
      else SrcSolution ⟨A, SrcNode.vars n, S, g, N⟩ n is) ∧ outs = srcOutputs S n is.length) := by
  rw [outputs_rename hS, uniSolution_rename h hg hN hS, srcSolution_rename h hg hN hS]

open Classical in
theorem answers_rename {u : Bool} (h : Ren ρ n)
    (hg : ∀ x ∈ mentions n, x ∉ SrcNode.vars n → g' (ρ x) = g x) (hN : ∀ f, N' (ν f) = N f)
    (is outs : List Value) :
    Answers A g N u n is outs ↔ Answers A g' N' u (renameNode ρ ν n) is outs := by
  constructor
  · rintro ⟨S, hs⟩
    refine ⟨fun y => if h : ∃ x ∈ mentions n, ρ x = y then S h.choose else S y, ?_⟩
    refine (answers_same h hg hN fun x hx => ?_).2 hs
    have he : ∃ x' ∈ mentions n, ρ x' = ρ x := ⟨x, hx, rfl⟩
    rw [dif_pos he, h.inj _ he.choose_spec.1 x hx he.choose_spec.2]
  · rintro ⟨S', hs⟩
    exact ⟨fun x => S' (ρ x), (answers_same h hg hN fun x _ => rfl).1 hs⟩

theorem answers_renamed {u : Bool} {n' : SrcNode} (h : RenamedNode n n') (is outs : List Value) :
    Answers A g N u n is outs ↔ Answers A g N u n' is outs := by
  obtain ⟨ρ, h1, h2, rfl⟩ := h
  exact answers_rename ⟨h1⟩ (fun x hx hv => by rw [h2 x hx hv]) (fun _ => rfl) is outs

end

/-! ## Renamed nodes: legality -/

theorem find_rename {vs : List Var} {x : String} (h : ∀ v ∈ vs, ρ v.name = ρ x → v.name = x) :
    (vs.map (renVar ρ)).find? (fun v => decide (v.name = ρ x)) =
      (vs.find? fun v => decide (v.name = x)).map (renVar ρ) := by
  induction vs with
  | nil => rfl
  | cons v vs ih =>
    by_cases hv : v.name = x
    · rw [List.map_cons, List.find?_cons_of_pos (by simp [renVar, hv]),
        List.find?_cons_of_pos (by simp [hv])]
      rfl
    · rw [List.map_cons, List.find?_cons_of_neg (by
          intro hd
          exact hv (h v (by simp) (of_decide_eq_true hd))), List.find?_cons_of_neg (by simp [hv])]
      exact ih fun v hm => h v (List.mem_cons_of_mem _ hm)

theorem var_none {o : NodeOptions} {consts : String → Option TyBase} {nodes : String → Option Sig}
    {n : SrcNode} {x : String} : (scope o consts nodes n).var x = none ↔ x ∉ SrcNode.vars n := by
  simp only [Scope.var, scope, List.find?_eq_none, decide_eq_true_eq]
  rw [← vars_names, List.mem_map]
  simp

theorem corrS_rename {o : NodeOptions} {consts consts' : String → Option TyBase}
    {nodes nodes' : String → Option Sig} {n : SrcNode} (h : Ren ρ n)
    (hc : ∀ x ∈ mentions n, x ∉ SrcNode.vars n → consts' (ρ x) = consts x)
    (hN : ∀ f, nodes' (ν f) = nodes f) :
    CorrS ρ ν (· ∈ mentions n) (scope o consts nodes n)
      (scope o consts' nodes' (renameNode ρ ν n)) where
  pre := rfl
  nodes := hN
  var x hx := by
    simp only [Scope.var, scope, renameNode, ← List.map_append, varsOf_rename]
    refine find_rename fun v hv he => h.inj _ (vars_mentions ?_) _ hx he
    rw [← vars_names]
    exact List.mem_map_of_mem hv
  consts x hx hv := hc x hx (var_none.1 hv)

theorem defined_rename (defs : List SrcStmt) :
    defined (defs.map (renameStmt ρ ν)) = (defined defs).map ρ := by
  induction defs with
  | nil => rfl
  | cons st defs ih =>
    cases st with
    | def_ p e =>
      simp only [defined, List.map_cons, List.flatMap_cons, renameStmt, targets_rename,
        List.map_append] at ih ⊢
      rw [ih]
    | assert e =>
      simp only [defined, List.map_cons, List.flatMap_cons, renameStmt, List.nil_append] at ih ⊢
      rw [ih]

theorem defined_mem {defs : List SrcStmt} {x : String} :
    x ∈ defined defs ↔ ∃ st ∈ defs, x ∈ stmtTargets st := by
  simp only [defined, List.mem_flatMap]
  refine exists_congr fun st => and_congr_right fun _ => ?_
  cases st <;> simp [stmtTargets]

theorem nodup_rename {n : SrcNode} (h : Ren ρ n) {xs : List String} (hx : ∀ x ∈ xs, x ∈ mentions n)
    (hn : xs.Nodup) : (xs.map ρ).Nodup :=
  hn.map_on fun x h1 y h2 e => h.inj x (hx x h1) y (hx y h2) e

theorem renVar_ty (v : Var) : (renVar ρ v).ty = v.ty := rfl

theorem mem_renamed {vs : List Var} {P : Var → Prop} :
    (∀ v ∈ vs.map (renVar ρ), P v) ↔ ∀ v ∈ vs, P (renVar ρ v) := by simp

theorem legal_rename {o : NodeOptions} {consts consts' : String → Option TyBase}
    {nodes nodes' : String → Option Sig} {n : SrcNode} (h : Ren ρ n)
    (hc : ∀ x ∈ mentions n, x ∉ SrcNode.vars n → consts' (ρ x) = consts x)
    (hN : ∀ f, nodes' (ν f) = nodes f) (hl : LegalNode o consts nodes n) :
    LegalNode o consts' nodes' (renameNode ρ ν n) := by
  have hv : ∀ v ∈ varsOf (n.inputs ++ n.outputs ++ n.locals), v.name ∈ mentions n := fun v hv =>
    vars_mentions (by rw [← vars_names]; exact List.mem_map_of_mem hv)
  have hdm : ∀ x ∈ defined n.defs, x ∈ mentions n := by
    intro x hx
    obtain ⟨st, h1, h2⟩ := defined_mem.1 hx
    exact target_mentions h1 h2
  constructor
  · simp only [renameNode, varsOf_rename]
    obtain ⟨i1, i2, i3, i4⟩ := hl.interface
    refine ⟨fun he => ?_, ?_, ?_, ?_⟩
    · obtain ⟨j1, j2⟩ := i1 he
      rw [j1, j2]
      exact ⟨rfl, rfl⟩
    · simp only [← List.map_append]
      rw [mem_renamed]
      exact i2
    · intro x hx
      obtain ⟨v, h1, h2⟩ := i3 x hx
      exact ⟨renVar ρ v, List.mem_map_of_mem h1, h2⟩
    · simp only [← List.map_append]
      rw [mem_renamed]
      exact fun v hm => renClk_always.2 (i4 v hm)
  · simp only [renameNode, ← List.map_append, varsOf_rename]
    refine ⟨?_, ?_⟩
    · have : ((varsOf (n.inputs ++ n.outputs ++ n.locals)).map (renVar ρ)).map (·.name) =
          ((varsOf (n.inputs ++ n.outputs ++ n.locals)).map (·.name)).map ρ := by
        rw [List.map_map, List.map_map]; rfl
      rw [this]
      refine nodup_rename h (fun x hx => ?_) hl.vars.distinct
      obtain ⟨v, h1, rfl⟩ := List.mem_map.1 hx
      exact hv v h1
    · intro l v r e x hx
      obtain ⟨l₀, r₀, e1, rfl, e3⟩ := List.map_eq_append_iff.1 e
      obtain ⟨v₀, r₁, rfl, rfl, rfl⟩ := List.map_eq_cons_iff.1 e3
      have hx' : ∃ y, (v₀.clk = .on y ∨ v₀.clk = .off y) ∧ x = ρ y := by
        revert hx
        simp only [renVar]
        cases v₀.clk <;> simp [renClk] <;> intro h <;> exact h.symm
      obtain ⟨y, hy, rfl⟩ := hx'
      obtain ⟨w, k1, k2, k3⟩ := hl.vars.clocks _ _ _ e1 y hy
      exact ⟨renVar ρ w, List.mem_map_of_mem k1, by rw [← k2]; rfl, k3⟩
  · intro st hst
    obtain ⟨st, hst', rfl⟩ := List.mem_map.1 hst
    replace hst := hst'
    exact legalStmt_rename (corrS_rename h hc hN) (fun x hx => target_mentions hst hx)
      (fun x hx => names_mentions hst hx) (hl.stmts st hst)
  · simp only [renameNode, varsOf_rename, defined_rename]
    rw [mem_renamed]
    intro v hm hd
    obtain ⟨x, h1, h2⟩ := List.mem_map.1 hd
    have := h.inj x (hdm x h1) v.name (hv v (by
      rw [varsOf_append, varsOf_append]; simp [hm])) h2
    exact hl.inputs v hm (this ▸ h1)
  · simp only [renameNode, defined_rename]
    exact nodup_rename h hdm hl.once
  · simp only [renameNode, ← List.map_append, varsOf_rename, defined_rename]
    rw [mem_renamed]
    intro v hm
    exact List.mem_map_of_mem (hl.everything v hm)
  · have step : ∀ a b, DefinedFrom (n.defs.map (renameStmt ρ ν)) a b → ∃ x y, x ∈ mentions n ∧
        y ∈ mentions n ∧ ρ x = a ∧ ρ y = b ∧ DefinedFrom n.defs x y := by
      rintro a b ⟨p, e, h1, h2, h3⟩
      obtain ⟨st, hst, he⟩ := List.mem_map.1 h1
      cases st with
      | assert e => simp [renameStmt] at he
      | def_ p₀ e₀ =>
        simp only [renameStmt, SrcStmt.def_.injEq] at he
        obtain ⟨rfl, rfl⟩ := he
        rw [targets_rename, List.mem_map] at h2
        rw [instant_rename, List.mem_map] at h3
        obtain ⟨x, h2, rfl⟩ := h2
        obtain ⟨y, h3, rfl⟩ := h3
        exact ⟨x, y, target_mentions (st := .def_ p₀ e₀) hst h2,
          names_mentions (st := .def_ p₀ e₀) hst (instant_names e₀ y h3), rfl, rfl, p₀, e₀, hst, h2, h3⟩
    have path : ∀ a b, Relation.TransGen (DefinedFrom (n.defs.map (renameStmt ρ ν))) a b → ∃ x y,
        x ∈ mentions n ∧ y ∈ mentions n ∧ ρ x = a ∧ ρ y = b ∧
          Relation.TransGen (DefinedFrom n.defs) x y := by
      intro a b hp
      induction hp with
      | single h1 =>
        obtain ⟨x, y, k1, k2, k3, k4, k5⟩ := step _ _ h1
        exact ⟨x, y, k1, k2, k3, k4, .single k5⟩
      | tail _ h1 ih =>
        obtain ⟨x, y, k1, k2, k3, k4, k5⟩ := ih
        obtain ⟨y', z, j1, j2, j3, j4, j5⟩ := step _ _ h1
        have := h.inj y' j1 y k2 (j3.trans k4.symm)
        subst this
        exact ⟨x, z, k1, j2, k3, j4, k5.tail j5⟩
    intro a ha
    obtain ⟨x, y, k1, k2, k3, k4, k5⟩ := path a a ha
    have := h.inj x k1 y k2 (k3.trans k4.symm)
    subst this
    exact hl.causal x k5

theorem expr_rename (st : SrcStmt) : SrcStmt.expr (renameStmt ρ ν st) = renameSrc ρ ν (SrcStmt.expr st) := by
  cases st <;> rfl

theorem renamed_keepsNode : KeepsNode (fun _ n n' => RenamedNode n n') where
  name := by rintro _ n _ ⟨ρ, -, -, rfl⟩; rfl
  inputs := by rintro _ n _ ⟨ρ, -, -, rfl⟩; exact argTypes_rename _
  outputs := by rintro _ n _ ⟨ρ, -, -, rfl⟩; exact argTypes_rename _
  legal := by
    rintro o consts nodes n _ ⟨ρ, h1, h2, rfl⟩ hl
    exact legal_rename ⟨h1⟩ (fun x hx hv => by rw [h2 x hx hv]) (fun _ => rfl) hl
  calls := by
    rintro _ n _ ⟨ρ, -, -, rfl⟩ st hst g hg
    obtain ⟨st, hst', rfl⟩ := List.mem_map.1 hst
    replace hst := hst'
    rw [expr_rename, callees_rename, List.map_id] at hg
    exact ⟨st, hst, hg⟩

theorem rename_tidy {n : SrcNode} (ht : Tidy n) : Tidy (renameNode ρ ν n) := by
  refine ⟨⟨fun a ha b x hx => ?_, fun st hst x hx => ?_⟩, fun st hst => ?_⟩
  · simp only [renameNode, ← List.map_append, List.mem_map] at ha
    obtain ⟨a, ha, rfl⟩ := ha
    simp only [renameNode, argNames_rename]
    revert hx
    simp only [renameArgs]
    cases hc : a.clk with
    | explicit b' y =>
      intro hx
      simp only [renameClock, Clock.explicit.injEq] at hx
      rw [← hx.2]
      exact List.mem_map_of_mem (ht.clocks.declared a ha b' y hc)
    | _ => simp [renameClock]
  · obtain ⟨st, hst', rfl⟩ := List.mem_map.1 hst
    replace hst := hst'
    rw [expr_rename, guards_rename] at hx
    obtain ⟨y, hy, rfl⟩ := List.mem_map.1 hx
    simp only [renameNode, argNames_rename]
    exact List.mem_map_of_mem (ht.clocks.used st hst y hy)
  · obtain ⟨st, hst', rfl⟩ := List.mem_map.1 hst
    replace hst := hst'
    rw [expr_rename, flat_rename]
    exact ht.flat st hst

theorem renamed_tidy {n n' : SrcNode} (h : RenamedNode n n') (ht : Tidy n) : Tidy n' := by
  obtain ⟨ρ, -, -, rfl⟩ := h
  exact rename_tidy ht

theorem renamed_faced : Faced (fun _ n n' => RenamedNode n n') :=
  ⟨fun h => renamed_keepsNode.name (u := true) h,
    fun h => by rw [renamed_keepsNode.outputs (u := true) h]⟩

end

end Chandeliers.Rep
