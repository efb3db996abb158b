import Verif.Spec.Inline
import Verif.Lemmas.RenameNode
import Verif.Lemmas.Lustre
import Verif.Lemmas.Presence
import Verif.Props.Main

/-!
# Replacing a call by the body of the node
-/

set_option autoImplicit false

namespace Chandeliers.Rep
open Chandeliers.San Chandeliers.Spec Chandeliers.Syn Chandeliers.Spec.Static Chandeliers.Props
open Chandeliers.Den (some_bind)

/-! ## Arguments -/

theorem tupleValue_inj {vs ws : List Value} (hl : vs.length = ws.length)
    (h : tupleValue vs = tupleValue ws) : vs = ws := by
  match vs, ws, hl with
  | [], [], _ => rfl
  | [v], [w], _ => simpa [tupleValue] using h
  | v :: v' :: vs, w :: w' :: ws, _ => simpa [tupleValue] using h

/-- A way to give values to expressions. -/
abbrev Sem := World → (String → Clock) → Src → Nat → Option Value

/-- What it has to satisfy here. -/
structure Usual (val : Sem) : Prop where
  rename : ∀ {ρ P W W' D D'}, CorrOn ρ id P W W' D D' → ∀ e, (∀ x ∈ names e, P x) → ∀ t,
    val W' D' (renameSrc ρ id e) t = val W D e t
  call : ∀ W D f args b t, val W D (.call f args b) t = match W.nodes f with
    | none => none
    | some m => callAt m (fun u => (args.mapM (val W D · u)).map tupleValue) t
  paren : ∀ W D es b t, val W D (.paren es b) t = (es.mapM (val W D · t)).map tupleValue
  var : ∀ W D x t, x ∈ W.locals → val W D (.var x) t = some (.leaf (W.X x t))

/-- Equations hold. -/
def Holds (val : Sem) (W : World) (D : String → Clock) (t : Nat) : SrcStmt → Prop
  | .def_ p e => ∃ v, val W D e t = some v ∧ Target.Gets (W.X · t) p v
  | .assert e => val W D e t = some (.leaf (.defined (.bool true)))

/-- Solutions. -/
structure Solves (val : Sem) (W : World) (D : String → Clock) (n : SrcNode) (is : List Value) :
    Prop where
  inputs : ∀ t i, is[t]? = some i → argNames n.inputs ≠ [] → i = together (W.X · t) (argNames n.inputs)
  defs : ∀ t, t < is.length → ∀ st ∈ n.defs, Holds val W D t st

/-- Without `#[universal_pre]`. -/
def refSem : Sem := fun W _ e t => ref W e t

theorem refList_mapM {W : World} {t : Int} : (es : List Src) →
    refList W es t = es.mapM (ref W · t)
  | [] => rfl
  | e :: es => by
    rw [refList, List.mapM_cons, refList_mapM es]

theorem uniList_mapM {W : World} {D : String → Clock} {t : Nat} : (es : List Src) →
    uniList W D es t = es.mapM (uni W D · t)
  | [] => rfl
  | e :: es => by
    rw [uniList, List.mapM_cons, uniList_mapM es]

theorem bind_map {α β : Type} {o : Option α} {k : α → β} :
    (do return k (← o)) = o.map k := by
  cases o <;> rfl

theorem refSem_usual : Usual refSem where
  rename h e hn t := ref_rename h.toCorr e hn t
  call W D f args b t := by
    simp only [refSem, ref]
    cases W.nodes f with
    | none => rfl
    | some m =>
      simp only [refList_mapM, bind_map]
      rw [if_neg (by omega)]
      rfl
  paren W D es b t := by
    simp only [refSem, ref, refList_mapM, bind_map]
  var W D x t hx := by
    simp only [refSem, ref]
    rw [if_pos hx, if_neg (by omega)]
    rfl

theorem uni_usual : Usual uni where
  rename h e hn t := uni_rename h e hn t
  call W D f args b t := by
    simp only [uni]
    cases W.nodes f with
    | none => rfl
    | some m =>
      simp only [uniList_mapM, bind_map]
  paren W D es b t := by
    simp only [uni, uniList_mapM, bind_map]
  var W D x t hx := by
    simp only [uni]
    rw [if_pos hx]

theorem solves_ref {W : World} {D : String → Clock} {n : SrcNode} {is : List Value} :
    Solves refSem W D n is ↔ SrcSolution W n is := by
  constructor <;> intro h <;> refine ⟨h.inputs, fun t ht st hst => ?_⟩ <;>
    have := h.defs t ht st hst <;> cases st <;> exact this

theorem solves_uni {W : World} {D : String → Clock} {n : SrcNode} {is : List Value} :
    Solves uni W D n is ↔ UniSolution W D n is := by
  constructor <;> intro h <;> refine ⟨h.inputs, fun t ht st hst => ?_⟩ <;>
    have := h.defs t ht st hst <;> cases st <;> exact this

theorem mapM_length {α β : Type} {k : α → Option β} : (es : List α) → ∀ {vs : List β},
    es.mapM k = some vs → vs.length = es.length
  | [], vs, h => by
    rw [List.mapM_nil] at h
    cases h
    rfl
  | e :: es, vs, h => by
    rw [List.mapM_cons] at h
    obtain ⟨v, -, h⟩ := some_bind.1 h
    obtain ⟨ws, h1, h⟩ := some_bind.1 h
    cases h
    rw [List.length_cons, List.length_cons, mapM_length es h1]

theorem mapM_zip {v : Src → Option Value} {k : String → Value} : (xs : List String) →
    (es : List Src) → es.length = xs.length →
    (es.mapM v = some (xs.map k) ↔ ∀ q ∈ xs.zip es, v q.2 = some (k q.1))
  | [], [], _ => by simp
  | [], _ :: _, h => by simp at h
  | _ :: _, [], h => by simp at h
  | x :: xs, e :: es, h => by
    have ih := mapM_zip (v := v) (k := k) xs es (by simpa using h)
    rw [List.zip_cons_cons, List.forall_mem_cons, ← ih, List.mapM_cons, List.map_cons]
    constructor
    · intro hs
      obtain ⟨v, h1, hs⟩ := some_bind.1 hs
      obtain ⟨vs, h2, hs⟩ := some_bind.1 hs
      cases hs
      exact ⟨h1, h2⟩
    · rintro ⟨h1, h2⟩
      rw [h1, h2]
      rfl

theorem mapM_vars {val : Sem} (hv : Usual val) {W : World} {D : String → Clock} {t : Nat}
    {xs : List String} (h : ∀ x ∈ xs, x ∈ W.locals) :
    (xs.map Src.var).mapM (val W D · t) = some (xs.map fun x => .leaf (W.X x t)) := by
  induction xs with
  | nil => rfl
  | cons x xs ih =>
    rw [List.map_cons, List.mapM_cons, ih fun y hy => h y (List.mem_cons_of_mem _ hy),
      hv.var _ _ _ _ (h x (by simp))]
    rfl

theorem mapM_congr {α β : Type} {k k' : α → Option β} {es : List α} (h : ∀ e ∈ es, k e = k' e) :
    es.mapM k = es.mapM k' := by
  induction es with
  | nil => rfl
  | cons e es ih =>
    rw [List.mapM_cons, List.mapM_cons, h e (by simp), ih fun x hx => h x (List.mem_cons_of_mem _ hx)]

/-! ## Left-hand sides -/

section
variable {X : String → Nillable Scalar}
mutual
theorem gets_leaves : (p : Target) → ∀ {v : Value}, Target.Gets X p v → ∀ x ∈ targets p,
    X x ∈ v.leaves
  | .var x, .leaf v, h, y, hy => by
    simp only [targets, List.mem_singleton] at hy
    subst hy
    rw [Target.Gets] at h
    simp [Tup.leaves, h]
  | .var x, .tup _ _, h, y, hy => by rw [Target.Gets] at h; exact h.elim
  | .tuple [] b, v, h, y, hy => by simp [targets, targetsList] at hy
  | .tuple [p] b, v, h, y, hy => by
    rw [targets, targetsList, targetsList, List.append_nil] at hy
    rw [Target.Gets] at h
    exact gets_leaves p h y hy
  | .tuple (p :: p' :: ps) b, .tup a l, h, y, hy => by
    rw [targets, targetsList, List.mem_append] at hy
    rw [Target.Gets] at h
    rw [Tup.leaves, List.mem_append]
    rcases hy with hy | hy
    · exact .inl (gets_leaves p h.1 y hy)
    · exact .inr (getList_leaves (p' :: ps) h.2 y hy)
  | .tuple (p :: p' :: ps) b, .leaf v, h, y, hy => by rw [Target.Gets] at h; exact h.elim
theorem getList_leaves : (ps : List Target) → ∀ {vs : List Value}, Target.GetList X ps vs →
    ∀ x ∈ targetsList ps, X x ∈ Tup.leavesList vs
  | [], vs, h, y, hy => by simp [targetsList] at hy
  | p :: ps, [], h, y, hy => by rw [Target.GetList] at h; exact h.elim; all_goals simp
  | p :: ps, v :: vs, h, y, hy => by
    rw [targetsList, List.mem_append] at hy
    rw [Target.GetList] at h
    rw [Tup.leavesList, List.mem_append]
    rcases hy with hy | hy
    · exact .inl (gets_leaves p h.1 y hy)
    · exact .inr (getList_leaves ps h.2 y hy)
end
end

/-! ## Calls -/

theorem mapM_range {args : Nat → Option Value} {as : List Value} : (k : Nat) → k ≤ as.length →
    (∀ u, u < k → args u = as[u]?) → (List.range k).mapM args = some (as.take k)
  | 0, _, _ => by simp
  | k + 1, hk, h => by
    rw [List.range_succ, List.mapM_append, mapM_range k (by omega) fun u hu => h u (by omega),
      List.mapM_cons, h k (by omega), List.take_add_one, List.getElem?_eq_getElem (by omega)]
    rfl

theorem mapM_range_get {args : Nat → Option Value} : (k : Nat) → ∀ {as : List Value},
    (List.range k).mapM args = some as → as.length = k ∧ ∀ u, u < k → args u = as[u]?
  | 0, as, h => by
    rw [List.range_zero, List.mapM_nil] at h
    cases h
    exact ⟨rfl, fun u hu => by omega⟩
  | k + 1, as, h => by
    rw [List.range_succ, List.mapM_append] at h
    obtain ⟨bs, h1, h⟩ := some_bind.1 h
    obtain ⟨cs, h2, h⟩ := some_bind.1 h
    cases h
    rw [List.mapM_cons] at h2
    obtain ⟨c, h2', h3⟩ := some_bind.1 h2
    cases h3
    obtain ⟨i1, i2⟩ := mapM_range_get k h1
    refine ⟨by simp [i1], fun u hu => ?_⟩
    rcases Nat.lt_succ_iff_lt_or_eq.1 hu with hu | rfl
    · rw [List.getElem?_append_left (by omega), i2 u hu]
    · rw [List.getElem?_append_right (by omega), h2', i1]
      simp

variable {val : Sem}

theorem solves_take {W : World} {D : String → Clock} {n : SrcNode} {is : List Value}
    (h : Solves val W D n is) (k : Nat) : Solves val W D n (is.take k) where
  inputs t i hi := h.inputs t i (by
    rw [List.getElem?_take] at hi
    split at hi
    · exact hi
    · cases hi)
  defs t ht := h.defs t (by rw [List.length_take] at ht; omega)

section
variable {A : Arith} {g : Globals} {N : String → Option Machine} {D : String → Clock} {f : SrcNode}
  {m : Machine}

/-- The runs of the machine are the solutions of the equations of the node. -/
def Runs (val : Sem) (A : Arith) (g : Globals) (N : String → Option Machine) (D : String → Clock)
    (f : SrcNode) (m : Machine) : Prop :=
  ∀ is os, m.run is = .ok os ↔ ∃ S,
    Solves val ⟨A, SrcNode.vars f, S, g, N⟩ D f (is.filter present) ∧ os = spread (flatShape (argNames f.outputs).length) is
      (srcOutputs S f (is.filter present).length)

theorem filter_present {is : List Value} (h : ∀ i ∈ is, present i = true) :
    is.filter present = is := List.filter_eq_self.2 h

theorem run_present (hm : Runs val A g N D f m) {S : String → Nat → Nillable Scalar} {is : List Value}
    (h : Solves val ⟨A, SrcNode.vars f, S, g, N⟩ D f is) (hp : ∀ i ∈ is, present i = true) :
    m.run is = .ok (srcOutputs S f is.length) := by
  refine (hm is _).2 ⟨S, by rwa [filter_present hp], ?_⟩
  rw [filter_present hp, spread_all _ _ hp (by simp [srcOutputs])]

/-- What a call answers, when its arguments are always present. -/
theorem callAt_solution (hm : Runs val A g N D f m) {S : String → Nat → Nillable Scalar} {as : List Value}
    (h : Solves val ⟨A, SrcNode.vars f, S, g, N⟩ D f as) (hp : ∀ i ∈ as, present i = true)
    {args : Nat → Option Value} {t : Nat} (ht : t < as.length) (ha : ∀ u, u ≤ t → args u = as[u]?) :
    callAt m args t = some (together (S · t) (argNames f.outputs)) := by
  unfold callAt
  rw [mapM_range (t + 1) (by omega) fun u hu => ha u (by omega)]
  have hr := run_present hm (solves_take h (t + 1)) fun i hi => hp i (List.mem_of_mem_take hi)
  simp only [Option.bind_eq_bind, Option.bind_some, hr]
  rw [List.length_take, Nat.min_eq_left (by omega)]
  simp [srcOutputs, Except.toOption, List.range_succ]

/-- A call whose answer is not nil has its arguments. -/
theorem callAt_present (hm : Runs val A g N D f m) {args : Nat → Option Value} {t : Nat} {v : Value}
    (h : callAt m args t = some v) (hv : ∃ l ∈ v.leaves, l ≠ .nil) :
    ∃ i, args t = some i ∧ present i = true := by
  unfold callAt at h
  obtain ⟨as, h1, h⟩ := some_bind.1 h
  obtain ⟨os, h2, h⟩ := some_bind.1 h
  obtain ⟨k1, k2⟩ := mapM_range_get _ h1
  have hr : m.run as = .ok os := by
    revert h2
    cases m.run as <;> simp [Except.toOption]
  obtain ⟨S, -, h3⟩ := (hm as os).1 hr
  obtain ⟨-, c1, c2⟩ := C09_spread_filter (flatShape (argNames f.outputs).length) as
    (srcOutputs S f (as.filter present).length) (by simp [srcOutputs])
  rw [← h3] at c1 c2
  have hi : as[t]? = some (as[t]'(by omega)) := List.getElem?_eq_getElem (by omega)
  refine ⟨_, (k2 t (by omega)).trans hi, ?_⟩
  by_contra hn
  rw [List.getLast?_eq_getElem?, c1, k1] at h
  have hz : (as[t]'(by omega), v) ∈ as.zip os := by
    refine List.mem_of_getElem? (i := t) ?_
    rw [List.getElem?_zip_eq_some]
    exact ⟨hi, h⟩
  have := c2 _ hz (by simpa using hn)
  subst this
  obtain ⟨l, hl, hne⟩ := hv
  exact hne (Pres.blank_allNil _ l hl)

/-- The streams of the node that is called. -/
theorem callAt_streams (hm : Runs val A g N D f m) {args : Nat → Option Value} {T : Nat}
    (h : ∀ t, t < T → ∃ v, callAt m args t = some v)
    (hp : ∀ t, t < T → ∃ i, args t = some i ∧ present i = true) :
    ∃ S as, as.length = T ∧ (∀ u, u < T → args u = as[u]?) ∧
      Solves val ⟨A, SrcNode.vars f, S, g, N⟩ D f as ∧
      ∀ t, t < T → callAt m args t = some (together (S · t) (argNames f.outputs)) := by
  cases T with
  | zero =>
    exact ⟨fun _ _ => .nil, [], rfl, fun u hu => by omega, ⟨fun t i hi => by simp at hi,
      fun t ht => by simp at ht⟩, fun t ht => by omega⟩
  | succ t =>
    obtain ⟨v, hv⟩ := h t (by omega)
    unfold callAt at hv
    obtain ⟨as, h1, hv⟩ := some_bind.1 hv
    obtain ⟨os, h2, -⟩ := some_bind.1 hv
    obtain ⟨k1, k2⟩ := mapM_range_get _ h1
    have hr : m.run as = .ok os := by
      revert h2
      cases m.run as <;> simp [Except.toOption]
    have ha : ∀ i ∈ as, present i = true := by
      intro i hi
      obtain ⟨u, hu, rfl⟩ := List.getElem_of_mem hi
      obtain ⟨j, j1, j2⟩ := hp u (by omega)
      rw [k2 u (by omega), List.getElem?_eq_getElem hu] at j1
      cases j1
      exact j2
    obtain ⟨S, hS, -⟩ := (hm as os).1 hr
    rw [filter_present ha] at hS
    exact ⟨S, as, k1, k2, hS, fun u hu => callAt_solution hm hS ha (by omega)
      fun w hw => k2 w (by omega)⟩

end

/-! ## Both nodes -/

section
variable {A : Arith} {g : Globals} {N : String → Option Machine} {f n n' : SrcNode}

theorem inlining_argNames (c : Inlining f n n') :
    argNames n'.locals = argNames n.locals ++ (SrcNode.vars f).map c.ρ := by
  have e : ∀ as : List ArgsTy, argNames as = (as.map fun a => (a.ids, a.clk)).flatMap (·.1) := by
    intro as
    simp [argNames, List.flatMap_map]
  rw [e, c.locals, ← e, argNames_append, argNames_rename, argNames_append, argNames_append]
  rfl

theorem inlining_vars (c : Inlining f n n') :
    SrcNode.vars n' = SrcNode.vars n ++ (SrcNode.vars f).map c.ρ := by
  rw [SrcNode.vars, inlining_argNames c, c.inputs, c.outputs]
  simp [SrcNode.vars]

/-- The node only defines its variables, and its clocks are variables. -/
structure Closed (f : SrcNode) : Prop where
  targets : ∀ st ∈ f.defs, ∀ x ∈ stmtTargets st, x ∈ SrcNode.vars f
  clocks : ∀ x b y, SrcNode.clocks f x = .explicit b y → y ∈ SrcNode.vars f

/-- The clock of a variable, from names and clocks. -/
def clocksIn (l : List (List String × Clock)) (x : String) : Clock :=
  match l.find? fun a => decide (x ∈ a.1) with
  | some a => a.2
  | none => .implicit

theorem clocks_pairs (n : SrcNode) (x : String) : SrcNode.clocks n x =
    clocksIn ((n.inputs ++ n.outputs ++ n.locals).map fun a => (a.ids, a.clk)) x := by
  unfold SrcNode.clocks clocksIn
  rw [List.find?_map]
  simp only [Function.comp_def]
  cases (n.inputs ++ n.outputs ++ n.locals).find? fun a => decide (x ∈ a.ids) <;> rfl

theorem clocksIn_left {l r : List (List String × Clock)} {x : String} (h : ∃ a ∈ l, x ∈ a.1) :
    clocksIn (l ++ r) x = clocksIn l x := by
  unfold clocksIn
  rw [List.find?_append]
  obtain ⟨a, ha, hx⟩ := h
  cases hf : l.find? fun a => decide (x ∈ a.1) with
  | none => exact absurd (List.find?_eq_none.1 hf a ha) (by simpa using hx)
  | some b => rfl

theorem clocksIn_right {l r : List (List String × Clock)} {x : String} (h : ∀ a ∈ l, x ∉ a.1) :
    clocksIn (l ++ r) x = clocksIn r x := by
  unfold clocksIn
  rw [List.find?_append, List.find?_eq_none.2 fun a ha => by simpa using h a ha]
  rfl

theorem inlining_clocks (c : Inlining f n n') (x : String) : SrcNode.clocks n' x =
    clocksIn ((n.inputs ++ n.outputs ++ n.locals).map (fun a => (a.ids, a.clk)) ++
      ((f.inputs ++ f.outputs ++ f.locals).map (renameArgs c.ρ)).map fun a => (a.ids, a.clk)) x := by
  rw [clocks_pairs, List.map_append, c.locals, c.inputs, c.outputs]
  simp only [List.map_append, List.append_assoc]

theorem inlining_clocks_outer (c : Inlining f n n') {x : String} (hx : x ∈ SrcNode.vars n) :
    SrcNode.clocks n' x = SrcNode.clocks n x := by
  rw [inlining_clocks c, clocksIn_left, clocks_pairs]
  rw [SrcNode.vars, ← argNames_append, ← argNames_append] at hx
  obtain ⟨a, ha, hx⟩ := List.mem_flatMap.1 hx
  exact ⟨_, List.mem_map_of_mem ha, hx⟩

theorem inlining_clocks_inner (c : Inlining f n n') {x : String} (hx : x ∈ SrcNode.vars f) :
    SrcNode.clocks n' (c.ρ x) = renameClock c.ρ (SrcNode.clocks f x) := by
  rw [inlining_clocks c, clocksIn_right, ← clocks_rename (ν := id) ⟨c.inj⟩ (vars_mentions hx),
    clocks_pairs]
  · simp only [renameNode, List.map_append]
  · intro a ha hm
    obtain ⟨b, hb, rfl⟩ := List.mem_map.1 ha
    exact c.fresh x hx (vars_mentions (ids_vars hb hm))

/-- Streams for both nodes. -/
structure InlineStreams (c : Inlining f n n') (S Sf S' : String → Nat → Nillable Scalar) : Prop where
  outer : ∀ x ∈ mentions n, S' x = S x
  inner : ∀ x ∈ SrcNode.vars f, S' (c.ρ x) = Sf x

variable {S Sf S' : String → Nat → Nillable Scalar}

theorem inline_outer {c : Inlining f n n'} (h : InlineStreams c S Sf S') :
    CorrOn id id (· ∈ mentions n) ⟨A, SrcNode.vars n, S, g, N⟩ ⟨A, SrcNode.vars n', S', g, N⟩
      (SrcNode.clocks n) (SrcNode.clocks n') where
  arith := rfl
  nodes _ := rfl
  locals x hx := by
    show x ∈ SrcNode.vars n' ↔ _
    rw [inlining_vars c, List.mem_append]
    refine or_iff_left ?_
    rw [List.mem_map]
    rintro ⟨y, hy, rfl⟩
    exact c.fresh y hy hx
  X x hx _ := h.outer x hx
  glob x _ _ := rfl
  due x hx hv t := by
    show uniDue S' (SrcNode.clocks n' x) t = uniDue S (SrcNode.clocks n x) t
    rw [inlining_clocks_outer c hv]
    cases hc : SrcNode.clocks n x with
    | explicit b y => simp only [uniDue, h.outer y (clocks_mentions hc)]
    | _ => rfl

theorem inline_inner {c : Inlining f n n'} (h : InlineStreams c S Sf S') (ht : Closed f) :
    CorrOn c.ρ id (· ∈ mentions f) ⟨A, SrcNode.vars f, Sf, g, N⟩ ⟨A, SrcNode.vars n', S', g, N⟩
      (SrcNode.clocks f) (SrcNode.clocks n') where
  arith := rfl
  nodes _ := rfl
  locals x hx := by
    show c.ρ x ∈ SrcNode.vars n' ↔ x ∈ SrcNode.vars f
    rw [inlining_vars c, List.mem_append, List.mem_map]
    constructor
    · rintro (hn | ⟨y, hy, he⟩)
      · by_contra hv
        rw [c.fix x hx hv] at hn
        exact c.visible x hx hv hn
      · rwa [← c.inj y (vars_mentions hy) x hx he]
    · exact fun hv => .inr ⟨x, hv, rfl⟩
  X x _ hv := h.inner x hv
  glob x hx hv := by
    show g (c.ρ x) = g x
    rw [c.fix x hx hv]
  due x hx hv t := by
    show uniDue S' (SrcNode.clocks n' (c.ρ x)) t = uniDue Sf (SrcNode.clocks f x) t
    rw [inlining_clocks_inner c hv]
    cases hc : SrcNode.clocks f x with
    | explicit b y => simp only [renameClock, uniDue, h.inner y (ht.clocks x b y hc)]
    | _ => rfl

variable {val : Sem}

theorem holds_corr (hv : Usual val) {ρ : String → String} {P : String → Prop} {W W' : World}
    {D D' : String → Clock} (h : CorrOn ρ id P W W' D D') {t : Nat} : (st : SrcStmt) →
    (∀ x ∈ stmtTargets st, W'.X (ρ x) = W.X x) → (∀ x ∈ names (SrcStmt.expr st), P x) →
    (Holds val W' D' t (renameStmt ρ id st) ↔ Holds val W D t st)
  | .def_ p e, hx, hn => by
    have h1 := hv.rename h e hn t
    have h2 : ∀ v, Target.Gets (W'.X · t) (renameTarget ρ p) v ↔ Target.Gets (W.X · t) p v := fun v =>
      gets_rename p fun x hp => by rw [hx x hp]
    simp only [renameStmt, Holds, h1, h2]
  | .assert e, hx, hn => by
    have h1 := hv.rename h e hn t
    simp only [renameStmt, Holds, h1]

theorem inline_outer_holds (hv : Usual val) {c : Inlining f n n'} (h : InlineStreams c S Sf S') {t : Nat} {st : SrcStmt}
    (hs : st ∈ n.defs) : Holds val ⟨A, SrcNode.vars n', S', g, N⟩ (SrcNode.clocks n') t st ↔
      Holds val ⟨A, SrcNode.vars n, S, g, N⟩ (SrcNode.clocks n) t st := by
  have := holds_corr hv (inline_outer (A := A) (g := g) (N := N) h) (t := t) st
    (fun x hx => h.outer x (target_mentions hs hx)) fun x hx => names_mentions hs hx
  rwa [renameStmt_id] at this

theorem inline_inner_holds (hv : Usual val) {c : Inlining f n n'} (h : InlineStreams c S Sf S')
    (ht : Closed f) {t : Nat} {st : SrcStmt}
    (hs : st ∈ f.defs) : Holds val ⟨A, SrcNode.vars n', S', g, N⟩ (SrcNode.clocks n') t (renameStmt c.ρ id st) ↔
      Holds val ⟨A, SrcNode.vars f, Sf, g, N⟩ (SrcNode.clocks f) t st :=
  holds_corr hv (inline_inner (A := A) (g := g) (N := N) h ht) (t := t) st
    (fun x hx => h.inner x (ht.targets st hs x hx)) fun _ hx => names_mentions hs hx

theorem call_mem (c : Inlining f n n') : SrcStmt.def_ c.result (.call f.name c.args c.comma) ∈ n.defs := by
  rw [c.call]
  simp

theorem before_mem (c : Inlining f n n') {st : SrcStmt} (h : st ∈ c.before ∨ st ∈ c.after) :
    st ∈ n.defs := by
  rw [c.call]
  rcases h with h | h <;> simp [h]

theorem mem_namesList {e : Src} : {es : List Src} → e ∈ es → ∀ x ∈ names e, x ∈ namesList es
  | e' :: es, h, x, hx => by
    rw [namesList, List.mem_append]
    rcases List.mem_cons.1 h with rfl | h
    · exact .inl hx
    · exact .inr (mem_namesList h x hx)

theorem inline_args (hv : Usual val) {c : Inlining f n n'} (h : InlineStreams c S Sf S')
    (t : Nat) :
    c.args.mapM (val ⟨A, SrcNode.vars n', S', g, N⟩ (SrcNode.clocks n') · t) =
      c.args.mapM (val ⟨A, SrcNode.vars n, S, g, N⟩ (SrcNode.clocks n) · t) := by
  refine mapM_congr fun e he => ?_
  have := hv.rename (inline_outer (A := A) (g := g) (N := N) h) e (fun x hx =>
    names_mentions (call_mem c) (by
      simp only [SrcStmt.expr, names]
      exact mem_namesList he x hx)) t
  rwa [renameSrc_id] at this

/-- The arguments of the call are the inputs of its node. -/
theorem inline_inputs (hv : Usual val) {c : Inlining f n n'} (h : InlineStreams c S Sf S') {t : Nat} :
    (∀ st ∈ ((argNames f.inputs).zip c.args).map (fun q => SrcStmt.def_ (.var (c.ρ q.1)) q.2),
      Holds val ⟨A, SrcNode.vars n', S', g, N⟩ (SrcNode.clocks n') t st) ↔
    c.args.mapM (val ⟨A, SrcNode.vars n, S, g, N⟩ (SrcNode.clocks n) · t) =
      some ((argNames f.inputs).map fun x => .leaf (Sf x t)) := by
  rw [← inline_args hv h, mapM_zip _ _ c.arity]
  simp only [List.mem_map, forall_exists_index, and_imp, forall_apply_eq_imp_iff₂]
  refine forall_congr' fun q => imp_congr_right fun hq => ?_
  have hv : q.1 ∈ SrcNode.vars f := inputs_vars (List.of_mem_zip hq).1
  simp only [Holds]
  constructor
  · rintro ⟨v, h1, h2⟩
    rw [h1]
    cases v with
    | leaf v =>
      rw [Target.Gets] at h2
      rw [← h.inner _ hv]
      exact congrArg _ (congrArg _ h2.symm)
    | tup a l =>
      rw [Target.Gets] at h2
      exact h2.elim
  · intro h1
    refine ⟨_, h1, ?_⟩
    rw [Target.Gets]
    exact congrFun (h.inner _ hv) t

/-- The results of the call are the outputs of its node. -/
theorem inline_results (hv : Usual val) {c : Inlining f n n'} (h : InlineStreams c S Sf S') {t : Nat} :
    Holds val ⟨A, SrcNode.vars n', S', g, N⟩ (SrcNode.clocks n') t
      (.def_ c.result (.paren ((argNames f.outputs).map fun o => .var (c.ρ o)) false)) ↔
    Target.Gets (S · t) c.result (together (Sf · t) (argNames f.outputs)) := by
  have h1 : ((argNames f.outputs).map fun o => Src.var (c.ρ o)).mapM
      (val ⟨A, SrcNode.vars n', S', g, N⟩ (SrcNode.clocks n') · t) =
      some ((argNames f.outputs).map fun x => .leaf (Sf x t)) := by
    have := mapM_vars hv (W := ⟨A, SrcNode.vars n', S', g, N⟩) (D := SrcNode.clocks n') (t := t)
      (xs := (argNames f.outputs).map c.ρ) (by
        intro x hx
        obtain ⟨y, hy, rfl⟩ := List.mem_map.1 hx
        show c.ρ y ∈ SrcNode.vars n'
        rw [inlining_vars c]
        exact List.mem_append_right _ (List.mem_map_of_mem (outputs_vars hy)))
    rw [List.map_map, List.map_map] at this
    refine this.trans (congrArg _ (List.map_congr_left fun x hx => ?_))
    show Tup.leaf (S' (c.ρ x) t) = _
    rw [h.inner x (outputs_vars hx)]
  have h2 : ∀ v, Target.Gets (S' · t) c.result v ↔ Target.Gets (S · t) c.result v := fun v => by
    have := gets_rename (ρ := id) (X := (S · t)) (X' := (S' · t)) c.result (v := v) fun x hx => by
      show S' x t = S x t
      rw [h.outer x (target_mentions (call_mem c) hx)]
    rwa [renameTarget_id] at this
  simp only [Holds, hv.paren, h1, h2]
  constructor
  · rintro ⟨v, e, hg⟩
    cases e
    exact hg
  · exact fun hg => ⟨_, rfl, hg⟩

theorem inline_outputs {c : Inlining f n n'} (h : InlineStreams c S Sf S') (k : Nat) :
    srcOutputs S' n' k = srcOutputs S n k := by
  unfold srcOutputs
  rw [c.outputs]
  refine List.map_congr_left fun t _ => ?_
  unfold together
  congr 1
  refine List.map_congr_left fun x hx => ?_
  show Tup.leaf (S' x t) = Tup.leaf (S x t)
  rw [h.outer x (vars_mentions (outputs_vars hx))]

theorem inline_given {c : Inlining f n n'} (h : InlineStreams c S Sf S') {is : List Value} :
    (∀ t i, is[t]? = some i → argNames n'.inputs ≠ [] → i = together (S' · t) (argNames n'.inputs)) ↔
    ∀ t i, is[t]? = some i → argNames n.inputs ≠ [] → i = together (S · t) (argNames n.inputs) := by
  rw [c.inputs]
  refine forall_congr' fun t => forall_congr' fun i => imp_congr_right fun _ => imp_congr_right fun _ => ?_
  have : together (S' · t) (argNames n.inputs) = together (S · t) (argNames n.inputs) := by
    unfold together
    congr 1
    refine List.map_congr_left fun x hx => ?_
    show Tup.leaf (S' x t) = Tup.leaf (S x t)
    rw [h.outer x (vars_mentions (inputs_vars hx))]
  rw [this]

/-- What is known of a solution when the call is replaced. -/
theorem inline_solution (hv : Usual val) {c : Inlining f n n'} (h : InlineStreams c S Sf S')
    (ht : Closed f) {is : List Value} :
    Solves val ⟨A, SrcNode.vars n', S', g, N⟩ (SrcNode.clocks n') n' is ↔
      (∀ t i, is[t]? = some i → argNames n.inputs ≠ [] → i = together (S · t) (argNames n.inputs)) ∧
      ∀ t, t < is.length →
        (∀ st, st ∈ c.before ∨ st ∈ c.after → Holds val ⟨A, SrcNode.vars n, S, g, N⟩ (SrcNode.clocks n) t st) ∧
        c.args.mapM (val ⟨A, SrcNode.vars n, S, g, N⟩ (SrcNode.clocks n) · t) =
          some ((argNames f.inputs).map fun x => .leaf (Sf x t)) ∧
        (∀ st ∈ f.defs, Holds val ⟨A, SrcNode.vars f, Sf, g, N⟩ (SrcNode.clocks f) t st) ∧
        Target.Gets (S · t) c.result (together (Sf · t) (argNames f.outputs)) := by
  have key : ∀ t : Nat, (∀ st ∈ n'.defs, Holds val ⟨A, SrcNode.vars n', S', g, N⟩ (SrcNode.clocks n') t st) ↔
      (∀ st, st ∈ c.before ∨ st ∈ c.after → Holds val ⟨A, SrcNode.vars n, S, g, N⟩ (SrcNode.clocks n) t st) ∧
        c.args.mapM (val ⟨A, SrcNode.vars n, S, g, N⟩ (SrcNode.clocks n) · t) =
          some ((argNames f.inputs).map fun x => .leaf (Sf x t)) ∧
        (∀ st ∈ f.defs, Holds val ⟨A, SrcNode.vars f, Sf, g, N⟩ (SrcNode.clocks f) t st) ∧
        Target.Gets (S · t) c.result (together (Sf · t) (argNames f.outputs)) := by
    intro t
    rw [← inline_inputs hv h, ← inline_results hv (A := A) (g := g) (N := N) h, c.body]
    simp only [List.mem_append, or_imp, forall_and, List.mem_singleton, forall_eq]
    have e1 : ∀ l : List SrcStmt, (∀ st ∈ l, st ∈ n.defs) →
        ((∀ st ∈ l, Holds val ⟨A, SrcNode.vars n', S', g, N⟩ (SrcNode.clocks n') t st) ↔
          ∀ st ∈ l, Holds val ⟨A, SrcNode.vars n, S, g, N⟩ (SrcNode.clocks n) t st) := fun l hl =>
      forall_congr' fun st => imp_congr_right fun hs => inline_outer_holds hv h (hl st hs)
    have e2 : (∀ st ∈ f.defs.map (renameStmt c.ρ id), Holds val ⟨A, SrcNode.vars n', S', g, N⟩ (SrcNode.clocks n') t st) ↔
        ∀ st ∈ f.defs, Holds val ⟨A, SrcNode.vars f, Sf, g, N⟩ (SrcNode.clocks f) t st := by
      rw [List.forall_mem_map]
      exact forall_congr' fun st => imp_congr_right fun hs => inline_inner_holds hv h ht hs
    rw [e1 _ fun st hs => before_mem c (.inl hs), e1 _ fun st hs => before_mem c (.inr hs), e2]
    tauto
  constructor
  · exact fun hs => ⟨(inline_given h).1 hs.inputs, fun t hl => (key t).1 (hs.defs t hl)⟩
  · exact fun hs => ⟨(inline_given h).2 hs.1, fun t hl => (key t).2 (hs.2 t hl)⟩

/-- From a node with a call to the node where it is replaced. -/
theorem inline_to (hv : Usual val) (c : Inlining f n n') {m : Machine} (hN : N f.name = some m) (hm : Runs val A g N (SrcNode.clocks f) f m)
    (ht : Closed f) {is : List Value}
    (hs : Solves val ⟨A, SrcNode.vars n, S, g, N⟩ (SrcNode.clocks n) n is)
    (hp : ∀ t, t < is.length → ∃ y ∈ targets c.result, S y t ≠ .nil) :
    ∃ S', Solves val ⟨A, SrcNode.vars n', S', g, N⟩ (SrcNode.clocks n') n' is ∧
      srcOutputs S' n' is.length = srcOutputs S n is.length := by
  classical
  let args : Nat → Option Value := fun u =>
    (c.args.mapM (val ⟨A, SrcNode.vars n, S, g, N⟩ (SrcNode.clocks n) · u)).map tupleValue
  have hcall : ∀ t, t < is.length → ∃ v, callAt m args t = some v ∧ Target.Gets (S · t) c.result v := by
    intro t hl
    obtain ⟨v, h1, h2⟩ := hs.defs t hl _ (call_mem c)
    simp only [hv.call, hN] at h1
    exact ⟨v, h1, h2⟩
  obtain ⟨Sf, as, k1, k2, k3, k4⟩ := callAt_streams hm (fun t hl => (hcall t hl).imp fun v h => h.1)
    fun t hl => by
      obtain ⟨v, h1, h2⟩ := hcall t hl
      obtain ⟨y, hy, hn⟩ := hp t hl
      exact callAt_present hm h1 ⟨_, gets_leaves _ h2 y hy, hn⟩
  let S' : String → Nat → Nillable Scalar := fun z =>
    if h : ∃ y ∈ SrcNode.vars f, c.ρ y = z then Sf h.choose else S z
  have hS : InlineStreams c S Sf S' := by
    constructor
    · intro x hx
      refine dif_neg ?_
      rintro ⟨y, hy, rfl⟩
      exact c.fresh y hy hx
    · intro x hx
      have he : ∃ y ∈ SrcNode.vars f, c.ρ y = c.ρ x := ⟨x, hx, rfl⟩
      show (if h : ∃ y ∈ SrcNode.vars f, c.ρ y = c.ρ x then Sf h.choose else S (c.ρ x)) = Sf x
      rw [dif_pos he, c.inj _ (vars_mentions he.choose_spec.1) x (vars_mentions hx) he.choose_spec.2]
  refine ⟨S', (inline_solution hv hS ht).2 ⟨hs.inputs, fun t hl => ⟨?_, ?_, ?_, ?_⟩⟩,
    inline_outputs hS _⟩
  · exact fun st h => hs.defs t hl st (before_mem c h)
  · have ha := k2 t hl
    rw [List.getElem?_eq_getElem (by omega)] at ha
    obtain ⟨vs, h1, h2⟩ := Option.map_eq_some_iff.1 ha
    rw [h1]
    by_cases he : argNames f.inputs = []
    · have := mapM_length _ h1
      rw [c.arity, he] at this
      rw [he, List.length_eq_zero_iff.1 this]
      rfl
    · have := k3.inputs t _ (List.getElem?_eq_getElem (by omega)) he
      rw [← h2] at this
      rw [tupleValue_inj (by rw [mapM_length _ h1, c.arity]; simp) this]
  · exact k3.defs t (by omega)
  · obtain ⟨v, h1, h2⟩ := hcall t hl
    rw [k4 t hl] at h1
    cases h1
    exact h2

theorem present_tuple {vs : List (Nillable Scalar)} (h : ∀ v, vs.head? = some v → v ≠ .nil) :
    present (tupleValue (vs.map .leaf)) = true := by
  match vs with
  | [] => rfl
  | [v] =>
    have := h v rfl
    cases v <;> simp_all [tupleValue, present, Tup.firstIsNil, Tup.first, Nillable.firstIsNil]
  | v :: v' :: vs =>
    have := h v rfl
    cases v <;> simp_all [tupleValue, present, Tup.firstIsNil, Tup.first, Nillable.firstIsNil]

/-- And back. -/
theorem inline_from (hv : Usual val) (c : Inlining f n n') {m : Machine} (hN : N f.name = some m) (hm : Runs val A g N (SrcNode.clocks f) f m)
    (ht : Closed f) {is : List Value}
    (hs : Solves val ⟨A, SrcNode.vars n', S', g, N⟩ (SrcNode.clocks n') n' is)
    (hp : ∀ t, t < is.length → ∀ x ∈ argNames f.inputs, S' (c.ρ x) t ≠ .nil) :
    Solves val ⟨A, SrcNode.vars n, S', g, N⟩ (SrcNode.clocks n) n is ∧
      srcOutputs S' n is.length = srcOutputs S' n' is.length := by
  have hS : InlineStreams c S' (fun x => S' (c.ρ x)) S' := ⟨fun _ _ => rfl, fun _ _ => rfl⟩
  obtain ⟨h1, h2⟩ := (inline_solution hv hS ht).1 hs
  refine ⟨⟨h1, fun t hl st hst => ?_⟩, (inline_outputs hS _).symm⟩
  rw [c.call, List.mem_append, List.mem_append, List.mem_singleton] at hst
  rcases hst with (hst | rfl) | hst
  · exact (h2 t hl).1 st (.inl hst)
  · let as : List Value := (List.range is.length).map fun u =>
      together (fun x => S' (c.ρ x) u) (argNames f.inputs)
    have ha : ∀ u, u < is.length → as[u]? = some (together (fun x => S' (c.ρ x) u) (argNames f.inputs)) := by
      intro u hu
      simp [as, hu]
    have hl' : as.length = is.length := by simp [as]
    have hsol : Solves val ⟨A, SrcNode.vars f, fun x => S' (c.ρ x), g, N⟩ (SrcNode.clocks f) f as := by
      refine ⟨fun u i hi _ => ?_, fun u hu => (h2 u (by omega)).2.2.1⟩
      have hu : u < is.length := by
        rw [← hl']
        exact (List.getElem?_eq_some_iff.1 hi).1
      rw [ha u hu] at hi
      cases hi
      rfl
    have hpr : ∀ i ∈ as, present i = true := by
      intro i hi
      obtain ⟨u, hu, rfl⟩ := List.mem_map.1 hi
      have := present_tuple (vs := (argNames f.inputs).map fun x => S' (c.ρ x) u) (by
        intro v hv
        rw [List.head?_map, Option.map_eq_some_iff] at hv
        obtain ⟨x, hx, rfl⟩ := hv
        exact hp u (List.mem_range.1 hu) x (List.mem_of_head? hx))
      rw [List.map_map] at this
      exact this
    refine ⟨_, ?_, (h2 t hl).2.2.2⟩
    simp only [hv.call, hN]
    refine callAt_solution hm hsol hpr (by simpa [hl'] using hl) fun u hu => ?_
    have hu' : u < is.length := by
      have : u ≤ t := by simpa using hu
      omega
    rw [ha u hu', (h2 u hu').2.1]
    rfl
  · exact (h2 t hl).1 st (.inr hst)

end
end Chandeliers.Rep
