import Verif.Lemmas.ClockedPasses
import Verif.Lemmas.StreamCongr

/-!
# The clocked reference determines the streams of a node
-/

set_option autoImplicit false

namespace Chandeliers.Uni
open San Syn Spec Den Clk Pres

mutual
theorem assigns_same {Y Y' : String → Nillable Scalar} : {p : VarTuple} → {v : Value} →
    Assigns Y p v → Assigns Y' p v → ∀ x ∈ p.vars, Y x = Y' x
  | .single y, .leaf a, h, h', x, hx => by
    simp only [VarTuple.vars, List.mem_singleton] at hx
    subst hx
    simp only [Assigns] at h h'
    rw [h, h']
  | .single y, .tup _ _, h, _, x, hx => h.elim
  | .multiple [], v, h, _, x, hx => by simp [VarTuple.vars, VarTuple.varsList] at hx
  | .multiple [p], v, h, h', x, hx => by
    simp only [Assigns] at h h'
    exact assigns_same h h' x (by simpa [VarTuple.vars, VarTuple.varsList] using hx)
  | .multiple (p :: p' :: ps), .leaf v, h, _, x, hx => h.elim
  | .multiple (p :: p' :: ps), .tup w ws, h, h', x, hx => by
    simp only [Assigns] at h h'
    simp only [VarTuple.vars] at hx
    rw [VarTuple.varsList, List.mem_append] at hx
    rcases hx with hx | hx
    · exact assigns_same h.1 h'.1 x hx
    · exact assignsList_same h.2 h'.2 x hx
theorem assignsList_same {Y Y' : String → Nillable Scalar} : {ps : List VarTuple} →
    {vs : List Value} → AssignsList Y ps vs → AssignsList Y' ps vs →
    ∀ x ∈ VarTuple.varsList ps, Y x = Y' x
  | [], vs, h, _, x, hx => by simp [VarTuple.varsList] at hx
  | _ :: _, [], h, _, x, hx => by simp [AssignsList] at h
  | p :: ps, v :: vs, h, h', x, hx => by
    simp only [AssignsList] at h h'
    rw [VarTuple.varsList, List.mem_append] at hx
    rcases hx with hx | hx
    · exact assigns_same h.1 h'.1 x hx
    · exact assignsList_same h.2 h'.2 x hx
end

mutual
/-- The variables of an expression with a clock are declared. -/
theorem hasClock_vars {strict : Bool} {K : String → Option Clk} : (e : Expr) → ∀ {k : Clk},
    HasClock strict K e k → VarsIn (fun x => K x ≠ none) e
  | .lit _, _, _ => trivial
  | .global _, _, _ => trivial
  | .var x d, k, h => by
    cases h with
    | var h => simp only [VarsIn]; rw [h]; simp
  | .tuple [], _, _ => trivial
  | .tuple (e :: es), k, h => by
    cases h with
    | tuple h h' => exact ⟨hasClock_vars e h, haveClock_vars es h'⟩
  | .dummyPre e, k, h => by
    cases h with
    | dummyPre h _ => have := hasClock_vars e h; simpa [VarsIn] using this
  | .dummyParen e, k, h => by
    cases h with
    | dummyParen h => have := hasClock_vars e h; simpa [VarsIn] using this
  | .bin _ l r, k, h => by
    cases h with
    | bin h h' _ => exact ⟨hasClock_vars l h, hasClock_vars r h'⟩
  | .un _ e, k, h => by
    cases h with
    | un h => have := hasClock_vars e h; simpa [VarsIn] using this
  | .cmp _ l r, k, h => by
    cases h with
    | cmp h h' _ => exact ⟨hasClock_vars l h, hasClock_vars r h'⟩
  | .clock _ e b, k, h => by
    cases h with
    | clock h h' _ => exact ⟨hasClock_vars e h, by simp only [VarsIn]; rw [h']; simp⟩
  | .later _ b a, k, h => by
    cases h with
    | later h h' _ => exact ⟨hasClock_vars b h, hasClock_vars a h'⟩
  | .fetchPre _ f, k, h => by
    cases h with
    | fetchPre h => have := hasClock_vars f h; simpa [VarsIn] using this
  | .fetchFby _ i f, k, h => by
    cases h with
    | fetchFby h h' _ => exact ⟨hasClock_vars i h', hasClock_vars f h⟩
  | .flip _ i c, k, h => by
    cases h with
    | flip h h' _ => exact ⟨hasClock_vars i h, hasClock_vars c h'⟩
  | .ifx b y n, k, h => by
    cases h with
    | ifx h h' h'' _ _ => exact ⟨hasClock_vars b h, hasClock_vars y h', hasClock_vars n h''⟩
  | .merge b y n, k, h => by
    cases h with
    | merge h h' h'' _ _ =>
      exact ⟨by simp only [VarsIn]; rw [h]; simp, hasClock_vars y h', hasClock_vars n h''⟩
  | .substep _ _ a, k, h => by
    cases h with
    | substep h => have := hasClock_vars a h; simpa [VarsIn] using this
theorem haveClock_vars {strict : Bool} {K : String → Option Clk} : (es : List Expr) → ∀ {k : Clk},
    HaveClock strict K es k → VarsInList (fun x => K x ≠ none) es
  | [], _, _ => trivial
  | e :: es, k, h => by
    cases h with
    | cons h _ h' => exact ⟨hasClock_vars e h, haveClock_vars es h'⟩
end

section
variable {A : Arith} {glob : Globals} {ms : List Machine} {F : Flow} {D : String → Clock} {n : Node}
  {K : String → Option Clk} {Y : String → Nat → Nillable Scalar}

theorem active_congr {X Y : String → Nat → Nillable Scalar} {k : Clk} {t : Nat}
    (h : ∀ x, Part (.var x 0) (clockExpr k) → X x t = Y x t) : Active X k t ↔ Active Y k t := by
  cases k with
  | implicit => rfl
  | adaptative => rfl
  | on x => simp only [Active]; rw [h x .refl]
  | off x => simp only [Active]; rw [h x (Relation.ReflTransGen.refl.tail .un)]

open Classical in
/-- The streams of the reference, as those of the node. -/
noncomputable def flowOf (n : Node) (D : String → Clock) (F : Flow)
    (Y : String → Nat → Nillable Scalar) : Flow where
  X := Y
  C := fun id u =>
    if h : ∃ f, .updateRegister id f ∈ n.stmts then onX Y D h.choose u else F.C id u
  shape := F.shape

theorem flowOf_clock (hs : Surround ms n K D) {id : Nat} {f : Expr}
    (hf : .updateRegister id f ∈ n.stmts) (u : Nat) : (flowOf n D F Y).C id u = onX Y D f u := by
  have h : ∃ f, .updateRegister id f ∈ n.stmts := ⟨f, hf⟩
  simp only [flowOf]
  rw [dif_pos h, update_unique hs.wired.updates h.choose_spec hf]

theorem flowOf_other {id : Nat} (hf : ¬∃ f, .updateRegister id f ∈ n.stmts) (u : Nat) :
    (flowOf n D F Y).C id u = F.C id u := by
  simp only [flowOf]
  rw [dif_neg hf]

/-- The reference over the statements of a node. -/
structure Reference (A : Arith) (glob : Globals) (ms : List Machine) (n : Node) (D : String → Clock)
    (Y : String → Nat → Nillable Scalar) (T : Nat) : Prop where
  absent : ∀ t, t < T → ∀ x, Absent Y D x t
  defs : ∀ t, t < T → ∀ p e, .let_ p e ∈ n.stmts → onX Y D e t = true →
    ∃ w, valX A glob ms Y D e t = some w ∧ Assigns (Y · t) p w
  proper : ∀ t, t < T → ∀ st ∈ n.stmts, ∀ e ∈ Stmt.source st, ProperX A glob ms Y D t e

theorem reference_stmts (hs : Surround ms n K D) {T t : Nat} (hY : Reference A glob ms n D Y T)
    (ht : t < T) (hh : ∀ st ∈ n.stmts, Holds A glob ms F t st)
    (hpast : ∀ u, u < t → SameAt (fun x => K x ≠ none) F (flowOf n D F Y) u) : ∀ {sts : List Stmt} {vars : List String}
    {regs : List Nat}, Sorted vars regs sts → (∀ st ∈ sts, st ∈ n.stmts) →
    (∀ x ∈ vars, F.X x t = Y x t) →
    (∀ id ∈ regs, F.C id t = (flowOf n D F Y).C id t ∧
      ∀ i c, .initRegister id (some i) c ∈ n.stmts → SameNow F (flowOf n D F Y) t i) →
    (∀ x ∈ sts.flatMap binds, F.X x t = Y x t) ∧
      ∀ id ∈ initialised sts, F.C id t = (flowOf n D F Y).C id t
  | [], vars, regs, ho, hn, hv, hr => by simp [initialised]
  | st :: sts, vars, regs, ho, hn, hv, hr => by
    simp only [Sorted] at ho
    have hst := hn st (List.mem_cons_self ..)
    have hnow : ∀ e ∈ evaluated st, SameNow F (flowOf n D F Y) t e := by
      intro e he
      refine sameNow_of_parts e (fun x hx => hv x ((ho.1 e he).1 x hx))
        (fun id f hx => (hr id ((ho.1 e he).2.1 id f hx)).1) fun id i f hx => ?_
      obtain ⟨-, c, hc⟩ := hs.wired.fetchFby st hst e he id i f hx
      have := hr id ((ho.1 e he).2.2 id i f hx)
      exact ⟨this.1, this.2 i c hc⟩
    have hnew : ∀ x ∈ binds st, F.X x t = Y x t := by
      cases st with
      | let_ p e =>
        obtain ⟨v, hd, ha⟩ := hh _ hst
        have hfit : Fit A glob ms (flowOf n D F Y) D t (nowVars e) (Spec.fetches e) :=
          ⟨fun p hp u _ => flowOf_clock hs (hs.fetched _ hst p hp) u,
            fun u hu => hY.absent u (by omega), fun x _ => hY.absent t ht x⟩
        have hc := hs.clocked.stmts _ hst
        cases hc with
        | @let_ _ _ k k' h h' hk =>
        rw [den_same (F := F) (F' := flowOf n D F Y) rfl e (hasClock_vars e h') hpast
          (hnow e (by simp [evaluated]))] at hd
        have hagree := den_clocked hs.idle e
          (tidy_of_clock hs.known hs.written e h' (hY.proper t ht _ hst e (by simp [Stmt.source]))
            hfit) hd
        intro x hx
        cases hon : onX Y D e t with
        | true =>
          obtain ⟨w, hw, haw⟩ := hY.defs t ht p e hst hon
          have := hagree.2 hon w hw
          subst this
          exact assigns_same ha haw x hx
        | false =>
          have h1 : F.X x t = .nil := target_blank ha (hagree.1 hon) x hx
          obtain ⟨l, hl, hl'⟩ := target_clk h x hx
          have h2 : due Y (D x) t = false := by
            rw [← Bool.not_eq_true, due_active, hs.known x l hl, ← active_same hl',
              active_same (hk (by rintro rfl; simp [binds, VarTuple.vars, VarTuple.varsList] at hx)),
              ← on_active hs.known e h', hon]
            simp
          rw [h1, hY.absent t ht x h2]
      | _ => simp [binds]
    have hreg : ∀ id ∈ initialised [st], F.C id t = (flowOf n D F Y).C id t ∧
        ∀ i c, .initRegister id (some i) c ∈ n.stmts → SameNow F (flowOf n D F Y) t i := by
      intro id hid
      obtain ⟨i', c', h1⟩ := mem_initialised'.1 hid
      rw [List.mem_singleton] at h1
      refine ⟨?_, fun i c hi => ?_⟩
      · obtain ⟨f, hf⟩ := mem_updated.1 ((hs.wired.paired id).1
          (mem_initialised'.2 ⟨_, _, h1 ▸ hst⟩))
        obtain ⟨k, hk, rfl⟩ := hs.regs id f hf i' c' (h1 ▸ hst)
        obtain ⟨⟨e, v, he, hv', hc⟩, -⟩ := hh _ (h1 ▸ hst)
        cases he
        rw [flowOf_clock hs hf, Bool.eq_iff_iff, isClock_active hv' hc, on_active hs.known f hk]
        exact active_congr fun x hx => hv x ((ho.1 (clockExpr k) (by
          rw [← h1]; simp [evaluated])).1 x hx)
      · obtain ⟨rfl, rfl⟩ := init_unique hs.wired.inits hi (h1 ▸ hst)
        exact hnow i (by rw [← h1]; simp [evaluated])
    have := reference_stmts hs hY ht hh hpast ho.2 (fun s h => hn s (List.mem_cons_of_mem _ h))
      (fun x hx => by
        rcases List.mem_append.1 hx with hx | hx
        · exact hv x hx
        · exact hnew x hx)
      (fun id hid => by
        rcases List.mem_append.1 hid with hid | hid
        · exact hr id hid
        · exact hreg id hid)
    refine ⟨fun x hx => ?_, fun id hid => ?_⟩
    · rw [List.flatMap_cons, List.mem_append] at hx
      rcases hx with hx | hx
      · exact hnew x hx
      · exact this.1 x hx
    · rw [initialised_cons, List.mem_append] at hid
      rcases hid with hid | hid
      · exact (hreg id hid).1
      · exact this.2 id hid

/-- The streams of a node are those of the reference. -/
theorem reference_unique (hs : Surround ms n K D) {T : Nat} (hY : Reference A glob ms n D Y T)
    (hh : ∀ t, t < T → ∀ st ∈ n.stmts, Holds A glob ms F t st)
    (hin : ∀ t, t < T → ∀ x ∈ n.inputs.map (·.name), F.X x t = Y x t) :
    ∀ t, t < T → SameAt (fun x => K x ≠ none) F (flowOf n D F Y) t := by
  intro t
  induction t using Nat.strongRecOn with
  | ind t ih =>
    intro ht
    have := reference_stmts hs hY ht (hh t ht) (fun u hu => ih u hu (by omega)) hs.wired.sorted
      (fun _ h => h) (hin t ht) (by simp)
    refine ⟨fun x hx => ?_, fun id => ?_⟩
    · show F.X x t = Y x t
      obtain ⟨k, hk⟩ := Option.ne_none_iff_exists'.1 hx
      obtain ⟨v, hv, rfl, -⟩ := (hs.clocked.declared _ _).1 hk
      rw [List.append_assoc, List.mem_append] at hv
      rcases hv with hv | hv
      · exact hin t ht _ (List.mem_map.2 ⟨v, hv, rfl⟩)
      · obtain ⟨st, h1, h2⟩ := hs.wired.defined v hv
        exact this.1 _ (List.mem_flatMap.2 ⟨st, h1, h2⟩)
    · by_cases hid : ∃ f, .updateRegister id f ∈ n.stmts
      · exact this.2 id ((hs.wired.paired id).2 (mem_updated.2 hid))
      · rw [flowOf_other hid]

end

theorem together_same {X Y : String → Nillable Scalar} {xs : List String}
    (h : together X xs = together Y xs) : ∀ x ∈ xs, X x = Y x := by
  have hp : ∀ Z : String → Nillable Scalar, Assigns Z (.multiple (xs.map .single)) (together Z xs) := by
    intro Z
    match xs with
    | [] => simp [Assigns]
    | [x] => simp [Assigns, together, tupleValue]
    | x :: y :: xs =>
      have hl : ∀ ys : List String, AssignsList Z (ys.map .single) (ys.map fun x => .leaf (Z x)) := by
        intro ys
        induction ys with
        | nil => simp [AssignsList]
        | cons y ys ih => simp [AssignsList, Assigns, ih]
      have := hl (y :: xs)
      simp only [List.map_cons] at this
      simp [Assigns, together, tupleValue, this]
  have h2 := hp Y
  rw [← h] at h2
  intro x hx
  refine assigns_same (hp X) h2 x ?_
  have : ∀ ys : List String, VarTuple.varsList (ys.map .single) = ys := by
    intro ys
    induction ys with
    | nil => rfl
    | cons y ys ih => simp [VarTuple.varsList, VarTuple.vars, ih]
  simp [VarTuple.vars, this, hx]

section
variable {o : TyOpts} {sigs : String → Option Sig} {consts : String → Option TyBase} {src : SrcNode}
  {n : Node} {A : Arith} {glob : Globals} {ms : List Machine} {F : Flow}
  {nodes : String → Option Machine} {Y : String → Nat → Nillable Scalar}

/-- The streams of an accepted node with registers are those of the clocked reference. -/
theorem solution_unique_clocked (h : Passes true o sigs consts src n) (hi : BoundBeforeUse n)
    (hidle : ∀ m ∈ ms, Idle m)
    (hw : ∀ a ∈ src.inputs ++ src.outputs ++ src.locals, a.clk ≠ .adaptative)
    (hL : Linked ms nodes n.blocks) {is : List Value} (hs : Solution A glob ms F n is)
    (hY : ClockedSolution ⟨A, SrcNode.vars src, Y, glob, nodes⟩ src is)
    (hp : ∀ t, t < is.length → ∀ st ∈ src.defs,
      ProperStmt ⟨A, SrcNode.vars src, Y, glob, nodes⟩ (SrcNode.clocks src) t st) :
    ∀ t, t < is.length → ∀ x ∈ SrcNode.vars src, F.X x t = Y x t := by
  obtain ⟨n₁, n₂, c, ctx, clk, m, K, hf⟩ := passes_final h
  have hsur := surround_of_final hf hi hidle hw
  have hLc := final_linked hf hL
  have hW : (⟨A, SrcNode.vars src, Y, glob, nodes⟩ : World) =
      worldX A glob nodes Y (src.view true) := by
    simp only [worldX, SrcNode.view, SrcNode.vars, List.map_append, args_names]
  obtain ⟨new, e1, e2, e3⟩ := stmts_come hf.stmts
  simp only [List.nil_append] at e1
  subst e1
  have hvars : (declared n).map (·.name) = SrcNode.vars src := by
    rw [declared, hf.final, hf.same, hf.start]
    simp [Node.withDepths, Node.withClocks, Node.fill, setDepths, SrcNode.vars, ← args_names,
      Function.comp_def]
  have e5 : n.inputs.map (·.name) = argNames src.inputs := by
    rw [hf.final, hf.same, hf.start, ← args_names]
    simp [Node.withDepths, setDepths, Node.withClocks, Node.fill, Function.comp_def]
  have hcome : ∀ st ∈ n.stmts, Stmt.source st ≠ [] → ∃ s ∈ src.defs, ∃ st', st = Stmt.withClocks clk st' ∧
      Stmt.source st' ≠ [] ∧ Comes (src.view true) c.blocks s st' := by
    intro st hst he
    rw [hf.final_stmts] at hst
    obtain ⟨st', h1, rfl⟩ := List.mem_map.1 hst
    rw [source_withClocks] at he
    obtain ⟨s, h2, h3⟩ := e3 st' (hf.perm.mem_iff.1 h1) he
    exact ⟨s, h2, st', rfl, he, h3⟩
  have hR : Reference A glob ms n (SrcNode.clocks src) Y is.length := by
    refine ⟨hY.absent, fun t ht p e hst hon => ?_, fun t ht st hst e he => ?_⟩
    · obtain ⟨s, h2, st', h4, -, h3⟩ := hcome _ hst (by simp [Stmt.source])
      cases s with
      | def_ p' e' =>
        obtain ⟨c₀, c₁, x, g1, g2, rfl⟩ := h3
        simp only [Stmt.withClocks, Stmt.let_.injEq] at h4
        obtain ⟨rfl, rfl⟩ := h4
        have := hY.defs t ht _ h2
        rw [hW] at this
        simp only [ClockedDefines] at this
        rw [← translate_on (A := A) (glob := glob) (nodes := nodes) rfl e' g1,
          ← translate_val rfl e' g1 (linked_of_prefix hLc g2)] at this
        obtain ⟨w, k1, k2⟩ := this hon
        exact ⟨w, k1, (gets_translate p' w).2 k2⟩
      | assert e' =>
        obtain ⟨c₀, c₁, x, g1, g2, rfl⟩ := h3
        cases h4
    · obtain ⟨s, h2, st', rfl, -, h3⟩ := hcome _ hst (by intro h0; rw [h0] at he; cases he)
      rw [source_withClocks] at he
      have hps := hp t ht s h2
      rw [hW] at hps
      cases s with
      | def_ p e' =>
        obtain ⟨c₀, c₁, x, g1, g2, rfl⟩ := h3
        obtain rfl := List.mem_singleton.1 he
        exact translate_proper rfl rfl e' g1 (linked_of_prefix hLc g2) hps
      | assert e' =>
        obtain ⟨c₀, c₁, x, g1, g2, rfl⟩ := h3
        obtain rfl := List.mem_singleton.1 he
        exact translate_proper rfl rfl e' g1 (linked_of_prefix hLc g2) hps
  have hin : ∀ t, t < is.length → ∀ x ∈ n.inputs.map (·.name), F.X x t = Y x t := by
    intro t ht x hx
    have h1 := List.getElem?_eq_getElem ht
    rw [e5] at hx
    have hne : argNames src.inputs ≠ [] := List.ne_nil_of_mem hx
    have h2 := assigns_inputs.1 (hs.inputs t _ h1) (by rw [e5]; exact hne)
    rw [e5] at h2
    exact together_same (h2.symm.trans (hY.inputs t _ h1 hne)) x hx
  intro t ht x hx
  have := (reference_unique hsur hR hs.stmts hin t ht).vars x ?_
  · exact this
  · rw [← hvars] at hx
    obtain ⟨v, hv, rfl⟩ := List.mem_map.1 hx
    rw [declared_clk hsur.clocked.declared hv]
    simp

end

theorem srcOutputs_congr {X Y : String → Nat → Nillable Scalar} {src : SrcNode} {k : Nat}
    (h : ∀ t, t < k → ∀ x ∈ SrcNode.vars src, X x t = Y x t) :
    srcOutputs X src k = srcOutputs Y src k := by
  refine List.map_congr_left fun t ht => ?_
  simp only [together]
  congr 1
  refine List.map_congr_left fun x hx => ?_
  rw [h t (List.mem_range.1 ht) x (by simp [SrcNode.vars, hx])]

end Chandeliers.Uni
