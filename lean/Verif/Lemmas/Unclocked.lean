import Verif.Lemmas.ClockedUnique
import Verif.Lemmas.Lustre

/-!
# Nodes without clocks
-/

set_option autoImplicit false

namespace Chandeliers.Uni
open San Syn Spec Den Clk Pres

section
variable {o : TyOpts} {sigs : String → Option Sig} {consts : String → Option TyBase} {src : SrcNode}
  {n : Node} {A : Arith} {glob : Globals} {ms : List Machine} {F : Flow}
  {nodes : String → Option Machine} {Y : String → Nat → Nillable Scalar}

theorem lustre_stmts {K : String → Option Clk} (hw : WiredInOrder n) (hK : NodeClocked false n K)
    (hno : n.registers = []) {t : Nat}
    (hY : ∀ p e, .let_ p e ∈ n.stmts → ∀ v, den A glob ms ⟨Y, F.C, F.shape⟩ 0 e t = .ok v →
      Assigns (Y · t) p v)
    (hh : ∀ st ∈ n.stmts, Holds A glob ms F t st)
    (hpast : ∀ u, u < t → SameAt (fun x => K x ≠ none) F ⟨Y, F.C, F.shape⟩ u) :
    ∀ {sts : List Stmt} {vars : List String} {regs : List Nat}, Sorted vars regs sts →
    (∀ st ∈ sts, st ∈ n.stmts) → (∀ x ∈ vars, F.X x t = Y x t) →
    ∀ x ∈ sts.flatMap binds, F.X x t = Y x t
  | [], vars, regs, ho, hn, hv => by simp
  | st :: sts, vars, regs, ho, hn, hv => by
    simp only [Sorted] at ho
    have hst := hn st (List.mem_cons_self ..)
    have hnoreg : ∀ id, id ∉ updated n.stmts := by
      intro id hid
      have := hw.registers id hid
      rw [hno] at this
      simp at this
    have hnew : ∀ x ∈ binds st, F.X x t = Y x t := by
      cases st with
      | let_ p e =>
        obtain ⟨v, hd, ha⟩ := hh _ hst
        have hnow : SameNow F ⟨Y, F.C, F.shape⟩ t e := by
          refine sameNow_of_parts e (fun x hx => hv x ((ho.1 e (by simp [evaluated])).1 x hx))
            (fun id f hx => rfl) fun id i f hx => ?_
          obtain ⟨h1, -⟩ := hw.fetchFby _ hst e (by simp [evaluated]) id i f hx
          exact absurd (mem_updated.2 ⟨_, h1⟩) (hnoreg id)
        have hc := hK.stmts _ hst
        cases hc with
        | let_ h h' hk =>
        rw [den_same (F := F) (F' := ⟨Y, F.C, F.shape⟩) rfl e (hasClock_vars e h') hpast hnow] at hd
        exact assigns_same ha (hY p e hst v hd)
      | _ => simp [binds]
    have := lustre_stmts hw hK hno hY hh hpast ho.2 (fun s h => hn s (List.mem_cons_of_mem _ h))
      (fun x hx => by
        rcases List.mem_append.1 hx with hx | hx
        · exact hv x hx
        · exact hnew x hx)
    intro x hx
    rw [List.flatMap_cons, List.mem_append] at hx
    rcases hx with hx | hx
    · exact hnew x hx
    · exact this x hx

/-- The streams of an accepted node without registers are those of Lustre. -/
theorem solution_unique_lustre (h : Passes false o sigs consts src n) (hwir : WiredInOrder n)
    (hL : Linked ms nodes n.blocks) {is : List Value} (hs : Solution A glob ms F n is)
    (hY : LustreSolution ⟨A, SrcNode.vars src, Y, glob, nodes⟩ src is) :
    ∀ t, t < is.length → ∀ x ∈ SrcNode.vars src, F.X x t = Y x t := by
  obtain ⟨n₁, n₂, c, ctx, clk, m, K, hf⟩ := passes_final h
  have hLc := final_linked hf hL
  have hK := final_clocked hf
  obtain ⟨new, e1, e2, e3⟩ := stmts_come hf.stmts
  simp only [List.nil_append] at e1
  subst e1
  have hr : c.registers = 0 := (hf.built.plain rfl).1
  have hno : n.registers = [] := by
    rw [hf.final, hf.same, hf.start]; simp [Node.withDepths, Node.withClocks, Node.fill, hr]
  have hvars : (declared n).map (·.name) = SrcNode.vars src := by
    rw [declared, hf.final, hf.same, hf.start]
    simp [Node.withDepths, Node.withClocks, Node.fill, setDepths, SrcNode.vars, ← args_names,
      Function.comp_def]
  have e5 : n.inputs.map (·.name) = argNames src.inputs := by
    rw [hf.final, hf.same, hf.start, ← args_names]
    simp [Node.withDepths, setDepths, Node.withClocks, Node.fill, Function.comp_def]
  have hin : ∀ t, t < is.length → ∀ x ∈ n.inputs.map (·.name), F.X x t = Y x t := by
    intro t ht x hx
    have h1 := List.getElem?_eq_getElem ht
    rw [e5] at hx
    have hne : argNames src.inputs ≠ [] := List.ne_nil_of_mem hx
    have h2 := assigns_inputs.1 (hs.inputs t _ h1) (by rw [e5]; exact hne)
    rw [e5] at h2
    exact together_same (h2.symm.trans (hY.inputs t _ h1 hne)) x hx
  have hdef : ∀ t, t < is.length → ∀ p e, .let_ p e ∈ n.stmts → ∀ v,
      den A glob ms ⟨Y, F.C, F.shape⟩ 0 e t = .ok v → Assigns (Y · t) p v := by
    intro t ht p e hst v hv
    rw [hf.final_stmts] at hst
    obtain ⟨st', h1, h4⟩ := List.mem_map.1 hst
    have hsrc : Stmt.source st' ≠ [] := by
      rw [← source_withClocks clk, h4]; simp [Stmt.source]
    obtain ⟨s, h2, h3⟩ := e3 st' (hf.perm.mem_iff.1 h1) hsrc
    cases s with
    | def_ p' e' =>
      obtain ⟨c₀, c₁, x, g1, g2, rfl⟩ := h3
      simp only [Stmt.withClocks, Stmt.let_.injEq] at h4
      obtain ⟨rfl, rfl⟩ := h4
      obtain ⟨w, k1, k2⟩ := hY.defs t ht _ h2
      have := translate_ref (A := A) (glob := glob) (ms := ms) (nodes := nodes)
        (F := ⟨Y, F.C, F.shape⟩) e' _ _ _ _ g1 rfl (linked_of_prefix hLc g2) 0 (Nat.zero_le _) t
      rw [hv] at this
      have hW : worldOf A glob nodes ⟨Y, F.C, F.shape⟩ (src.view false) =
          ⟨A, SrcNode.vars src, Y, glob, nodes⟩ := by
        simp only [worldOf, SrcNode.view, SrcNode.vars, List.map_append, args_names]
      rw [hW] at this
      have h0 : ((t : Int) - ((src.view false).depth : Nat)) = t := by simp [SrcNode.view]
      rw [h0] at this
      obtain rfl := lustre_ref e' t w v k1 this.symm
      exact (gets_translate p' w).2 k2
    | assert e' =>
      obtain ⟨c₀, c₁, x, g1, g2, rfl⟩ := h3
      cases h4
  have key : ∀ t, t < is.length → SameAt (fun x => K x ≠ none) F ⟨Y, F.C, F.shape⟩ t := by
    intro t
    induction t using Nat.strongRecOn with
    | ind t ih =>
      intro ht
      have := lustre_stmts hwir hK hno (hdef t ht) (hs.stmts t ht)
        (fun u hu => ih u hu (by omega)) hwir.sorted (fun _ h => h) (hin t ht)
      refine ⟨fun x hx => ?_, fun id => rfl⟩
      obtain ⟨k, hk⟩ := Option.ne_none_iff_exists'.1 hx
      obtain ⟨v, hv, rfl, -⟩ := (hK.declared _ _).1 hk
      rw [List.append_assoc, List.mem_append] at hv
      rcases hv with hv | hv
      · exact hin t ht _ (List.mem_map.2 ⟨v, hv, rfl⟩)
      · obtain ⟨st, h1, h2⟩ := hwir.defined v hv
        exact this _ (List.mem_flatMap.2 ⟨st, h1, h2⟩)
  intro t ht x hx
  refine (key t ht).vars x ?_
  rw [← hvars] at hx
  obtain ⟨v, hv, rfl⟩ := List.mem_map.1 hx
  rw [declared_clk hK.declared hv]
  simp

end

/-! ## The two references agree -/

section
variable {W : World} {D : String → Clock}

theorem lastBefore_always {on : Nat → Bool} (h : ∀ t, on t = true) : ∀ t,
    lastBefore on t = if t = 0 then none else some (t - 1)
  | 0 => rfl
  | t + 1 => by simp [lastBefore, h t]

theorem pastValues_always {on : Nat → Bool} (h : ∀ t, on t = true) {f : Nat → Option Value} : ∀ t,
    pastValues on f t = (List.range t).mapM f
  | 0 => rfl
  | t + 1 => by
    rw [List.range_succ, List.mapM_append, pastValues, pastValues_always h t]
    simp only [h t, if_true, List.mapM_cons, List.mapM_nil, Option.bind_eq_bind, Option.pure_def]
    cases (List.range t).mapM f <;> cases f t <;> simp

theorem mapM_mono {α β : Type} {f g : α → Option β} (h : ∀ a b, f a = some b → g a = some b) :
    ∀ {l : List α} {bs : List β}, l.mapM f = some bs → l.mapM g = some bs
  | [], bs, hl => by simpa using hl
  | a :: l, bs, hl => by
    rw [List.mapM_cons] at hl
    obtain ⟨b, h1, hl⟩ := some_bind.1 hl
    obtain ⟨bs', h2, hl⟩ := some_bind.1 hl
    rw [List.mapM_cons, h a b h1, mapM_mono h h2]
    exact hl

mutual
theorem unclocked_on (hD : ∀ x, D x = .implicit) : (e : Src) → Unclocked e = true → ∀ t,
    clockedOn W D e t = true
  | .lit _, _, _ => by simp [clockedOn]
  | .var x, _, t => by simp [clockedOn, hD, due]
  | .paren es _, h, t => by
    have := unclocked_onAll hD es (by simpa [Unclocked] using h) t
    simpa [clockedOn] using this
  | .left e rest, h, t => by
    simp only [Unclocked, Bool.and_eq_true] at h
    have := unclocked_onLeft hD rest h.2 t
    simp [clockedOn, unclocked_on hD e h.1, this]
  | .cmp e rest, h, t => by
    simp only [Unclocked, Bool.and_eq_true] at h
    simp [clockedOn, unclocked_on hD e h.1, unclocked_onCmp hD rest h.2]
  | .fby e rest, h, t => by
    simp only [Unclocked, Bool.and_eq_true] at h
    simp [clockedOn, unclocked_on hD e h.1]
  | .arrow e rest, h, t => by
    simp only [Unclocked, Bool.and_eq_true] at h
    simp [clockedOn, unclocked_on hD e h.1.1]
  | .ifx b y n, h, t => by
    simp only [Unclocked, Bool.and_eq_true] at h
    simp [clockedOn, unclocked_on hD b h.1.1, unclocked_on hD y h.1.2, unclocked_on hD n h.2]
  | .merge _ _ _, h, t => by simp [Unclocked] at h
  | .call _ args _, h, t => by
    have := unclocked_onAll hD args (by simpa [Unclocked] using h) t
    simpa [clockedOn] using this
  | .pre e, h, t => by
    have := unclocked_on hD e (by simpa [Unclocked] using h) t
    simpa [clockedOn] using this
  | .neg e, h, t => by
    have := unclocked_on hD e (by simpa [Unclocked] using h) t
    simpa [clockedOn] using this
  | .not e, h, t => by
    have := unclocked_on hD e (by simpa [Unclocked] using h) t
    simpa [clockedOn] using this
theorem unclocked_onAll (hD : ∀ x, D x = .implicit) : (es : List Src) → UnclockedAll es = true →
    ∀ t, clockedOnAll W D es t = true
  | [], _, _ => by simp [clockedOnAll]
  | e :: es, h, t => by
    simp only [UnclockedAll, Bool.and_eq_true] at h
    simp [clockedOnAll, unclocked_on hD e h.1, unclocked_onAll hD es h.2]
theorem unclocked_onLeft (hD : ∀ x, D x = .implicit) : (rest : List (LOp × Src)) →
    UnclockedLeft rest = true → ∀ t, clockedOnLeft W D true rest t = true
  | [], _, _ => by simp [clockedOnLeft]
  | (op, e) :: rest, h, t => by
    simp only [UnclockedLeft, Bool.and_eq_true] at h
    have h1 := unclocked_on hD e h.1.2 t
    have h2 := unclocked_onLeft hD rest h.2 t
    cases op <;> simp_all [clockedOnLeft]
theorem unclocked_onCmp (hD : ∀ x, D x = .implicit) : (rest : List (CmpOp × Src)) →
    UnclockedCmp rest = true → ∀ t, clockedOnCmp W D rest t = true
  | [], _, _ => by simp [clockedOnCmp]
  | (op, e) :: rest, h, t => by
    simp only [UnclockedCmp, Bool.and_eq_true] at h
    simp [clockedOnCmp, unclocked_on hD e h.1, unclocked_onCmp hD rest h.2]
end

mutual
theorem clocked_lustre (hD : ∀ x, D x = .implicit) : (e : Src) → Unclocked e = true →
    ∀ {t : Nat} {w : Value}, clocked W D e t = some w → lustre W e t = some w
  | .lit _, _, t, w, h => by simpa [clocked, lustre] using h
  | .var x, _, t, w, h => by
    simp only [clocked] at h
    simp only [lustre]
    split at h
    · rw [if_pos ‹_›, (whole_some.1 h).1]
    · rw [if_neg ‹_›]; exact h
  | .paren es _, hu, t, w, h => by
    simp only [clocked] at h
    obtain ⟨ws, h1, h2⟩ := some_bind.1 h
    simp only [lustre]
    rw [clocked_lustreList hD es (by simpa [Unclocked] using hu) h1]
    exact h2
  | .left e rest, hu, t, w, h => by
    simp only [Unclocked, Bool.and_eq_true] at hu
    simp only [clocked] at h
    obtain ⟨a, h1, h2⟩ := clocked_lustreLeft hD rest hu.2 h
    simp only [lustre]
    rw [clocked_lustre hD e hu.1 h1]
    exact h2
  | .cmp e rest, hu, t, w, h => by
    simp only [Unclocked, Bool.and_eq_true] at hu
    simp only [clocked] at h
    obtain ⟨a, h1, h2⟩ := clocked_lustreCmp hD rest hu.2 h
    simp only [lustre]
    rw [clocked_lustre hD e hu.1 h1]
    exact h2
  | .fby e rest, hu, t, w, h => by
    simp only [Unclocked, Bool.and_eq_true] at hu
    simp only [clocked, lastBefore_always (unclocked_on (W := W) hD e hu.1)] at h
    simp only [lustre]
    by_cases hr : rest.isEmpty = true
    · rw [if_pos hr] at h
      rw [if_pos (.inl hr)]
      exact clocked_lustre hD e hu.1 h
    · rw [if_neg hr] at h
      by_cases ht : t = 0
      · rw [if_pos ht] at h
        rw [if_pos (.inr ht)]
        exact clocked_lustre hD e hu.1 h
      · rw [if_neg ht] at h
        rw [if_neg (by simp [hr, ht])]
        exact clocked_lustreFby hD rest hu.2 h
  | .arrow e rest, hu, t, w, h => by
    simp only [Unclocked, Bool.and_eq_true, decide_eq_true_eq] at hu
    simp only [clocked, lastBefore_always (unclocked_on (W := W) hD e hu.1.1)] at h
    simp only [lustre]
    by_cases hr : rest.isEmpty = true
    · rw [if_pos hr] at h
      rw [if_pos (.inl hr)]
      exact clocked_lustre hD e hu.1.1 h
    · rw [if_neg hr] at h
      by_cases ht : t = 0
      · rw [if_pos ht] at h
        rw [if_pos (.inr ht)]
        exact clocked_lustre hD e hu.1.1 h
      · rw [if_neg ht] at h
        rw [if_neg (by simp [hr, ht])]
        exact clocked_lustreArrow hD rest hu.1.2 hu.2 h
  | .ifx b y n, hu, t, w, h => by
    simp only [Unclocked, Bool.and_eq_true] at hu
    simp only [clocked] at h
    obtain ⟨v, h1, h⟩ := some_bind.1 h
    obtain ⟨c, h2, h⟩ := some_bind.1 h
    simp only [lustre]
    rw [clocked_lustre hD b hu.1.1 h1]
    simp only [Option.bind_eq_bind, Option.bind_some, h2]
    match c, h with
    | .defined true, h => exact clocked_lustre hD y hu.1.2 h
    | .defined false, h => exact clocked_lustre hD n hu.2 h
  | .merge _ _ _, hu, t, w, h => by simp [Unclocked] at hu
  | .call f args _, hu, t, w, h => by
    simp only [clocked] at h
    simp only [lustre]
    have hu' : UnclockedAll args = true := by simpa [Unclocked] using hu
    cases hm : W.nodes f with
    | none => simp [hm] at h
    | some m =>
      simp only [hm, clockedCall] at h
      simp only [callAt]
      rw [pastValues_always (unclocked_onAll hD args hu')] at h
      obtain ⟨as, h1, h⟩ := some_bind.1 h
      obtain ⟨os, h2, h⟩ := some_bind.1 h
      obtain ⟨o, h3, h⟩ := some_bind.1 h
      have h4 : (List.range (t + 1)).mapM (fun u => do
          return tupleValue (← lustreList W args u) : Nat → Option Value) = some as := by
        refine mapM_mono (fun u v hv => ?_) h1
        obtain ⟨ws, g1, g2⟩ := some_bind.1 hv
        rw [clocked_lustreList hD args hu' g1]
        exact g2
      rw [h4]
      simp only [Option.bind_eq_bind, Option.bind_some, h2]
      rw [h3, (whole_some.1 h).1]
  | .pre e, hu, t, w, h => by
    have hu' : Unclocked e = true := by simpa [Unclocked] using hu
    simp only [clocked, lastBefore_always (unclocked_on (W := W) hD e hu')] at h
    cases t with
    | zero => simp at h
    | succ t =>
      simp only [lustre]
      exact clocked_lustre hD e hu' (by simpa using h)
  | .neg e, hu, t, w, h => by
    simp only [clocked] at h
    obtain ⟨v, h1, h⟩ := some_bind.1 h
    simp only [lustre]
    rw [clocked_lustre hD e (by simpa [Unclocked] using hu) h1]
    exact h
  | .not e, hu, t, w, h => by
    simp only [clocked] at h
    obtain ⟨v, h1, h⟩ := some_bind.1 h
    simp only [lustre]
    rw [clocked_lustre hD e (by simpa [Unclocked] using hu) h1]
    exact h
theorem clocked_lustreList (hD : ∀ x, D x = .implicit) : (es : List Src) → UnclockedAll es = true →
    ∀ {t : Nat} {ws : List Value}, clockedList W D es t = some ws → lustreList W es t = some ws
  | [], _, t, ws, h => by simpa [clockedList, lustreList] using h
  | e :: es, hu, t, ws, h => by
    simp only [UnclockedAll, Bool.and_eq_true] at hu
    simp only [clockedList] at h
    obtain ⟨v, h1, h⟩ := some_bind.1 h
    obtain ⟨vs, h2, h⟩ := some_bind.1 h
    simp only [lustreList]
    rw [clocked_lustre hD e hu.1 h1, clocked_lustreList hD es hu.2 h2]
    exact h
theorem clocked_lustreLeft (hD : ∀ x, D x = .implicit) : (rest : List (LOp × Src)) →
    UnclockedLeft rest = true → ∀ {t : Nat} {acc : Option Value} {w : Value},
    clockedLeft W D acc rest t = some w → ∃ a, acc = some a ∧ lustreLeft W a rest t = some w
  | [], _, t, acc, w, h => by
    simp only [clockedLeft] at h
    exact ⟨w, h, by simp [lustreLeft]⟩
  | (op, e) :: rest, hu, t, acc, w, h => by
    simp only [UnclockedLeft, Bool.and_eq_true] at hu
    simp only [clockedLeft] at h
    obtain ⟨a, h1, h2⟩ := clocked_lustreLeft hD rest hu.2 h
    have h3 : ∃ v u, acc = some v ∧ clocked W D e t = some u ∧ applyLOp W.arith op v u = some a := by
      cases op <;> simp at hu <;>
        (simp only [clockedOp] at h1
         obtain ⟨v, k1, h1⟩ := some_bind.1 h1
         obtain ⟨u, k2, h1⟩ := some_bind.1 h1
         exact ⟨v, u, k1, k2, h1⟩)
    obtain ⟨v, u, k1, k2, k3⟩ := h3
    refine ⟨v, k1, ?_⟩
    simp only [lustreLeft]
    rw [clocked_lustre hD e hu.1.2 k2]
    simp only [Option.bind_eq_bind, Option.bind_some, k3]
    exact h2
theorem clocked_lustreCmp (hD : ∀ x, D x = .implicit) : (rest : List (CmpOp × Src)) →
    UnclockedCmp rest = true → ∀ {t : Nat} {acc : Option Value} {w : Value},
    clockedCmp W D acc rest t = some w → ∃ a, acc = some a ∧ lustreCmp W a rest t = some w
  | [], _, t, acc, w, h => by
    simp only [clockedCmp] at h
    exact ⟨w, h, by simp [lustreCmp]⟩
  | [(op, e)], hu, t, acc, w, h => by
    simp only [UnclockedCmp, Bool.and_eq_true] at hu
    simp only [clockedCmp] at h
    obtain ⟨v, k1, h⟩ := some_bind.1 h
    obtain ⟨u, k2, h⟩ := some_bind.1 h
    obtain ⟨c, k3, h⟩ := some_bind.1 h
    refine ⟨v, k1, ?_⟩
    simp only [lustreCmp]
    rw [clocked_lustre hD e hu.1 k2]
    simp only [Option.bind_eq_bind, Option.bind_some, k3]
    rw [(whole_some.1 h).1]
  | _ :: _ :: _, hu, t, acc, w, h => by simp [clockedCmp] at h
theorem clocked_lustreFby (hD : ∀ x, D x = .implicit) : (es : List Src) → UnclockedAll es = true →
    ∀ {t : Nat} {w : Value}, clockedFby W D es t = some w → lustreFby W es t = some w
  | [], _, t, w, h => by simp [clockedFby] at h
  | e :: es, hu, t, w, h => by
    simp only [UnclockedAll, Bool.and_eq_true] at hu
    simp only [clockedFby, lastBefore_always (unclocked_on (W := W) hD e hu.1)] at h
    simp only [lustreFby]
    by_cases hr : es.isEmpty = true
    · rw [if_pos hr] at h
      rw [if_pos (.inl hr)]
      exact clocked_lustre hD e hu.1 h
    · rw [if_neg hr] at h
      by_cases ht : t = 0
      · rw [if_pos ht] at h
        rw [if_pos (.inr ht)]
        exact clocked_lustre hD e hu.1 h
      · rw [if_neg ht] at h
        rw [if_neg (by simp [hr, ht])]
        exact clocked_lustreFby hD es hu.2 h
theorem clocked_lustreArrow (hD : ∀ x, D x = .implicit) : (es : List Src) →
    UnclockedAll es = true → es.length ≤ 1 → ∀ {i t : Nat} {w : Value},
    clockedArrow W D es t = some w → lustreArrow W i es t = some w
  | [], _, _, i, t, w, h => by simp [clockedArrow] at h
  | [e], hu, _, i, t, w, h => by
    simp only [UnclockedAll, Bool.and_eq_true] at hu
    simp only [clockedArrow, List.isEmpty_nil, if_true] at h
    simp only [lustreArrow, List.isEmpty_nil, true_or, if_true]
    exact clocked_lustre hD e hu.1 h
  | _ :: _ :: _, _, hl, i, t, w, h => by simp at hl
end

end

end Chandeliers.Uni
