import Verif.Lemmas.BlameSrc

/-!
# Messages about names and definitions of programs, in terms of the source
-/

set_option autoImplicit false

namespace Chandeliers.Tell
open Chandeliers.San Chandeliers.Spec Chandeliers.Syn Chandeliers.Spec.Static Chandeliers.Err
open Chandeliers.Den

theorem translates_trans {p : SrcProg} {q : Prog} (h : Translates p q) :
    ∃ ds, List.Forall₂ Prg.Trans p ds ∧ q = ⟨ds.map (·.1), optsOf ds⟩ := by
  obtain ⟨s, hs⟩ := h
  obtain ⟨ds, s1, h4, h5⟩ := Chk.bind_some.1 hs
  cases h5
  exact ⟨ds, Prg.decls_translate h4, rfl⟩

/-- Where a declaration comes from. -/
theorem translates_to {p : SrcProg} {q : Prog} (h : Translates p q) {y : San.Decl}
    (hy : y ∈ q.decls) : ∃ d ∈ p, ∃ o, Prg.Trans d (y, o) := by
  obtain ⟨ds, hf, rfl⟩ := translates_trans h
  obtain ⟨⟨y', o⟩, hm, rfl⟩ := List.mem_map.1 hy
  clear h hy
  induction hf with
  | nil => cases hm
  | cons a b ih =>
    rcases List.mem_cons.1 hm with rfl | hm
    · exact ⟨_, by simp, _, a⟩
    · obtain ⟨d, hd, h⟩ := ih hm
      exact ⟨d, by simp [hd], h⟩

theorem translates_node {p : SrcProg} {q : Prog} (h : Translates p q) {n : Node}
    (hn : .node n ∈ q.decls) : ∃ attrs src c, ⟨attrs, .node src⟩ ∈ p ∧
      translateStmts (src.view (meaning attrs).universalPre) src.defs {} = .ok ((), c) ∧
      n = built src c := by
  obtain ⟨d, hd, o, ht⟩ := translates_to h hn
  cases ht with
  | node ht =>
    obtain ⟨c, hc, e⟩ := node_translate ht
    exact ⟨_, _, c, hd, hc, e⟩

theorem translates_const {p : SrcProg} {q : Prog} (h : Translates p q) {c : Const}
    (hn : .const c ∈ q.decls) : ∃ attrs src x s, ⟨attrs, .const src⟩ ∈ p ∧
      src.value.translate plainView {} = .ok (x, s) ∧ c = ⟨src.name, src.ty, x⟩ := by
  obtain ⟨d, hd, o, ht⟩ := translates_to h hn
  cases ht with
  | const ht =>
    obtain ⟨x, s, hc, -, -, e⟩ := const_translate ht
    exact ⟨_, _, x, s, hd, hc, e⟩

theorem translates_entryC {p : SrcProg} {q : Prog} (h : Translates p q) :
    q.decls.filterMap entryC = p.filterMap constant := by
  obtain ⟨ds, hf, rfl⟩ := translates_trans h
  clear h
  induction hf with
  | nil => rfl
  | @cons d y _ _ a b ih =>
    have e : entryC y.1 = constant d := by
      cases a with
      | const h =>
        obtain ⟨x, s, -, -, -, rfl⟩ := const_translate h
        rfl
      | _ => rfl
    simp only [List.map_cons] at ih ⊢
    rw [List.filterMap_cons, List.filterMap_cons, ih, e]

theorem translates_entryN {p : SrcProg} {q : Prog} (h : Translates p q) (o : String → TyOpts) :
    (q.decls.filterMap (entryN o)).map (·.1) = (p.filterMap Static.nodeSig).map (·.1) := by
  obtain ⟨ds, hf, rfl⟩ := translates_trans h
  clear h
  induction hf with
  | nil => rfl
  | @cons d y _ _ a b ih =>
    simp only [List.map_cons] at ih ⊢
    cases a with
    | node h =>
      obtain ⟨c, -, rfl⟩ := node_translate h
      simpa [entryN, Static.nodeSig, signature] using ih
    | extNode => simpa [entryN, Static.nodeSig, signature] using ih
    | const h =>
      rw [List.filterMap_cons_none (by rfl), List.filterMap_cons_none (by rfl)]
      exact ih
    | extConst =>
      rw [List.filterMap_cons_none (by rfl), List.filterMap_cons_none (by rfl)]
      exact ih

theorem constType_none {p : SrcProg} {q : Prog} (h : Translates p q) {x : String}
    (hx : constType q.decls x = none) : x ∉ (p.filterMap constant).map (·.1) := by
  rw [← translates_entryC h]
  intro hm
  obtain ⟨e, he, rfl⟩ := List.mem_map.1 hm
  obtain ⟨y, hy, hye⟩ := List.mem_filterMap.1 he
  have := List.findSome?_eq_none_iff.1 hx y hy
  cases y <;> cases hye <;> simp at this

theorem nodeSig_none {p : SrcProg} {q : Prog} (h : Translates p q) {o : String → TyOpts} {f : String}
    (hx : Spec.nodeSig o q.decls f = none) : f ∉ (p.filterMap Static.nodeSig).map (·.1) := by
  rw [← translates_entryN h o]
  intro hm
  obtain ⟨e, he, rfl⟩ := List.mem_map.1 hm
  obtain ⟨y, hy, hye⟩ := List.mem_filterMap.1 he
  have := List.findSome?_eq_none_iff.1 hx y hy
  cases y <;> cases hye <;> simp at this

theorem shadow_eq (src : SrcNode) (b : Bool) : (src.view b).shadow = variablesOf src := by
  simp only [SrcNode.view, variablesOf, varsOf_append, List.map_append]
  simp only [varsOf_eq, List.map_map]
  rfl

theorem built_uttered {src : SrcNode} {b : Bool} {c : ExprCtx}
    (h : translateStmts (src.view b) src.defs {} = .ok ((), c)) :
    Uttered (fun f => ∃ st ∈ src.defs, f ∈ callees (SrcStmt.expr st))
      (fun x => ∃ st ∈ src.defs, x ∈ names (SrcStmt.expr st)) (· ∈ variablesOf src) c :=
  (says_stmts (src.view b) (fun x => by rw [shadow_eq]) src.defs (fun st hst x hx => ⟨st, hst, hx⟩)
    (fun st hst f hf => ⟨st, hst, hf⟩) {} ⟨by simp, by simp⟩ _ _ h).1

theorem const_uttered {src : SrcConst} {x : Expr} {s : ExprCtx}
    (h : src.value.translate plainView {} = .ok (x, s)) :
    Named (· ∈ names src.value) (fun _ => False) x :=
  (says_translate (F := fun _ => True) src.value plainView (by simp [plainView]) (fun _ h => h)
    (fun _ _ => trivial) {} ⟨by simp, by simp⟩ _ _ h).2

theorem part_inside {c e : Expr} (h : Part c e) : Inside c e :=
  Relation.ReflTransGen.mono (fun _ _ h => Under.operand h) _ _ h

/-! ### Uses -/

theorem uses_const {p : SrcProg} {q : Prog} (h : Translates p q) {x : String} {r : Reference}
    (hu : DeclUses q.decls (.globalVarName x) r) : ∃ y, r = .globalVarName y ∧ ConstUses p x y := by
  obtain ⟨y, hy, h1, h2⟩ := hu
  cases h1 with
  | const =>
    cases h2 with
    | const h2 =>
      obtain ⟨attrs, src, e, s, hd, ht, rfl⟩ := translates_const h hy
      exact ⟨_, rfl, attrs, src, hd, rfl, ((const_uttered ht).1 _ (part_inside h2)).1⟩
  | extConst => cases h2

theorem uses_node {p : SrcProg} {q : Prog} (h : Translates p q) {g : String} {r : Reference}
    (hu : DeclUses q.decls r (.funName g)) : ∃ f, r = .funName f ∧ NodeCalls p f g := by
  obtain ⟨y, hy, h1, h2⟩ := hu
  generalize hg : Reference.funName g = w at h2
  cases h2 with
  | call hb =>
    cases hg
    cases h1
    obtain ⟨attrs, src, c, hd, hc, rfl⟩ := translates_node h hy
    exact ⟨_, rfl, attrs, src, hd, rfl, (built_uttered hc).blocks _ hb⟩
  | _ => cases hg

theorem path_const {p : SrcProg} {q : Prog} (h : Translates p q) {x : String} {r : Reference}
    (hu : Relation.TransGen (DeclUses q.decls) (.globalVarName x) r) :
    ∃ y, r = .globalVarName y ∧ Relation.TransGen (ConstUses p) x y := by
  induction hu with
  | single hu =>
    obtain ⟨y, rfl, k⟩ := uses_const h hu
    exact ⟨y, rfl, .single k⟩
  | tail _ hu ih =>
    obtain ⟨y, rfl, k⟩ := ih
    obtain ⟨z, rfl, k'⟩ := uses_const h hu
    exact ⟨z, rfl, k.tail k'⟩

theorem path_node {p : SrcProg} {q : Prog} (h : Translates p q) {g : String} {r : Reference}
    (hu : Relation.TransGen (DeclUses q.decls) r (.funName g)) :
    ∃ f, r = .funName f ∧ Relation.TransGen (NodeCalls p) f g := by
  induction hu using Relation.TransGen.head_induction_on with
  | single hu =>
    obtain ⟨y, rfl, k⟩ := uses_node h hu
    exact ⟨y, rfl, .single k⟩
  | head hu _ ih =>
    obtain ⟨y, rfl, k⟩ := ih
    obtain ⟨z, rfl, k'⟩ := uses_node h hu
    exact ⟨z, rfl, .head k' k⟩

/-- Between things that are connected, and of which there are two, there is always a path. -/
theorem cycle_paths {α : Type} {R : α → α → Prop} {rs : List α} (hl : 2 ≤ rs.length) (hn : rs.Nodup)
    (h : ∀ r ∈ rs, ∀ r' ∈ rs, Relation.ReflTransGen R r r') :
    ∀ r ∈ rs, ∀ r' ∈ rs, Relation.TransGen R r r' := by
  intro r hr r' hr'
  obtain ⟨w, hw, hne⟩ : ∃ w ∈ rs, w ≠ r := by
    match rs, hl, hn with
    | a :: b :: _, _, hn =>
      by_cases ha : a = r
      · subst ha
        refine ⟨b, by simp, fun e => ?_⟩
        simp [e] at hn
      · exact ⟨a, by simp, ha⟩
  rcases Relation.reflTransGen_iff_eq_or_transGen.1 (h r hr w hw) with e | h1
  · exact absurd e hne
  · exact Relation.TransGen.trans_left h1 (h w hw r' hr')

theorem all_map {α β : Type} {f : α → β} {l : List β} (h : ∀ b ∈ l, ∃ a, b = f a) :
    ∃ l' : List α, l = l'.map f := by
  induction l with
  | nil => exact ⟨[], rfl⟩
  | cons b l ih =>
    obtain ⟨a, rfl⟩ := h b (by simp)
    obtain ⟨l', rfl⟩ := ih fun b hb => h b (by simp [hb])
    exact ⟨a :: l', rfl⟩

theorem node_causal_source {p : SrcProg} {q : Prog} (h : Translates p q) {n : Node}
    (hn : .node n ∈ q.decls) {e : GErr Reference} (hb : NodeCausalBlame n e) : SrcCausal p e := by
  obtain ⟨attrs, src, c, hd, hc, rfl⟩ := translates_node h hn
  have hk := node_comes hc
  cases hb with
  | @undefined v hv hx =>
    have hv : v ∈ translateArgs src.outputs ++ translateArgs src.locals := hv
    have hx : v.name ∉ assigned c.stmts := hx
    rw [hk.assigned] at hx
    refine .undefined (v := toVar v) hd ?_ hx
    rw [varsOf_append, varsOf_eq, varsOf_eq, ← List.map_append]
    exact List.mem_map.2 ⟨v, hv, rfl⟩
  | @input v hv hx =>
    have hv : v ∈ translateArgs src.inputs := hv
    have hx : v.name ∈ assigned c.stmts := hx
    rw [hk.assigned] at hx
    refine .input (v := toVar v) hd ?_ hx
    rw [varsOf_eq]
    exact List.mem_map.2 ⟨v, hv, rfl⟩
  | @twice x hx =>
    have hx : List.Duplicate x (assigned c.stmts) := hx
    rw [hk.assigned] at hx
    exact .twice hd hx
  | itself hu =>
    obtain ⟨x, rfl, hx⟩ := itself_source hk hu
    exact .itself hd hx
  | @cycle rs hl hn hu hcl =>
    have hp := cycle_paths hl hn hu
    obtain ⟨r, hr⟩ : ∃ r, r ∈ rs := by
      cases rs with
      | nil => simp at hl
      | cons r _ => exact ⟨r, by simp⟩
    obtain ⟨x, hx⟩ := cycle_variable hk hr (hp r hr r hr) hcl
    refine .cycle hd hx (fun r hr => ?_) fun x y hx hy => path_source hk (hp _ hx _ hy)
    obtain ⟨w, hw, -⟩ := Relation.TransGen.head'_iff.1 (hp r hr r hr)
    exact uses_from hw

theorem causal_source {p : SrcProg} {q : Prog} (h : Translates p q) {e : GErr Reference}
    (hb : CausalBlame q.decls e) : SrcCausal p e := by
  cases hb with
  | node hn hb => exact node_causal_source h hn hb
  | @twice l₁ l₂ l₃ d d' r e hd hd' =>
    have hc := translates_entryC h
    have hf := translates_entryN h fun _ => ⟨false, false, []⟩
    rw [e] at hc hf
    have two : ∀ {α : Type} (g : San.Decl → Option (String × α)) (x : String) (v w : α),
        g d = some (x, v) → g d' = some (x, w) →
        List.Duplicate x (((l₁ ++ d :: (l₂ ++ d' :: l₃)).filterMap g).map (·.1)) := by
      intro α g x v w h1 h2
      rw [List.duplicate_iff_two_le_count]
      simp [List.filterMap_append, List.filterMap_cons_some h1, List.filterMap_cons_some h2]
      omega
    cases r with
    | globalVarName x =>
      refine .constTwice ?_
      rw [← hc]
      have e1 : ∃ v, entryC d = some (x, v) := by cases hd <;> exact ⟨_, rfl⟩
      have e2 : ∃ v, entryC d' = some (x, v) := by cases hd' <;> exact ⟨_, rfl⟩
      exact two _ _ _ _ e1.choose_spec e2.choose_spec
    | funName f =>
      refine .nodeTwice ?_
      rw [← hf]
      have e1 : ∃ v, entryN (fun _ => ⟨false, false, []⟩) d = some (f, v) := by
        cases hd <;> exact ⟨_, rfl⟩
      have e2 : ∃ v, entryN (fun _ => ⟨false, false, []⟩) d' = some (f, v) := by
        cases hd' <;> exact ⟨_, rfl⟩
      exact two _ _ _ _ e1.choose_spec e2.choose_spec
    | _ => cases hd
  | @itself r hu =>
    obtain ⟨y, hy, h1, h2⟩ := _root_.id hu
    cases r with
    | globalVarName x =>
      obtain ⟨y, e, hx⟩ := uses_const h hu
      cases e
      exact .constItself hx
    | funName f =>
      obtain ⟨y, e, hx⟩ := uses_node h hu
      cases e
      exact .nodeItself hx
    | _ => cases h1
  | @cycle rs hl hn hu _ =>
    have hp := cycle_paths hl hn hu
    obtain ⟨r, hr⟩ : ∃ r, r ∈ rs := by
      cases rs with
      | nil => simp at hl
      | cons r _ => exact ⟨r, by simp⟩
    obtain ⟨w, ⟨y, hy, h1, h2⟩, -⟩ := Relation.TransGen.head'_iff.1 (hp r hr r hr)
    cases r with
    | globalVarName x =>
      obtain ⟨xs, rfl⟩ := all_map (f := Reference.globalVarName) fun b hb => by
        obtain ⟨y, e, -⟩ := path_const h (hp _ hr b hb)
        exact ⟨y, e⟩
      refine .constCycle (by simpa using hl) hn.of_map fun x hx y hy => ?_
      obtain ⟨z, e, hz⟩ := path_const h (hp _ (List.mem_map_of_mem hx) _ (List.mem_map_of_mem hy))
      cases e
      exact hz
    | funName f =>
      obtain ⟨xs, rfl⟩ := all_map (f := Reference.funName) fun b hb => by
        obtain ⟨y, e, -⟩ := path_node h (hp b hb _ hr)
        exact ⟨y, e⟩
      refine .nodeCycle (by simpa using hl) hn.of_map fun x hx y hy => ?_
      obtain ⟨z, e, hz⟩ := path_node h (hp _ (List.mem_map_of_mem hx) _ (List.mem_map_of_mem hy))
      cases e
      exact hz
    | _ => cases h1

/-! ### Names -/

/-- Messages about names that are not declared. -/
def isName : Diag → Bool
  | .funNotFound _ => true
  | .varNotFound _ => true
  | _ => false

theorem mix_name {k l : Clk} {d : Diag} (h : CannotMix k l d) : isName d = false := by
  cases h <;> rfl

theorem clock_name {K : String → Option Clk} {e : Expr} {d : Diag} (h : ClockBlame K e d) :
    isName d = false := by
  cases h with
  | mixed _ _ _ h => exact mix_name h
  | otherwise _ _ _ h => exact mix_name h
  | mergeOn _ h => exact mix_name h
  | mergeOff _ h => exact mix_name h
  | _ => rfl

theorem stmtClock_name {K : String → Option Clk} {st : Stmt} {d : Diag} (h : StmtClockBlame K st d) :
    isName d = false := by
  cases h with
  | source _ h => exact clock_name h
  | asserted _ h => exact clock_name h
  | _ => rfl

theorem depth_name {e : Expr} {d : Diag} (h : DepthBlame e d) : isName d = false := by
  cases h <;> rfl

theorem decl_name {vs : List TyVar} {d : Diag} (h : DeclBlame vs d) : isName d = false := by
  cases h <;> rfl

theorem sig_name {x : Bool} {gs : List String} {is os ls : List TyVar} {d : Diag}
    (h : SigBlame x gs is os ls d) : isName d = false := by
  cases h <;> rfl

theorem type_name {Γ : TyEnv} {sig : Nat → Option Sig} {e : Expr} {d : Diag}
    (h : TypeBlame Γ sig e d) : isName d = false ∨
      (∃ x, d = .varNotFound x ∧ e = .global x ∧ Γ.global x = none) ∨
      ∃ x dt, d = .varNotFound x ∧ e = .var x dt ∧ Γ.vars x = none := by
  cases h with
  | global h => exact .inr (.inl ⟨_, rfl, rfl, h⟩)
  | var h => exact .inr (.inr ⟨_, _, rfl, rfl, h⟩)
  | _ => exact .inl rfl

theorem called_source {p : SrcProg} {q : Prog} (h : Translates p q) {f : String}
    (hb : Blame q (.funNotFound f)) :
    (∃ g, NodeCalls p g f) ∧ f ∉ (p.filterMap Static.nodeSig).map (·.1) := by
  have noType : ∀ {Γ : TyEnv} {sig : Nat → Option Sig} {e : Expr},
      ¬ TypeBlame Γ sig e (.funNotFound f) := by
    intro Γ sig e h
    rcases type_name h with h | ⟨x, h, -⟩ | ⟨x, dt, h, -⟩ <;> cases h
  cases hb with
  | const hc hb =>
    cases hb with
    | value _ hb => exact absurd hb noType
  | node hn hb =>
    cases hb with
    | called hb hs =>
      obtain ⟨attrs, src, c, hd, hc, rfl⟩ := translates_node h hn
      exact ⟨⟨_, attrs, src, hd, rfl, (built_uttered hc).blocks _ hb⟩, nodeSig_none h hs⟩
    | sig hb => cases sig_name hb
    | decls hb => cases decl_name hb
    | types _ hb =>
      cases hb with
      | source _ hb => exact absurd hb noType
      | asserted _ hb => exact absurd hb noType
    | clocks _ _ hb => cases stmtClock_name hb
    | equation _ hb => cases depth_name hb
    | asserted _ hb => cases depth_name hb
  | extNode hn hb =>
    cases hb with
    | sig hb => cases sig_name hb
    | decls hb => cases decl_name hb

theorem typeIn_none {src : SrcNode} {c : ExprCtx} {x : String}
    (h : typeIn ((built src c).inputs ++ (built src c).outputs ++ (built src c).locals) x = none) :
    x ∉ variablesOf src := by
  rw [← shadow_eq src false]
  simp only [typeIn, Option.map_eq_none_iff, List.find?_eq_none, decide_eq_true_eq] at h
  intro hx
  obtain ⟨v, hv, e⟩ := List.mem_map.1 hx
  exact h v hv e

theorem unknown_source {p : SrcProg} {q : Prog} (h : Translates p q) {x : String}
    (hb : Blame q (.varNotFound x)) : UnknownName p x := by
  cases hb with
  | const hc hb =>
    obtain ⟨attrs, src, e, s, hd, ht, rfl⟩ := translates_const h hc
    cases hb with
    | value he hb =>
      rcases type_name hb with h' | ⟨y, h1, rfl, h2⟩ | ⟨y, dt, h1, rfl, h2⟩
      · cases h'
      · cases h1
        exact .inConst hd ((const_uttered ht).1 _ he).1 (constType_none h h2)
      · exact ((const_uttered ht).2 _ _ he).elim
  | node hn hb =>
    obtain ⟨attrs, src, c, hd, hc, rfl⟩ := translates_node h hn
    have inside : ∀ {st e e'}, st ∈ c.stmts → e ∈ values st → Inside e' e → ∀ {sigs},
        TypeBlame (nodeEnv (Spec.nodeSig q.opts q.decls) (constType q.decls) (built src c)) sigs e'
          (.varNotFound x) → UnknownName p x := by
      intro st e e' hst he hi sigs hb
      have hu := (built_uttered hc).stmts st hst e he
      rcases type_name hb with h' | ⟨y, h1, rfl, h2⟩ | ⟨y, dt, h1, rfl, h2⟩
      · cases h'
      · cases h1
        obtain ⟨⟨st, hst, hx⟩, hv⟩ := hu.1 _ hi
        exact .inNode hd hst hx hv (constType_none h h2)
      · cases h1
        exact absurd (hu.2 _ _ hi) (typeIn_none h2)
    cases hb with
    | sig hb => cases sig_name hb
    | decls hb => cases decl_name hb
    | @types st _ hst hb =>
      have hst : st ∈ c.stmts := hst
      cases hb with
      | source hi hb => exact inside hst (by simp [values]) hi hb
      | asserted hi hb => exact inside hst (by simp [values]) hi hb
      | target hx hv =>
        refine .target hd ?_ (typeIn_none hv)
        rw [← (node_comes hc).assigned]
        exact Props.mem_assigned.2 ⟨_, hst, stmt_provides.2 (.local_ hx)⟩
    | clocks _ _ hb => cases stmtClock_name hb
    | equation _ hb => cases depth_name hb
    | asserted _ hb => cases depth_name hb
  | extNode hn hb =>
    cases hb with
    | sig hb => cases sig_name hb
    | decls hb => cases decl_name hb

mutual
theorem subst_id : (t : TyTuple) → substTy .other t = t
  | .single t => by cases t <;> rfl
  | .multiple ts => by simp [substTy, substs_id ts]
theorem substs_id : (ts : List TyTuple) → substTys .other ts = ts
  | [] => rfl
  | t :: ts => by simp [substTys, subst_id t, substs_id ts]
end

theorem mix_differ {k l : Clk} {d : Diag} (h : CannotMix k l d) : Disagree d := by
  cases h <;> first | trivial | assumption

theorem clock_differ {K : String → Option Clk} {e : Expr} {d : Diag} (h : ClockBlame K e d) :
    Disagree d := by
  cases h with
  | mixed _ _ _ h => exact mix_differ h
  | otherwise _ _ _ h => exact mix_differ h
  | mergeOn _ h => exact mix_differ h
  | mergeOff _ h => exact mix_differ h
  | together _ _ _ h => exact fun e => h (.inl e)
  | slow => trivial
  | notAClock => trivial

theorem type_differ {Γ : TyEnv} {sig : Nat → Option Sig} {e : Expr} {d : Diag}
    (h : TypeBlame Γ sig e d) : Disagree d := by
  cases h with
  | @bin _ _ _ x _ _ _ _ h => cases x <;> first | trivial | exact h
  | @cmp _ _ _ x _ _ _ _ h => cases x <;> first | trivial | exact h
  | @un _ _ x _ _ h => cases x <;> first | trivial | exact h rfl
  | sides _ _ _ _ h => exact h
  | call _ _ _ h => exact fun e => h .other ((subst_id _).trans e)
  | generic _ _ _ _ h => exact h
  | bool _ _ h => exact h
  | _ => trivial

theorem blame_differ {q : Prog} {d : Diag} (h : Blame q d) : Disagree d := by
  have decls : ∀ {vs}, DeclBlame vs d → Disagree d := by
    intro vs h
    cases h with
    | bool _ _ _ h' => exact h'
    | _ => trivial
  have sig : ∀ {x gs is os ls}, SigBlame x gs is os ls d → Disagree d := by
    intro x gs is os ls h
    cases h <;> trivial
  have depth : ∀ {e}, DepthBlame e d → Disagree d := by
    intro e h
    cases h <;> trivial
  cases h with
  | const _ h =>
    cases h with
    | notConst => trivial
    | value _ h => exact type_differ h
    | type _ _ h => exact h
  | node _ h =>
    cases h with
    | sig h => exact sig h
    | decls h => exact decls h
    | called => trivial
    | types _ h =>
      cases h with
      | source _ h => exact type_differ h
      | asserted _ h => exact type_differ h
      | target => trivial
      | sides _ _ _ h => exact h
      | assertScalar => trivial
      | assertBool _ h => exact h
    | interface => trivial
    | clocks _ _ h =>
      cases h with
      | source _ h => exact clock_differ h
      | asserted _ h => exact clock_differ h
      | slow => trivial
      | target _ _ _ _ h => exact fun e => h (.inl e)
      | sides _ _ h => exact fun e => h (.inl e)
    | equation _ h => exact depth h
    | asserted _ h => exact depth h
  | extNode _ h =>
    cases h with
    | sig h => exact sig h
    | decls h => exact decls h
    | interface => trivial

end Chandeliers.Tell
