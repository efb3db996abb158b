import Verif.Lemmas.Follows
import Verif.Lemmas.Emit
import Verif.Lemmas.AnyOrder

/-!
# A declaration among others

What the compiler makes of a declaration, and what it does, do not depend on the declarations that it
does not mention.
-/

set_option autoImplicit false

namespace Chandeliers.Fol
open Chandeliers.San Chandeliers.Spec Chandeliers.Syn Chandeliers.Err Chandeliers.Err.Chk
open Chandeliers.Prg Chandeliers.Emt

/-! ## The passes -/

/-- All that one table knows, the other does. -/
def Sub {α : Type*} (f g : String → Option α) : Prop := ∀ x a, f x = some a → g x = some a

theorem passes_more {b : Bool} {o : TyOpts} {sigs sigs' : String → Option Sig}
    {consts consts' : String → Option TyBase} {src : SrcNode} {n : Node} (hs : Sub sigs sigs')
    (hc : Sub consts consts') (h : Passes b o sigs consts src n) : Passes b o sigs' consts' src n := by
  obtain ⟨n₁, n₂, n₃, n₄, h1, h2, ⟨⟨a, u⟩, s', h3⟩, h4, h5⟩ := h
  obtain ⟨b', h6⟩ := nodeTypecheck_more (b := a) (t := ()) hc hs h3
  exact ⟨n₁, n₂, n₃, n₄, h1, h2, ⟨_, _, h6⟩, h4, h5⟩

theorem passes_unique {b : Bool} {o : TyOpts} {sigs : String → Option Sig}
    {consts : String → Option TyBase} {src : SrcNode} {n n' : Node} (h : Passes b o sigs consts src n)
    (h' : Passes b o sigs consts src n') : n = n' := by
  obtain ⟨n₁, n₂, n₃, n₄, h1, h2, ⟨⟨a, u⟩, s', h3⟩, ⟨⟨a4, u4⟩, ⟨b4, v4⟩, h4⟩, ⟨⟨a5, u5⟩, ⟨b5, v5⟩, h5⟩⟩ := h
  obtain ⟨m₁, m₂, m₃, m₄, k1, k2, ⟨⟨b, v⟩, t', k3⟩, ⟨⟨c4, w4⟩, ⟨d4, x4⟩, k4⟩, ⟨⟨c5, w5⟩, ⟨d5, x5⟩, k5⟩⟩ := h'
  rw [h1] at k1
  cases k1
  rw [h2] at k2
  cases k2
  obtain ⟨b', h6⟩ := nodeTypecheck_more (b := b) (t := ()) (sigs' := sigs) (consts' := consts)
    (fun _ _ h => h) (fun _ _ h => h) h3
  rw [k3] at h6
  cases h6
  obtain ⟨rfl, -⟩ := follows_unique (nodeClockcheck_follows _) h4 k4
  obtain ⟨rfl, -⟩ := follows_unique (makePositive_follows _) h5 k5
  rfl

/-- What a declaration becomes when these are the nodes and constants. -/
inductive Becomes (sigs : String → Option Sig) (consts : String → Option TyBase) :
    SrcDecl → San.Decl → Prop
  | const {attrs c c'} (ht : c.translate = .ok c') : Becomes sigs consts ⟨attrs, .const c⟩ (.const c')
  | extConst {attrs x ty} : Becomes sigs consts ⟨attrs, .extConst x ty⟩ (.extConst ⟨x, ty⟩)
  | node {attrs src n}
    (h : Passes (meaning attrs).universalPre (tyOpts (meaning attrs)) sigs consts src n) :
    Becomes sigs consts ⟨attrs, .node src⟩ (.node n)
  | extNode {attrs f ins outs} : Becomes sigs consts ⟨attrs, .extNode f ins outs⟩
      (.extNode ⟨f, translateArgs ins, translateArgs outs⟩)

theorem becomes_unique {sigs : String → Option Sig} {consts : String → Option TyBase} {d : SrcDecl}
    {x y : San.Decl} (h : Becomes sigs consts d x) (h' : Becomes sigs consts d y) : x = y := by
  cases h with
  | const h =>
    cases h' with
    | const h' => rw [h] at h'; cases h'; rfl
  | extConst => cases h'; rfl
  | node h =>
    cases h' with
    | node h' => rw [passes_unique h h']
  | extNode => cases h'; rfl

theorem sub_extend {α : Type} {f g : String → Option α} {x : String} {a : α} (h : Sub f g)
    (hx : g x = some a) : Sub (extend f x a) g := by
  intro y b hb
  unfold extend at hb
  by_cases e : y = x
  · rw [if_pos e] at hb; cases hb; rw [e]; exact hx
  · rw [if_neg e] at hb; exact h y b hb

theorem const_name {c : SrcConst} {c' : Const} (h : c.translate = .ok c') :
    c'.name = c.name ∧ c'.ty = c.ty := by
  obtain ⟨x, s, -, -, -, rfl⟩ := Den.const_translate h
  exact ⟨rfl, rfl⟩

theorem sigOf_args {b : Bool} {o : TyOpts} {sigs : String → Option Sig}
    {consts : String → Option TyBase} {src : SrcNode} {n : Node} (h : Passes b o sigs consts src n)
    (gens : List String) : sigOf gens n.inputs n.outputs =
      (gens, argTypes src.inputs, argTypes src.outputs) := by
  obtain ⟨-, p2, p3⟩ := passes_sig h
  simp only [sigOf, p2, p3, translateArgs_ty]

/-- In a table that has the declarations of a program, they become what they become in the program. -/
theorem passes_becomes {S' : String → Option Sig} {G' : String → Option TyBase}
    {sigs : String → Option Sig} {consts : String → Option TyBase}
    {q : List SrcDecl} {ds : List San.Decl} (h : ProgPasses sigs consts q ds) :
    (∀ d ∈ q, ∀ f s, Static.nodeSig d = some (f, s) → S' f = some s) →
    (∀ d ∈ q, ∀ x t, Static.constant d = some (x, t) → G' x = some t) →
    Sub sigs S' → Sub consts G' → List.Forall₂ (Becomes S' G') q ds := by
  induction h with
  | nil => intro _ _ _ _; exact .nil
  | @const sigs consts attrs c c' ds ds' ht h hn hs ih =>
    intro h1 h2 h3 h4
    obtain ⟨e1, e2⟩ := const_name ht
    refine .cons (.const ht) (ih (fun d hd => h1 d (List.mem_cons_of_mem _ hd))
      (fun d hd => h2 d (List.mem_cons_of_mem _ hd)) h3 (sub_extend h4 ?_))
    rw [e1, e2]
    exact h2 _ (List.mem_cons_self ..) _ _ rfl
  | @extConst sigs consts attrs x ty ds ds' hn hs ih =>
    intro h1 h2 h3 h4
    exact .cons .extConst (ih (fun d hd => h1 d (List.mem_cons_of_mem _ hd))
      (fun d hd => h2 d (List.mem_cons_of_mem _ hd)) h3
      (sub_extend h4 (h2 _ (List.mem_cons_self ..) _ _ rfl)))
  | @node sigs consts attrs src n ds ds' h hn hs ih =>
    intro h1 h2 h3 h4
    refine .cons (.node (passes_more h3 h4 h)) (ih (fun d hd => h1 d (List.mem_cons_of_mem _ hd))
      (fun d hd => h2 d (List.mem_cons_of_mem _ hd)) (sub_extend h3 ?_) h4)
    rw [sigOf_args h]
    exact h1 _ (List.mem_cons_self ..) _ _ rfl
  | @extNode sigs consts attrs f ins outs ds ds' h hdt hn hs ih =>
    intro h1 h2 h3 h4
    refine .cons .extNode (ih (fun d hd => h1 d (List.mem_cons_of_mem _ hd))
      (fun d hd => h2 d (List.mem_cons_of_mem _ hd)) (sub_extend h3 ?_) h4)
    simp only [sigOf, translateArgs_ty]
    exact h1 _ (List.mem_cons_self ..) _ _ rfl

theorem keys_names : {p : SrcProg} → (p.map key).Nodup →
    ((p.filterMap Static.nodeSig).map (·.1)).Nodup ∧ ((p.filterMap Static.constant).map (·.1)).Nodup
  | [], _ => ⟨List.nodup_nil, List.nodup_nil⟩
  | d :: p, h => by
    rw [List.map_cons, List.nodup_cons] at h
    obtain ⟨i1, i2⟩ := keys_names h.2
    have hN : ∀ f, key d = (true, f) → f ∉ (p.filterMap Static.nodeSig).map (·.1) := by
      intro f hf hm
      obtain ⟨⟨g, s⟩, hm', rfl⟩ := List.mem_map.1 hm
      obtain ⟨d', hd', e⟩ := List.mem_filterMap.1 hm'
      refine h.1 (List.mem_map.2 ⟨d', hd', ?_⟩)
      rw [hf]
      obtain ⟨a, i⟩ := d'
      cases i <;> simp [Static.nodeSig, signature] at e <;> simp [key, e.1]
    have hC : ∀ x, key d = (false, x) → x ∉ (p.filterMap Static.constant).map (·.1) := by
      intro f hf hm
      obtain ⟨⟨g, s⟩, hm', rfl⟩ := List.mem_map.1 hm
      obtain ⟨d', hd', e⟩ := List.mem_filterMap.1 hm'
      refine h.1 (List.mem_map.2 ⟨d', hd', ?_⟩)
      rw [hf]
      obtain ⟨a, i⟩ := d'
      cases i <;> simp [Static.constant] at e <;> simp [key, e.1]
    obtain ⟨a, i⟩ := d
    cases i with
    | const c =>
      refine ⟨i1, ?_⟩
      simp only [List.filterMap_cons, Static.constant, List.map_cons, List.nodup_cons]
      exact ⟨hC _ rfl, i2⟩
    | extConst x t =>
      refine ⟨i1, ?_⟩
      simp only [List.filterMap_cons, Static.constant, List.map_cons, List.nodup_cons]
      exact ⟨hC _ rfl, i2⟩
    | node n =>
      refine ⟨?_, i2⟩
      simp only [List.filterMap_cons, Static.nodeSig, signature, Option.map_some, List.map_cons,
        List.nodup_cons]
      exact ⟨hN _ rfl, i1⟩
    | extNode f is os =>
      refine ⟨?_, i2⟩
      simp only [List.filterMap_cons, Static.nodeSig, signature, Option.map_some, List.map_cons,
        List.nodup_cons]
      exact ⟨hN _ rfl, i1⟩

/-- The declarations of a program determine what becomes of those of its parts. -/
theorem same_code {r q : SrcProg} {ds : List San.Decl} (hq : q.Perm r)
    (h : ProgPasses (fun _ => none) (fun _ => none) q ds) :
    ∃ S' G', List.Forall₂ (Becomes S' G') q ds ∧ ∀ p q₁ ds₁, (∀ d ∈ p, d ∈ r) → q₁.Perm p →
      ProgPasses (fun _ => none) (fun _ => none) q₁ ds₁ → List.Forall₂ (Becomes S' G') q₁ ds₁ := by
  obtain ⟨n1, n2⟩ := keys_names (((hq.map key).nodup_iff).1 (passes_keys h).2)
  have hN : ∀ d ∈ r, ∀ f s, Static.nodeSig d = some (f, s) →
      Static.find (r.filterMap Static.nodeSig) f = some s := fun d hd f s e =>
    Den.find_mem n1 (List.mem_filterMap.2 ⟨d, hd, e⟩)
  have hC : ∀ d ∈ r, ∀ x t, Static.constant d = some (x, t) →
      Static.find (r.filterMap Static.constant) x = some t := fun d hd f s e =>
    Den.find_mem n2 (List.mem_filterMap.2 ⟨d, hd, e⟩)
  have key : ∀ p q₁ ds₁, (∀ d ∈ p, d ∈ r) → q₁.Perm p →
      ProgPasses (fun _ => none) (fun _ => none) q₁ ds₁ → List.Forall₂ (Becomes _ _) q₁ ds₁ :=
    fun p q₁ ds₁ hs hq₁ h₁ => passes_becomes h₁ (fun d hd => hN d (hs d (hq₁.mem_iff.1 hd)))
      (fun d hd => hC d (hs d (hq₁.mem_iff.1 hd))) (fun _ _ h => by cases h) (fun _ _ h => by cases h)
  exact ⟨_, _, key r q ds (fun _ h => h) hq h, key⟩

/-! ## Constants that are not mentioned -/

section
variable {A : Arith} {X : Extern} {g g' : Globals} {ms : List Machine}

mutual
theorem eval_globals {env : Env} : (e : Expr) → (∀ x ∈ globalsIn e, g x = g' x) →
    ∀ s, eval A g ms env e s = eval A g' ms env e s
  | .lit l, _, s => rfl
  | .global x, h, s => by
    simp only [eval, h x (by simp [globalsIn])]
  | .var x d, _, s => rfl
  | .tuple es, h, s => by
    simp only [eval, evalList_globals es (by simpa only [globalsIn] using h)]
  | .dummyPre e, h, s => by
    simp only [eval, eval_globals e (by simpa only [globalsIn] using h)]
  | .dummyParen e, h, s => by
    simp only [eval, eval_globals e (by simpa only [globalsIn] using h)]
  | .un _ e, h, s => by
    simp only [eval, eval_globals e (by simpa only [globalsIn] using h)]
  | .bin _ l r, h, s => by
    simp only [globalsIn, List.mem_append] at h
    simp only [eval, eval_globals l (fun x hx => h x (.inl hx)),
      eval_globals r (fun x hx => h x (.inr hx))]
  | .cmp _ l r, h, s => by
    simp only [globalsIn, List.mem_append] at h
    simp only [eval, eval_globals l (fun x hx => h x (.inl hx)),
      eval_globals r (fun x hx => h x (.inr hx))]
  | .clock _ l r, h, s => by
    simp only [globalsIn, List.mem_append] at h
    simp only [eval, eval_globals l (fun x hx => h x (.inl hx)),
      eval_globals r (fun x hx => h x (.inr hx))]
  | .later _ l r, h, s => by
    simp only [globalsIn, List.mem_append] at h
    simp only [eval, eval_globals l (fun x hx => h x (.inl hx)),
      eval_globals r (fun x hx => h x (.inr hx))]
  | .flip _ l r, h, s => by
    simp only [globalsIn, List.mem_append] at h
    simp only [eval, eval_globals l (fun x hx => h x (.inl hx)),
      eval_globals r (fun x hx => h x (.inr hx))]
  | .fetchPre _ _, _, s => rfl
  | .fetchFby _ _ _, _, s => rfl
  | .ifx c y n, h, s => by
    simp only [globalsIn, List.mem_append] at h
    simp only [eval, eval_globals c (fun x hx => h x (.inl (.inl hx))),
      eval_globals y (fun x hx => h x (.inl (.inr hx))), eval_globals n (fun x hx => h x (.inr hx))]
  | .merge c y n, h, s => by
    simp only [globalsIn, List.mem_append] at h
    simp only [eval, eval_globals c (fun x hx => h x (.inl (.inl hx))),
      eval_globals y (fun x hx => h x (.inl (.inr hx))), eval_globals n (fun x hx => h x (.inr hx))]
  | .substep _ _ e, h, s => by
    simp only [eval, eval_globals e (by simpa only [globalsIn] using h)]
theorem evalList_globals {env : Env} : (es : List Expr) → (∀ x ∈ globalsInList es, g x = g' x) →
    ∀ s, evalList A g ms env es s = evalList A g' ms env es s
  | [], _, s => rfl
  | e :: es, h, s => by
    simp only [globalsInList, List.mem_append] at h
    simp only [evalList, eval_globals e (fun x hx => h x (.inl hx)),
      evalList_globals es (fun x hx => h x (.inr hx))]
end

theorem exec_globals {st : Stmt} (h : ∀ e ∈ st.emitted, ∀ x ∈ globalsIn e, g x = g' x)
    (x : Env × NodeState ms) : exec A g ms st x = exec A g' ms st x := by
  obtain ⟨env, s⟩ := x
  cases st with
  | let_ v e =>
    simp only [exec, eval_globals e (h e (by simp [Stmt.emitted]))]
  | assert e =>
    simp only [exec, eval_globals e (h e (by simp [Stmt.emitted]))]
  | updateRegister id e =>
    simp only [exec, eval_globals e (h e (by simp [Stmt.emitted]))]
  | initRegister id v k =>
    cases k with
    | none => rfl
    | some k =>
      cases v with
      | none => simp only [exec, eval_globals k (h k (by simp [Stmt.emitted]))]
      | some v =>
        simp only [exec, eval_globals k (h k (by simp [Stmt.emitted])),
          eval_globals v (h v (by simp [Stmt.emitted]))]

theorem execAll_globals : {sts : List Stmt} →
    (∀ st ∈ sts, ∀ e ∈ st.emitted, ∀ x ∈ globalsIn e, g x = g' x) →
    (x : Env × NodeState ms) → execAll A g ms sts x = execAll A g' ms sts x
  | [], _, x => rfl
  | st :: sts, h, x => by
    simp only [execAll, exec_globals (h st (List.mem_cons_self ..)),
      execAll_globals fun st' hst => h st' (List.mem_cons_of_mem _ hst)]

theorem machine_globals {n : Node} (h : ∀ st ∈ n.stmts, ∀ e ∈ st.emitted, ∀ x ∈ globalsIn e, g x = g' x) :
    n.machine A g ms = n.machine A g' ms := by
  have : n.step A g ms = n.step A g' ms := by
    funext s i
    simp only [Node.step, Node.body, execAll_globals h]
  simp only [Node.machine, this]

theorem const_globals {e : Expr} (hc : ConstExpr e) (h : ∀ x ∈ globalsIn e, g x = g' x) {c : CExpr}
    (ht : e.constTokens = some c) : c.eval A g = c.eval A g' := by
  induction hc generalizing c with
  | lit => cases ht; rfl
  | @global x => cases ht; simp only [CExpr.eval, h x (by simp [globalsIn])]
  | paren _ ih => exact ih (by simpa only [globalsIn] using h) (by simpa only [Expr.constTokens] using ht)
  | un _ ih =>
    simp only [Expr.constTokens, Option.bind_eq_bind, Option.bind_eq_some_iff] at ht
    obtain ⟨a, h1, h2⟩ := ht
    cases h2
    simp only [CExpr.eval, ih (by simpa only [globalsIn] using h) h1]
  | bin _ _ ih1 ih2 =>
    simp only [Expr.constTokens, Option.bind_eq_bind, Option.bind_eq_some_iff] at ht
    obtain ⟨a, h1, b, h2, h3⟩ := ht
    cases h3
    simp only [globalsIn, List.mem_append] at h
    simp only [CExpr.eval, ih1 (fun x hx => h x (.inl hx)) h1, ih2 (fun x hx => h x (.inr hx)) h2]
  | cmp _ _ ih1 ih2 =>
    simp only [Expr.constTokens, Option.bind_eq_bind, Option.bind_eq_some_iff] at ht
    obtain ⟨a, h1, b, h2, h3⟩ := ht
    cases h3
    simp only [globalsIn, List.mem_append] at h
    simp only [CExpr.eval, ih1 (fun x hx => h x (.inl hx)) h1, ih2 (fun x hx => h x (.inr hx)) h2]
  | ifx _ _ _ ih1 ih2 ih3 =>
    simp only [Expr.constTokens, Option.bind_eq_bind, Option.bind_eq_some_iff] at ht
    obtain ⟨a, h1, b, h2, c, h3, h4⟩ := ht
    cases h4
    simp only [globalsIn, List.mem_append] at h
    simp only [CExpr.eval, ih1 (fun x hx => h x (.inl (.inl hx))) h1,
      ih2 (fun x hx => h x (.inl (.inr hx))) h2, ih3 (fun x hx => h x (.inr hx)) h3]

/-! ## Linking -/

/-- The constants of a program have the values that they have in a larger one. -/
theorem linkConsts_sub {g₁ : Globals} {sigs : String → Option Sig} {consts : String → Option TyBase}
    {q : List SrcDecl} {ds : List San.Decl} (h : ProgPasses sigs consts q ds) :
    Rep.Satisfies A X g₁ q → {g : Globals} → Sub g g₁ → (∀ x, consts x ≠ none → g x ≠ none) →
    ∃ g', linkConsts A X g ds = .ok g' ∧ Sub g g' ∧ Sub g' g₁ := by
  have step : ∀ {consts : String → Option TyBase} {g : Globals} {x : String} {t : TyBase} {v : Scalar},
      (∀ x, consts x ≠ none → g x ≠ none) → ∀ y, extend consts x t y ≠ none →
        (if y = x then some v else g y) ≠ none := by
    intro consts g x t v h y hy
    unfold extend at hy
    by_cases e : y = x
    · rw [if_pos e]; simp
    · rw [if_neg e] at hy ⊢; exact h y hy
  have keep : ∀ {g g' : Globals} {x : String} {v : Scalar}, Sub g g₁ → g₁ x = some v →
      Sub (fun y => if y = x then some v else g y) g' → Sub g g' := by
    intro g g' x v h1 h2 h3 y w hy
    refine h3 y w ?_
    by_cases e : y = x
    · subst e
      rw [h1 y w hy] at h2
      cases h2
      simp
    · simpa [e] using hy
  induction h with
  | nil => intro _ g hg _; exact ⟨g, rfl, fun _ _ h => h, hg⟩
  | @const sigs consts attrs c c' ds ds' ht h hn hs ih =>
    intro hS g hg hk
    obtain ⟨c₁, v, k1, k2, k3⟩ := hS.consts attrs c (List.mem_cons_self ..)
    rw [ht] at k1
    cases k1
    have e : c'.eval A g = .ok v := by
      rw [← k2]
      unfold Const.eval
      cases hc : c'.value.constTokens with
      | none => rfl
      | some ce =>
        refine const_globals h.const (fun x hx => ?_) hc
        have := globals_known h.type hx
        have hx' : g x ≠ none := hk x (by
          intro e
          rw [show (constEnv consts).global x = consts x from rfl, e] at this
          cases this)
        cases hgx : g x with
        | none => exact absurd hgx hx'
        | some w => rw [hg x w hgx]
    have hname := (const_name ht).1
    obtain ⟨g', l1, l2, l3⟩ := ih hS.tail (Rep.below_set hg (hname ▸ k3)) (step hk)
    refine ⟨g', ?_, keep hg (hname ▸ k3) l2, l3⟩
    unfold linkConsts
    rw [e]
    exact l1
  | @extConst sigs consts attrs x ty ds ds' hn hs ih =>
    intro hS g hg hk
    obtain ⟨v, k1, k2⟩ := hS.externs attrs x ty (List.mem_cons_self ..)
    obtain ⟨g', l1, l2, l3⟩ := ih hS.tail (Rep.below_set hg k2) (step hk)
    refine ⟨g', ?_, keep hg k2 l2, l3⟩
    unfold linkConsts
    rw [show X.consts (ExtConst.mk x ty).name = some v from k1]
    exact l1
  | node h hn hs ih =>
    intro hS g hg hk
    unfold linkConsts
    exact ih hS.tail hg hk
  | extNode h hd hn hs ih =>
    intro hS g hg hk
    unfold linkConsts
    exact ih hS.tail hg hk

/-- The nodes of a program are in the larger one. -/
structure Holds (A : Arith) (X : Extern) (g : Globals) (N : String → Option Machine)
    (ds : List San.Decl) : Prop where
  nodes : ∀ n, .node n ∈ ds → ∃ ms, N n.name = some (n.machine A g ms) ∧ Linked ms N n.blocks ∧
    ms.length = n.blocks.length
  externs : ∀ n, .extNode n ∈ ds → ∃ m, X.nodes n.name = some m ∧ N n.name = some (wrapExtern m)

theorem linked_unique {N : String → Option Machine} {bs : List NodeInstance} {ms ms' : List Machine}
    (h : Linked ms N bs) (h' : Linked ms' N bs) (hl : ms.length = bs.length)
    (hl' : ms'.length = bs.length) : ms = ms' := by
  apply List.ext_getElem?
  intro i
  cases hb : bs[i]? with
  | none =>
    rw [List.getElem?_eq_none_iff] at hb
    rw [List.getElem?_eq_none_iff.2 (by omega), List.getElem?_eq_none_iff.2 (by omega)]
  | some b => rw [h i b hb, h' i b hb]

theorem linkNodes_sub {N₁ : String → Option Machine} {sigs : String → Option Sig}
    {consts : String → Option TyBase}
    {q : List SrcDecl} {ds : List San.Decl} (h : ProgPasses sigs consts q ds) :
    Holds A X g' N₁ ds → (∀ n, .node n ∈ ds → ∀ st ∈ n.stmts, ∀ e ∈ st.emitted, ∀ x ∈ globalsIn e,
      g x = g' x) →
    {N : String → Option Machine} → Sub N N₁ → (∀ f, sigs f ≠ none → N f ≠ none) →
    ∃ N', linkNodes A X g N ds = .ok N' ∧ Sub N' N₁ := by
  have step : ∀ {sigs : String → Option Sig} {N : String → Option Machine} {f : String} {t : Sig}
      {m : Machine}, (∀ x, sigs x ≠ none → N x ≠ none) → ∀ y, extend sigs f t y ≠ none →
        (if y = f then some m else N y) ≠ none := by
    intro sigs N x t v h y hy
    unfold extend at hy
    by_cases e : y = x
    · rw [if_pos e]; simp
    · rw [if_neg e] at hy ⊢; exact h y hy
  have below : ∀ {N : String → Option Machine} {f : String} {m : Machine}, Sub N N₁ →
      N₁ f = some m → Sub (fun y => if y = f then some m else N y) N₁ := by
    intro N f m h1 h2 y w hy
    by_cases e : y = f
    · subst e
      simp only [if_true] at hy
      rw [h2, hy]
    · simp only [e, if_false] at hy
      exact h1 y w hy
  induction h with
  | nil => intro _ _ N hN _; exact ⟨N, rfl, hN⟩
  | @const sigs consts attrs c c' ds ds' ht h hn hs ih =>
    intro hH hG N hN hk
    unfold linkNodes
    exact ih ⟨fun n hm => hH.nodes n (List.mem_cons_of_mem _ hm),
      fun n hm => hH.externs n (List.mem_cons_of_mem _ hm)⟩
      (fun n hm => hG n (List.mem_cons_of_mem _ hm)) hN hk
  | @extConst sigs consts attrs x ty ds ds' hn hs ih =>
    intro hH hG N hN hk
    unfold linkNodes
    exact ih ⟨fun n hm => hH.nodes n (List.mem_cons_of_mem _ hm),
      fun n hm => hH.externs n (List.mem_cons_of_mem _ hm)⟩
      (fun n hm => hG n (List.mem_cons_of_mem _ hm)) hN hk
  | @node sigs consts attrs src n ds ds' h hn hs ih =>
    intro hH hG N hN hk
    obtain ⟨ms, k1, k2, k3⟩ := hH.nodes n (List.mem_cons_self ..)
    obtain ⟨ms', hms⟩ := subnodes_some (N := N) (bs := n.blocks) fun b hb => by
      obtain ⟨s, e⟩ := blocks_known h b hb
      exact hk _ (by rw [e]; simp)
    obtain ⟨l1, l2⟩ := subnodes_linked hms
    have e : ms' = ms := by
      refine linked_unique (N := N₁) (fun i b hb => ?_) k2 (subnodes_length hms) k3
      rw [l1 i b hb]
      have hne := l2 b (List.mem_of_getElem? hb)
      cases hx : N b.name with
      | none => exact absurd hx hne
      | some m => rw [hN _ _ hx]
    subst e
    have hname := (passes_sig h).1
    have em : n.machine A g ms' = n.machine A g' ms' :=
      machine_globals (hG n (List.mem_cons_self ..))
    obtain ⟨N', r1, r2⟩ := ih ⟨fun n hm => hH.nodes n (List.mem_cons_of_mem _ hm),
      fun n hm => hH.externs n (List.mem_cons_of_mem _ hm)⟩
      (fun n hm => hG n (List.mem_cons_of_mem _ hm))
      (below (f := src.name) (m := n.machine A g ms') hN (by rw [em, ← hname]; exact k1)) (step hk)
    refine ⟨N', ?_, r2⟩
    unfold linkNodes
    rw [hms, hname]
    exact r1
  | @extNode sigs consts attrs f ins outs ds ds' h hdt hn hs ih =>
    intro hH hG N hN hk
    obtain ⟨m, k1, k2⟩ := hH.externs _ (List.mem_cons_self ..)
    obtain ⟨N', r1, r2⟩ := ih ⟨fun n hm => hH.nodes n (List.mem_cons_of_mem _ hm),
      fun n hm => hH.externs n (List.mem_cons_of_mem _ hm)⟩
      (fun n hm => hG n (List.mem_cons_of_mem _ hm))
      (below (f := f) (m := wrapExtern m) hN k2) (step hk)
    refine ⟨N', ?_, r2⟩
    unfold linkNodes
    rw [k1]
    exact r1

/-- What a program links to. -/
theorem holds_link {N : String → Option Machine} {q : List SrcDecl} {ds : List San.Decl}
    {S' : String → Option Sig} {G' : String → Option TyBase}
    (h : ProgPasses (fun _ => none) (fun _ => none) q ds) (hb : List.Forall₂ (Becomes S' G') q ds)
    (hl : linkNodes A X g (fun _ => none) ds = .ok N) : Holds A X g N ds := by
  obtain ⟨-, h1, h2⟩ := linkNodes_values h (fun _ _ => rfl) hl
  have hk := (passes_keys h).2
  refine ⟨fun n hn => ?_, fun n hn => ?_⟩
  · obtain ⟨d, hd, hx⟩ := forall₂_right hb hn
    cases hx with
    | @node attrs src _ hp =>
      obtain ⟨n', ms, s, c, k1, k2, k3, k4, k5⟩ := h1 attrs src hd
      obtain ⟨d', hd', hx'⟩ := forall₂_right hb k2
      cases hx' with
      | @node attrs' src' _ hp' =>
        have e : (⟨attrs', .node src'⟩ : SrcDecl) = ⟨attrs, .node src⟩ := by
          refine nodup_map_inj hk hd' hd ?_
          simp only [key, ← (passes_sig hp').1, (passes_sig k1).1]
        cases e
        cases passes_unique hp hp'
        exact ⟨ms, by rw [(passes_sig hp).1]; exact k3, k4, k5⟩
  · obtain ⟨d, hd, hx⟩ := forall₂_right hb hn
    cases hx with
    | extNode => exact h2 _ _ _ _ hd

theorem linked_sub {N N₁ : String → Option Machine} {ms : List Machine} {bs : List NodeInstance}
    (hs : Sub N N₁) (h : Linked ms N bs) (hl : ms.length = bs.length) : Linked ms N₁ bs := by
  intro i b hb
  have hi : i < bs.length := (List.getElem?_eq_some_iff.1 hb).1
  have e := h i b hb
  rw [List.getElem?_eq_getElem (by omega)] at e
  rw [List.getElem?_eq_getElem (by omega)]
  exact (hs _ _ e.symm).symm

/-- What the nodes of a program mention has the same value when there are more constants. -/
theorem mentions_sub {p q : SrcProg} {ds : List San.Decl} {S' : String → Option Sig}
    {G' : String → Option TyBase} {g₁ : Globals} (hL : Static.Legal p) (hq : q.Perm p)
    (h : ProgPasses (fun _ => none) (fun _ => none) q ds) (hb : List.Forall₂ (Becomes S' G') q ds)
    (h1 : linkConsts A X (fun _ => none) ds = .ok g) (h2 : Sub g g₁) :
    ∀ n, .node n ∈ ds → ∀ st ∈ n.stmts, ∀ e ∈ st.emitted, ∀ x ∈ globalsIn e, g x = g₁ x := by
  obtain ⟨-, v1, v2⟩ := linkConsts_values h (fun _ _ => rfl) h1
  intro n hn st hst e he x hx
  obtain ⟨d, hd, hx'⟩ := forall₂_right hb hn
  cases hx' with
  | node hp =>
    obtain ⟨d', hd', hk⟩ := (node_mentions hL (hq.mem_iff.1 hd) hp).2.1 st hst e he x hx
    have : ∃ v, g x = some v := by
      obtain ⟨a, i⟩ := d'
      cases i with
      | const c =>
        simp only [key, Prod.mk.injEq, true_and] at hk
        obtain ⟨-, v, -, -, k⟩ := v1 _ _ (hq.mem_iff.2 hd')
        exact ⟨v, hk ▸ k⟩
      | extConst y t =>
        simp only [key, Prod.mk.injEq, true_and] at hk
        obtain ⟨v, -, k⟩ := v2 _ _ _ (hq.mem_iff.2 hd')
        exact ⟨v, hk ▸ k⟩
      | node n => simp [key] at hk
      | extNode f i o => simp [key] at hk
    obtain ⟨v, e⟩ := this
    rw [e, h2 x v e]

theorem holds_more {p q : SrcProg} {ds : List San.Decl} {S' : String → Option Sig}
    {G' : String → Option TyBase} {g₁ : Globals} {N N₁ : String → Option Machine}
    (hL : Static.Legal p) (hq : q.Perm p) (h : ProgPasses (fun _ => none) (fun _ => none) q ds)
    (hb : List.Forall₂ (Becomes S' G') q ds) (h1 : linkConsts A X (fun _ => none) ds = .ok g)
    (hH : Holds A X g N ds) (hc : Sub g g₁) (hN : Sub N N₁) : Holds A X g₁ N₁ ds := by
  refine ⟨fun n hn => ?_, fun n hn => ?_⟩
  · obtain ⟨ms, k1, k2, k3⟩ := hH.nodes n hn
    refine ⟨ms, ?_, linked_sub hN k2 k3, k3⟩
    rw [← machine_globals (mentions_sub hL hq h hb h1 hc n hn)]
    exact hN _ _ k1
  · obtain ⟨m, k1, k2⟩ := hH.externs n hn
    exact ⟨m, k1, hN _ _ k2⟩

/-- A program links if all its items are somewhere. -/
theorem link_within {p q : SrcProg} {ds : List San.Decl} {S' : String → Option Sig}
    {G' : String → Option TyBase} {g₁ : Globals} {N₁ : String → Option Machine}
    (hL : Static.Legal p) (hq : q.Perm p) (h : ProgPasses (fun _ => none) (fun _ => none) q ds)
    (hb : List.Forall₂ (Becomes S' G') q ds) (hS : Rep.Satisfies A X g₁ q) (hH : Holds A X g₁ N₁ ds) :
    ∃ I, link A X ds = .ok I ∧ Sub I.consts g₁ ∧ Sub I.nodes N₁ := by
  obtain ⟨g, h1, -, h2⟩ := linkConsts_sub h hS (g := fun _ => none) (fun _ _ h => by cases h)
    (fun _ h => absurd rfl h)
  have hg := mentions_sub hL hq h hb h1 h2
  obtain ⟨N, h3, h4⟩ := linkNodes_sub h hH hg (N := fun _ => none) (fun _ _ h => by cases h)
    (fun _ h => absurd rfl h)
  refine ⟨⟨g, N⟩, ?_, h2, h4⟩
  unfold link
  simp only [h1, h3]

end
end Chandeliers.Fol
