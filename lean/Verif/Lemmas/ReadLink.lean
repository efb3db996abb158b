import Verif.Lemmas.ReadNode
import Verif.Props.Program

/-! Reading back the text of a whole program. -/

set_option autoImplicit false

namespace Chandeliers.Txt
open Err San Spec Syn Quo Props

variable {uid : Nat}

mutual
theorem finite_of_printable : (e : Expr) → printableExpr e = true → FiniteExpr e
  | .lit l, h => by cases l <;> simp_all [printableExpr, printable, FiniteExpr, FiniteLit, finite,
      F64.finite]
  | .global _, _ => trivial
  | .var _ _, _ => trivial
  | .dummyPre e, h => finite_of_printable e h
  | .dummyParen e, h => finite_of_printable e h
  | .tuple es, h => finites_of_printable es h
  | .bin _ l r, h => by
    simp only [printableExpr, Bool.and_eq_true] at h
    exact ⟨finite_of_printable l h.1, finite_of_printable r h.2⟩
  | .un _ e, h => finite_of_printable e h
  | .cmp _ l r, h => by
    simp only [printableExpr, Bool.and_eq_true] at h
    exact ⟨finite_of_printable l h.1, finite_of_printable r h.2⟩
  | .later _ l r, h => by
    simp only [printableExpr, Bool.and_eq_true] at h
    exact ⟨finite_of_printable l h.1, finite_of_printable r h.2⟩
  | .ifx c y n, h => by
    simp only [printableExpr, Bool.and_eq_true] at h
    exact ⟨finite_of_printable c h.1, finite_of_printable y h.2.1, finite_of_printable n h.2.2⟩
  | .substep _ _ e, h => finite_of_printable e h
  | .merge c y n, h => by
    simp only [printableExpr, Bool.and_eq_true] at h
    exact ⟨finite_of_printable c h.1, finite_of_printable y h.2.1, finite_of_printable n h.2.2⟩
  | .clock _ l r, h => by
    simp only [printableExpr, Bool.and_eq_true] at h
    exact ⟨finite_of_printable l h.1, finite_of_printable r h.2⟩
  | .fetchPre _ _, _ => trivial
  | .fetchFby _ _ _, _ => trivial
  | .flip _ l r, h => by
    simp only [printableExpr, Bool.and_eq_true] at h
    exact ⟨finite_of_printable l h.1, finite_of_printable r h.2⟩
theorem finites_of_printable : (es : List Expr) → printableExprs es = true → FiniteExprs es
  | [], _ => trivial
  | e :: es, h => by
    simp only [printableExprs, Bool.and_eq_true] at h
    exact ⟨finite_of_printable e h.1, finites_of_printable es h.2⟩
end

theorem finiteStmt_of_printable {s : Stmt} (h : printableStmt s = true) : FiniteStmt s := by
  cases s with
  | let_ p e => exact finite_of_printable e h
  | assert e => exact finite_of_printable e h
  | updateRegister id e => exact finite_of_printable e h
  | initRegister id v c =>
    simp only [printableStmt, Bool.and_eq_true] at h
    exact ⟨fun e he => finite_of_printable e (by simpa [he] using h.1),
      fun e he => finite_of_printable e (by simpa [he] using h.2)⟩

/-- Code is only emitted for declarations that can be printed. -/
theorem accepted_emittable {p : SrcProg} {p' : Prog} {w : List Report}
    (h : decl (compile p) = .done w (some p')) : ∀ d ∈ p'.decls, emittable d = true := by
  unfold decl at h
  split at h
  · cases h
  · split at h <;> cases h
  · rename_i hc
    cases h
    obtain ⟨p₁, s1, h1, g1⟩ := Chk.bind_some.1 hc
    obtain ⟨p₂, s2, h2, g2⟩ := Chk.bind_some.1 g1
    obtain ⟨p₃, s3, h3, g3⟩ := Chk.bind_some.1 g2
    obtain ⟨p₄, s4, h4, g4⟩ := Chk.bind_some.1 g3
    obtain ⟨p₅, s5, h5, g5⟩ := Chk.bind_some.1 g4
    simp only [codegen] at g5
    split at g5
    · rename_i h
      cases g5
      exact List.all_eq_true.1 h
    · cases g5

theorem passes_const {sigs : String → Option Sig} {consts : String → Option TyBase}
    {q : List SrcDecl} {ds : List San.Decl} (h : ProgPasses sigs consts q ds) {c : San.Const}
    (hm : .const c ∈ ds) : ConstExpr c.value := by
  induction h with
  | nil => cases hm
  | const ht h hn hs ih =>
    rcases List.mem_cons.1 hm with e | hm
    · cases e; exact h.const
    · exact ih hm
  | extConst hn hs ih =>
    rcases List.mem_cons.1 hm with e | hm
    · cases e
    · exact ih hm
  | node h hn hs ih =>
    rcases List.mem_cons.1 hm with e | hm
    · cases e
    · exact ih hm
  | extNode h hd hn hs ih =>
    rcases List.mem_cons.1 hm with e | hm
    · cases e
    · exact ih hm

/-- The text of the declaration is read correctly with this bound. -/
def GoodAt (uid n : Nat) : San.Decl → Prop
  | .const c => ∃ e, c.value.constTokens = some e ∧
      rdConst n (c.value.constText uid) = some (renameConst (globName uid) e)
  | .extConst _ => True
  | .node d => rdFn n (d.text uid) = some (d.quote uid)
  | .extNode d => rdFn n (externText d.inputs d.outputs) = some (externQuote d.inputs d.outputs)

theorem good_accepted {p : SrcProg} {p' : Prog} {w : List Report}
    (h : decl (compile p) = .done w (some p')) (uid : Nat) :
    ∀ d ∈ p'.decls, ∃ k, ∀ n, n ≥ k → GoodAt uid n d := by
  intro d hd
  have he := accepted_emittable h d hd
  obtain ⟨q, -, hp⟩ := accepted_passes h
  cases d with
  | const c =>
    simp only [emittable, Bool.and_eq_true] at he
    obtain ⟨e, h1, k, hk⟩ := readsConst (uid := uid) (passes_const hp hd)
      (finite_of_printable _ he.2)
    exact ⟨k, fun n hn => ⟨e, h1, hk n hn⟩⟩
  | extConst c => exact ⟨0, fun _ _ => trivial⟩
  | node d =>
    simp only [emittable, Bool.and_eq_true, List.all_eq_true] at he
    exact readsNode (fun s hs => finiteStmt_of_printable (he.2 s hs)) fun s hs id v e => by
      have := he.1.2 s hs
      subst e
      cases this
  | extNode d => exact readsExtern d.inputs d.outputs

theorem all_good {ds : List San.Decl} (h : ∀ d ∈ ds, ∃ k, ∀ n, n ≥ k → GoodAt uid n d) :
    ∃ k, ∀ n, n ≥ k → ∀ d ∈ ds, GoodAt uid n d := by
  induction ds with
  | nil => exact ⟨0, fun _ _ d hd => by cases hd⟩
  | cons d ds ih =>
    obtain ⟨k1, h1⟩ := h d (by simp)
    obtain ⟨k2, h2⟩ := ih fun d hd => h d (by simp [hd])
    refine ⟨k1 + k2, fun n hn d' hd => ?_⟩
    rcases List.mem_cons.1 hd with rfl | hd
    · exact h1 n (by omega)
    · exact h2 n (by omega) d' hd

/-- The second table has the entries of the first one under their Rust names, and nothing else. -/
def Named (uid : Nat) (g g' : Globals) : Prop :=
  (∀ x, g' (globName uid x) = g x) ∧ ∀ y, (∀ x, y ≠ globName uid x) → g' y = none

theorem Named.set {g g' : Globals} (h : Named uid g g') (x : String) (v : Scalar) :
    Named uid (fun y => if y = x then some v else g y)
      (fun y => if y = globName uid x then some v else g' y) := by
  refine ⟨fun z => ?_, fun y hy => ?_⟩
  · by_cases hz : z = x
    · simp [hz]
    · have : globName uid z ≠ globName uid x := fun e => hz (globName_inj e)
      simp [hz, this, h.1]
  · simp [hy x, h.2 y hy]

theorem textConsts_named {n : Nat} {A : Arith} {X : Extern} : (ds : List San.Decl) →
    (∀ d ∈ ds, GoodAt uid n d) → ∀ {g g' : Globals}, Named uid g g' →
    (∃ e, linkConsts A X g ds = .error e ∧ textConsts n uid A X g' ds = .error e) ∨
    ∃ f f', linkConsts A X g ds = .ok f ∧ textConsts n uid A X g' ds = .ok f' ∧ Named uid f f'
  | [], _, g, g', hg => .inr ⟨g, g', rfl, rfl, hg⟩
  | .const c :: ds, h, g, g', hg => by
    obtain ⟨e, h1, h2⟩ := h _ List.mem_cons_self
    have h3 := eval_rename (A := A) hg.1 e
    unfold linkConsts textConsts
    simp only [San.Const.eval, h1, h2, h3]
    cases e.eval A g with
    | error q => exact .inl ⟨q, rfl, rfl⟩
    | ok v => exact textConsts_named ds (fun d hd => h d (by simp [hd])) (hg.set _ v)
  | .extConst c :: ds, h, g, g', hg => by
    unfold linkConsts textConsts
    cases X.consts c.name with
    | none => exact .inl ⟨_, rfl, rfl⟩
    | some v => exact textConsts_named ds (fun d hd => h d (by simp [hd])) (hg.set _ v)
  | .node _ :: ds, h, g, g', hg => by
    unfold linkConsts textConsts
    exact textConsts_named ds (fun d hd => h d (by simp [hd])) hg
  | .extNode _ :: ds, h, g, g', hg => by
    unfold linkConsts textConsts
    exact textConsts_named ds (fun d hd => h d (by simp [hd])) hg

theorem textNodes_eq {n : Nat} {A : Arith} {X : Extern} {consts : String → Option Scalar} :
    (ds : List San.Decl) → (∀ d ∈ ds, GoodAt uid n d) → ∀ N,
    textNodes n uid A X consts N ds = rustNodes uid A X consts N ds
  | [], _, _ => rfl
  | .node d :: ds, h, N => by
    have h1 : rdFn n (d.text uid) = some (d.quote uid) := h _ List.mem_cons_self
    unfold textNodes rustNodes
    rw [h1]
    cases rustSubnodes uid N d.blocks with
    | none => rfl
    | some ms => exact textNodes_eq ds (fun d hd => h d (by simp [hd])) _
  | .extNode d :: ds, h, N => by
    have h1 : rdFn n (externText d.inputs d.outputs) = some (externQuote d.inputs d.outputs) :=
      h _ List.mem_cons_self
    unfold textNodes rustNodes
    rw [h1]
    cases X.nodes d.name with
    | none => rfl
    | some ms => exact textNodes_eq ds (fun d hd => h d (by simp [hd])) _
  | .const _ :: ds, h, N => by
    unfold textNodes rustNodes
    exact textNodes_eq ds (fun d hd => h d (by simp [hd])) _
  | .extConst _ :: ds, h, N => by
    unfold textNodes rustNodes
    exact textNodes_eq ds (fun d hd => h d (by simp [hd])) _

theorem named_rustConsts {A : Arith} {X : Extern} {ds : List San.Decl} {g g' : Globals}
    (h : linkConsts A X (fun _ => none) ds = .ok g) (hg : Named uid g g') :
    g' = rustConsts uid g ds := by
  funext y
  by_cases hy : ∃ x, y = globName uid x
  · obtain ⟨x, rfl⟩ := hy
    rw [rustConsts_linked h, hg.1]
  · rw [hg.2 y fun x e => hy ⟨x, e⟩]
    unfold rustConsts
    cases hf : (constNames ds).find? (fun x => globName uid x = y) with
    | none => rfl
    | some x =>
      have := List.find?_some hf
      exact absurd ⟨x, (of_decide_eq_true this).symm⟩ hy

/-- The text of a program is read as its trees. -/
theorem linkText_eq {n : Nat} {A : Arith} {X : Extern} {ds : List San.Decl}
    (h : ∀ d ∈ ds, GoodAt uid n d) : linkText n uid A X ds = linkRust uid A X ds := by
  unfold linkText linkRust
  rcases textConsts_named (A := A) (X := X) ds h (g := fun _ => none) (g' := fun _ => none)
    ⟨fun _ => rfl, fun _ _ => rfl⟩ with ⟨e, h1, h2⟩ | ⟨f, f', h1, h2, h3⟩
  · rw [h1, h2]
  · rw [h1, h2]
    dsimp only
    rw [named_rustConsts h1 h3, textNodes_eq ds h]
    cases rustNodes uid A X (rustConsts uid f ds) (fun _ => none) ds <;> rfl

end Chandeliers.Txt
