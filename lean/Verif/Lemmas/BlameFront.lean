import Verif.Lemmas.Tells
import Verif.Lemmas.Program

/-!
# Messages about attributes, and of the translation
-/

set_option autoImplicit false

namespace Chandeliers.Tell
open Chandeliers.San Chandeliers.Syn Chandeliers.Spec Chandeliers.Err Chandeliers.Err.Chk

/-! ## Errors and warnings -/

/-- All the messages that a computation adds have `P`. -/
def Notes {E σ α : Type} (P : E → Prop) (m : Chk E σ α) : Prop :=
  ∀ s, ∃ es ws, (m s).2.1 = ⟨s.1.err ++ es, s.1.warn ++ ws⟩ ∧ (∀ e ∈ es, P e) ∧ ∀ w ∈ ws, P w

namespace Notes
variable {E F σ α β : Type} {P : E → Prop}

theorem same {m : Chk E σ α} (h : ∀ s, (m s).2.1 = s.1) : Notes P m :=
  fun s => ⟨[], [], by simp [h s], by simp, by simp⟩

theorem pure {x : α} : Notes P (Pure.pure x : Chk E σ α) := same fun _ => rfl

theorem pure' {x : α} : Notes P (Chk.pure x : Chk E σ α) := same fun _ => rfl

theorem abort : Notes P (Chk.abort : Chk E σ α) := same fun _ => rfl

theorem error {e : E} (h : P e) : Notes P (Chk.error e : Chk E σ α) :=
  fun s => ⟨[e], [], by simp [Chk.error], by simpa using h, by simp⟩

theorem warning {e : E} (h : P e) : Notes P (Chk.warning e : Chk E σ Unit) :=
  fun s => ⟨[], [e], by simp [Chk.warning], by simp, by simpa using h⟩

theorem bind {m : Chk E σ α} {f : α → Chk E σ β} (hm : Notes P m)
    (hf : ∀ x s s', m s = (.some x, s') → Notes P (f x)) : Notes P (m >>= f) := by
  intro s
  obtain ⟨es, ws, h1, h2, h3⟩ := hm s
  rw [run_bind]
  rcases hr : m s with ⟨r, s'⟩
  rw [hr] at h1
  cases r with
  | some x =>
    obtain ⟨es', ws', k1, k2, k3⟩ := hf x s s' hr s'
    refine ⟨es ++ es', ws ++ ws', ?_, ?_, ?_⟩
    · simp only at h1 ⊢
      rw [k1, h1]
      simp
    · intro e he
      rcases List.mem_append.1 he with he | he
      · exact h2 e he
      · exact k2 e he
    · intro e he
      rcases List.mem_append.1 he with he | he
      · exact h3 e he
      · exact k3 e he
  | none => exact ⟨es, ws, h1, h2, h3⟩
  | abort => exact ⟨es, ws, h1, h2, h3⟩

theorem because {P' : E → Prop} {m : Chk E σ α} (h : Notes P m) (hp : ∀ e, P e → P' e) :
    Notes P' m := fun s =>
  let ⟨es, ws, h1, h2, h3⟩ := h s
  ⟨es, ws, h1, fun e he => hp e (h2 e he), fun e he => hp e (h3 e he)⟩

theorem mapErr {P' : F → Prop} {f : E → F} {m : Chk E σ α} (h : Notes P m)
    (hp : ∀ e, P e → P' (f e)) : Notes P' (Syn.mapErr f m) := by
  rintro ⟨a, u⟩
  obtain ⟨es, ws, h1, h2, h3⟩ := h (EAccum.default, u)
  have hm : Syn.mapErr f m (a, u) = ((m (EAccum.default, u)).1,
      (⟨a.err ++ (m (EAccum.default, u)).2.1.err.map f,
        a.warn ++ (m (EAccum.default, u)).2.1.warn.map f⟩, (m (EAccum.default, u)).2.2)) := rfl
  rw [hm, h1]
  refine ⟨es.map f, ws.map f, by simp [EAccum.default], ?_, ?_⟩
  · intro e he
    obtain ⟨e', h, rfl⟩ := List.mem_map.1 he
    exact hp e' (h2 e' h)
  · intro e he
    obtain ⟨e', h, rfl⟩ := List.mem_map.1 he
    exact hp e' (h3 e' h)

theorem of_tells {I : σ → Prop} {m : Chk E σ α} {Q : α → Prop} (h : Tells I P m Q)
    (hi : ∀ s, I s) : Notes P m := by
  rintro ⟨a, s⟩
  obtain ⟨-, ⟨es, h1, h2⟩, -⟩ := h a s (hi s)
  exact ⟨es, [], by simpa using h1, h2, by simp⟩

end Notes

/-! ## Attributes -/

variable {σ : Type}

theorem hasAny_mem {as : List Attribute} {ns : List String} (h : hasAny as ns = true) :
    ∃ a ∈ as, a.action ∈ ns := by simpa [hasAny] using h

theorem duplicate_notes {d : SrcDecl} {l₁ l₂ : List Attribute} {b : Attribute} {T : Type}
    {o : SetOpt T} {msg : Opt} {dflt v : T} (hd : d.attrs = l₁ ++ b :: l₂)
    (ho : o.Is msg dflt (hasAny l₁ (settersOf msg)) v) (hb : b.action ∈ settersOf msg) :
    Notes (AttributeBlame d) (Decl.duplicate o : Chk AttrDiag σ Unit) := by
  unfold Decl.duplicate
  split
  · rename_i hs
    rw [ho.isSet] at hs
    obtain ⟨a, ha, hm⟩ := hasAny_mem hs
    obtain ⟨k₁, k₂, rfl⟩ := List.append_of_mem ha
    split
    · rw [ho.message]
      exact .warning (.duplicate (l₁ := k₁) (l₂ := k₂) (l₃ := l₂) (a := a) (b := b)
        (by simpa using hd) hm hb)
    · exact .abort
  · exact .pure'

theorem conflicting_notes {d : SrcDecl} {l₁ l₂ : List Attribute} {b : Attribute} {T U : Type}
    {this : SetOpt T} {other : SetOpt U} {msg msg' : Opt} {dflt v : T} {dflt' v' : U} {x : Bool}
    (hd : d.attrs = l₁ ++ b :: l₂) (ht : this.Is msg dflt x v)
    (ho : other.Is msg' dflt' (hasAny l₁ (settersOf msg')) v') (hb : b.action ∈ settersOf msg)
    (hc : (msg = .test ∧ msg' ∈ [.main, .isPub, .exported]) ∨
      (msg' = .test ∧ msg ∈ [.main, .isPub, .exported])) :
    Notes (AttributeBlame d) (Decl.conflicting this other : Chk AttrDiag σ Unit) := by
  unfold Decl.conflicting
  split
  · rename_i hs
    rw [ho.isSet] at hs
    obtain ⟨a, ha, hm⟩ := hasAny_mem hs
    obtain ⟨k₁, k₂, rfl⟩ := List.append_of_mem ha
    split
    · rw [ho.message, ht.message]
      exact .warning (.conflicting (l₁ := k₁) (l₂ := k₂) (l₃ := l₂) (a := a) (b := b)
        (by simpa using hd) hm hb hc)
    · exact .abort
  · exact .pure'

theorem parseUsize_notes {P : AttrDiag → Prop} (n : Int) :
    Notes P (Decl.parseUsize n : Chk AttrDiag σ Nat) := by
  unfold Decl.parseUsize
  split
  · exact .pure'
  · exact .abort

theorem malformed_notes {α : Type} {d : SrcDecl} {a : Attribute} (ha : a ∈ d.attrs)
    {m : Chk AttrDiag σ α}
    (hm : ∀ s, (m s).2.1 = s.1 ∨ (¬ wellFormed a ∧
      (m s).2.1 = ⟨s.1.err ++ [.malformed a.action], s.1.warn⟩)) :
    Notes (AttributeBlame d) m := by
  intro s
  rcases hm s with h | ⟨hn, h⟩
  · exact ⟨[], [], by simp [h], by simp, by simp⟩
  · exact ⟨[.malformed a.action], [], by simp [h], by simpa using .malformed ha hn, by simp⟩

theorem with_notes {d : SrcDecl} {l₁ l₂ : List Attribute} {a : Attribute} {o : Syn.Decl}
    (hd : d.attrs = l₁ ++ a :: l₂) (ho : o.Holds l₁) :
    Notes (AttributeBlame d) (o.with_ a : Chk AttrDiag σ Syn.Decl) := by
  have ha : a ∈ d.attrs := by simp [hd]
  unfold Decl.with_
  cases hx : Decl.parseAction a.action with
  | none => exact .error (.malformed ha (not_wellFormed_of_none a hx))
  | some x =>
    have hs := parseAction_some hx
    have hw := wellFormed_iff a x hs
    obtain ⟨h1, h2, h3, h4, h5, h6, h7, h8, h9, h10⟩ := ho
    cases x with
    | trace =>
      simp only
      refine .bind (malformed_notes ha ?_) fun _ _ _ _ => .bind (malformed_notes ha ?_)
        fun _ _ _ _ => .bind (duplicate_notes hd h1 (by simp [hs, Decl.Action.spelling, settersOf]))
        fun _ _ _ _ => .pure
      · intro s
        rw [hw]
        simp only [wellFormedAs, Decl.traceFile]
        rcases a.params with _ | ⟨p, _ | ⟨q, ps⟩⟩
        · exact .inl rfl
        · by_cases e1 : p = "stdout"
          · subst e1; exact .inl rfl
          · by_cases e2 : p = "stderr"
            · subst e2; exact .inl rfl
            · exact .inr ⟨by simp [e1, e2], by simp [e1, e2, Chk.error]⟩
        · exact .inr ⟨by simp, rfl⟩
      · intro s
        rw [hw]
        simp only [wellFormedAs, Decl.traceFormat]
        rcases a.targets with _ | ⟨x, _ | ⟨y, _ | ⟨z, ts⟩⟩⟩
        · exact .inl rfl
        · cases x
          · exact .inl rfl
          all_goals exact .inr ⟨by simp, rfl⟩
        · cases x <;> cases y
          case str.str => exact .inl rfl
          all_goals exact .inr ⟨by simp, rfl⟩
        · cases x <;> cases y <;> exact .inr ⟨by simp, rfl⟩
    | generics =>
      simp only
      split
      · refine .bind (malformed_notes ha ?_) fun _ _ _ _ => .pure
        intro s
        obtain ⟨k1, k2⟩ := checkGenerics_run a.action a.params [] s
        by_cases h : a.params.Nodup ∧ (∀ t ∈ a.params, t ∉ ([] : List String)) ∧
            ∀ t ∈ a.params, t ∉ ["int", "float", "bool"]
        · rw [k1 h]; exact .inl rfl
        · rw [k2 h, hw]
          refine .inr ⟨fun hwf => h ⟨hwf.2.1, by simp, hwf.2.2⟩, rfl⟩
      · rename_i ht
        exact .error (.malformed ha fun hwf => ht (hw.1 hwf).1)
    | doc =>
      simp only
      split
      · exact .pure
      · rename_i ht
        refine .error (.malformed ha fun hwf => ?_)
        obtain ⟨e1, s, e2⟩ := hw.1 hwf
        exact ht s e1 e2
    | rustcAllow =>
      simp only
      split
      · exact .pure
      · rename_i ht
        refine .error (.malformed ha fun hwf => ?_)
        obtain ⟨⟨s, e1⟩, e2⟩ := hw.1 hwf
        exact ht s e1 e2
    | clippyAllow =>
      simp only
      split
      · exact .pure
      · rename_i ht
        refine .error (.malformed ha fun hwf => ?_)
        obtain ⟨⟨s, e1⟩, e2⟩ := hw.1 hwf
        exact ht s e1 e2
    | exported =>
      simp only
      split
      · exact .bind (conflicting_notes hd h2 h5 (by simp [hs, Decl.Action.spelling, settersOf])
          (by simp)) fun _ _ _ _ => .bind (duplicate_notes hd h2
          (by simp [hs, Decl.Action.spelling, settersOf])) fun _ _ _ _ => .pure
      · rename_i ht
        exact .error (.malformed ha fun hwf => ht (hw.1 hwf).1 (hw.1 hwf).2)
    | isPub =>
      simp only
      split
      · exact .bind (conflicting_notes hd h3 h5 (by simp [hs, Decl.Action.spelling, settersOf])
          (by simp)) fun _ _ _ _ => .bind (duplicate_notes hd h3
          (by simp [hs, Decl.Action.spelling, settersOf])) fun _ _ _ _ => .bind
          (duplicate_notes hd h2 (by simp [hs, Decl.Action.spelling, settersOf]))
          fun _ _ _ _ => .pure
      · rename_i ht
        exact .error (.malformed ha fun hwf => ht (hw.1 hwf).1 (hw.1 hwf).2)
    | implTrait =>
      simp only
      split
      · exact .bind (duplicate_notes hd h8 (by simp [hs, Decl.Action.spelling, settersOf]))
          fun _ _ _ _ => .pure
      · rename_i ht
        exact .error (.malformed ha fun hwf => ht (hw.1 hwf).1 (hw.1 hwf).2)
    | universalPre =>
      simp only
      split
      · exact .bind (duplicate_notes hd h10 (by simp [hs, Decl.Action.spelling, settersOf]))
          fun _ _ _ _ => .pure
      · rename_i ht
        exact .error (.malformed ha fun hwf => ht (hw.1 hwf).1 (hw.1 hwf).2)
    | main =>
      simp only
      split
      · exact .bind (conflicting_notes hd h4 h5 (by simp [hs, Decl.Action.spelling, settersOf])
          (by simp)) fun _ _ _ _ => .bind (duplicate_notes hd h4
          (by simp [hs, Decl.Action.spelling, settersOf])) fun _ _ _ _ => .pure
      · exact .bind (conflicting_notes hd h4 h5 (by simp [hs, Decl.Action.spelling, settersOf])
          (by simp)) fun _ _ _ _ => .bind (duplicate_notes hd h4
          (by simp [hs, Decl.Action.spelling, settersOf])) fun _ _ _ _ => .bind
          (parseUsize_notes _) fun _ _ _ _ => .pure
      · rename_i ht ht'
        refine .error (.malformed ha fun hwf => ?_)
        obtain ⟨e1, e2 | ⟨n, e2⟩⟩ := hw.1 hwf
        · exact ht e1 e2
        · exact ht' n e1 e2
    | test =>
      simp only
      split
      · exact .bind (conflicting_notes hd h5 h4 (by simp [hs, Decl.Action.spelling, settersOf])
          (by simp)) fun _ _ _ _ => .bind (conflicting_notes hd h5 h3
          (by simp [hs, Decl.Action.spelling, settersOf]) (by simp)) fun _ _ _ _ => .bind
          (conflicting_notes hd h5 h2 (by simp [hs, Decl.Action.spelling, settersOf]) (by simp))
          fun _ _ _ _ => .bind (duplicate_notes hd h5
          (by simp [hs, Decl.Action.spelling, settersOf])) fun _ _ _ _ => .pure
      · exact .bind (conflicting_notes hd h5 h4 (by simp [hs, Decl.Action.spelling, settersOf])
          (by simp)) fun _ _ _ _ => .bind (duplicate_notes hd h5
          (by simp [hs, Decl.Action.spelling, settersOf])) fun _ _ _ _ => .bind
          (parseUsize_notes _) fun _ _ _ _ => .pure
      · rename_i ht ht'
        refine .error (.malformed ha fun hwf => ?_)
        obtain ⟨e1, e2 | ⟨n, e2⟩⟩ := hw.1 hwf
        · exact ht e1 e2
        · exact ht' n e1 e2

theorem with_holds {a : Attribute} {as : List Attribute} {o o' : Syn.Decl} (hs : o.Spanned)
    (ho : o.Holds as) {s s' : EAccum AttrDiag × σ} (h : o.with_ a s = (.some o', s')) :
    o'.Spanned ∧ o'.Holds (as ++ [a]) := by
  rcases with_run o hs a (Prg.with_small h) s with ⟨hw, ws, h1⟩ | ⟨-, h1⟩
  · rw [h] at h1
    cases h1
    exact ⟨o.spanned_apply hs a, holds_apply o as a ho hw⟩
  · rw [h] at h1
    cases h1

theorem withAll_notes {d : SrcDecl} : (l₂ : List Attribute) → {l₁ : List Attribute} →
    {o : Syn.Decl} → d.attrs = l₁ ++ l₂ → o.Spanned → o.Holds l₁ →
    Notes (AttributeBlame d) (o.withAll l₂ : Chk AttrDiag σ Syn.Decl)
  | [], _, _, _, _, _ => .pure'
  | a :: l₂, l₁, o, hd, hs, ho => by
    unfold Decl.withAll
    refine .bind (with_notes hd ho) fun o' s s' h => ?_
    obtain ⟨h1, h2⟩ := with_holds hs ho h
    exact withAll_notes l₂ (by simpa using hd) h1 h2

theorem skip_notes {d : SrcDecl} {T : Type} {o : SetOpt T} {msg : Opt} {dflt v : T}
    (ho : o.Is msg dflt (hasAny d.attrs (settersOf msg)) v)
    (hi : ∀ n ∈ settersOf msg, n ∈ Spec.inapplicable (kindOf d.item)) :
    Notes (AttributeBlame d) (o.skip (kindOf d.item) : Chk AttrDiag σ Unit) := by
  unfold SetOpt.skip
  split
  · rename_i hs
    rw [ho.isSet] at hs
    obtain ⟨a, ha, hm⟩ := hasAny_mem hs
    rw [ho.message]
    exact .error (.inapplicable ha hm (hi _ hm))
  · exact .pure'

/-! ## Translation -/

/-- What an expression may be blamed for. -/
def SrcBad (e : Src) : TrErr → Prop
  | .cmpNotAssociative => ∃ f es, SrcInside (.cmp f es) e ∧ 2 ≤ es.length
  | .unhandledLitType => SrcInside (.lit .other) e
  | .notConst => False
  | .abort => True

def HasCall (e : Src) : Prop := ∃ f es b, SrcInside (.call f es b) e

theorem SrcBad.up {c e : Src} (h : SrcUnder c e) {x : TrErr} (hc : SrcBad c x) : SrcBad e x := by
  cases x with
  | cmpNotAssociative =>
    obtain ⟨f, es, h1, h2⟩ := hc
    exact ⟨f, es, h1.tail h, h2⟩
  | unhandledLitType => exact Relation.ReflTransGen.tail hc h
  | notConst => exact hc
  | abort => trivial

theorem HasCall.up {c e : Src} (h : SrcUnder c e) (hc : HasCall c) : HasCall e := by
  obtain ⟨f, es, b, h1⟩ := hc
  exact ⟨f, es, b, h1.tail h⟩

/-- Errors have `P`, and unless `C` no statements and no calls are added. -/
def Runs {α : Type} (P : TrErr → Prop) (C : Prop) (m : Tr α) : Prop :=
  ∀ c, match m c with
    | .error x => P x
    | .ok (_, c') => C ∨ (c'.stmts = c.stmts ∧ c'.blocks = c.blocks)

namespace Runs
variable {α β : Type} {P : TrErr → Prop} {C : Prop}

theorem pure {x : α} : Runs P C (Pure.pure x : Tr α) := fun _ => .inr ⟨rfl, rfl⟩

theorem throw {x : TrErr} (h : P x) : Runs P C (MonadExcept.throw x : Tr α) := fun _ => h

theorem bind {m : Tr α} {f : α → Tr β} (hm : Runs P C m) (hf : ∀ x, Runs P C (f x)) :
    Runs P C (m >>= f) := by
  intro c
  have h1 := hm c
  show match (m c >>= fun p => f p.1 p.2) with
    | .error x => P x
    | .ok (_, c') => C ∨ (c'.stmts = c.stmts ∧ c'.blocks = c.blocks)
  rcases hr : m c with x | ⟨x, c1⟩
  · rw [hr] at h1
    exact h1
  · rw [hr] at h1
    have h2 := hf x c1
    show match f x c1 with
      | .error x => P x
      | .ok (_, c') => C ∨ (c'.stmts = c.stmts ∧ c'.blocks = c.blocks)
    rcases hr' : f x c1 with y | ⟨y, c2⟩
    · rw [hr'] at h2
      exact h2
    · rw [hr'] at h2
      rcases h1 with h1 | ⟨h1, h1'⟩
      · exact .inl h1
      · rcases h2 with h2 | ⟨h2, h2'⟩
        · exact .inl h2
        · exact .inr ⟨h2.trans h1, h2'.trans h1'⟩

theorem mono {P' : TrErr → Prop} {C' : Prop} {m : Tr α} (h : Runs P C m) (hp : ∀ x, P x → P' x)
    (hc : C → C') : Runs P' C' m := by
  intro c
  have := h c
  rcases hr : m c with x | ⟨x, c1⟩
  · rw [hr] at this
    exact hp x this
  · rw [hr] at this
    exact this.imp hc id

end Runs

theorem runs_up {α : Type} {v : View} {c e : Src} {m : Tr α} (hu : SrcUnder c e)
    (h : Runs (SrcBad c) (v.useRegisters = true ∨ HasCall c) m) :
    Runs (SrcBad e) (v.useRegisters = true ∨ HasCall e) m :=
  h.mono (fun _ => SrcBad.up hu) (Or.imp_right (HasCall.up hu))

theorem mkFby_runs {P : TrErr → Prop} {C : Prop} {v : View} {i : Nat} {a b : Expr} :
    Runs P (v.useRegisters = true ∨ C) (mkFby v i a b) := by
  intro c
  unfold mkFby
  cases h : v.useRegisters with
  | true => exact .inl (.inl rfl)
  | false => exact .inr ⟨rfl, rfl⟩

theorem mkThen_runs {P : TrErr → Prop} {C : Prop} {v : View} {i : Nat} {a b : Expr} :
    Runs P C (mkThen v i a b) := by
  intro c
  unfold mkThen
  cases h : v.useRegisters with
  | true => exact .inr ⟨rfl, rfl⟩
  | false => exact .inr ⟨rfl, rfl⟩

theorem useRegisters_bump {v : View} {i : Nat} :
    (if v.useRegisters then v else v.bump i).useRegisters = v.useRegisters := by
  cases h : v.useRegisters <;> simp [h, View.bump]

mutual
theorem src_runs (v : View) : (e : Src) →
    Runs (SrcBad e) (v.useRegisters = true ∨ HasCall e) (e.translate v)
  | .lit l => by
    cases l with
    | bool b => exact .pure
    | int n =>
      simp only [Src.translate, Syn.Lit.translate]
      split
      · exact .pure
      · exact .throw trivial
    | float f =>
      cases f with
      | none => exact .throw trivial
      | some f => exact .pure
    | other => exact .throw .refl
  | .var x => by
    simp only [Src.translate]
    split
    · exact .pure
    · exact .pure
  | .paren es b => by
    simp only [Src.translate]
    exact .bind (list_runs v _ es fun _ h => .paren h) fun _ => .pure
  | .left e es => by
    simp only [Src.translate]
    exact .bind (runs_up .leftFirst (src_runs v e)) fun _ =>
      left_runs v _ _ es fun _ _ h => .left h
  | .cmp e es => by
    simp only [Src.translate]
    exact .bind (runs_up .cmpFirst (src_runs v e)) fun _ =>
      cmp_runs v _ _ es (fun _ _ h => .cmp h) fun h => ⟨e, es, .refl, h⟩
  | .fby e es => by
    simp only [Src.translate]
    refine .bind (fby_runs v _ 1 es fun _ h => .fby h) fun acc =>
      .bind (?_ : Runs _ (v.useRegisters = true ∨ HasCall (.fby e es)) _) fun _ => ?_
    · have := src_runs (if v.useRegisters then v else v.bump 0) e
      rw [useRegisters_bump] at this
      exact runs_up .fbyFirst this
    · cases acc with
      | none => exact .pure
      | some a => exact mkFby_runs
  | .arrow e es => by
    simp only [Src.translate]
    refine .bind (then_runs v _ 1 es fun _ h => .arrow h) fun acc =>
      .bind (runs_up .arrowFirst (src_runs v e)) fun _ => ?_
    cases acc with
    | none => exact .pure
    | some a => exact mkThen_runs
  | .ifx c y n => by
    simp only [Src.translate]
    exact .bind (runs_up .cond (src_runs v c)) fun _ => .bind (runs_up .yes (src_runs v y)) fun _ =>
      .bind (runs_up .no (src_runs v n)) fun _ => .pure
  | .merge c y n => by
    simp only [Src.translate]
    exact .bind (runs_up .switch (src_runs v c)) fun _ => .bind (runs_up .on (src_runs v y)) fun _ =>
      .bind (runs_up .off (src_runs v n)) fun _ => .pure
  | .call f es b => by
    simp only [Src.translate]
    exact .bind (list_runs v _ es fun _ h => .arg h) fun _ _ => .inl (.inr ⟨f, es, b, .refl⟩)
  | .pre e => by
    simp only [Src.translate]
    split
    · rename_i h
      exact .bind (fun _ => .inl (.inl h)) fun _ => .bind (runs_up .pre (src_runs v e)) fun _ _ =>
        .inl (.inl h)
    · exact .bind (runs_up (v := v) .pre (src_runs (v.bump 1) e)) fun _ => .pure
  | .neg e => by
    simp only [Src.translate]
    exact .bind (runs_up .neg (src_runs v e)) fun _ => .pure
  | .not e => by
    simp only [Src.translate]
    exact .bind (runs_up .not (src_runs v e)) fun _ => .pure
termination_by structural e => e
theorem list_runs (v : View) (w : Src) : (es : List Src) → (∀ e ∈ es, SrcUnder e w) →
    Runs (SrcBad w) (v.useRegisters = true ∨ HasCall w) (Src.translateList v es)
  | [], _ => .pure
  | e :: es, h => by
    simp only [Src.translateList]
    exact .bind (runs_up (h e (by simp)) (src_runs v e)) fun _ =>
      .bind (list_runs v w es fun e he => h e (by simp [he])) fun _ => .pure
termination_by structural es => es
theorem left_runs (v : View) (w : Src) (acc : Expr) : (es : List (LOp × Src)) →
    (∀ op e, (op, e) ∈ es → SrcUnder e w) →
    Runs (SrcBad w) (v.useRegisters = true ∨ HasCall w) (Src.translateLeft v acc es)
  | [], _ => .pure
  | (op, e) :: es, h => by
    simp only [Src.translateLeft]
    exact .bind (runs_up (h op e (by simp)) (src_runs v e)) fun _ =>
      left_runs v w _ es fun op e he => h op e (by simp [he])
termination_by structural es => es
theorem cmp_runs (v : View) (w : Src) (lhs : Expr) : (es : List (CmpOp × Src)) →
    (∀ op e, (op, e) ∈ es → SrcUnder e w) →
    (2 ≤ es.length → SrcBad w .cmpNotAssociative) →
    Runs (SrcBad w) (v.useRegisters = true ∨ HasCall w) (Src.translateCmp v lhs es)
  | [], _, _ => .pure
  | [(op, e)], h, _ => by
    simp only [Src.translateCmp]
    exact .bind (runs_up (h op e (by simp)) (src_runs v e)) fun _ => .pure
  | (op, e) :: (op', e') :: es, h, hl => by
    simp only [Src.translateCmp]
    exact .bind (runs_up (h op e (by simp)) (src_runs v e)) fun _ =>
      .bind (runs_up (h op' e' (by simp)) (src_runs v e')) fun _ => .throw (hl (by simp))
termination_by structural es => es
theorem fby_runs (v : View) (w : Src) (i : Nat) : (es : List Src) → (∀ e ∈ es, SrcUnder e w) →
    Runs (SrcBad w) (v.useRegisters = true ∨ HasCall w) (Src.translateFby v i es)
  | [], _ => .pure
  | e :: es, h => by
    simp only [Src.translateFby]
    refine .bind (fby_runs v w (i + 1) es fun e he => h e (by simp [he])) fun acc =>
      .bind (?_ : Runs _ (v.useRegisters = true ∨ HasCall w) _) fun _ => ?_
    · have := src_runs (if v.useRegisters then v else v.bump i) e
      rw [useRegisters_bump] at this
      exact runs_up (h e (by simp)) this
    · cases acc with
      | none => exact .pure
      | some a => exact .bind mkFby_runs fun _ => .pure
termination_by structural es => es
theorem then_runs (v : View) (w : Src) (i : Nat) : (es : List Src) → (∀ e ∈ es, SrcUnder e w) →
    Runs (SrcBad w) (v.useRegisters = true ∨ HasCall w) (Src.translateThen v i es)
  | [], _ => .pure
  | e :: es, h => by
    simp only [Src.translateThen]
    refine .bind (then_runs v w (i + 1) es fun e he => h e (by simp [he])) fun acc =>
      .bind (runs_up (h e (by simp)) (src_runs v e)) fun _ => ?_
    cases acc with
    | none => exact .pure
    | some a => exact .bind mkThen_runs fun _ => .pure
termination_by structural es => es
end

theorem stmts_runs (v : View) : (sts : List SrcStmt) →
    Runs (fun x => ∃ e ∈ sts.map (fun st => match st with
      | .def_ _ e => e
      | .assert e => e), SrcBad e x) True (translateStmts v sts)
  | [] => .pure
  | st :: sts => by
    unfold translateStmts
    refine .bind ?_ fun _ => (stmts_runs v sts).mono
      (fun x ⟨e, he, hx⟩ => ⟨e, by simp at he ⊢; exact .inr he, hx⟩) id
    cases st with
    | def_ t e =>
      exact .bind ((src_runs v e).mono (fun x hx => ⟨e, by simp, hx⟩) fun _ => trivial)
        fun _ _ => .inl trivial
    | assert e =>
      exact .bind ((src_runs v e).mono (fun x hx => ⟨e, by simp, hx⟩) fun _ => trivial)
        fun _ _ => .inl trivial

theorem const_translation {c : SrcConst} {x : TrErr} (h : c.translate = .error x) (hx : x ≠ .abort) :
    TranslationBlame (.const c) x := by
  have hr := src_runs ⟨[], 0, false⟩ c.value {}
  unfold SrcConst.translate at h
  simp only [StateT.run] at h
  rcases ht : c.value.translate ⟨[], 0, false⟩ {} with y | ⟨y, s⟩
  · rw [ht] at h hr
    cases h
    cases x with
    | cmpNotAssociative =>
      obtain ⟨f, es, h1, h2⟩ := hr
      exact .chain (e := c.value) (by simp [sources]) h1 h2
    | unhandledLitType => exact .literal (e := c.value) (by simp [sources]) hr
    | notConst => exact hr.elim
    | abort => exact absurd rfl hx
  · rw [ht] at h hr
    simp only [Bind.bind, Except.bind] at h
    split at h
    · cases h
      rename_i hne
      rcases hr with (hr | ⟨f, es, b, hr⟩) | ⟨h1, h2⟩
      · cases hr
      · exact .call rfl hr
      · simp [h1, h2] at hne
    · cases h

theorem node_translation {n : SrcNode} {b : Bool} {x : TrErr} (h : n.translate b = .error x)
    (hx : x ≠ .abort) : TranslationBlame (.node n) x := by
  have hr := stmts_runs (n.view b) n.defs {}
  unfold SrcNode.translate at h
  simp only [StateT.run] at h
  rcases ht : translateStmts (n.view b) n.defs {} with y | ⟨y, s⟩
  · rw [ht] at h hr
    cases h
    obtain ⟨e, he, hr⟩ := hr
    cases x with
    | cmpNotAssociative =>
      obtain ⟨f, es, h1, h2⟩ := hr
      exact .chain (e := e) he h1 h2
    | unhandledLitType => exact .literal (e := e) he hr
    | notConst => exact hr.elim
    | abort => exact absurd rfl hx
  · rw [ht] at h
    cases h

theorem ofTranslation_notes {α : Type} {P : Report → Prop} {r : Except TrErr α}
    (h : ∀ x, r = .error x → x ≠ .abort → P (.translation x)) :
    Notes P (ofTranslation r : Chk Report σ α) := by
  cases r with
  | ok a => exact .pure
  | error x =>
    cases x with
    | abort => exact .abort
    | _ => exact .error (h _ rfl (by simp))

theorem decl_notes {p : SrcProg} {d : SrcDecl} (hd : d ∈ p) :
    Notes (ReportTrue p) (d.translate : Chk Report Unit OptDecl) := by
  unfold SrcDecl.translate
  refine .bind (.mapErr (withAll_notes (d := d) d.attrs (l₁ := []) rfl Decl.spanned_default
    holds_default) fun e he => .attribute hd he) fun o s s' h => ?_
  obtain ⟨_, h⟩ := Prg.mapErr_some h
  obtain ⟨h1, h2, h3, h4, h5, h6, h7, h8, h9, h10⟩ := Prg.withAll_holds h
  cases hi : d.item with
  | const c =>
    simp only
    have hk : kindOf d.item = .const := by rw [hi]; rfl
    refine .bind (.mapErr (P := AttributeBlame d) ?_ fun e he => .attribute hd he) fun _ _ _ _ =>
      .bind (ofTranslation_notes fun x hx hne => .translation hd
        (by rw [hi]; exact const_translation hx hne)) fun _ _ _ _ => .pure
    unfold Decl.forConst
    rw [← hk]
    exact .bind (skip_notes h1 (by rw [hk]; decide)) fun _ _ _ _ =>
      .bind (skip_notes h4 (by rw [hk]; decide)) fun _ _ _ _ =>
      .bind (skip_notes h8 (by rw [hk]; decide)) fun _ _ _ _ =>
      .bind (skip_notes h5 (by rw [hk]; decide)) fun _ _ _ _ =>
      .bind (skip_notes h9 (by rw [hk]; decide)) fun _ _ _ _ =>
      .bind (skip_notes h10 (by rw [hk]; decide)) fun _ _ _ _ => .pure
  | node n =>
    simp only
    refine .bind (.mapErr (P := AttributeBlame d) ?_ fun e he => .attribute hd he) fun _ _ _ _ =>
      .bind (ofTranslation_notes fun x hx hne => .translation hd
        (by rw [hi]; exact node_translation hx hne)) fun _ _ _ _ => .pure
    unfold Decl.forNode
    exact .pure
  | extConst x ty =>
    simp only
    have hk : kindOf d.item = .extConst := by rw [hi]; rfl
    refine .bind (.mapErr (P := AttributeBlame d) ?_ fun e he => .attribute hd he) fun _ _ _ _ =>
      .pure
    unfold Decl.forExtConst
    rw [← hk]
    exact .bind (skip_notes h1 (by rw [hk]; decide)) fun _ _ _ _ =>
      .bind (skip_notes h2 (by rw [hk]; decide)) fun _ _ _ _ =>
      .bind (skip_notes h4 (by rw [hk]; decide)) fun _ _ _ _ =>
      .bind (skip_notes h7 (by rw [hk]; decide)) fun _ _ _ _ =>
      .bind (skip_notes h3 (by rw [hk]; decide)) fun _ _ _ _ =>
      .bind (skip_notes h8 (by rw [hk]; decide)) fun _ _ _ _ =>
      .bind (skip_notes h5 (by rw [hk]; decide)) fun _ _ _ _ =>
      .bind (skip_notes h9 (by rw [hk]; decide)) fun _ _ _ _ =>
      .bind (skip_notes h10 (by rw [hk]; decide)) fun _ _ _ _ => .pure
  | extNode f ins outs =>
    simp only
    have hk : kindOf d.item = .extNode := by rw [hi]; rfl
    refine .bind (.mapErr (P := AttributeBlame d) ?_ fun e he => .attribute hd he) fun _ _ _ _ =>
      .pure
    unfold Decl.forExtNode
    rw [← hk]
    exact .bind (skip_notes h2 (by rw [hk]; decide)) fun _ _ _ _ =>
      .bind (skip_notes h7 (by rw [hk]; decide)) fun _ _ _ _ =>
      .bind (skip_notes h3 (by rw [hk]; decide)) fun _ _ _ _ =>
      .bind (skip_notes h8 (by rw [hk]; decide)) fun _ _ _ _ =>
      .bind (skip_notes h5 (by rw [hk]; decide)) fun _ _ _ _ =>
      .bind (skip_notes h10 (by rw [hk]; decide)) fun _ _ _ _ => .pure

theorem decls_notes {p : SrcProg} : (ds : List SrcDecl) → (∀ d ∈ ds, d ∈ p) →
    Notes (ReportTrue p) (translateDecls ds : Chk Report Unit (List OptDecl))
  | [], _ => .pure
  | d :: ds, h => by
    unfold translateDecls
    exact .bind (decl_notes (h d (by simp))) fun _ _ _ _ =>
      .bind (decls_notes ds fun d hd => h d (by simp [hd])) fun _ _ _ _ => .pure

theorem translateProg_notes (p : SrcProg) :
    Notes (ReportTrue p) (translateProg p : Chk Report Unit Prog) := by
  unfold translateProg
  exact .bind (decls_notes p fun _ h => h) fun _ _ _ _ => .pure

end Chandeliers.Tell
