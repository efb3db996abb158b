import Verif.Syn.Translate
import Verif.Spec.Slots
import Verif.Lemmas.Parts
import Verif.Lemmas.Solve
import Verif.Spec.Clocks

/-! What the translation allocates. -/

set_option autoImplicit false

namespace Chandeliers.Den
open Chandeliers.San Chandeliers.Spec Chandeliers.Syn

theorem tr_bind_ok {α β : Type} {m : Tr α} {f : α → Tr β} {c : ExprCtx} {r : β × ExprCtx} :
    (m >>= f) c = .ok r ↔ ∃ a c₁, m c = .ok (a, c₁) ∧ f a c₁ = .ok r := by
  show (m c >>= fun p => f p.1 p.2) = .ok r ↔ _
  cases h : m c with
  | error e => simp [bind, Except.bind]
  | ok p =>
    obtain ⟨a, c₁⟩ := p
    simp only [bind, Except.bind, Except.ok.injEq, Prod.mk.injEq]
    exact ⟨fun h => ⟨a, c₁, ⟨rfl, rfl⟩, h⟩, fun ⟨_, _, ⟨h1, h2⟩, h⟩ => by rw [h1, h2]; exact h⟩

theorem tr_pure_ok {α : Type} {a : α} {c : ExprCtx} {r : α × ExprCtx} :
    (pure a : Tr α) c = .ok r ↔ (a, c) = r := by
  show Except.ok (a, c) = .ok r ↔ _
  simp

/-- The slots allocated between two contexts. -/
def slotsBetween (c c' : ExprCtx) : List Slot :=
  (List.range' c.registers (c'.registers - c.registers)).map Slot.reg ++
  (List.range' c.flips (c'.flips - c.flips)).map Slot.flip ++
    (List.range' c.blocks.length (c'.blocks.length - c.blocks.length)).map Slot.sub

/-- The registers allocated between two contexts. -/
def regsBetween (c c' : ExprCtx) : List Nat := List.range' c.registers (c'.registers - c.registers)

/-- The part of a translated expression is as expected, among these statements. -/
def Okay (v : View) (sts : List Stmt) : Expr → Prop
  | .var x d => x ∈ v.shadow ∧ (v.useRegisters = true → d = v.depth)
  | .fetchPre id f => v.useRegisters = true ∧
      .updateRegister id f ∈ sts ∧ .initRegister id none none ∈ sts
  | .fetchFby id i f => v.useRegisters = true ∧
      .updateRegister id f ∈ sts ∧ .initRegister id (some i) none ∈ sts
  | .flip _ _ _ => v.useRegisters = true
  | .later _ _ _ => v.useRegisters = false
  | .substep d _ _ => v.useRegisters = true → d = v.depth
  | _ => True

theorem Okay.mono {v : View} {sts sts' : List Stmt} (h : ∀ st ∈ sts, st ∈ sts') {p : Expr}
    (hp : Okay v sts p) : Okay v sts' p := by
  cases p <;> simp only [Okay] at hp ⊢ <;> try exact hp
  · exact ⟨hp.1, h _ hp.2.1, h _ hp.2.2⟩
  · exact ⟨hp.1, h _ hp.2.1, h _ hp.2.2⟩

/-- The views of a node differ only by their depths. -/
def Deeper (v v' : View) : Prop :=
  v'.shadow = v.shadow ∧ v'.useRegisters = v.useRegisters ∧ (v.useRegisters = true → v'.depth = v.depth)

theorem Okay.view {v v' : View} (h : Deeper v v') {sts : List Stmt} {p : Expr}
    (hp : Okay v' sts p) : Okay v sts p := by
  obtain ⟨h1, h2, h3⟩ := h
  cases p <;> simp only [Okay] at hp ⊢ <;> (try rw [← h2]) <;> try exact hp
  · rw [h1, h2] at hp
    rw [h2]
    exact ⟨hp.1, fun hu => by rw [hp.2 hu, h3 hu]⟩
  · rw [h2] at hp ⊢
    exact fun hu => by rw [hp hu, h3 hu]

mutual
/-- The registers that an expression reads, with the expressions that set them up. -/
def starts : Expr → List (Nat × Option Expr)
  | .lit _ => []
  | .global _ => []
  | .var _ _ => []
  | .tuple es => startsList es
  | .dummyPre e => starts e
  | .dummyParen e => starts e
  | .bin _ l r => starts l ++ starts r
  | .un _ e => starts e
  | .cmp _ l r => starts l ++ starts r
  | .clock _ e b => starts e ++ starts b
  | .later _ e e' => starts e ++ starts e'
  | .fetchPre id f => starts f ++ [(id, none)]
  | .fetchFby id i f => starts f ++ (starts i ++ [(id, some i)])
  | .flip _ e e' => starts e ++ starts e'
  | .ifx b y n => starts b ++ (starts y ++ starts n)
  | .merge b y n => starts b ++ (starts y ++ starts n)
  | .substep _ _ e => starts e
/-- Of a list. -/
def startsList : List Expr → List (Nat × Option Expr)
  | [] => []
  | e :: es => starts e ++ startsList es
end

/-- Of a statement. -/
def startsIn : Stmt → List (Nat × Option Expr)
  | .let_ _ e => starts e
  | .assert e => starts e
  | _ => []

/-- What the translation of `xs` did to the context. -/
structure Fresh (v : View) (xs : List Expr) (c c' : ExprCtx) (new : List Stmt) : Prop where
  stmts : c'.stmts = c.stmts ++ new
  blocks : c.blocks <+: c'.blocks
  flips : c.flips ≤ c'.flips
  registers : c.registers ≤ c'.registers
  slots : (placesList xs ++ new.flatMap placesIn).Perm (slotsBetween c c')
  updates : (updated new).Perm (regsBetween c c')
  inits : (initialised new).Perm (regsBetween c c')
  only : ∀ st ∈ new, (∃ id f, st = .updateRegister id f) ∨ ∃ id i, st = .initRegister id i none
  parts : ∀ e ∈ xs ++ new.flatMap evaluated, ∀ p ∈ parts e, Okay v new p
  fetched : ∀ id f, (id, f) ∈ fetchesList xs ↔ .updateRegister id f ∈ new
  started : ∀ id i, (id, i) ∈ startsList xs ↔ .initRegister id i none ∈ new
  whole : (slotsList xs).Perm (slotsBetween c c')
  plain : v.useRegisters = false → new = [] ∧ c'.registers = c.registers ∧ c'.flips = c.flips

theorem startsList_append : ∀ xs ys : List Expr,
    startsList (xs ++ ys) = startsList xs ++ startsList ys
  | [], _ => rfl
  | x :: xs, ys => by
    simp only [List.cons_append, startsList, startsList_append xs ys, List.append_assoc]

theorem slotsList_append : ∀ xs ys : List Expr,
    slotsList (xs ++ ys) = slotsList xs ++ slotsList ys
  | [], _ => rfl
  | x :: xs, ys => by
    simp only [List.cons_append, slotsList, slotsList_append xs ys, List.append_assoc]

theorem fetchesList_append : ∀ xs ys : List Expr,
    fetchesList (xs ++ ys) = fetchesList xs ++ fetchesList ys
  | [], _ => rfl
  | x :: xs, ys => by
    simp only [List.cons_append, fetchesList, fetchesList_append xs ys, List.append_assoc]

theorem placesList_append : ∀ xs ys : List Expr, placesList (xs ++ ys) = placesList xs ++ placesList ys
  | [], _ => rfl
  | x :: xs, ys => by simp [placesList, placesList_append xs ys]

theorem slotsBetween_trans {c c₁ c₂ : ExprCtx} (h5 : c.registers ≤ c₁.registers)
    (h6 : c₁.registers ≤ c₂.registers) (h1 : c.flips ≤ c₁.flips) (h2 : c₁.flips ≤ c₂.flips)
    (h3 : c.blocks.length ≤ c₁.blocks.length) (h4 : c₁.blocks.length ≤ c₂.blocks.length) :
    (slotsBetween c c₁ ++ slotsBetween c₁ c₂).Perm (slotsBetween c c₂) := by
  have e : ∀ a b d : Nat, a ≤ b → b ≤ d →
      List.range' a (d - a) = List.range' a (b - a) ++ List.range' b (d - b) := by
    intro a b d h h'
    have := List.range'_append (s := a) (m := b - a) (n := d - b) (step := 1)
    rw [show a + 1 * (b - a) = b by omega, show (b - a) + (d - b) = d - a by omega] at this
    exact this.symm
  unfold slotsBetween
  rw [e _ _ _ h1 h2, e _ _ _ h3 h4, e _ _ _ h5 h6]
  simp only [List.map_append]
  rw [List.perm_iff_count]
  intro s
  simp only [List.count_append]
  omega

theorem regsBetween_trans {c c₁ c₂ : ExprCtx} (h1 : c.registers ≤ c₁.registers)
    (h2 : c₁.registers ≤ c₂.registers) :
    regsBetween c c₂ = regsBetween c c₁ ++ regsBetween c₁ c₂ := by
  have := List.range'_append (s := c.registers) (m := c₁.registers - c.registers)
    (n := c₂.registers - c₁.registers) (step := 1)
  rw [show c.registers + 1 * (c₁.registers - c.registers) = c₁.registers by omega,
    show (c₁.registers - c.registers) + (c₂.registers - c₁.registers) = c₂.registers - c.registers by
      omega] at this
  exact this.symm

theorem Fresh.nil (v : View) (c : ExprCtx) : Fresh v [] c c [] where
  stmts := by simp
  blocks := List.prefix_rfl
  flips := Nat.le_refl _
  registers := Nat.le_refl _
  slots := by simp [placesList, slotsBetween]
  updates := by simp [updated, regsBetween]
  inits := by simp [initialised, regsBetween]
  only := by simp
  parts := by simp
  fetched := by simp [fetchesList]
  started := by simp [startsList]
  whole := by simp [slotsList, slotsBetween]
  plain := fun _ => ⟨rfl, rfl, rfl⟩

theorem Fresh.append {v : View} {xs ys : List Expr} {c c₁ c₂ : ExprCtx} {n₁ n₂ : List Stmt}
    (h : Fresh v xs c c₁ n₁) (h' : Fresh v ys c₁ c₂ n₂) : Fresh v (xs ++ ys) c c₂ (n₁ ++ n₂) where
  stmts := by rw [h'.stmts, h.stmts, List.append_assoc]
  blocks := h.blocks.trans h'.blocks
  flips := Nat.le_trans h.flips h'.flips
  registers := Nat.le_trans h.registers h'.registers
  slots := by
    have := slotsBetween_trans h.registers h'.registers h.flips h'.flips h.blocks.length_le h'.blocks.length_le
    rw [List.perm_iff_count] at this ⊢
    intro s
    have e1 := h.slots.count_eq s
    have e2 := h'.slots.count_eq s
    have e3 := this s
    simp only [placesList_append, List.flatMap_append, List.count_append] at e1 e2 e3 ⊢
    omega
  updates := by
    rw [regsBetween_trans h.registers h'.registers, updated_append]
    exact h.updates.append h'.updates
  inits := by
    rw [regsBetween_trans h.registers h'.registers, initialised_append]
    exact h.inits.append h'.inits
  only := by
    intro st hst
    rcases List.mem_append.1 hst with hst | hst
    · exact h.only st hst
    · exact h'.only st hst
  parts := by
    intro e he p hp
    simp only [List.mem_append, List.flatMap_append] at he
    rcases he with (he | he) | he | he
    · exact (h.parts e (by simp [he]) p hp).mono (by simp +contextual)
    · exact (h'.parts e (by simp [he]) p hp).mono (by simp +contextual)
    · exact (h.parts e (List.mem_append_right _ he) p hp).mono (by simp +contextual)
    · exact (h'.parts e (List.mem_append_right _ he) p hp).mono (by simp +contextual)
  fetched := by
    intro id f
    rw [fetchesList_append, List.mem_append, List.mem_append, h.fetched, h'.fetched]
  started := by
    intro id i
    rw [startsList_append, List.mem_append, List.mem_append, h.started, h'.started]
  whole := by
    rw [slotsList_append]
    exact (h.whole.append h'.whole).trans (slotsBetween_trans h.registers h'.registers h.flips
      h'.flips h.blocks.length_le h'.blocks.length_le)
  plain := by
    intro hu
    obtain ⟨h1, h2, h3⟩ := h.plain hu
    obtain ⟨h4, h5, h6⟩ := h'.plain hu
    exact ⟨by rw [h1, h4]; rfl, h5.trans h2, h6.trans h3⟩

/-- Building an expression from others. -/
theorem Fresh.wrap {v : View} {xs : List Expr} {c c' : ExprCtx} {n : List Stmt}
    (h : Fresh v xs c c' n) {x : Expr} (hl : (places x).Perm (placesList xs))
    (hp : ∀ p ∈ Den.parts x, Okay v n p ∨ ∃ y ∈ xs, p ∈ Den.parts y)
    (hf : ∀ p, p ∈ fetches x ↔ p ∈ fetchesList xs := by simp [fetches, fetchesList])
    (hs : ∀ p, p ∈ starts x ↔ p ∈ startsList xs := by simp [starts, startsList])
    (hw : (Spec.slots x).Perm (slotsList xs) := by simp [Spec.slots, slotsList]) :
    Fresh v [x] c c' n where
  stmts := h.stmts
  blocks := h.blocks
  flips := h.flips
  registers := h.registers
  slots := by
    simp only [placesList, List.append_nil]
    exact (hl.append_right _).trans h.slots
  updates := h.updates
  inits := h.inits
  only := h.only
  parts := by
    intro e he p hpe
    rcases List.mem_append.1 he with he | he
    · simp only [List.mem_singleton] at he
      subst he
      rcases hp p hpe with h1 | ⟨y, h1, h2⟩
      · exact h1
      · exact h.parts y (List.mem_append_left _ h1) p h2
    · exact h.parts e (List.mem_append_right _ he) p hpe
  fetched := by
    intro id f
    simp only [fetchesList, List.append_nil]
    rw [hf, h.fetched]
  started := by
    intro id i
    simp only [startsList, List.append_nil]
    rw [hs, h.started]
  whole := by
    simp only [slotsList, List.append_nil]
    exact hw.trans h.whole
  plain := h.plain

theorem Fresh.view {v v' : View} (hd : Deeper v v') {xs : List Expr} {c c' : ExprCtx} {n : List Stmt}
    (h : Fresh v' xs c c' n) : Fresh v xs c c' n :=
  { h with
    parts := fun e he p hp => (h.parts e he p hp).view hd
    plain := fun hu => h.plain (by rw [hd.2.1]; exact hu) }

theorem Deeper.bump {v : View} (h : v.useRegisters = false) (n : Nat) : Deeper v (v.bump n) :=
  ⟨rfl, rfl, fun h' => by simp [h] at h'⟩

theorem Deeper.rfl' {v : View} : Deeper v v := ⟨rfl, rfl, fun _ => rfl⟩

theorem Fresh.atom {v : View} {c : ExprCtx} {x : Expr} (hl : places x = []) (hf : fetches x = []) (hp : Den.parts x = [x])
    (ho : Okay v [] x) (hs : starts x = [] := by rfl) (hw : Spec.slots x = [] := by rfl) : ∃ n, Fresh v [x] c c n :=
  ⟨[], (Fresh.nil v c).wrap (by simp [hl, placesList]) (by
    intro p hx
    rw [hp, List.mem_singleton] at hx
    subst hx
    exact .inl ho) (by simp [hf, fetchesList]) (by simp [hs, startsList]) (by simp [hw, slotsList])⟩

theorem okay_compose (v : View) (n : List Stmt) (op : LOp) (l r : Expr) :
    Okay v n (op.compose l r) := by cases op <;> trivial

theorem places_compose (op : LOp) (l r : Expr) : places (op.compose l r) = places l ++ places r := by
  cases op <;> rfl

theorem starts_compose (op : LOp) (l r : Expr) :
    starts (op.compose l r) = starts l ++ starts r := by
  cases op <;> rfl

theorem slots_compose (op : LOp) (l r : Expr) :
    slots (op.compose l r) = slots l ++ slots r := by
  cases op <;> rfl

theorem fetches_compose (op : LOp) (l r : Expr) :
    fetches (op.compose l r) = fetches l ++ fetches r := by
  cases op <;> rfl

theorem parts_compose (op : LOp) (l r : Expr) :
    Den.parts (op.compose l r) = op.compose l r :: (Den.parts l ++ Den.parts r) := by
  cases op <;> rfl

theorem fresh_paren {v : View} {xs : List Expr} {c c' : ExprCtx} {n : List Stmt} (b : Bool)
    (h : Fresh v xs c c' n) : Fresh v [parenthesise xs b] c c' n := by
  unfold parenthesise
  split
  · refine h.wrap (by simp [places, placesList]) ?_
    intro p hp
    simp only [Den.parts, List.mem_cons] at hp
    rcases hp with rfl | hp
    · exact .inl trivial
    · exact .inr ⟨_, by simp, hp⟩
  · refine h.wrap (by simp [places]) ?_
    intro p hp
    simp only [Den.parts, List.mem_cons] at hp
    rcases hp with rfl | hp
    · exact .inl trivial
    · exact .inr (mem_partsList.1 hp)

theorem fresh_call {v : View} {a : Expr} {c c' : ExprCtx} {n : List Stmt} {f : String}
    (h : Fresh v [a] c c' n) {x : Expr} {c'' : ExprCtx} (hc : mkCall v f a c' = .ok (x, c'')) :
    Fresh v [x] c c'' n := by
  simp only [mkCall, Except.ok.injEq, Prod.mk.injEq] at hc
  obtain ⟨rfl, rfl⟩ := hc
  exact {
    stmts := h.stmts
    blocks := h.blocks.trans (List.prefix_append _ _)
    flips := h.flips
    registers := h.registers
    slots := by
      have h' := h.slots
      have hb := h.blocks.length_le
      rw [List.perm_iff_count] at h' ⊢
      intro s
      have := h' s
      simp only [placesList, places, List.append_nil, slotsBetween, List.length_append,
        List.length_cons, List.length_nil, List.count_append, List.count_cons] at this ⊢
      rw [show c'.blocks.length + (0 + 1) - c.blocks.length
        = (c'.blocks.length - c.blocks.length) + 1 by omega, List.range'_concat]
      rw [show c.blocks.length + 1 * (c'.blocks.length - c.blocks.length) = c'.blocks.length by omega]
      simp only [List.map_append, List.map_cons, List.map_nil, List.count_append, List.count_cons,
        List.count_nil]
      omega
    updates := h.updates
    inits := h.inits
    only := h.only
    parts := by
      intro e he p hp
      rcases List.mem_append.1 he with he | he
      · simp only [List.mem_singleton] at he
        subst he
        simp only [Den.parts, List.mem_cons] at hp
        rcases hp with rfl | hp
        · exact fun _ => rfl
        · exact h.parts a (by simp) p hp
      · exact h.parts e (List.mem_append_right _ he) p hp
    fetched := fun id f => by simpa [fetchesList, fetches] using h.fetched id f
    started := fun id i => by simpa [startsList, starts] using h.started id i
    whole := by
      have h' := h.whole
      have hb := h.blocks.length_le
      rw [List.perm_iff_count] at h' ⊢
      intro s
      have := h' s
      simp only [slotsList, Spec.slots, List.append_nil, slotsBetween, List.length_append,
        List.length_cons, List.length_nil, List.count_append, List.count_cons] at this ⊢
      rw [show c'.blocks.length + (0 + 1) - c.blocks.length
        = (c'.blocks.length - c.blocks.length) + 1 by omega, List.range'_concat]
      rw [show c.blocks.length + 1 * (c'.blocks.length - c.blocks.length) = c'.blocks.length by omega]
      simp only [List.map_append, List.map_cons, List.map_nil, List.count_append, List.count_cons,
        List.count_nil]
      omega
    plain := h.plain }

theorem range_snoc {a b : Nat} (h : a ≤ b) :
    List.range' a (b + 1 - a) = List.range' a (b - a) ++ [b] := by
  rw [show b + 1 - a = (b - a) + 1 by omega, List.range'_concat,
    show a + 1 * (b - a) = b by omega]

theorem regs_snoc {c c' : ExprCtx} (h : c.registers ≤ c'.registers) :
    List.range' c.registers (c'.registers + 1 - c.registers) = regsBetween c c' ++ [c'.registers] := by
  rw [show c'.registers + 1 - c.registers = (c'.registers - c.registers) + 1 by omega,
    List.range'_concat,
    show c.registers + 1 * (c'.registers - c.registers) = c'.registers by omega]
  rfl

theorem fresh_fby {v : View} {a b : Expr} {c c' : ExprCtx} {n : List Stmt} {i : Nat}
    (h : Fresh v [a, b] c c' n) {x : Expr} {c'' : ExprCtx} (hc : mkFby v i b a c' = .ok (x, c'')) :
    ∃ n, Fresh v [x] c c'' n := by
  unfold mkFby at hc
  split at hc
  · rename_i hu
    simp only [Except.ok.injEq, Prod.mk.injEq] at hc
    obtain ⟨rfl, rfl⟩ := hc
    refine ⟨n ++ [.updateRegister c'.registers a, .initRegister c'.registers (some b) none], ?_⟩
    exact {
      stmts := by simp [h.stmts]
      blocks := h.blocks
      flips := h.flips
      registers := Nat.le_succ_of_le h.registers
      slots := by
        have h' := h.slots
        rw [List.perm_iff_count] at h' ⊢
        intro s
        have := h' s
        simp only [placesList, places, placesIn, evaluated, List.append_nil, List.nil_append,
          List.flatMap_append, List.flatMap_cons, List.flatMap_nil, Option.toList_some,
          Option.toList_none, slotsBetween, List.count_append, range_snoc h.registers,
          List.map_append, List.map_cons, List.map_nil] at this ⊢
        omega
      updates := by
        simp only [updated_append, updated, regsBetween, regs_snoc h.registers]
        exact h.updates.append_right _
      inits := by
        simp only [initialised_append, initialised, regsBetween, regs_snoc h.registers]
        exact h.inits.append_right _
      only := by
        intro st hst
        simp only [List.mem_append, List.mem_cons, List.not_mem_nil, or_false] at hst
        rcases hst with hst | rfl | rfl
        · exact h.only st hst
        · exact .inl ⟨_, _, rfl⟩
        · exact .inr ⟨_, _, rfl⟩
      parts := by
        intro e he p hp
        simp only [List.mem_append, List.mem_singleton, List.flatMap_append, List.flatMap_cons,
          List.flatMap_nil, evaluated, List.append_nil, Option.toList_some,
          Option.toList_none, List.not_mem_nil, false_or] at he
        have mono : ∀ st ∈ n, st ∈ n ++ [Stmt.updateRegister c'.registers a,
          .initRegister c'.registers (some b) none] := by simp +contextual
        rcases he with rfl | he | rfl | rfl
        · simp only [Den.parts, List.mem_singleton] at hp
          subst hp
          exact ⟨hu, by simp, by simp⟩
        · exact (h.parts e (List.mem_append_right _ he) p hp).mono mono
        · exact (h.parts e (by simp) p hp).mono mono
        · exact (h.parts e (by simp) p hp).mono mono
      fetched := fun id f => by
        have := h.fetched id f
        simp only [fetchesList, fetches, List.append_nil, List.mem_append, List.mem_singleton,
          Prod.mk.injEq, List.mem_cons, List.not_mem_nil, or_false, Stmt.updateRegister.injEq,
          reduceCtorEq] at this ⊢
        rw [← this, or_assoc]
      started := fun id i => by
        have := h.started id i
        simp only [startsList, starts, List.append_nil, List.mem_append, List.mem_singleton,
          Prod.mk.injEq, List.mem_cons, List.not_mem_nil, or_false, Stmt.initRegister.injEq,
          reduceCtorEq, false_or, and_true] at this ⊢
        rw [← this, or_assoc]
      whole := by
        have h' := h.whole
        rw [List.perm_iff_count] at h' ⊢
        intro s
        have := h' s
        simp only [slotsList, Spec.slots, List.append_nil, slotsBetween, List.count_append,
          range_snoc h.registers, List.map_append, List.map_cons, List.map_nil, List.count_cons,
          List.count_nil] at this ⊢
        omega
      plain := fun hu' => by simp [hu] at hu' }
  · rename_i hu
    simp only [Except.ok.injEq, Prod.mk.injEq] at hc
    obtain ⟨rfl, rfl⟩ := hc
    refine ⟨n, h.wrap ?_ ?_ ?_ ?_ ?_⟩
    · simp only [places, placesList, List.append_nil]
      exact List.perm_append_comm
    · intro p hp
      simp only [Den.parts, List.mem_cons, List.mem_append] at hp
      rcases hp with rfl | hp | hp
      · exact .inl (by simpa [Okay] using hu)
      · exact .inr ⟨b, by simp, hp⟩
      · exact .inr ⟨a, by simp, hp⟩
    · simp [fetches, fetchesList, or_comm]
    · simp [starts, startsList, or_comm]
    · simp only [Spec.slots, slotsList, List.append_nil]
      exact List.perm_append_comm

theorem fresh_then {v : View} {a b : Expr} {c c' : ExprCtx} {n : List Stmt} {i : Nat}
    (h : Fresh v [a, b] c c' n) {x : Expr} {c'' : ExprCtx} (hc : mkThen v i b a c' = .ok (x, c'')) :
    Fresh v [x] c c'' n := by
  unfold mkThen at hc
  split at hc
  · rename_i hu
    simp only [Except.ok.injEq, Prod.mk.injEq] at hc
    obtain ⟨rfl, rfl⟩ := hc
    exact {
      stmts := h.stmts
      blocks := h.blocks
      flips := Nat.le_succ_of_le h.flips
      registers := h.registers
      slots := by
        have h' := h.slots
        rw [List.perm_iff_count] at h' ⊢
        intro s
        have := h' s
        have hf := h.flips
        simp only [placesList, places, List.append_nil, slotsBetween, List.count_append,
          List.count_cons] at this ⊢
        rw [show c'.flips + 1 - c.flips = (c'.flips - c.flips) + 1 by omega, List.range'_concat]
        rw [show c.flips + 1 * (c'.flips - c.flips) = c'.flips by omega]
        simp only [List.map_append, List.map_cons, List.map_nil, List.count_append,
          List.count_cons, List.count_nil]
        omega
      updates := h.updates
      inits := h.inits
      only := h.only
      parts := by
        intro e he p hp
        rcases List.mem_append.1 he with he | he
        · simp only [List.mem_singleton] at he
          subst he
          simp only [Den.parts, List.mem_cons, List.mem_append] at hp
          rcases hp with rfl | hp | hp
          · exact hu
          · exact h.parts b (by simp) p hp
          · exact h.parts a (by simp) p hp
        · exact h.parts e (List.mem_append_right _ he) p hp
      fetched := fun id f => by
        have := h.fetched id f
        simp only [fetchesList, fetches, List.append_nil, List.mem_append] at this ⊢
        rw [← this, or_comm]
      started := fun id i => by
        have := h.started id i
        simp only [startsList, starts, List.append_nil, List.mem_append] at this ⊢
        rw [← this, or_comm]
      whole := by
        have h' := h.whole
        have hf := h.flips
        rw [List.perm_iff_count] at h' ⊢
        intro s
        have := h' s
        simp only [slotsList, Spec.slots, List.append_nil, slotsBetween, List.count_append,
          range_snoc h.flips, List.map_append, List.map_cons, List.map_nil, List.count_cons,
          List.count_nil] at this ⊢
        omega
      plain := fun hu' => by simp [hu] at hu' }
  · rename_i hu
    simp only [Except.ok.injEq, Prod.mk.injEq] at hc
    obtain ⟨rfl, rfl⟩ := hc
    refine h.wrap ?_ ?_ ?_ ?_ ?_
    · simp only [places, placesList, List.append_nil]
      exact List.perm_append_comm
    · intro p hp
      simp only [Den.parts, List.mem_cons, List.mem_append] at hp
      rcases hp with rfl | hp | hp
      · exact .inl (by simpa [Okay] using hu)
      · exact .inr ⟨b, by simp, hp⟩
      · exact .inr ⟨a, by simp, hp⟩
    · simp [fetches, fetchesList, or_comm]
    · simp [starts, startsList, or_comm]
    · simp only [Spec.slots, slotsList, List.append_nil]
      exact List.perm_append_comm

theorem fresh_pre {v : View} (hu : v.useRegisters = true) {a : Expr} {c c' : ExprCtx} {n : List Stmt}
    (h : Fresh v [a] { c with registers := c.registers + 1 } c' n) {x : Expr} {c'' : ExprCtx}
    (hc : mkPre c.registers a c' = .ok (x, c'')) :
    ∃ n, Fresh v [x] c c'' n := by
  simp only [mkPre, Except.ok.injEq, Prod.mk.injEq] at hc
  obtain ⟨rfl, rfl⟩ := hc
  have hr : c.registers + 1 ≤ c'.registers := h.registers
  have hreg : regsBetween c c' = c.registers :: regsBetween { c with registers := c.registers + 1 } c' := by
    unfold regsBetween
    rw [show c'.registers - c.registers = (c'.registers - (c.registers + 1)) + 1 by omega]
    rfl
  refine ⟨n ++ [.updateRegister c.registers a, .initRegister c.registers none none], ?_⟩
  exact {
    stmts := by simp [h.stmts]
    blocks := h.blocks
    flips := h.flips
    registers := Nat.le_of_succ_le h.registers
    slots := by
      have h' := h.slots
      rw [List.perm_iff_count] at h' ⊢
      intro s
      have := h' s
      simp only [placesList, places, placesIn, evaluated, List.append_nil, List.nil_append,
        List.flatMap_append, List.flatMap_cons, List.flatMap_nil, Option.toList_some,
        Option.toList_none, slotsBetween, List.count_append] at this ⊢
      rw [show c'.registers - c.registers = (c'.registers - (c.registers + 1)) + 1 by omega]
      simp only [List.range'_succ, List.map_cons, List.count_cons, List.count_nil] at this ⊢
      omega
    updates := by
      rw [show regsBetween c { c' with stmts := c'.stmts ++ _ } = regsBetween c c' from rfl, hreg]
      simp only [updated_append, updated]
      exact List.perm_append_singleton _ _ |>.trans (h.updates.cons _)
    inits := by
      rw [show regsBetween c { c' with stmts := c'.stmts ++ _ } = regsBetween c c' from rfl, hreg]
      simp only [initialised_append, initialised]
      exact List.perm_append_singleton _ _ |>.trans (h.inits.cons _)
    only := by
      intro st hst
      simp only [List.mem_append, List.mem_cons, List.not_mem_nil, or_false] at hst
      rcases hst with hst | rfl | rfl
      · exact h.only st hst
      · exact .inl ⟨_, _, rfl⟩
      · exact .inr ⟨_, _, rfl⟩
    parts := by
      intro e he p hp
      simp only [List.mem_append, List.mem_singleton, List.flatMap_append, List.flatMap_cons,
        List.flatMap_nil, evaluated, List.append_nil, Option.toList_some,
        Option.toList_none, List.not_mem_nil, or_false] at he
      have mono : ∀ st ∈ n, st ∈ n ++ [Stmt.updateRegister c.registers a,
        .initRegister c.registers none none] := by simp +contextual
      rcases he with rfl | he | rfl
      · simp only [Den.parts, List.mem_singleton] at hp
        subst hp
        exact ⟨hu, by simp, by simp⟩
      · exact (h.parts e (List.mem_append_right _ he) p hp).mono mono
      · exact (h.parts e (by simp) p hp).mono mono
    fetched := fun id f => by
      have := h.fetched id f
      simp only [fetchesList, fetches, List.append_nil, List.mem_append, List.mem_singleton,
        Prod.mk.injEq, List.mem_cons, List.not_mem_nil, or_false, Stmt.updateRegister.injEq,
        reduceCtorEq] at this ⊢
      rw [← this]
    started := fun id i => by
      have := h.started id i
      simp only [startsList, starts, List.append_nil, List.mem_append, List.mem_singleton,
        Prod.mk.injEq, List.mem_cons, List.not_mem_nil, or_false, Stmt.initRegister.injEq,
        reduceCtorEq, false_or, and_true] at this ⊢
      rw [← this]
    whole := by
      have h' := h.whole
      rw [List.perm_iff_count] at h' ⊢
      intro s
      have := h' s
      simp only [slotsList, Spec.slots, List.append_nil, slotsBetween, List.count_append] at this ⊢
      rw [show c'.registers - c.registers = (c'.registers - (c.registers + 1)) + 1 by omega]
      simp only [List.range'_succ, List.map_cons, List.count_cons, List.count_nil] at this ⊢
      omega
    plain := fun hu' => by simp [hu] at hu' }

theorem tr_throw {α : Type} {e : TrErr} {c : ExprCtx} {r : α × ExprCtx} :
    (throw e : Tr α) c = .ok r ↔ False := by
  constructor
  · intro h
    have h' : (Except.error e : Except TrErr (α × ExprCtx)) = .ok r := h
    cases h'
  · exact False.elim

mutual
theorem fresh_translate : ∀ (e : Src) (v : View) (c : ExprCtx) (x : Expr) (c' : ExprCtx),
    e.translate v c = .ok (x, c') → ∃ n, Fresh v [x] c c' n
  | .lit l, v, c, x, c', h => by
    unfold Src.translate Lit.translate at h
    split at h
    · cases tr_pure_ok.1 h
      exact Fresh.atom rfl rfl rfl trivial
    · split at h
      · cases tr_pure_ok.1 h
        exact Fresh.atom rfl rfl rfl trivial
      · exact (tr_throw.1 h).elim
    · cases tr_pure_ok.1 h
      exact Fresh.atom rfl rfl rfl trivial
    · exact (tr_throw.1 h).elim
    · exact (tr_throw.1 h).elim
  | .var y, v, c, x, c', h => by
    unfold Src.translate at h
    split at h
    · cases tr_pure_ok.1 h
      rename_i hy
      exact Fresh.atom rfl rfl rfl ⟨hy, fun _ => rfl⟩
    · cases tr_pure_ok.1 h
      exact Fresh.atom rfl rfl rfl trivial
  | .paren es b, v, c, x, c', h => by
    unfold Src.translate at h
    obtain ⟨xs, c₁, h1, h2⟩ := tr_bind_ok.1 h
    cases tr_pure_ok.1 h2
    obtain ⟨n, hn⟩ := fresh_translateList es v c xs c' h1
    exact ⟨n, fresh_paren b hn⟩
  | .left first rest, v, c, x, c', h => by
    unfold Src.translate at h
    obtain ⟨acc, c₁, h1, h2⟩ := tr_bind_ok.1 h
    obtain ⟨n, hn⟩ := fresh_translate first v c acc c₁ h1
    exact fresh_translateLeft rest v c c₁ acc n hn x c' h2
  | .cmp first rest, v, c, x, c', h => by
    unfold Src.translate at h
    obtain ⟨acc, c₁, h1, h2⟩ := tr_bind_ok.1 h
    obtain ⟨n, hn⟩ := fresh_translate first v c acc c₁ h1
    exact fresh_translateCmp rest v c c₁ acc n hn x c' h2
  | .fby first rest, v, c, x, c', h => by
    unfold Src.translate at h
    obtain ⟨acc, c₁, h1, h⟩ := tr_bind_ok.1 h
    obtain ⟨before, c₂, h2, h⟩ := tr_bind_ok.1 h
    obtain ⟨n, hn⟩ := fresh_translateFby rest v 1 c acc c₁ h1
    obtain ⟨n', hn'⟩ := fresh_translate first _ c₁ before c₂ h2
    have hn' : Fresh v [before] c₁ c₂ n' := by
      refine hn'.view ?_
      split
      · exact Deeper.rfl'
      · exact Deeper.bump (by simp_all) _
    have := hn.append hn'
    cases acc with
    | none =>
      cases tr_pure_ok.1 h
      exact ⟨_, this⟩
    | some after => exact fresh_fby this h
  | .arrow first rest, v, c, x, c', h => by
    unfold Src.translate at h
    obtain ⟨acc, c₁, h1, h⟩ := tr_bind_ok.1 h
    obtain ⟨before, c₂, h2, h⟩ := tr_bind_ok.1 h
    obtain ⟨n, hn⟩ := fresh_translateThen rest v 1 c acc c₁ h1
    obtain ⟨n', hn'⟩ := fresh_translate first _ c₁ before c₂ h2
    have := hn.append hn'
    cases acc with
    | none =>
      cases tr_pure_ok.1 h
      exact ⟨_, this⟩
    | some after => exact ⟨_, fresh_then this h⟩
  | .ifx b y z, v, c, x, c', h => by
    unfold Src.translate at h
    obtain ⟨b', c₁, h1, h⟩ := tr_bind_ok.1 h
    obtain ⟨y', c₂, h2, h⟩ := tr_bind_ok.1 h
    obtain ⟨z', c₃, h3, h⟩ := tr_bind_ok.1 h
    cases tr_pure_ok.1 h
    obtain ⟨n₁, hn₁⟩ := fresh_translate b v c b' c₁ h1
    obtain ⟨n₂, hn₂⟩ := fresh_translate y v c₁ y' c₂ h2
    obtain ⟨n₃, hn₃⟩ := fresh_translate z v c₂ z' c' h3
    refine ⟨_, (hn₁.append (hn₂.append hn₃)).wrap (by simp [places, placesList]) ?_⟩
    intro p hp
    simp only [Den.parts, List.mem_cons, List.mem_append] at hp
    rcases hp with rfl | hp | hp | hp
    · exact .inl trivial
    · exact .inr ⟨b', by simp, hp⟩
    · exact .inr ⟨y', by simp, hp⟩
    · exact .inr ⟨z', by simp, hp⟩
  | .merge b y z, v, c, x, c', h => by
    unfold Src.translate at h
    obtain ⟨b', c₁, h1, h⟩ := tr_bind_ok.1 h
    obtain ⟨y', c₂, h2, h⟩ := tr_bind_ok.1 h
    obtain ⟨z', c₃, h3, h⟩ := tr_bind_ok.1 h
    cases tr_pure_ok.1 h
    obtain ⟨n₁, hn₁⟩ := fresh_translate b v c b' c₁ h1
    obtain ⟨n₂, hn₂⟩ := fresh_translate y v c₁ y' c₂ h2
    obtain ⟨n₃, hn₃⟩ := fresh_translate z v c₂ z' c' h3
    refine ⟨_, (hn₁.append (hn₂.append hn₃)).wrap (by simp [places, placesList]) ?_⟩
    intro p hp
    simp only [Den.parts, List.mem_cons, List.mem_append] at hp
    rcases hp with rfl | hp | hp | hp
    · exact .inl trivial
    · exact .inr ⟨b', by simp, hp⟩
    · exact .inr ⟨y', by simp, hp⟩
    · exact .inr ⟨z', by simp, hp⟩
  | .call f es b, v, c, x, c', h => by
    unfold Src.translate at h
    obtain ⟨xs, c₁, h1, h2⟩ := tr_bind_ok.1 h
    obtain ⟨n, hn⟩ := fresh_translateList es v c xs c₁ h1
    exact ⟨n, fresh_call (fresh_paren b hn) h2⟩
  | .pre e, v, c, x, c', h => by
    unfold Src.translate at h
    split at h
    · rename_i hu
      obtain ⟨id, c₁, h1, h⟩ := tr_bind_ok.1 h
      simp only [newRegister, Except.ok.injEq, Prod.mk.injEq] at h1
      obtain ⟨rfl, rfl⟩ := h1
      obtain ⟨a, c₂, h2, h⟩ := tr_bind_ok.1 h
      obtain ⟨n, hn⟩ := fresh_translate e v _ a c₂ h2
      exact fresh_pre hu hn h
    · rename_i hu
      obtain ⟨a, c₁, h1, h⟩ := tr_bind_ok.1 h
      cases tr_pure_ok.1 h
      obtain ⟨n, hn⟩ := fresh_translate e _ c a c' h1
      refine ⟨n, (hn.view (Deeper.bump (by simpa using hu) 1)).wrap (by simp [places, placesList]) ?_⟩
      intro p hp
      simp only [Den.parts, List.mem_cons] at hp
      rcases hp with rfl | hp
      · exact .inl trivial
      · exact .inr ⟨a, by simp, hp⟩
  | .neg e, v, c, x, c', h => by
    unfold Src.translate at h
    obtain ⟨a, c₁, h1, h⟩ := tr_bind_ok.1 h
    cases tr_pure_ok.1 h
    obtain ⟨n, hn⟩ := fresh_translate e _ c a c' h1
    refine ⟨n, hn.wrap (by simp [places, placesList]) ?_⟩
    intro p hp
    simp only [Den.parts, List.mem_cons] at hp
    rcases hp with rfl | hp
    · exact .inl trivial
    · exact .inr ⟨a, by simp, hp⟩
  | .not e, v, c, x, c', h => by
    unfold Src.translate at h
    obtain ⟨a, c₁, h1, h⟩ := tr_bind_ok.1 h
    cases tr_pure_ok.1 h
    obtain ⟨n, hn⟩ := fresh_translate e _ c a c' h1
    refine ⟨n, hn.wrap (by simp [places, placesList]) ?_⟩
    intro p hp
    simp only [Den.parts, List.mem_cons] at hp
    rcases hp with rfl | hp
    · exact .inl trivial
    · exact .inr ⟨a, by simp, hp⟩
theorem fresh_translateList : ∀ (es : List Src) (v : View) (c : ExprCtx) (xs : List Expr)
    (c' : ExprCtx), Src.translateList v es c = .ok (xs, c') → ∃ n, Fresh v xs c c' n
  | [], v, c, xs, c', h => by
    unfold Src.translateList at h
    cases tr_pure_ok.1 h
    exact ⟨_, Fresh.nil v c⟩
  | e :: es, v, c, xs, c', h => by
    unfold Src.translateList at h
    obtain ⟨a, c₁, h1, h⟩ := tr_bind_ok.1 h
    obtain ⟨as, c₂, h2, h⟩ := tr_bind_ok.1 h
    cases tr_pure_ok.1 h
    obtain ⟨n₁, hn₁⟩ := fresh_translate e v c a c₁ h1
    obtain ⟨n₂, hn₂⟩ := fresh_translateList es v c₁ as c' h2
    exact ⟨_, hn₁.append hn₂⟩
theorem fresh_translateLeft : ∀ (rest : List (LOp × Src)) (v : View) (c₀ c : ExprCtx) (acc : Expr)
    (n : List Stmt), Fresh v [acc] c₀ c n → ∀ (x : Expr) (c' : ExprCtx),
    Src.translateLeft v acc rest c = .ok (x, c') → ∃ n, Fresh v [x] c₀ c' n
  | [], v, c₀, c, acc, n, hn, x, c', h => by
    unfold Src.translateLeft at h
    cases tr_pure_ok.1 h
    exact ⟨n, hn⟩
  | (op, e) :: rest, v, c₀, c, acc, n, hn, x, c', h => by
    unfold Src.translateLeft at h
    obtain ⟨a, c₁, h1, h⟩ := tr_bind_ok.1 h
    obtain ⟨n₁, hn₁⟩ := fresh_translate e v c a c₁ h1
    refine fresh_translateLeft rest v c₀ c₁ (op.compose acc a) (n ++ n₁) ?_ x c' h
    refine (hn.append hn₁).wrap (by simp [places_compose, placesList]) ?_
      (by simp [fetches_compose, fetchesList]) (by simp [starts_compose, startsList])
      (by simp [slots_compose, slotsList])
    intro p hp
    simp only [parts_compose, List.mem_cons, List.mem_append] at hp
    rcases hp with rfl | hp | hp
    · exact .inl (okay_compose ..)
    · exact .inr ⟨acc, by simp, hp⟩
    · exact .inr ⟨a, by simp, hp⟩
theorem fresh_translateCmp : ∀ (rest : List (CmpOp × Src)) (v : View) (c₀ c : ExprCtx) (acc : Expr)
    (n : List Stmt), Fresh v [acc] c₀ c n → ∀ (x : Expr) (c' : ExprCtx),
    Src.translateCmp v acc rest c = .ok (x, c') → ∃ n, Fresh v [x] c₀ c' n
  | [], v, c₀, c, acc, n, hn, x, c', h => by
    unfold Src.translateCmp at h
    cases tr_pure_ok.1 h
    exact ⟨n, hn⟩
  | [(op, e)], v, c₀, c, acc, n, hn, x, c', h => by
    unfold Src.translateCmp at h
    obtain ⟨a, c₁, h1, h⟩ := tr_bind_ok.1 h
    cases tr_pure_ok.1 h
    obtain ⟨n₁, hn₁⟩ := fresh_translate e v c a c' h1
    refine ⟨_, (hn.append hn₁).wrap (by simp [places, placesList]) ?_⟩
    intro p hp
    simp only [Den.parts, List.mem_cons, List.mem_append] at hp
    rcases hp with rfl | hp | hp
    · exact .inl trivial
    · exact .inr ⟨acc, by simp, hp⟩
    · exact .inr ⟨a, by simp, hp⟩
  | (_, e) :: (_, e') :: _, v, c₀, c, acc, n, hn, x, c', h => by
    unfold Src.translateCmp at h
    obtain ⟨a, c₁, h1, h⟩ := tr_bind_ok.1 h
    obtain ⟨a', c₂, h2, h⟩ := tr_bind_ok.1 h
    exact (tr_throw.1 h).elim
theorem fresh_translateFby : ∀ (es : List Src) (v : View) (i : Nat) (c : ExprCtx) (o : Option Expr)
    (c' : ExprCtx), Src.translateFby v i es c = .ok (o, c') → ∃ n, Fresh v o.toList c c' n
  | [], v, i, c, o, c', h => by
    unfold Src.translateFby at h
    cases tr_pure_ok.1 h
    exact ⟨_, Fresh.nil v c⟩
  | e :: es, v, i, c, o, c', h => by
    unfold Src.translateFby at h
    obtain ⟨acc, c₁, h1, h⟩ := tr_bind_ok.1 h
    obtain ⟨before, c₂, h2, h⟩ := tr_bind_ok.1 h
    obtain ⟨n, hn⟩ := fresh_translateFby es v (i + 1) c acc c₁ h1
    obtain ⟨n', hn'⟩ := fresh_translate e _ c₁ before c₂ h2
    have hn' : Fresh v [before] c₁ c₂ n' := by
      refine hn'.view ?_
      split
      · exact Deeper.rfl'
      · exact Deeper.bump (by simp_all) _
    have := hn.append hn'
    cases acc with
    | none =>
      cases tr_pure_ok.1 h
      exact ⟨_, this⟩
    | some after =>
      obtain ⟨y, c₃, h3, h⟩ := tr_bind_ok.1 h
      cases tr_pure_ok.1 h
      exact fresh_fby this h3
theorem fresh_translateThen : ∀ (es : List Src) (v : View) (i : Nat) (c : ExprCtx) (o : Option Expr)
    (c' : ExprCtx), Src.translateThen v i es c = .ok (o, c') → ∃ n, Fresh v o.toList c c' n
  | [], v, i, c, o, c', h => by
    unfold Src.translateThen at h
    cases tr_pure_ok.1 h
    exact ⟨_, Fresh.nil v c⟩
  | e :: es, v, i, c, o, c', h => by
    unfold Src.translateThen at h
    obtain ⟨acc, c₁, h1, h⟩ := tr_bind_ok.1 h
    obtain ⟨before, c₂, h2, h⟩ := tr_bind_ok.1 h
    obtain ⟨n, hn⟩ := fresh_translateThen es v (i + 1) c acc c₁ h1
    obtain ⟨n', hn'⟩ := fresh_translate e _ c₁ before c₂ h2
    have := hn.append hn'
    cases acc with
    | none =>
      cases tr_pure_ok.1 h
      exact ⟨_, this⟩
    | some after =>
      obtain ⟨y, c₃, h3, h⟩ := tr_bind_ok.1 h
      cases tr_pure_ok.1 h
      exact ⟨_, fresh_then this h3⟩
end

end Chandeliers.Den
