import Verif.Lemmas.Tup

/-!
# C06, C07, C15: nested tuples and the sampling macros
-/

namespace Chandeliers.Props

variable {α : Type}

/-! ## C06 -/

theorem unwrap_ok_iff (a : Nillable α) (b : α) : a.unwrap = .ok b ↔ a = .defined b := by
  cases a <;> simp [Nillable.unwrap]

/-- Embedding then trusting gives back the value. -/
theorem C06_trusted_embed (t : Tup α) : t.embed.trusted = .ok t := by
  rw [Tup.trusted, Tup.embed, Tup.mapM_ok_iff _ .defined unwrap_ok_iff]

/-- Trusting succeeds exactly on embedded values, and is then inverse to embedding. -/
theorem C06_trusted_ok_iff (w : Tup (Nillable α)) (v : Tup α) :
    w.trusted = .ok v ↔ w = v.embed := by
  rw [Tup.trusted, Tup.embed, Tup.mapM_ok_iff _ .defined unwrap_ok_iff]

/-- Trusting panics exactly when some leaf is nil. -/
theorem C06_trusted_panics_iff (w : Tup (Nillable α)) :
    (∃ p, w.trusted = .error p) ↔ Nillable.nil ∈ w.leaves := by
  rw [Tup.trusted, Tup.mapM_error_iff]
  constructor
  · rintro ⟨a, ha, p, hp⟩
    cases a
    · simp [Nillable.unwrap] at hp
    · exact ha
  · intro h
    exact ⟨_, h, .unwrapNil, rfl⟩

/-- Embedding is injective. -/
theorem C06_embed_injective (t u : Tup α) (h : t.embed = u.embed) : t = u := by
  have := C06_trusted_embed t
  rw [h, C06_trusted_embed] at this
  exact (Except.ok.inj this).symm

example : (Tup.tup (.leaf (3 : Nat)) [.leaf 4, .tup (.leaf 5) []]).embed.trusted
    = .ok (.tup (.leaf 3) [.leaf 4, .tup (.leaf 5) []]) := by rfl
example : ∃ p, (Tup.tup (.leaf (.defined 3)) [.leaf (.nil : Nillable Nat)]).trusted = .error p :=
  ⟨.unwrapNil, rfl⟩

/-! ## C07 -/

/-- `auto_size` has the requested type and only nil leaves. -/
theorem C07_allNil (ty : Tup Unit) :
    (Tup.allNil α ty).shape = ty ∧ ∀ x ∈ (Tup.allNil α ty).leaves, x = .nil := by
  refine ⟨Tup.shape_allNil ty, ?_⟩
  intro x hx
  rw [Tup.allNil, Tup.leaves_map, List.mem_map] at hx
  obtain ⟨_, _, rfl⟩ := hx
  rfl

mutual
theorem eq_of_shape_leaves_nil : ∀ (t : Tup (Nillable α)),
    (∀ x ∈ t.leaves, x = .nil) → t = Tup.allNil α t.shape
  | .leaf a, h => by
    have := h a (by simp [Tup.leaves])
    subst this; rfl
  | .tup hd tl, h => by
    have h1 := eq_of_shape_leaves_nil hd (fun x hx => h x (by simp [Tup.leaves, hx]))
    have h2 := eqList_of_shape_leaves_nil tl (fun x hx => h x (by simp [Tup.leaves, hx]))
    simp only [Tup.allNil, Tup.shape, Tup.map, Tup.tup.injEq] at h1 h2 ⊢
    exact ⟨h1, h2⟩
theorem eqList_of_shape_leaves_nil : ∀ (t : List (Tup (Nillable α))),
    (∀ x ∈ Tup.leavesList t, x = .nil) →
      t = Tup.mapList (fun _ => .nil) (Tup.mapList (fun _ => ()) t)
  | [], _ => rfl
  | t :: ts, h => by
    have h1 := eq_of_shape_leaves_nil t (fun x hx => h x (by simp [Tup.leavesList, hx]))
    have h2 := eqList_of_shape_leaves_nil ts (fun x hx => h x (by simp [Tup.leavesList, hx]))
    simp only [Tup.allNil, Tup.shape, Tup.mapList, List.cons.injEq] at h1 h2 ⊢
    exact ⟨h1, h2⟩
end

/-- `auto_size` is the only value of its type with only nil leaves. -/
theorem C07_allNil_unique (ty : Tup Unit) (w : Tup (Nillable α)) (hs : w.shape = ty)
    (hn : ∀ x ∈ w.leaves, x = .nil) : w = Tup.allNil α ty := by
  subst hs
  exact eq_of_shape_leaves_nil w hn

/-- `first_is_nil` looks at the leftmost leaf only: it holds of `auto_size`, fails on embedded
values, and is unaffected by any other leaf. -/
theorem C07_firstIsNil (w : Tup (Nillable α)) :
    (w.firstIsNil = true ↔ w.leaves.head? = some .nil) ∧
    (∀ ty, (Tup.allNil α ty).firstIsNil = true) ∧
    (∀ v : Tup α, v.embed.firstIsNil = false) := by
  refine ⟨?_, Tup.firstIsNil_allNil, ?_⟩
  · obtain ⟨l, hl⟩ := Tup.leaves_first w
    rw [hl]
    simp only [Tup.firstIsNil, List.head?_cons, Option.some.injEq]
    cases w.first <;> simp [Nillable.firstIsNil]
  · intro v
    simp [Tup.embed, Tup.firstIsNil, Tup.first_map, Nillable.firstIsNil]

example : (Tup.tup (.tup (.leaf (.nil : Nillable Nat)) []) [.leaf (.defined 1)]).firstIsNil = true ∧
    (Tup.tup (.leaf (.defined 1)) [.leaf (.nil : Nillable Nat)]).firstIsNil = false := ⟨rfl, rfl⟩

/-! ## C15 -/

/-- Truth tables of `when`, `whenot`, `merge` and `if`.  `allNil` is at the type of the
operands. -/
theorem C15_truth_tables (ty : Tup Unit) (x y : Tup (Nillable α)) (hx : x.shape = ty) :
    (Candle.when (.defined true) x = x ∧ Candle.when (.defined false) x = Tup.allNil α ty ∧
      Candle.when .nil x = Tup.allNil α ty) ∧
    (Candle.whenot (.defined false) x = x ∧ Candle.whenot (.defined true) x = Tup.allNil α ty ∧
      Candle.whenot .nil x = Tup.allNil α ty) ∧
    (Candle.merge (.defined true) x y = x ∧ Candle.merge (.defined false) x y = y ∧
      Candle.merge .nil x y = Tup.allNil α ty) ∧
    (Candle.ifx (.defined true) x y = x ∧ Candle.ifx (.defined false) x y = y ∧
      Candle.ifx .nil x y = Tup.allNil α ty) := by
  subst hx
  simp [Candle.when, Candle.whenot, Candle.merge, Candle.ifx, Tup.nilLike_eq]

/-- Sampling on complementary conditions and merging is `if`. -/
theorem C15_merge_of_sampled (b : Nillable Bool) (x y : Tup (Nillable α)) :
    Candle.merge b (Candle.when b x) (Candle.whenot b y) = Candle.ifx b x y := by
  rcases b with (_ | _) | _ <;>
    simp [Candle.when, Candle.whenot, Candle.merge, Candle.ifx, Tup.nilLike_nilLike]

/-- Sampling a merge back on its own guard recovers the sampled branches. -/
theorem C15_sampled_of_merge (b : Nillable Bool) (x y : Tup (Nillable α)) (hs : x.shape = y.shape) :
    Candle.when b (Candle.merge b x y) = Candle.when b x ∧
    Candle.whenot b (Candle.merge b x y) = Candle.whenot b y := by
  rcases b with (_ | _) | _ <;>
    simp [Candle.when, Candle.whenot, Candle.merge, Tup.nilLike_eq, hs, Tup.shape_allNil]

/-- Nested sampling on the same condition is idempotent, on the opposite one always nil. -/
theorem C15_sampling_idempotent (b : Nillable Bool) (x : Tup (Nillable α)) :
    Candle.when b (Candle.when b x) = Candle.when b x ∧
    Candle.whenot b (Candle.whenot b x) = Candle.whenot b x ∧
    Candle.whenot b (Candle.when b x) = x.nilLike ∧
    Candle.when b (Candle.whenot b x) = x.nilLike := by
  rcases b with (_ | _) | _ <;>
    simp [Candle.when, Candle.whenot, Tup.nilLike_eq, Tup.shape_allNil]

example : Candle.merge (.defined false) (Tup.leaf (.defined 1)) (Tup.leaf (.defined 2))
    = Tup.leaf (Nillable.defined 2) := rfl

end Chandeliers.Props
