import Verif.Sem.Stepping

/-! Helper lemmas on nested tuples. -/

namespace Chandeliers.Tup

variable {α β γ : Type}

mutual
theorem map_map (f : α → β) (g : β → γ) : ∀ t : Tup α, (t.map f).map g = t.map (g ∘ f)
  | leaf a => by simp [map]
  | tup h t => by simp [map, map_map f g h, mapList_mapList f g t]
theorem mapList_mapList (f : α → β) (g : β → γ) :
    ∀ t : List (Tup α), mapList g (mapList f t) = mapList (g ∘ f) t
  | [] => by simp [mapList]
  | t :: ts => by simp [mapList, map_map f g t, mapList_mapList f g ts]
end

mutual
theorem map_id' : ∀ t : Tup α, t.map (fun a => a) = t
  | leaf a => by simp [map]
  | tup h t => by simp [map, map_id' h, mapList_id' t]
theorem mapList_id' : ∀ t : List (Tup α), mapList (fun a => a) t = t
  | [] => by simp [mapList]
  | t :: ts => by simp [mapList, map_id' t, mapList_id' ts]
end

mutual
theorem leaves_map (f : α → β) : ∀ t : Tup α, (t.map f).leaves = t.leaves.map f
  | leaf a => by simp [map, leaves]
  | tup h t => by simp [map, leaves, leaves_map f h, leavesList_mapList f t]
theorem leavesList_mapList (f : α → β) :
    ∀ t : List (Tup α), leavesList (mapList f t) = (leavesList t).map f
  | [] => by simp [mapList, leavesList]
  | t :: ts => by simp [mapList, leavesList, leaves_map f t, leavesList_mapList f ts]
end

theorem first_map (f : α → β) : ∀ t : Tup α, (t.map f).first = f t.first
  | leaf a => by simp [map, first]
  | tup h t => by simp [map, first, first_map f h]

theorem leaves_first : ∀ t : Tup α, ∃ l, t.leaves = t.first :: l
  | leaf a => ⟨[], rfl⟩
  | tup h t => by
    obtain ⟨l, hl⟩ := leaves_first h
    exact ⟨l ++ leavesList t, by simp [leaves, first, hl]⟩

theorem shape_map (f : α → β) (t : Tup α) : (t.map f).shape = t.shape := by
  simp only [shape, map_map, Function.comp_def]

theorem nilLike_eq (t : Tup (Nillable α)) : t.nilLike = allNil α t.shape := by
  simp only [nilLike, allNil, shape, map_map, Function.comp_def]

theorem shape_allNil (ty : Tup Unit) : (allNil α ty).shape = ty := by
  simp only [allNil, shape, map_map, Function.comp_def]
  exact map_id' ty

theorem firstIsNil_allNil (ty : Tup Unit) : (allNil α ty).firstIsNil = true := by
  simp [allNil, firstIsNil, first_map, Nillable.firstIsNil]

theorem firstIsNil_nilLike (t : Tup (Nillable α)) : t.nilLike.firstIsNil = true := by
  simp [nilLike_eq, firstIsNil_allNil]

theorem shape_nilLike (t : Tup (Nillable α)) : t.nilLike.shape = t.shape := by
  simp [nilLike_eq, shape_allNil]

theorem nilLike_allNil (ty : Tup Unit) : (allNil α ty).nilLike = allNil α ty := by
  simp [nilLike_eq, shape_allNil]

theorem nilLike_nilLike (t : Tup (Nillable α)) : t.nilLike.nilLike = t.nilLike := by
  rw [nilLike_eq, nilLike_eq, shape_allNil]

mutual
theorem mapM_ok_iff (f : α → R β) (g : β → α) (hfg : ∀ a b, f a = .ok b ↔ a = g b) :
    ∀ (t : Tup α) (u : Tup β), t.mapM f = .ok u ↔ t = u.map g
  | leaf a, leaf b => by
    simp only [mapM, map, leaf.injEq, ← hfg]
    cases f a <;> simp [Except.map]
  | leaf a, tup h t => by
    simp only [mapM, map]
    cases f a <;> simp [Except.map]
  | tup h t, leaf b => by
    simp only [mapM, map, bind, Except.bind]
    cases mapM f h <;> simp
    cases mapMList f t <;> simp [pure, Except.pure]
  | tup h t, tup h' t' => by
    have e1 := mapM_ok_iff f g hfg h h'
    have e2 := mapMList_ok_iff f g hfg t t'
    simp only [mapM, map, bind, Except.bind, tup.injEq, ← e1, ← e2]
    cases mapM f h <;> simp
    cases mapMList f t <;> simp [pure, Except.pure]
theorem mapMList_ok_iff (f : α → R β) (g : β → α) (hfg : ∀ a b, f a = .ok b ↔ a = g b) :
    ∀ (t : List (Tup α)) (u : List (Tup β)), mapMList f t = .ok u ↔ t = mapList g u
  | [], [] => by simp [mapMList, mapList]
  | [], u :: us => by simp [mapMList, mapList]
  | t :: ts, [] => by
    simp only [mapMList, mapList, bind, Except.bind]
    cases mapM f t <;> simp
    cases mapMList f ts <;> simp [pure, Except.pure]
  | t :: ts, u :: us => by
    have e1 := mapM_ok_iff f g hfg t u
    have e2 := mapMList_ok_iff f g hfg ts us
    simp only [mapMList, mapList, bind, Except.bind, List.cons.injEq, ← e1, ← e2]
    cases mapM f t <;> simp
    cases mapMList f ts <;> simp [pure, Except.pure]
end

mutual
theorem mapM_error_iff (f : α → R β) :
    ∀ t : Tup α, (∃ p, t.mapM f = .error p) ↔ ∃ a ∈ t.leaves, ∃ p, f a = .error p
  | leaf a => by
    simp only [mapM, leaves, List.mem_singleton, exists_eq_left]
    cases f a <;> simp [Except.map]
  | tup h t => by
    have e1 := mapM_error_iff f h
    have e2 := mapMList_error_iff f t
    simp only [leaves, List.mem_append, or_and_right, exists_or, ← e1, ← e2]
    simp only [mapM, bind, Except.bind]
    cases mapM f h <;> simp
    cases mapMList f t <;> simp [pure, Except.pure]
theorem mapMList_error_iff (f : α → R β) :
    ∀ t : List (Tup α), (∃ p, mapMList f t = .error p) ↔ ∃ a ∈ leavesList t, ∃ p, f a = .error p
  | [] => by simp [mapMList, leavesList]
  | t :: ts => by
    have e1 := mapM_error_iff f t
    have e2 := mapMList_error_iff f ts
    simp only [leavesList, List.mem_append, or_and_right, exists_or, ← e1, ← e2]
    simp only [mapMList, bind, Except.bind]
    cases mapM f t <;> simp
    cases mapMList f ts <;> simp [pure, Except.pure]
end

end Chandeliers.Tup
