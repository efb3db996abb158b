import Verif.Lemmas.PromptExpr
import Verif.Spec.Guards

/-! # What the value of an expression depends on, in the clocked reference -/

set_option autoImplicit false
set_option linter.unusedSectionVars false

namespace Chandeliers.Std
open Chandeliers.San Chandeliers.Spec Chandeliers.Syn
open Chandeliers.Spec.Static

section
variable {W : World} {D : String → Clock} {Y : String → Nat → Nillable Scalar} {P : String → Prop}

theorem lastBefore_congr {on on' : Nat → Bool} : ∀ {t : Nat}, (∀ u, u < t → on u = on' u) →
    lastBefore on t = lastBefore on' t
  | 0, _ => rfl
  | t + 1, h => by
    rw [lastBefore, lastBefore, h t (by omega), lastBefore_congr fun u hu => h u (by omega)]

theorem lastBefore_lt {on : Nat → Bool} : ∀ {t u : Nat}, lastBefore on t = some u → u < t
  | 0, _, h => by cases h
  | t + 1, u, h => by
    rw [lastBefore] at h
    split at h
    · cases h; omega
    · have := lastBefore_lt h
      omega

theorem pastValues_congr {on on' : Nat → Bool} {f f' : Nat → Option Value} : ∀ {t : Nat},
    (∀ u, u < t → on u = on' u ∧ f u = f' u) → pastValues on f t = pastValues on' f' t
  | 0, _ => rfl
  | t + 1, h => by
    rw [pastValues, pastValues, (h t (by omega)).1, (h t (by omega)).2,
      pastValues_congr fun u hu => h u (by omega)]

theorem opened_congr {b : Bool} {t : Nat} : (e : Src) → (∀ x ∈ justVar e, W.X x t = Y x t) →
    opened W b e t = opened { W with X := Y } b e t
  | .var x, h => by
    rw [opened, opened, h x (by simp [justVar])]
  | .left e [], h => by
    rw [opened, opened]; exact opened_congr e h
  | .cmp e [], h => by
    rw [opened, opened]; exact opened_congr e h
  | .fby e [], h => by
    rw [opened, opened]; exact opened_congr e h
  | .arrow e [], h => by
    rw [opened, opened]; exact opened_congr e h
  | .left _ (_ :: _), _ => rfl
  | .cmp _ (_ :: _), _ => rfl
  | .fby _ (_ :: _), _ => rfl
  | .arrow _ (_ :: _), _ => rfl
  | .lit _, _ => rfl
  | .paren _ _, _ => rfl
  | .ifx _ _ _, _ => rfl
  | .merge _ _ _, _ => rfl
  | .call _ _ _, _ => rfl
  | .pre _, _ => rfl
  | .neg _, _ => rfl
  | .not _, _ => rfl

theorem due_congr {t : Nat} (hD : ∀ x b y, D x = .explicit b y → P y)
    (hP : ∀ y, P y → W.X y t = Y y t) (x : String) : due W.X (D x) t = due Y (D x) t := by
  cases h : D x with
  | explicit b y => rw [due, due, hP y (hD x b y h)]
  | _ => rfl

mutual
theorem clockedOn_congr {t : Nat} (hD : ∀ x b y, D x = .explicit b y → P y)
    (hP : ∀ y, P y → W.X y t = Y y t) : (e : Src) → (∀ x ∈ guards e, P x) →
    clockedOn W D e t = clockedOn { W with X := Y } D e t
  | .lit _, _ => by rw [clockedOn, clockedOn]
  | .var x, _ => by rw [clockedOn, clockedOn, due_congr hD hP]
  | .paren es _, h => by
    rw [guards] at h
    rw [clockedOn, clockedOn, clockedOnAll_congr hD hP es h]
  | .left e rest, h => by
    rw [guards, List.forall_mem_append] at h
    rw [clockedOn, clockedOn, clockedOn_congr hD hP e h.1, clockedOnLeft_congr hD hP rest h.2]
  | .cmp e rest, h => by
    rw [guards, List.forall_mem_append] at h
    rw [clockedOn, clockedOn, clockedOn_congr hD hP e h.1, clockedOnCmp_congr hD hP rest h.2]
  | .fby e rest, h => by
    rw [guards, List.forall_mem_append] at h
    rw [clockedOn, clockedOn, clockedOn_congr hD hP e h.1]
  | .arrow e rest, h => by
    rw [guards, List.forall_mem_append] at h
    rw [clockedOn, clockedOn, clockedOn_congr hD hP e h.1]
  | .ifx b y n, h => by
    rw [guards, List.forall_mem_append, List.forall_mem_append] at h
    rw [clockedOn, clockedOn, clockedOn_congr hD hP b h.1, clockedOn_congr hD hP y h.2.1,
      clockedOn_congr hD hP n h.2.2]
  | .merge b y n, h => by
    rw [guards, List.forall_mem_append, List.forall_mem_append] at h
    rw [clockedOn, clockedOn, clockedOn_congr hD hP b h.1]
  | .call _ args _, h => by
    rw [guards] at h
    rw [clockedOn, clockedOn, clockedOnAll_congr hD hP args h]
  | .pre e, h => by
    rw [guards] at h
    rw [clockedOn, clockedOn, clockedOn_congr hD hP e h]
  | .neg e, h => by
    rw [guards] at h
    rw [clockedOn, clockedOn, clockedOn_congr hD hP e h]
  | .not e, h => by
    rw [guards] at h
    rw [clockedOn, clockedOn, clockedOn_congr hD hP e h]
theorem clockedOnAll_congr {t : Nat} (hD : ∀ x b y, D x = .explicit b y → P y)
    (hP : ∀ y, P y → W.X y t = Y y t) : (es : List Src) → (∀ x ∈ guardsList es, P x) →
    clockedOnAll W D es t = clockedOnAll { W with X := Y } D es t
  | [], _ => by rw [clockedOnAll, clockedOnAll]
  | e :: es, h => by
    rw [guardsList, List.forall_mem_append] at h
    rw [clockedOnAll, clockedOnAll, clockedOn_congr hD hP e h.1, clockedOnAll_congr hD hP es h.2]
theorem clockedOnLeft_congr {t : Nat} (hD : ∀ x b y, D x = .explicit b y → P y)
    (hP : ∀ y, P y → W.X y t = Y y t) : (rest : List (LOp × Src)) → (∀ x ∈ guardsLeft rest, P x) →
    ∀ {acc : Bool}, clockedOnLeft W D acc rest t = clockedOnLeft { W with X := Y } D acc rest t
  | [], _, acc => by rw [clockedOnLeft, clockedOnLeft]
  | (op, e) :: rest, h, acc => by
    rw [guardsLeft, List.forall_mem_append, List.forall_mem_append] at h
    cases op with
    | when =>
      simp only [clockedOnLeft]
      rw [clockedOnLeft_congr hD hP rest h.2.2, opened_congr (Y := Y) e fun x hx => hP x (h.1 x ?_)]
      rw [if_pos (.inl rfl)]
      simpa using hx
    | whenot =>
      simp only [clockedOnLeft]
      rw [clockedOnLeft_congr hD hP rest h.2.2, opened_congr (Y := Y) e fun x hx => hP x (h.1 x ?_)]
      rw [if_pos (.inr rfl)]
      simpa using hx
    | _ =>
      simp only [clockedOnLeft]
      rw [clockedOnLeft_congr hD hP rest h.2.2, clockedOn_congr hD hP e h.2.1]
theorem clockedOnCmp_congr {t : Nat} (hD : ∀ x b y, D x = .explicit b y → P y)
    (hP : ∀ y, P y → W.X y t = Y y t) : (rest : List (CmpOp × Src)) →
    (∀ x ∈ guardsCmp rest, P x) →
    clockedOnCmp W D rest t = clockedOnCmp { W with X := Y } D rest t
  | [], _ => by rw [clockedOnCmp, clockedOnCmp]
  | (_, e) :: rest, h => by
    rw [guardsCmp, List.forall_mem_append] at h
    rw [clockedOnCmp, clockedOnCmp, clockedOn_congr hD hP e h.1, clockedOnCmp_congr hD hP rest h.2]
end

/-- The guards are the same up to now, the other variables are the same before, and those of `ns` are
the same now. -/
structure Alike (W : World) (Y : String → Nat → Nillable Scalar) (P : String → Prop)
    (ns : List String) (t : Nat) : Prop where
  guard : ∀ u, u ≤ t → ∀ y, P y → W.X y u = Y y u
  past : ∀ u, u < t → ∀ x ∈ W.locals, W.X x u = Y x u
  now : ∀ x ∈ ns, x ∈ W.locals → W.X x t = Y x t

theorem Alike.sub {ns ns' : List String} {t : Nat} (h : Alike W Y P ns t) (hs : ns' ⊆ ns) :
    Alike W Y P ns' t := ⟨h.guard, h.past, fun x hx => h.now x (hs hx)⟩

theorem Alike.before {ns ns' : List String} {t u : Nat} (h : Alike W Y P ns t) (hu : u < t) :
    Alike W Y P ns' u :=
  ⟨fun v hv => h.guard v (by omega), fun v hv => h.past v (by omega), fun x _ => h.past u hu x⟩

theorem justVar_guards {op : LOp} {e : Src} {rest : List (LOp × Src)}
    (h : ∀ x ∈ guardsLeft ((op, e) :: rest), P x) {t : Nat} (hP : ∀ y, P y → W.X y t = Y y t)
    (ho : op = .when ∨ op = .whenot) {b : Bool} :
    opened W b e t = opened { W with X := Y } b e t := by
  rw [guardsLeft, List.forall_mem_append] at h
  refine opened_congr e fun x hx => hP x (h.1 x ?_)
  rw [if_pos ho]
  simpa using hx

theorem clockedOp_congr {op : LOp} {e : Src} {rest : List (LOp × Src)}
    (h : ∀ x ∈ guardsLeft ((op, e) :: rest), P x) {t : Nat} (hP : ∀ y, P y → W.X y t = Y y t)
    {acc v v' : Option Value} (hv : v = v') :
    clockedOp W.arith op (opened W (op == .when) e t) acc v =
      clockedOp W.arith op (opened { W with X := Y } (op == .when) e t) acc v' := by
  subst hv
  cases op with
  | when => rw [justVar_guards h hP (.inl rfl)]
  | whenot => rw [justVar_guards h hP (.inr rfl)]
  | _ => rfl

mutual
theorem clocked_congr (hD : ∀ x b y, D x = .explicit b y → P y) : (e : Src) →
    (∀ x ∈ guards e, P x) → ∀ {t : Nat}, Alike W Y P (instant e) t →
    clocked W D e t = clocked { W with X := Y } D e t
  | .lit _, _, t, _ => by rw [clocked, clocked]
  | .var x, _, t, h => by
    rw [clocked, clocked]
    by_cases hx : x ∈ W.locals
    · rw [if_pos hx, if_pos hx, h.now x (by simp [instant]) hx]
    · rw [if_neg hx, if_neg hx]
  | .paren es _, hg, t, h => by
    rw [guards] at hg; rw [instant] at h
    rw [clocked, clocked, clockedList_congr hD es hg h]
  | .left e rest, hg, t, h => by
    rw [guards, List.forall_mem_append] at hg; rw [instant] at h
    rw [clocked, clocked, clocked_congr hD e hg.1 (h.sub (by simp)),
      clockedLeft_congr hD rest hg.2 (h.sub (by simp))]
  | .cmp e rest, hg, t, h => by
    rw [guards, List.forall_mem_append] at hg; rw [instant] at h
    rw [clocked, clocked, clocked_congr hD e hg.1 (h.sub (by simp)),
      clockedCmp_congr hD rest hg.2 (h.sub (by simp))]
  | .fby e rest, hg, t, h => by
    rw [guards, List.forall_mem_append] at hg; rw [instant] at h
    rw [clocked, clocked, clocked_congr hD e hg.1 h, ← lastBefore_congr (t := t) fun u hu =>
      clockedOn_congr hD (h.guard u (by omega)) e hg.1]
    cases hl : lastBefore (clockedOn W D e) t with
    | none => rfl
    | some u => simp only [clockedFby_congr hD rest hg.2 (h.before (lastBefore_lt hl))]
  | .arrow e rest, hg, t, h => by
    rw [guards, List.forall_mem_append] at hg; rw [instant] at h
    rw [clocked, clocked, clocked_congr hD e hg.1 (h.sub (by simp)),
      ← lastBefore_congr (t := t) fun u hu => clockedOn_congr hD (h.guard u (by omega)) e hg.1,
      clockedArrow_congr hD rest hg.2 (h.sub (by simp))]
  | .ifx b y n, hg, t, h => by
    rw [guards, List.forall_mem_append, List.forall_mem_append] at hg; rw [instant] at h
    rw [clocked, clocked, clocked_congr hD b hg.1 (h.sub (by simp)),
      clocked_congr hD y hg.2.1 (h.sub fun x hx => by simp [hx]),
      clocked_congr hD n hg.2.2 (h.sub fun x hx => by simp [hx])]
  | .merge b y n, hg, t, h => by
    rw [guards, List.forall_mem_append, List.forall_mem_append] at hg; rw [instant] at h
    rw [clocked, clocked, clocked_congr hD b hg.1 (h.sub (by simp)),
      clocked_congr hD y hg.2.1 (h.sub fun x hx => by simp [hx]),
      clocked_congr hD n hg.2.2 (h.sub fun x hx => by simp [hx])]
  | .call f args _, hg, t, h => by
    rw [guards] at hg; rw [instant] at h
    rw [clocked, clocked]
    cases hm : W.nodes f with
    | none => rfl
    | some m =>
      show clockedCall _ _ _ _ = clockedCall _ _ _ _
      unfold clockedCall
      rw [pastValues_congr fun u hu => ⟨clockedOnAll_congr hD (h.guard u (by omega)) args hg, ?_⟩]
      have : Alike W Y P (instants args) u := by
        by_cases hut : u = t
        · exact hut ▸ h
        · exact h.before (by omega)
      rw [clockedList_congr hD args hg this]
  | .pre e, hg, t, h => by
    rw [guards] at hg
    rw [clocked, clocked, ← lastBefore_congr (t := t) fun u hu =>
      clockedOn_congr hD (h.guard u (by omega)) e hg]
    cases hl : lastBefore (clockedOn W D e) t with
    | none => rfl
    | some u => simp only [clocked_congr hD e hg (h.before (lastBefore_lt hl))]
  | .neg e, hg, t, h => by
    rw [guards] at hg; rw [instant] at h
    rw [clocked, clocked, clocked_congr hD e hg h]
  | .not e, hg, t, h => by
    rw [guards] at hg; rw [instant] at h
    rw [clocked, clocked, clocked_congr hD e hg h]
theorem clockedList_congr (hD : ∀ x b y, D x = .explicit b y → P y) : (es : List Src) →
    (∀ x ∈ guardsList es, P x) → ∀ {t : Nat}, Alike W Y P (instants es) t →
    clockedList W D es t = clockedList { W with X := Y } D es t
  | [], _, t, _ => by rw [clockedList, clockedList]
  | e :: es, hg, t, h => by
    rw [guardsList, List.forall_mem_append] at hg; rw [instants] at h
    rw [clockedList, clockedList, clocked_congr hD e hg.1 (h.sub (by simp)),
      clockedList_congr hD es hg.2 (h.sub (by simp))]
theorem clockedLeft_congr (hD : ∀ x b y, D x = .explicit b y → P y) :
    (rest : List (LOp × Src)) → (∀ x ∈ guardsLeft rest, P x) → ∀ {t : Nat},
    Alike W Y P (instantLeft rest) t → ∀ {acc : Option Value},
    clockedLeft W D acc rest t = clockedLeft { W with X := Y } D acc rest t
  | [], _, t, _, acc => by rw [clockedLeft, clockedLeft]
  | (op, e) :: rest, hg, t, h, acc => by
    have hg' := hg
    rw [guardsLeft, List.forall_mem_append, List.forall_mem_append] at hg; rw [instantLeft] at h
    rw [clockedLeft, clockedLeft, clockedLeft_congr hD rest hg.2.2 (h.sub (by simp)),
      clockedOp_congr hg' (h.guard t (Nat.le_refl _))
        (clocked_congr hD e hg.2.1 (h.sub (by simp)))]
theorem clockedCmp_congr (hD : ∀ x b y, D x = .explicit b y → P y) :
    (rest : List (CmpOp × Src)) → (∀ x ∈ guardsCmp rest, P x) → ∀ {t : Nat},
    Alike W Y P (instantCmp rest) t → ∀ {acc : Option Value},
    clockedCmp W D acc rest t = clockedCmp { W with X := Y } D acc rest t
  | [], _, t, _, acc => by rw [clockedCmp, clockedCmp]
  | [(op, e)], hg, t, h, acc => by
    rw [guardsCmp, List.forall_mem_append] at hg; rw [instantCmp] at h
    rw [clockedCmp, clockedCmp, clocked_congr hD e hg.1 (h.sub (by simp))]
  | _ :: _ :: _, _, t, _, acc => by rw [clockedCmp, clockedCmp]
theorem clockedFby_congr (hD : ∀ x b y, D x = .explicit b y → P y) : (es : List Src) →
    (∀ x ∈ guardsList es, P x) → ∀ {t : Nat}, Alike W Y P (instants es) t →
    clockedFby W D es t = clockedFby { W with X := Y } D es t
  | [], _, t, _ => by rw [clockedFby, clockedFby]
  | e :: es, hg, t, h => by
    rw [guardsList, List.forall_mem_append] at hg; rw [instants] at h
    rw [clockedFby, clockedFby, clocked_congr hD e hg.1 (h.sub (by simp)),
      ← lastBefore_congr (t := t) fun u hu => clockedOn_congr hD (h.guard u (by omega)) e hg.1]
    cases hl : lastBefore (clockedOn W D e) t with
    | none => rfl
    | some u => simp only [clockedFby_congr hD es hg.2 (h.before (lastBefore_lt hl))]
theorem clockedArrow_congr (hD : ∀ x b y, D x = .explicit b y → P y) : (es : List Src) →
    (∀ x ∈ guardsList es, P x) → ∀ {t : Nat}, Alike W Y P (instants es) t →
    clockedArrow W D es t = clockedArrow { W with X := Y } D es t
  | [], _, t, _ => by rw [clockedArrow, clockedArrow]
  | e :: es, hg, t, h => by
    rw [guardsList, List.forall_mem_append] at hg; rw [instants] at h
    rw [clockedArrow, clockedArrow, clocked_congr hD e hg.1 (h.sub (by simp)),
      ← lastBefore_congr (t := t) fun u hu => clockedOn_congr hD (h.guard u (by omega)) e hg.1,
      clockedArrow_congr hD es hg.2 (h.sub (by simp))]
end

/-! ## Targets -/

mutual
theorem gets_unique {X X' : String → Nillable Scalar} : (p : Target) → ∀ {v : Value},
    Target.Gets X p v → Target.Gets X' p v → ∀ x ∈ targets p, X x = X' x
  | .var y, .leaf v, h, h', x, hx => by
    rw [targets, List.mem_singleton] at hx
    subst hx
    exact Eq.trans (by simpa [Target.Gets] using h) (by simpa [Target.Gets, eq_comm] using h')
  | .var y, .tup _ _, h, _, _, _ => by simp [Target.Gets] at h
  | .tuple [] _, v, _, _, x, hx => by simp [targets, targetsList] at hx
  | .tuple [p] _, v, h, h', x, hx => by
    rw [Target.Gets] at h h'
    refine gets_unique p h h' x ?_
    simpa [targets, targetsList] using hx
  | .tuple (p :: p' :: ps) _, .leaf _, h, _, _, _ => by simp [Target.Gets] at h
  | .tuple (p :: p' :: ps) _, .tup v vs, h, h', x, hx => by
    rw [Target.Gets] at h h'
    rw [targets, targetsList, List.mem_append] at hx
    rcases hx with hx | hx
    · exact gets_unique p h.1 h'.1 x hx
    · exact getList_unique (p' :: ps) h.2 h'.2 x hx
theorem getList_unique {X X' : String → Nillable Scalar} : (ps : List Target) → ∀ {vs : List Value},
    Target.GetList X ps vs → Target.GetList X' ps vs → ∀ x ∈ targetsList ps, X x = X' x
  | [], _, _, _, x, hx => by simp [targetsList] at hx
  | p :: ps, [], h, _, _, _ => by simp [Target.GetList] at h
  | p :: ps, v :: vs, h, h', x, hx => by
    rw [Target.GetList] at h h'
    rw [targetsList, List.mem_append] at hx
    rcases hx with hx | hx
    · exact gets_unique p h.1 h'.1 x hx
    · exact getList_unique ps h.2 h'.2 x hx
end

end
end Chandeliers.Std
