import Verif.Spec.Steady

/-! # An expression that is ready is not late -/

set_option autoImplicit false

namespace Chandeliers.Std
open Chandeliers.San Chandeliers.Spec Chandeliers.Syn Chandeliers.Spec.Static

variable {S : Scope}

mutual
theorem steady_ready (hu : S.universalPre = true) : (e : Src) → ∀ {d n r : Nat},
    Static.Ready S d n e → Steady S e r → r ≤ n
  | .lit l, d, n, r, h, hr => by rw [Steady] at hr; omega
  | .var x, d, n, r, h, hr => by rw [Steady] at hr; omega
  | .paren es b, d, n, r, h, hr => by
    rw [Static.Ready] at h; rw [Steady] at hr
    exact all_ready hu es h hr.1 hr.2
  | .left e rest, d, n, r, h, hr => by
    rw [Static.Ready] at h; rw [Steady] at hr
    obtain ⟨s, hr, -, hr'⟩ := hr
    exact left_ready hu rest h.2 (steady_ready hu e h.1 hr) hr'
  | .cmp e rest, d, n, r, h, hr => by
    rw [Static.Ready] at h; rw [Steady] at hr
    obtain ⟨s, hr, hr'⟩ := hr
    exact cmp_ready hu rest h.2 (steady_ready hu e h.1 hr) hr'
  | .fby e rest, d, n, r, h, hr => by
    rw [Static.Ready] at h; rw [Steady] at hr
    obtain ⟨s, hr, hr'⟩ := hr
    have := steady_ready hu e h.1 hr
    rcases hr' with ⟨-, rfl⟩ | ⟨r', -, rfl⟩
    · exact this
    · omega
  | .arrow e rest, d, n, r, h, hr => by
    rw [Static.Ready] at h; rw [Steady] at hr
    exact steady_ready hu e h.1 hr.1
  | .ifx c y z, d, n, r, h, hr => by
    rw [Static.Ready] at h; rw [Steady] at hr
    obtain ⟨rc, ry, rn, r1, r2, -, -, -, -, e1, -⟩ := hr
    have := steady_ready hu c h.1 r1
    have := steady_ready hu y h.2.1 r2
    omega
  | .merge c y z, d, n, r, h, hr => by rw [Steady] at hr; omega
  | .call f es b, d, n, r, h, hr => by
    rw [Static.Ready] at h; rw [Steady] at hr
    exact all_ready hu es h hr.1 hr.2
  | .pre e, d, n, r, h, hr => by
    rw [Static.Ready, if_pos hu] at h; rw [Steady] at hr
    obtain ⟨s, hr, rfl⟩ := hr
    have := steady_ready hu e h.2 hr
    omega
  | .neg e, d, n, r, h, hr => by
    rw [Static.Ready] at h; rw [Steady] at hr
    exact steady_ready hu e h hr
  | .not e, d, n, r, h, hr => by
    rw [Static.Ready] at h; rw [Steady] at hr
    exact steady_ready hu e h hr
theorem all_ready (hu : S.universalPre = true) : (es : List Src) → ∀ {d n r : Nat},
    AllReady S d n es → AllSteady S es r → (es = [] → r = 0) → r ≤ n
  | [], d, n, r, h, hr, h0 => by have := h0 rfl; omega
  | e :: es, d, n, r, h, hr, h0 => by
    rw [AllReady] at h; rw [AllSteady] at hr
    exact steady_ready hu e h.1 hr.1
theorem left_ready (hu : S.universalPre = true) : (rest : List (LOp × Src)) → ∀ {d n s r : Nat},
    LeftReady S d n rest → s ≤ n → LeftSteady S s rest r → r ≤ n
  | [], d, n, s, r, h, hs, hr => by rw [LeftSteady] at hr; omega
  | (op, e) :: rest, d, n, s, r, h, hs, hr => by
    rw [LeftReady] at h; rw [LeftSteady] at hr
    cases hg : Static.guard op with
    | none =>
      rw [hg] at hr
      obtain ⟨s', h1, -, h2⟩ := hr
      have := steady_ready hu e h.1 h1
      exact left_ready hu rest h.2 (by omega) h2
    | some g =>
      rw [hg] at hr
      exact left_ready hu rest h.2 (Nat.zero_le _) hr.2
theorem cmp_ready (hu : S.universalPre = true) : (rest : List (CmpOp × Src)) →
    ∀ {a : Src} {d n s r : Nat}, CmpReady S d n rest → s ≤ n → CmpSteady S a s rest r → r ≤ n
  | [], a, d, n, s, r, h, hs, hr => by rw [CmpSteady] at hr; omega
  | (op, e) :: rest, a, d, n, s, r, h, hs, hr => by
    rw [CmpReady] at h; rw [CmpSteady] at hr
    obtain ⟨s', h1, -, -, rfl, -⟩ := hr
    have := steady_ready hu e h.1 h1
    omega
end

end Chandeliers.Std
