import Verif.Spec.Typing

/-! Expressions keep their types in larger environments. -/

set_option autoImplicit false

namespace Chandeliers.Tell
open Chandeliers.San Chandeliers.Spec

mutual
theorem hasType_mono {Γ Γ' : TyEnv} (hg : ∀ x t, Γ.global x = some t → Γ'.global x = some t)
    (hv : Γ'.vars = Γ.vars) (hr : ∀ i t, Γ.regs i t → Γ'.regs i t)
    (hc : ∀ i t u, Γ.call i t u → Γ'.call i t u) : {e : Expr} → {t : TyTuple} →
    HasType Γ e t → HasType Γ' e t
  | _, _, .lit => .lit
  | _, _, .global h => .global (hg _ _ h)
  | _, _, .var h => .var (hv ▸ h)
  | _, _, .dummyPre h => .dummyPre (hasType_mono hg hv hr hc h)
  | _, _, .dummyParen h => .dummyParen (hasType_mono hg hv hr hc h)
  | _, _, .tuple h => .tuple (hasTypes_mono hg hv hr hc h)
  | _, _, .bin h1 h2 h => .bin (hasType_mono hg hv hr hc h1) (hasType_mono hg hv hr hc h2) h
  | _, _, .un h1 h => .un (hasType_mono hg hv hr hc h1) h
  | _, _, .cmp h1 h2 h => .cmp (hasType_mono hg hv hr hc h1) (hasType_mono hg hv hr hc h2) h
  | _, _, .clock h1 h2 => .clock (hasType_mono hg hv hr hc h1) (hasType_mono hg hv hr hc h2)
  | _, _, .later h1 h2 => .later (hasType_mono hg hv hr hc h1) (hasType_mono hg hv hr hc h2)
  | _, _, .flip h1 h2 => .flip (hasType_mono hg hv hr hc h1) (hasType_mono hg hv hr hc h2)
  | _, _, .ifx h1 h2 h3 => .ifx (hasType_mono hg hv hr hc h1) (hasType_mono hg hv hr hc h2)
      (hasType_mono hg hv hr hc h3)
  | _, _, .merge h1 h2 h3 => .merge (hasType_mono hg hv hr hc h1) (hasType_mono hg hv hr hc h2)
      (hasType_mono hg hv hr hc h3)
  | _, _, .substep h1 h => .substep (hasType_mono hg hv hr hc h1) (hc _ _ _ h)
  | _, _, .fetchPre h1 h => .fetchPre (hasType_mono hg hv hr hc h1) (hr _ _ h)
  | _, _, .fetchFby h1 h2 h => .fetchFby (hasType_mono hg hv hr hc h1) (hasType_mono hg hv hr hc h2)
      (hr _ _ h)
theorem hasTypes_mono {Γ Γ' : TyEnv} (hg : ∀ x t, Γ.global x = some t → Γ'.global x = some t)
    (hv : Γ'.vars = Γ.vars) (hr : ∀ i t, Γ.regs i t → Γ'.regs i t)
    (hc : ∀ i t u, Γ.call i t u → Γ'.call i t u) : {es : List Expr} → {ts : List TyTuple} →
    HasTypes Γ es ts → HasTypes Γ' es ts
  | _, _, .nil => .nil
  | _, _, .cons h h' => .cons (hasType_mono hg hv hr hc h) (hasTypes_mono hg hv hr hc h')
end

end Chandeliers.Tell
