import Verif.Spec.Reads

/-! The parts of an expression, as a list. -/

set_option autoImplicit false

namespace Chandeliers.Den
open Chandeliers.San Chandeliers.Spec

mutual
/-- The parts of an expression. -/
def parts : Expr → List Expr
  | .lit l => [.lit l]
  | .global x => [.global x]
  | .var x d => [.var x d]
  | .tuple es => .tuple es :: partsList es
  | .dummyPre e => .dummyPre e :: parts e
  | .dummyParen e => .dummyParen e :: parts e
  | .bin op l r => .bin op l r :: (parts l ++ parts r)
  | .un op e => .un op e :: parts e
  | .cmp op l r => .cmp op l r :: (parts l ++ parts r)
  | .clock op l r => .clock op l r :: (parts l ++ parts r)
  | .later d l r => .later d l r :: (parts l ++ parts r)
  | .fetchPre i f => [.fetchPre i f]
  | .fetchFby i b f => [.fetchFby i b f]
  | .flip i l r => .flip i l r :: (parts l ++ parts r)
  | .ifx b y n => .ifx b y n :: (parts b ++ (parts y ++ parts n))
  | .merge b y n => .merge b y n :: (parts b ++ (parts y ++ parts n))
  | .substep d i e => .substep d i e :: parts e
/-- Of a list of expressions. -/
def partsList : List Expr → List Expr
  | [] => []
  | e :: es => parts e ++ partsList es
end

theorem mem_partsList {c : Expr} : ∀ {es : List Expr}, c ∈ partsList es ↔ ∃ e ∈ es, c ∈ parts e
  | [] => by simp [partsList]
  | e :: es => by simp [partsList, mem_partsList (es := es)]

theorem self_mem_parts (e : Expr) : e ∈ parts e := by cases e <;> simp [parts]

theorem mem_parts_trans {c b e : Expr} (h : Operand b e) (hc : c ∈ parts b) : c ∈ parts e := by
  cases h with
  | tuple he => simp only [parts, List.mem_cons]; exact .inr (mem_partsList.2 ⟨_, he, hc⟩)
  | _ => simp [parts, hc]

theorem mem_parts_of_part {c e : Expr} (h : Part c e) : c ∈ parts e := by
  induction h with
  | refl => exact self_mem_parts _
  | tail _ h ih => exact mem_parts_trans h ih

end Chandeliers.Den
