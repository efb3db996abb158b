import Verif.Syn.Translate

/-!
# Chains of operators
-/

set_option autoImplicit false

namespace Chandeliers.Spec
open San Syn

/-- `e₀ -> (e₁ -> (… -> eₙ))`, with the parentheses. -/
def nestedArrows : Src → List Src → Src
  | e, [] => e
  | e, e' :: es => .arrow e [.paren [nestedArrows e' es] false]

/-- `pre pre … e`. -/
def pres : Nat → Src → Src
  | 0, e => e
  | n + 1, e => .pre (pres n e)

/-- `(… ((x ∘₁ y₁) ∘₂ y₂) …)`: an operation is applied to everything on its left. -/
def leftNested (x : Expr) : List (LOp × Expr) → Expr
  | [] => x
  | (op, y) :: rest => leftNested (op.compose x y) rest

/-- The expression is made of one translation of each element, in order, the `i`-th under
`view i`, and the `i`-th operation is applied to the `i`-th element and to everything on its
right. -/
inductive RightNested (view : Nat → View) (op : Nat → Expr → Expr → Expr → Prop) :
    Nat → List Src → Expr → Prop
  | last {i : Nat} {e : Src} {x : Expr} {c c' : ExprCtx} (h : e.translate (view i) c = .ok (x, c')) :
    RightNested view op i [e] x
  | step {i : Nat} {e e' : Src} {es : List Src} {x y z : Expr} {c c' : ExprCtx}
    (h : e.translate (view i) c = .ok (x, c')) (hr : RightNested view op (i + 1) (e' :: es) y)
    (ho : op i x y z) : RightNested view op i (e :: e' :: es) z

end Chandeliers.Spec
