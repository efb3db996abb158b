import Verif.San.Eval
import Verif.San.Causality

/-! Evaluation only reads the local variables listed by `requires`. -/

namespace Chandeliers.San

section
variable (A : Arith) (glob : Globals) (ms : List Machine) {env₁ env₂ : Env}

/-- The two environments give the same value to every listed local variable. -/
def AgreeOn (env₁ env₂ : Env) (rs : List Reference) : Prop :=
  ∀ x, Reference.localVarName x ∈ rs → env₁ x = env₂ x

theorem AgreeOn.left {rs rs' : List Reference} (h : AgreeOn env₁ env₂ (rs ++ rs')) :
    AgreeOn env₁ env₂ rs := fun x hx => h x (List.mem_append_left _ hx)

theorem AgreeOn.right {rs rs' : List Reference} (h : AgreeOn env₁ env₂ (rs ++ rs')) :
    AgreeOn env₁ env₂ rs' := fun x hx => h x (List.mem_append_right _ hx)

mutual
theorem eval_congr : ∀ (e : Expr) (s : NodeState ms), AgreeOn env₁ env₂ e.requires →
    eval A glob ms env₁ e s = eval A glob ms env₂ e s
  | .lit l, s, _ => by simp [eval]
  | .global x, s, _ => by simp [eval]
  | .var x 0, s, h => by
      have : env₁ x = env₂ x := h x (by simp [Expr.requires])
      simp [eval, readVar, this]
  | .var x (_ + 1), s, _ => by simp [eval, readVar]
  | .tuple es, s, h => by
      have := fun s => evalList_congr es s h
      simp only [eval, this]
  | .dummyPre e, s, h => by
      simp only [eval]; exact eval_congr e s h
  | .dummyParen e, s, h => by
      simp only [eval]; exact eval_congr e s h
  | .bin op l r, s, h => by
      simp only [Expr.requires] at h
      have h1 := fun s => eval_congr l s h.left
      have h2 := fun s => eval_congr r s h.right
      simp only [eval, h1, h2]
  | .cmp op l r, s, h => by
      simp only [Expr.requires] at h
      have h1 := fun s => eval_congr l s h.left
      have h2 := fun s => eval_congr r s h.right
      simp only [eval, h1, h2]
  | .un op e, s, h => by
      have h1 := fun s => eval_congr e s h
      simp only [eval, h1]
  | .clock op e a, s, h => by
      simp only [Expr.requires] at h
      have h1 := fun s => eval_congr e s h.left
      have h2 := fun s => eval_congr a s h.right
      simp only [eval, h1, h2]
  | .later dt b a, s, h => by
      simp only [Expr.requires] at h
      have h1 := fun s => eval_congr b s h.left
      have h2 := fun s => eval_congr a s h.right
      simp only [eval, h1, h2]
  | .fetchPre id _, s, _ => by simp only [eval]
  | .fetchFby id _ _, s, _ => by simp only [eval]
  | .flip id i c, s, h => by
      simp only [Expr.requires] at h
      have h1 := fun s => eval_congr i s h.left
      have h2 := fun s => eval_congr c s h.right
      simp only [eval, h1, h2]
  | .ifx c y n, s, h => by
      simp only [Expr.requires] at h
      have h1 := fun s => eval_congr c s h.left
      have h2 := fun s => eval_congr y s h.right.left
      have h3 := fun s => eval_congr n s h.right.right
      simp only [eval, h1, h2, h3]
  | .merge c y n, s, h => by
      simp only [Expr.requires] at h
      have h1 := fun s => eval_congr c s h.left
      have h2 := fun s => eval_congr y s h.right.left
      have h3 := fun s => eval_congr n s h.right.right
      simp only [eval, h1, h2, h3]
  | .substep dt id a, s, h => by
      have h1 := fun s => eval_congr a s h
      simp only [eval, h1]
theorem evalList_congr : ∀ (es : List Expr) (s : NodeState ms),
    AgreeOn env₁ env₂ (Expr.requiresList es) →
    evalList A glob ms env₁ es s = evalList A glob ms env₂ es s
  | [], s, _ => by simp [evalList]
  | e :: es, s, h => by
      simp only [Expr.requiresList] at h
      have h1 := fun s => eval_congr e s h.left
      have h2 := fun s => evalList_congr es s h.right
      simp only [evalList, h1, h2]
end

end

end Chandeliers.San
