import Verif.San.Ast

/-! # How far a node looks into the past -/

namespace Chandeliers.Spec
open San

mutual
/-- Every occurrence of a variable in an expression with the number of instants it looks back. -/
def occurrences : Expr → List (String × Nat)
  | .lit _ => []
  | .global _ => []
  | .var x d => [(x, d)]
  | .tuple es => occurrencesList es
  | .dummyPre e => occurrences e
  | .dummyParen e => occurrences e
  | .un _ e => occurrences e
  | .bin _ l r => occurrences l ++ occurrences r
  | .cmp _ l r => occurrences l ++ occurrences r
  | .clock _ e a => occurrences a ++ occurrences e
  | .later _ b a => occurrences b ++ occurrences a
  | .flip _ i c => occurrences i ++ occurrences c
  | .ifx c y n => occurrences c ++ (occurrences y ++ occurrences n)
  | .merge c y n => occurrences c ++ (occurrences y ++ occurrences n)
  | .substep _ _ a => occurrences a
  | .fetchPre _ f => occurrences f
  | .fetchFby _ i f => occurrences i ++ occurrences f
/-- In a list of expressions. -/
def occurrencesList : List Expr → List (String × Nat)
  | [] => []
  | e :: es => occurrences e ++ occurrencesList es
end

/-- Occurrences in the equations and assertions of a node (registers are not equations: what
they store also occurs in the equation that reads them). -/
def occurrencesIn : List Stmt → List (String × Nat)
  | [] => []
  | .let_ _ e :: sts => occurrences e ++ occurrencesIn sts
  | .assert e :: sts => occurrences e ++ occurrencesIn sts
  | _ :: sts => occurrencesIn sts

/-- Occurrences in the statements that manage registers. -/
def registerOccurrences : List Stmt → List (String × Nat)
  | [] => []
  | .updateRegister _ v :: sts => occurrences v ++ registerOccurrences sts
  | .initRegister _ v c :: sts =>
    ((v.map occurrences).getD [] ++ (c.map occurrences).getD []) ++ registerOccurrences sts
  | _ :: sts => registerOccurrences sts

/-- The variables a node declares. -/
def declared (n : Node) : List TyVar := n.inputs ++ n.outputs ++ n.locals

end Chandeliers.Spec
