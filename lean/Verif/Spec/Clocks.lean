import Verif.San.Clockcheck

/-!
# Clock rules, for reference
-/

set_option autoImplicit false

namespace Chandeliers.Spec
open Chandeliers.San

/-- The clock of the node, or the one of constants. -/
def Always : Clk → Prop
  | .implicit => True
  | .adaptative => True
  | _ => False

/-- Present at the same instants. -/
def SameClk (k l : Clk) : Prop := k = l ∨ (Always k ∧ Always l)

/-- Can be combined pointwise: constants go with everything. -/
def Compatible (k l : Clk) : Prop := k = .adaptative ∨ l = .adaptative ∨ k = l

/-- What the combination is on. -/
def Clk.meet : Clk → Clk → Clk
  | .adaptative, l => l
  | k, _ => k

/-- The clock that a guard defines. -/
def guardClk : ClockOp → String → Clk
  | .when, x => .on x
  | .whenot, x => .off x

mutual
/-- The clock rules, given the clocks of variables.  When `strict`, a delay `->` or `fby` without
registers must be on the clock of the node. -/
inductive HasClock (strict : Bool) (K : String → Option Clk) : Expr → Clk → Prop
  | lit {l : Lit} : HasClock strict K (.lit l) .adaptative
  | global {x : String} : HasClock strict K (.global x) .adaptative
  | var {x : String} {d : Nat} {k : Clk} (h : K x = some k) : HasClock strict K (.var x d) k
  | dummyParen {e : Expr} {k : Clk} (h : HasClock strict K e k) : HasClock strict K (.dummyParen e) k
  | dummyPre {e : Expr} {k : Clk} (h : HasClock strict K e k) (hk : Always k) :
    HasClock strict K (.dummyPre e) k
  | bin {op : BinOp} {l r : Expr} {k k' : Clk} (h : HasClock strict K l k)
    (h' : HasClock strict K r k') (hk : Compatible k k') :
    HasClock strict K (.bin op l r) (Clk.meet k k')
  | cmp {op : CmpOp} {l r : Expr} {k k' : Clk} (h : HasClock strict K l k)
    (h' : HasClock strict K r k') (hk : Compatible k k') :
    HasClock strict K (.cmp op l r) (Clk.meet k k')
  | un {op : UnOp} {e : Expr} {k : Clk} (h : HasClock strict K e k) : HasClock strict K (.un op e) k
  | later {d : Nat} {b a : Expr} {k k' : Clk} (h : HasClock strict K b k)
    (h' : HasClock strict K a k') (hs : strict = true → Always k ∧ Always k') :
    HasClock strict K (.later d b a) k
  | flip {id : Nat} {i c : Expr} {k k' : Clk} (h : HasClock strict K i k)
    (h' : HasClock strict K c k') (hk : SameClk k' k) : HasClock strict K (.flip id i c) k'
  | clock {op : ClockOp} {e : Expr} {x : String} {d : Nat} {k k' : Clk} (h : HasClock strict K e k)
    (h' : K x = some k') (hk : Compatible k k') :
    HasClock strict K (.clock op e (.var x d)) (guardClk op x)
  | substep {d id : Nat} {e : Expr} {k : Clk} (h : HasClock strict K e k) :
    HasClock strict K (.substep d id e) k
  | empty : HasClock strict K (.tuple []) .adaptative
  | tuple {e : Expr} {es : List Expr} {k : Clk} (h : HasClock strict K e k)
    (h' : HaveClock strict K es k) : HasClock strict K (.tuple (e :: es)) k
  | ifx {c y n : Expr} {k k' k'' : Clk} (h : HasClock strict K c k) (h' : HasClock strict K y k')
    (h'' : HasClock strict K n k'') (hk : Compatible k k') (hk' : Compatible (Clk.meet k k') k'') :
    HasClock strict K (.ifx c y n) (Clk.meet (Clk.meet k k') k'')
  | merge {x : String} {d : Nat} {y n : Expr} {k k' k'' : Clk} (h : K x = some k)
    (h' : HasClock strict K y k') (h'' : HasClock strict K n k'') (hk : Compatible k' (.on x))
    (hk' : Compatible k'' (.off x)) : HasClock strict K (.merge (.var x d) y n) k
  | fetchPre {id : Nat} {f : Expr} {k : Clk} (h : HasClock strict K f k) :
    HasClock strict K (.fetchPre id f) k
  | fetchFby {id : Nat} {i f : Expr} {k k' : Clk} (h : HasClock strict K f k)
    (h' : HasClock strict K i k') (hk : SameClk k k') : HasClock strict K (.fetchFby id i f) k
/-- All present at the instants of a clock. -/
inductive HaveClock (strict : Bool) (K : String → Option Clk) : List Expr → Clk → Prop
  | nil {k : Clk} : HaveClock strict K [] k
  | cons {e : Expr} {es : List Expr} {k k' : Clk} (h : HasClock strict K e k') (hk : SameClk k k')
    (h' : HaveClock strict K es k) : HaveClock strict K (e :: es) k
end

mutual
/-- The clock of the left-hand side of an equation: that of its first variable, and the other ones
are present at the same instants. -/
inductive TargetClock (K : String → Option Clk) : VarTuple → Clk → Prop
  | single {x : String} {k : Clk} (h : K x = some k) : TargetClock K (.single x) k
  | empty : TargetClock K (.multiple []) .adaptative
  | tuple {v : VarTuple} {vs : List VarTuple} {k : Clk} (h : TargetClock K v k)
    (h' : TargetsClock K vs k) : TargetClock K (.multiple (v :: vs)) k
/-- All present at the instants of a clock. -/
inductive TargetsClock (K : String → Option Clk) : List VarTuple → Clk → Prop
  | nil {k : Clk} : TargetsClock K [] k
  | cons {v : VarTuple} {vs : List VarTuple} {k k' : Clk} (h : TargetClock K v k')
    (hk : SameClk k k') (h' : TargetsClock K vs k) : TargetsClock K (v :: vs) k
end

/-- Equations and assertions. -/
inductive StmtClocked (strict : Bool) (K : String → Option Clk) : Stmt → Prop
  | let_ {v : VarTuple} {e : Expr} {k k' : Clk} (h : TargetClock K v k)
    (h' : HasClock strict K e k') (hk : v ≠ .multiple [] → SameClk k k') : StmtClocked strict K (.let_ v e)
  | assert {e : Expr} {k : Clk} (h : HasClock strict K e k) (hk : Always k) :
    StmtClocked strict K (.assert e)
  | updateRegister {id : Nat} {e : Expr} : StmtClocked strict K (.updateRegister id e)
  | initRegister {id : Nat} {e k : Option Expr} : StmtClocked strict K (.initRegister id e k)

mutual
/-- The registers that an expression reads, with what feeds them. -/
def fetches : Expr → List (Nat × Expr)
  | .lit _ => []
  | .global _ => []
  | .var _ _ => []
  | .tuple es => fetchesList es
  | .dummyPre e => fetches e
  | .dummyParen e => fetches e
  | .bin _ l r => fetches l ++ fetches r
  | .un _ e => fetches e
  | .cmp _ l r => fetches l ++ fetches r
  | .clock _ e b => fetches e ++ fetches b
  | .later _ e e' => fetches e ++ fetches e'
  | .fetchPre id f => fetches f ++ [(id, f)]
  | .fetchFby id i f => fetches f ++ (fetches i ++ [(id, f)])
  | .flip _ e e' => fetches e ++ fetches e'
  | .ifx b y n => fetches b ++ (fetches y ++ fetches n)
  | .merge b y n => fetches b ++ (fetches y ++ fetches n)
  | .substep _ _ e => fetches e
/-- Of a list. -/
def fetchesList : List Expr → List (Nat × Expr)
  | [] => []
  | e :: es => fetches e ++ fetchesList es
end

/-- Of a statement; those that set registers up are not concerned. -/
def fetchesIn : Stmt → List (Nat × Expr)
  | .let_ _ e => fetches e
  | .assert e => fetches e
  | _ => []

/-- The clock on which a register steps, as an expression: `x` or `not x`, or else always. -/
def clockExpr : Clk → Expr
  | .implicit => .lit (.bool true)
  | .adaptative => .lit (.bool true)
  | .on x => .var x 0
  | .off x => .un .not (.var x 0)

/-- The clocks of the variables of a list of declarations. -/
def Declared (vs : List TyVar) (K : String → Option Clk) : Prop :=
  ∀ x k, K x = some k ↔ ∃ v ∈ vs, v.name = x ∧ v.clk.intoClk = k

/-- A node whose clocks are right. -/
structure NodeClocked (strict : Bool) (n : Node) (K : String → Option Clk) : Prop where
  interface : ∀ v ∈ n.inputs ++ n.outputs, Always v.clk.intoClk
  declared : Declared (n.inputs ++ n.outputs ++ n.locals) K
  stmts : ∀ st ∈ n.stmts, StmtClocked strict K st

end Chandeliers.Spec
