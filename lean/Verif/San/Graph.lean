/-!
# Dependency graph and scheduler

Models `chandeliers-san/src/causality/graph.rs`.  All of `explore::SccExplorer`
and of `Graph` is modelled.  Source spans (`WithDefSite`, `TrySpan`) are dropped:
they only feed error messages.
-/

namespace Chandeliers.San

/-- What makes a call of the scheduler fail.  The first five are the errors reported by
`graph.rs` (lines 262, 319-332, 341, 387); `abort` is `chandeliers_err::abort!` (graph.rs:62),
an internal inconsistency that crashes the compiler; `fuel` is the model's own
"recursion did not terminate". -/
inductive GErr (U : Type) where
  | undeclared (unit : U)
  | providedByContext (unit : U)
  | declTwice (unit : U)
  | dependsOnItself (unit : U)
  | cycle (units : List U)
  | abort
  | fuel
deriving Repr, DecidableEq

/-- `arr[i] := x` on an array seen as a function; bounds are checked separately by the
callers, which carry the size. Auxiliary, for the arrays of graph.rs 136-210. -/
def setAt {α : Type u} (f : Nat → α) (i : Nat) (x : α) : Nat → α :=
  fun j => if j = i then x else f j

namespace Explore

/-- graph.rs:125-133 `Extra`. -/
structure Extra where
  onStack : Bool
  lowLink : Option Nat
  index : Option Nat
deriving Repr, DecidableEq

/-- `#[derive(Default)]` of graph.rs:124. -/
def Extra.default : Extra := ⟨false, none, none⟩

/-- graph.rs:136-145 `SccExplorer`.  `extra` is the array `Vec<Extra>` of length `size`
given as a function; the stack has its top first; `scc` is in the order of pushing. -/
structure SccExplorer where
  index : Nat
  stk : List Nat
  size : Nat
  extra : Nat → Extra
  scc : List (List Nat)

/-- `Option<usize>::min` of the standard library: `None` is less than every `Some`.
Used by graph.rs 164-173. -/
def optMin : Option Nat → Option Nat → Option Nat
  | some a, some b => some (min a b)
  | _, _ => none

/-- graph.rs:151-155: give `v` its identifiers and push it. -/
def SccExplorer.enter (st : SccExplorer) (v : Nat) : SccExplorer :=
  { st with
    extra := setAt st.extra v { onStack := true, lowLink := some st.index, index := some st.index }
    index := st.index + 1
    stk := v :: st.stk }

/-- graph.rs:164-166 and 170-172: `extra[v].low_link = extra[v].low_link.min(x)`. -/
def SccExplorer.lower (st : SccExplorer) (v : Nat) (x : Option Nat) : SccExplorer :=
  { st with
    extra := setAt st.extra v { st.extra v with lowLink := optMin (st.extra v).lowLink x } }

/-- graph.rs:160-174: the loop over the children of `v`.  `rec` is the recursive call
`self.run`. -/
def visit {U : Type} (rec : Nat → SccExplorer → Except (GErr U) SccExplorer) (v : Nat) :
    List Nat → SccExplorer → Except (GErr U) SccExplorer
  | [], st => .ok st
  | w :: ws, st =>
    if w < st.size then
      if (st.extra w).index.isNone then do
        let st ← rec w st
        visit rec v ws (st.lower v (st.extra w).lowLink)
      else if (st.extra w).onStack then
        visit rec v ws (st.lower v (st.extra w).index)
      else
        visit rec v ws st
    else .error .abort

/-- graph.rs:179-185: pop until `v` has been popped.  Returns what was popped, in order, and
the rest of the stack. -/
def popUntil (v : Nat) : List Nat → List Nat × List Nat
  | [] => ([], [])
  | w :: ws => if w = v then ([w], ws) else
    let (c, rest) := popUntil v ws
    (w :: c, rest)

/-- graph.rs:178-186: close the component of `v`. -/
def SccExplorer.close (st : SccExplorer) (v : Nat) : SccExplorer :=
  let (c, rest) := popUntil v st.stk
  { st with
    extra := fun w => if w ∈ c then { st.extra w with onStack := false } else st.extra w
    stk := rest
    scc := st.scc ++ [c] }

/-- graph.rs:149-188 `SccExplorer::run`.  `fuel` bounds the depth of the recursion. -/
def run {U : Type} (graph : List (List Nat)) :
    Nat → Nat → SccExplorer → Except (GErr U) SccExplorer
  | 0, _, _ => .error .fuel
  | fuel + 1, v, st =>
    match graph[v]? with
    | none => .error .abort
    | some children =>
      if v < st.size then do
        let st ← visit (run graph fuel) v children (st.enter v)
        if (st.extra v).lowLink = (st.extra v).index then
          .ok (st.close v)
        else
          .ok st
      else .error .abort

/-- graph.rs:191-198 `for_graph_of_size`. -/
def forGraphOfSize (nb : Nat) : SccExplorer :=
  { index := 0, stk := [], size := nb, extra := fun _ => .default, scc := [] }

/-- graph.rs:359-363: explore from every vertex not reached yet.  `nb + 1` levels of recursion
are allowed (`run_ok` in `Lemmas/Tarjan.lean` shows they are enough). -/
def exploreFrom {U : Type} (graph : List (List Nat)) (nb : Nat) :
    List Nat → SccExplorer → Except (GErr U) SccExplorer
  | [], st => .ok st
  | v :: vs, st =>
    if (st.extra v).index.isNone then do
      let st ← run graph (nb + 1) v st
      exploreFrom graph nb vs st
    else exploreFrom graph nb vs st

/-- graph.rs:357-365: all the components, in closing order. -/
def sccs {U : Type} (graph : List (List Nat)) : Except (GErr U) (List (List Nat)) := do
  let st ← exploreFrom graph graph.length (List.range graph.length) (forGraphOfSize graph.length)
  return st.scc

end Explore

/-- graph.rs:86-100 `Graph`.  `atomics` is the vector half of the bidirectional map; the hash
map half is always its inverse (graph.rs:222-229 is the only place that changes either), so a
lookup in it is `findIdx?` here.  `provided_by_ext` and `provided_for_ext` are lists of ids
with membership only. -/
structure Graph (Obj U : Type) where
  elements : List Obj
  atomics : List U
  provide : List (List Nat)
  require : List (List Nat)
  providedByExt : List Nat
  providedForExt : List Nat

/-- What `depends.rs` says about an object: graph.rs calls `provides` and `requires`
(graph.rs:272-273). -/
class Depends (Obj : Type) (U : outParam Type) where
  provides : Obj → List U
  requires : Obj → List U

namespace Graph

variable {Obj U : Type} [DecidableEq U] [Depends Obj U]

/-- graph.rs:103-112. -/
def empty : Graph Obj U := ⟨[], [], [], [], [], []⟩

/-- graph.rs:221-234 `get_or_insert_atomic`. -/
def getOrInsertAtomic (atomics : List U) (o : U) : List U × Nat :=
  match atomics.findIdx? (fun u => u = o) with
  | some uid => (atomics, uid)
  | none => (atomics ++ [o], atomics.length)

/-- graph.rs:274-282: the two loops of `insert` that turn units into ids. -/
def getOrInsertAll (atomics : List U) : List U → List U × List Nat
  | [] => (atomics, [])
  | u :: us =>
    let (atomics, uid) := getOrInsertAtomic atomics u
    let (atomics, uids) := getOrInsertAll atomics us
    (atomics, uid :: uids)

/-- graph.rs:242-246 `already_provided`. -/
def alreadyProvided (g : Graph Obj U) (o : U) : Graph Obj U :=
  let (atomics, uid) := getOrInsertAtomic g.atomics o
  { g with atomics, providedByExt := uid :: g.providedByExt }

/-- graph.rs:257-264 `must_provide`. -/
def mustProvide (g : Graph Obj U) (o : U) : Except (GErr U) (Graph Obj U) :=
  let (atomics, uid) := getOrInsertAtomic g.atomics o
  if uid ∈ g.providedForExt then .ok { g with atomics } else .error (.undeclared o)

/-- graph.rs:267-290 `insert`. -/
def insert (g : Graph Obj U) (t : Obj) : Graph Obj U :=
  let (atomics, provideUids) := getOrInsertAll g.atomics (Depends.provides t)
  let (atomics, requireUids) := getOrInsertAll atomics (Depends.requires t)
  { g with
    atomics
    provide := g.provide ++ [provideUids]
    require := g.require ++ [requireUids]
    elements := g.elements ++ [t]
    providedForExt := g.providedForExt ++ provideUids }

/-- The two arrays built by graph.rs:310-312, of length `nb`, seen as functions. -/
structure Maps where
  provider : Nat → Option Nat
  constraints : Nat → List Nat

/-- `at!(self.atomics.0, p)` used in the error messages of graph.rs:320, 328, 342. -/
def reportUnit (g : Graph Obj U) (mk : U → GErr U) (p : Nat) : GErr U :=
  match g.atomics[p]? with
  | some u => mk u
  | none => .abort

/-- graph.rs:339-348: the loop over the requirements of the provider of `p`. -/
def addConstraints (g : Graph Obj U) (p : Nat) : List Nat → Maps → Except (GErr U) Maps
  | [], m => .ok m
  | r :: rs, m =>
    if r = p then .error (g.reportUnit .dependsOnItself p)
    else addConstraints g p rs
      { m with constraints := setAt m.constraints p (m.constraints p ++ [r]) }

/-- graph.rs:314-349: the loop over what element `id` provides. -/
def addProvided (g : Graph Obj U) (id : Nat) (reqs : List Nat) :
    List Nat → Maps → Except (GErr U) Maps
  | [], m => .ok m
  | p :: ps, m =>
    if p ∈ g.providedByExt then .error (g.reportUnit .providedByContext p)
    else if p < g.atomics.length then
      if (m.provider p).isSome then .error (g.reportUnit .declTwice p)
      else do
        let m ← addConstraints g p reqs { m with provider := setAt m.provider p (some id) }
        addProvided g id reqs ps m
    else .error .abort

/-- graph.rs:313-350: the loop over the elements, starting at number `id`. -/
def addElements (g : Graph Obj U) : Nat → List (List Nat) → List (List Nat) → Maps →
    Except (GErr U) Maps
  | _, [], _, m => .ok m
  | _, _ :: _, [], _ => .error .abort
  | id, ps :: pss, rs :: rss, m => do
    let m ← addProvided g id rs ps m
    addElements g (id + 1) pss rss m

/-- graph.rs:310-351. -/
def maps (g : Graph Obj U) : Except (GErr U) Maps :=
  addElements g 0 g.provide g.require { provider := fun _ => none, constraints := fun _ => [] }

/-- graph.rs:370-402: the loop over the components.  `unused` is the array of objects not
scheduled yet, `out` the schedule so far. -/
def drain (g : Graph Obj U) (m : Maps) : List (List Nat) → List (Option Obj) → List Obj →
    Except (GErr U) (List (Option Obj) × List Obj)
  | [], unused, out => .ok (unused, out)
  | c :: cs, unused, out =>
    match c with
    | [] => .error .abort
    | [id] =>
      match (if id < g.atomics.length then m.provider id else none) with
      | none => drain g m cs unused out
      | some prov =>
        match unused[prov]? with
        | none => .error .abort
        | some none => drain g m cs unused out
        | some (some obj) => drain g m cs (unused.set prov none) (out ++ [obj])
    | ids => .error (.cycle (ids.filterMap (fun l => g.atomics[l]?)))

/-- graph.rs:297-409 `scheduling`. -/
def scheduling (g : Graph Obj U) : Except (GErr U) (List Obj) := do
  let nb := g.atomics.length
  let m ← g.maps
  let scc ← Explore.sccs ((List.range nb).map m.constraints)
  let (unused, out) ← drain g m scc (g.elements.map some) []
  return out ++ unused.filterMap id

end Graph

/-- The way causality/mod.rs:33-37 and 77-96 use a graph: declare what the context provides,
insert all objects, check the required interface, then schedule. -/
def schedule {Obj U : Type} [DecidableEq U] [Depends Obj U] (context : List U) (objs : List Obj)
    (interface : List U) : Except (GErr U) (List Obj) := do
  let g := context.foldl Graph.alreadyProvided (Graph.empty : Graph Obj U)
  let g := objs.foldl Graph.insert g
  let g ← interface.foldlM Graph.mustProvide g
  g.scheduling

end Chandeliers.San
