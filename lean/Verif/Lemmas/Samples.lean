import Verif.Spec.Samples
import Verif.Lemmas.SampleTrees
import Verif.Props.EndToEnd
import Verif.Props.EmittedText

/-!
# Lemmas about programs that come with the project
-/

set_option autoImplicit false

namespace Chandeliers.Smp
open San Syn Err Spec Spec.Samples Props

/-- The program is accepted without a message. -/
def clean (p : SrcProg) : Bool :=
  match decl (compile p) with
  | .done [] (some _) => true
  | _ => false

theorem clean_done {p : SrcProg} (h : clean p = true) : ∃ p', decl (compile p) = .done [] (some p') := by
  unfold clean at h
  split at h
  · rename_i p' he; exact ⟨p', he⟩
  · cases h

/-- No constant of the program has an arithmetic error. -/
def Computes (A : Arith) (p : SrcProg) : Prop :=
  ∀ attrs c, ⟨attrs, .const c⟩ ∈ p → ∀ c', c.translate = .ok c' → ∀ g, c'.eval A g ≠ .error .arith

theorem linkConsts_computes {A : Arith} {X : Extern} {sigs : String → Option Sig}
    {consts : String → Option TyBase} {q : List SrcDecl} {ds : List San.Decl}
    (h : ProgPasses sigs consts q ds) (hc : Computes A q) :
    ∀ g, linkConsts A X g ds ≠ .error .arith := by
  induction h with
  | nil => intro g; simp [linkConsts]
  | const ht h hn hs ih =>
    intro g
    have := hc _ _ (List.mem_cons_self ..) _ ht g
    unfold linkConsts
    split
    · exact ih (fun a c hm => hc a c (List.mem_cons_of_mem _ hm)) _
    · rename_i p he
      rw [he] at this
      simpa using this
  | extConst hn hs ih =>
    intro g
    unfold linkConsts
    split
    · exact ih (fun a c hm => hc a c (List.mem_cons_of_mem _ hm)) _
    · simp
  | node h hn hs ih =>
    intro g
    unfold linkConsts
    exact ih (fun a c hm => hc a c (List.mem_cons_of_mem _ hm)) _
  | extNode h hd hn hs ih =>
    intro g
    unfold linkConsts
    exact ih (fun a c hm => hc a c (List.mem_cons_of_mem _ hm)) _

theorem rustNodes_error {uid : Nat} {A : Arith} {X : Extern} {consts : String → Option Scalar} :
    ∀ (ds : List San.Decl) (N : String → Option Machine) e, rustNodes uid A X consts N ds = .error e →
      e = .rejected
  | [], N, e, h => by simp [rustNodes] at h
  | .node n :: ds, N, e, h => by
    unfold rustNodes at h
    split at h
    · exact rustNodes_error ds _ e h
    · cases h; rfl
  | .extNode n :: ds, N, e, h => by
    unfold rustNodes at h
    split at h
    · exact rustNodes_error ds _ e h
    · cases h; rfl
  | .const _ :: ds, N, e, h => by
    unfold rustNodes at h
    exact rustNodes_error ds _ e h
  | .extConst _ :: ds, N, e, h => by
    unfold rustNodes at h
    exact rustNodes_error ds _ e h

/-- What a struct does is what the equations of its node say. -/
def Means (A : Arith) (consts : String → Option Scalar) (nodes : String → Option Machine)
    (attrs : List Attribute) (src : SrcNode) (m : Machine) : Prop :=
  ∀ is os, m.run is = .ok os ↔ ∃ outs, NodeMeans A consts nodes attrs src (is.filter present) outs ∧
    os = spread (flatShape (argNames src.outputs).length) is outs

/-- All that is known about the items of a program. -/
structure Facts (uid : Nat) (A : Arith) (X : Extern) (p : SrcProg) (consts : String → Option Scalar)
    (nodes : String → Option Machine) (I : Items) : Prop where
  node : ∀ attrs src, ⟨attrs, .node src⟩ ∈ p → ∃ m, nodes src.name = some m ∧
    Means A consts nodes attrs src m ∧ ∃ m', structOf uid I src.name = some m' ∧
      ∀ is, (∀ i ∈ is, ValTy (flatTuple (argTypes src.inputs)) i) → m'.run is = m.run is
  respects : ∀ attrs src, ⟨attrs, .node src⟩ ∈ p → ∀ m', structOf uid I src.name = some m' →
    Respects m' (flatTuple (argTypes src.inputs)) (flatTuple (argTypes src.outputs))
  const : ∀ attrs c, ⟨attrs, .const c⟩ ∈ p → ∃ v, consts c.name = some v ∧
    ∀ v', ref ⟨A, [], fun _ _ => .nil, consts, nodes⟩ c.value 0 = some (.leaf (.defined v')) → v' = v
  extern : ∀ attrs f ins outs, ⟨attrs, .extNode f ins outs⟩ ∈ p →
    nodes f = (X.nodes f).map wrapExtern

mutual
theorem substTy_id : (t : TyTuple) → substTy .other t = t
  | .single t => by cases t <;> rfl
  | .multiple ts => by simp only [substTy, substTys_id ts]
theorem substTys_id : (ts : List TyTuple) → substTys .other ts = ts
  | [] => rfl
  | t :: ts => by simp only [substTys, substTy_id t, substTys_id ts]
end

theorem run_error {m : Machine} {s : m.σ} {is : List Value} {p : Panic} (hs : s = m.init) :
    m.runFrom s is = .error p ↔ m.run is = .error p := by
  subst hs
  unfold Machine.run
  cases m.runFrom m.init is <;> simp [bind, Except.bind]

theorem run_ok {m : Machine} {is os : List Value} : (∃ s, m.runFrom m.init is = .ok (os, s)) ↔ m.run is = .ok os := by
  unfold Machine.run
  cases h : m.runFrom m.init is with
  | error p => simp [bind, Except.bind]
  | ok r => obtain ⟨o, s⟩ := r; simp [bind, Except.bind]

theorem respects_of_run {m m' : Machine} {t u : TyTuple} (h : Respects m t u) (ho : m'.outTy = m.outTy)
    (hr : ∀ is, (∀ i ∈ is, ValTy t i) → m'.run is = m.run is) : Respects m' t u := by
  refine ⟨fun is hi => ⟨fun p hp => ?_, fun os s' hos => ?_⟩, by rw [ho]; exact h.absent⟩
  · rw [run_error rfl, hr is hi, ← run_error rfl] at hp
    exact (h.safe is hi).1 p hp
  · have := run_ok.1 ⟨s', hos⟩
    rw [hr is hi] at this
    obtain ⟨s, hs⟩ := run_ok.2 this
    exact (h.safe is hi).2 os s hs

theorem mem_spread {ty : Tup Unit} : ∀ {is os : List Value} {o : Value}, o ∈ spread ty is os →
    o ∈ os ∨ o = Tup.allNil Scalar ty
  | [], _, o, h => by simp [spread] at h
  | i :: is, os, o, h => by
    unfold spread at h
    split at h
    · cases os with
      | nil => cases h
      | cons a os =>
        rcases List.mem_cons.1 h with rfl | h
        · exact .inl (List.mem_cons_self ..)
        · rcases mem_spread h with h | h
          · exact .inl (List.mem_cons_of_mem _ h)
          · exact .inr h
    · rcases List.mem_cons.1 h with rfl | h
      · exact .inr rfl
      · exact mem_spread h

/-- The exported struct has the type of the node. -/
theorem export_respects {m : Machine} {t u : TyTuple} (A : Arith) (consts : String → Option Scalar)
    (h : Respects m t u) : Respects (innerMachine exportQuote A consts m.outTy m) t u := by
  refine ⟨fun is hi => ⟨fun p hp => ?_, fun os s' hos o hm => ?_⟩, h.absent⟩
  · rw [run_error rfl, C64_export] at hp
    refine (h.safe (is.filter present) fun i hm => hi i (List.mem_filter.1 hm).1).1 p ?_
    rw [run_error rfl]
    revert hp
    cases m.run (is.filter present) <;> simp [Except.map]
  · have := run_ok.1 ⟨s', hos⟩
    rw [C64_export] at this
    cases hr : m.run (is.filter present) with
    | error p => rw [hr] at this; cases this
    | ok outs =>
      rw [hr] at this
      cases this
      obtain ⟨s, hs⟩ := run_ok.2 hr
      rcases mem_spread hm with h1 | h1
      · exact (h.safe (is.filter present) fun i hm => hi i (List.mem_filter.1 hm).1).2 outs s hs o h1
      · rw [h1]; exact h.absent

theorem facts {ts : List Tok} {p : SrcProg} (uid : Nat) (A : Arith) (X : Extern)
    (hr : parseProg ts = some p) (hc : clean p = true) (hX : ExternOk X p) (hu : UnitOutputs X p)
    (hg : DistinctGenerics p) (ht : TidyProg p) (hk : Computes A p) :
    ∃ consts nodes I, Emits uid A X ts I ∧ Facts uid A X p consts nodes I := by
  obtain ⟨p', h⟩ := clean_done hc
  obtain ⟨k, hread⟩ := C69_program h uid
  have hne : linkRust uid A X p'.decls ≠ .error .arith := by
    obtain ⟨q, hq, hp⟩ := accepted_passes h
    have := linkConsts_computes (X := X) hp (fun a c hm => hk a c (hq.mem_iff.1 hm)) (fun _ => none)
    unfold linkRust
    split
    · rename_i e he; rw [he] at this; simpa using this
    · split
      · rename_i e he; rw [rustNodes_error _ _ _ he]; simp
      · simp
  rcases C66_emitted uid A X h hX hu hg ht with he | ⟨consts, nodes, I, h1, h2, h3, -, h5⟩
  · exact absurd he hne
  · refine ⟨consts, nodes, I, ⟨p', ?_, k, fun n hn => by rw [hread n hn, h1]⟩, ⟨?_, ?_, ?_, h5⟩⟩
    · simp [expand, hr, h]
    · intro attrs src hm
      obtain ⟨m, j1, j2, -, m', j3, -, j4⟩ := h2 attrs src hm
      refine ⟨m, j1, j2, m', j3, fun is hi => j4 .other is fun i hm => ?_⟩
      rw [substTy_id]
      exact hi i hm
    · intro attrs src hm m' hm'
      obtain ⟨m, j1, -, j2, m'', j3, j4, j5⟩ := h2 attrs src hm
      cases hm'.symm.trans j3
      have := respects_of_run (j2 .other) j4 fun is hi => j5 .other is hi
      rwa [substTy_id, substTy_id] at this
    · intro attrs c hm
      obtain ⟨v, j1, -, -, j4⟩ := h3 attrs c hm
      exact ⟨v, j1, j4⟩

/-! ## Histories -/

theorem filter_present {inp : Nat → Value} (hp : ∀ t, present (inp t) = true) (k : Nat) :
    ((List.range k).map inp).filter present = (List.range k).map inp := by
  rw [List.filter_eq_self]
  intro v hv
  obtain ⟨t, -, rfl⟩ := List.mem_map.1 hv
  exact hp t

theorem spread_present {ty : Tup Unit} : ∀ (is os : List Value), (∀ i ∈ is, present i = true) →
    is.length = os.length → spread ty is os = os
  | [], [], _, _ => rfl
  | i :: is, o :: os, h, hl => by
    simp only [spread, h i (List.mem_cons_self ..), if_true]
    rw [spread_present is os (fun j hj => h j (List.mem_cons_of_mem _ hj)) (by simpa using hl)]

section
variable {A : Arith} {consts : String → Option Scalar} {nodes : String → Option Machine}
  {attrs : List Attribute} {src : SrcNode} {m : Machine}

/-- The equations of the node over the streams `S`. -/
def Solves (A : Arith) (consts : String → Option Scalar) (nodes : String → Option Machine)
    (src : SrcNode) (S : String → Nat → Nillable Scalar) (inp : Nat → Value) (t : Nat) : Prop :=
  (argNames src.inputs ≠ [] → inp t = together (S · t) (argNames src.inputs)) ∧
    ∀ st ∈ src.defs, SrcHolds ⟨A, SrcNode.vars src, S, consts, nodes⟩ t st

theorem answers (hm : Means A consts nodes attrs src m)
    (hu : hasAny attrs ["universal_pre"] = false) {S : String → Nat → Nillable Scalar} {n : Nat}
    {inp : Nat → Value} (hp : ∀ t, present (inp t) = true)
    (hs : ∀ t < n, Solves A consts nodes src S inp t) :
    Answers m n inp fun t => together (S · t) (argNames src.outputs) := by
  intro k hk
  refine (hm _ _).2 ⟨_, ⟨S, ?_, rfl⟩, ?_⟩
  · rw [if_neg (by simp [hu]), filter_present hp]
    refine ⟨fun t i hi hne => ?_, fun t ht st hst => ?_⟩
    · simp only [List.getElem?_map, Option.map_eq_some_iff] at hi
      obtain ⟨u, hu, rfl⟩ := hi
      obtain ⟨hlt, rfl⟩ := List.getElem?_eq_some_iff.1 hu
      simp only [List.getElem_range, List.length_range] at hlt ⊢
      exact (hs t (by omega)).1 hne
    · simp only [List.length_map, List.length_range] at ht
      exact (hs t (by omega)).2 st hst
  · rw [filter_present hp, spread_present _ _ _ (by simp [srcOutputs])]
    · simp [srcOutputs]
    · intro i hi
      obtain ⟨t, -, rfl⟩ := List.mem_map.1 hi
      exact hp t

theorem solution (hm : Means A consts nodes attrs src m)
    (hu : hasAny attrs ["universal_pre"] = false) {k : Nat}
    {inp : Nat → Value} (hp : ∀ t, present (inp t) = true) {os : List Value}
    (h : m.run ((List.range k).map inp) = .ok os) :
    ∃ S, ∀ t < k, Solves A consts nodes src S inp t := by
  obtain ⟨outs, ⟨S, hS, -⟩, -⟩ := (hm _ _).1 h
  rw [if_neg (by simp [hu]), filter_present hp] at hS
  refine ⟨S, fun t ht => ⟨fun hne => ?_, fun st hst => hS.defs t (by simpa using ht) st hst⟩⟩
  exact hS.inputs t _ (by simp [ht]) hne

end

theorem Answers.congr {m m' : Machine} {n : Nat} {inp out : Nat → Value} (h : Answers m n inp out)
    {P : Value → Prop} (hr : ∀ is, (∀ i ∈ is, P i) → m'.run is = m.run is) (hP : ∀ t, P (inp t)) :
    Answers m' n inp out := by
  intro k hk
  rw [hr _ (fun i hi => by obtain ⟨t, -, rfl⟩ := List.mem_map.1 hi; exact hP t)]
  exact h k hk

theorem Panics.congr {m m' : Machine} {t : Nat} {inp : Nat → Value} (h : Panics m inp t)
    {P : Value → Prop} (hr : ∀ is, (∀ i ∈ is, P i) → m'.run is = m.run is) (hP : ∀ t, P (inp t)) :
    Panics m' inp t := by
  intro k hk
  rw [hr _ (fun i hi => by obtain ⟨t, -, rfl⟩ := List.mem_map.1 hi; exact hP t)]
  exact h k hk

/-- A call to a node whose answers are known. -/
theorem callAt_answers {m : Machine} {n : Nat} {inp out : Nat → Value} (h : Answers m n inp out)
    {args : Nat → Option Value} {t : Nat} (ht : t < n) (ha : ∀ u ≤ t, args u = some (inp u)) :
    callAt m args t = some (out t) := by
  have h1 : (List.range (t + 1)).mapM args = some ((List.range (t + 1)).map inp) := by
    have : ∀ l : List Nat, (∀ u ∈ l, u ≤ t) → l.mapM args = some (l.map inp) := by
      intro l
      induction l with
      | nil => intro _; rfl
      | cons a l ih =>
        intro hl
        rw [List.mapM_cons, ha a (hl a (List.mem_cons_self ..)),
          ih (fun u hu => hl u (List.mem_cons_of_mem _ hu))]
        rfl
    exact this _ (fun u hu => by have := List.mem_range.1 hu; omega)
  unfold callAt
  rw [h1]
  simp only [Option.bind_eq_bind, Option.bind_some]
  rw [h (t + 1) (by omega)]
  simp [Except.toOption, List.range_succ]

/-- The wrapper of an external node adds nothing when the inputs are present. -/
theorem wrapExtern_run (m : Machine) (is : List Value) (hp : ∀ i ∈ is, present i = true) :
    (wrapExtern m).run is = m.run is := by
  have : ∀ (is : List Value) (s : m.σ × Nat), (∀ i ∈ is, present i = true) →
      ((wrapExtern m).runFrom s is).map (·.1) = (m.runFrom s.1 is).map (·.1) := by
    intro is
    induction is with
    | nil => intro s _; rfl
    | cons i is ih =>
      intro s h
      have hi : i.firstIsNil = false := by
        have := h i (List.mem_cons_self ..)
        simpa [present] using this
      have hstep : (wrapExtern m).step s i =
          (match m.step s.1 i with
           | .ok (o, s') => .ok (o, (s', s.2 + 1))
           | .error p => .error p) := by
        simp only [wrapExtern, Candle.implicitClock, hi]
        rfl
      simp only [Machine.runFrom, hstep]
      cases m.step s.1 i with
      | error p => rfl
      | ok r =>
        obtain ⟨o, s'⟩ := r
        have := ih (s', s.2 + 1) fun j hj => h j (List.mem_cons_of_mem _ hj)
        simp only [bind, Except.bind] at this ⊢
        revert this
        cases (wrapExtern m).runFrom (s', s.2 + 1) is <;> cases m.runFrom s' is <;>
          simp [Except.map]
  have := this is (m.init, 0) hp
  unfold Machine.run
  rw [show (wrapExtern m).init = (m.init, 0) from rfl]
  revert this
  cases (wrapExtern m).runFrom (m.init, 0) is <;> cases m.runFrom m.init is <;>
    simp [Except.map, bind, Except.bind]

/-- The exported struct answers the same. -/
theorem Answers.export {m : Machine} {n : Nat} {inp out : Nat → Value} (A : Arith)
    (consts : String → Option Scalar) (h : Answers m n inp out) (hp : ∀ t, present (inp t) = true) :
    Answers (innerMachine exportQuote A consts m.outTy m) n inp out := by
  intro k hk
  rw [C64_export, filter_present hp, h k hk]
  simp only [Except.map]
  rw [spread_present _ _ (fun i hi => by obtain ⟨t, -, rfl⟩ := List.mem_map.1 hi; exact hp t) (by simp)]

theorem Answers.wrap {m : Machine} {n : Nat} {inp out : Nat → Value} (h : Answers m n inp out)
    (hp : ∀ t, present (inp t) = true) : Answers (wrapExtern m) n inp out :=
  Answers.congr h (P := (present · = true)) (wrapExtern_run m) hp

end Chandeliers.Smp
