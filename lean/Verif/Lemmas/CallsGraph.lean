import Verif.Lemmas.Calls

/-! The graph of a program: it can be built, and what its tensors are. -/

namespace Verif.Prog
open Verif Verif.Graph Verif.Nd Verif.Hint Verif.Gradient Verif.Spec Verif.Eval

/-! ## Building succeeds -/

/-- Recorded shape tensors and variables exist. -/
structure BInv (g : Graph POp) : Prop where
  hints : HintsIn g
  vars : ∀ vid tid, g.var2node vid = some tid → tid < g.nodes.length

theorem binv_empty : BInv (Graph.empty : Graph POp) := ⟨by intro x n s h; simp [Graph.empty] at h, by intro v t h; simp [Graph.empty] at h⟩

theorem buildRank_total {g : Graph POp} : ∀ {is : List Incoming}, (∀ i ∈ is, i.id < g.nodes.length) → ∃ r, g.buildRank is = .ok r
  | [], _ => ⟨0, rfl⟩
  | i :: is, h => by
    obtain ⟨r, hr⟩ := buildRank_total (g := g) (is := is) fun j hj => h j (by simp [hj])
    have hn := List.getElem?_eq_getElem (h i (by simp))
    exact ⟨max ((g.nodes[i.id]'(h i (by simp))).topoRank + 1) r, by simp only [buildRank, access_some.2 hn, hr, bind, Except.bind]⟩

theorem BInv.build {g : Graph POp} (hi : BInv g) {b : Builder} {op : POp} (hin : ∀ i ∈ b.inNodes, i.id < g.nodes.length)
    (hs : ∀ s, b.shape = some s → s < g.nodes.length) (hl : g.nodes.length ≤ numNodesCritical) :
    ∃ g' t, g.build b op = .ok (g', t) ∧ BInv g' ∧ g'.nodes.length = g.nodes.length + 1 ∧ t < g'.nodes.length ∧ g'.var2node = g.var2node := by
  obtain ⟨r, hr⟩ := buildRank_total hin
  have h : g.build b op = .ok ({ g with nodes := g.nodes ++ [b.toNode op r] }, g.size) := by
    have : ¬ g.size > numNodesCritical := by show ¬ g.nodes.length > _; omega
    simp only [Graph.build, hr, install, this, bind, Except.bind, if_false]
  obtain ⟨h1, h2⟩ := hintsIn_build hi.hints h hs
  exact ⟨_, _, h, ⟨h1, fun vid tid hv => by have := hi.vars vid tid hv; simp; omega⟩, by simp, h2, rfl⟩

theorem BInv.shape {g : Graph POp} (hi : BInv g) {x : Nat} (hx : x < g.nodes.length) (hl : g.nodes.length ≤ numNodesCritical) :
    ∃ g' s, Hint.shape hintOps g x = .ok (g', s) ∧ BInv g' ∧ g.nodes.length ≤ g'.nodes.length ∧ g'.nodes.length ≤ g.nodes.length + 1 ∧ s < g'.nodes.length := by
  have hn := List.getElem?_eq_getElem hx
  cases hs : (g.nodes[x]).shape with
  | some s =>
    refine ⟨g, s, ?_, hi, by omega, by omega, hi.hints x _ s hn hs⟩
    simp only [Hint.shape, access_some.2 hn, bind, Except.bind, hs]
  | none =>
    obtain ⟨g', t, h1, h2, h3, h4, _⟩ := hi.build (b := { inNodes := [{ id := x }], differentiable := false }) (op := hintOps.shapeOp) (by simpa using hx) (by simp) hl
    refine ⟨g', t, ?_, h2, by omega, by omega, h4⟩
    simp only [Hint.shape, access_some.2 hn, bind, Except.bind, hs, h1]

theorem BInv.call {g : Graph POp} (hi : BInv g) {s : Stmt} {f : Nat → Nat} (ha : ∀ a ∈ s.args, f a < g.nodes.length) (hl : g.nodes.length + 4 ≤ numNodesCritical + 1)
    (hd : ∀ name d, s = .placeholder name d → ∀ n ∈ d, n = -1 ∨ 0 < n) :
    ∃ g' t, construct hintOps g (s.rename f).ctor = .ok (g', t) ∧ BInv g' ∧ g.nodes.length ≤ g'.nodes.length ∧ g'.nodes.length ≤ g.nodes.length + 4 ∧ t < g'.nodes.length := by
  have hplain : ∀ (op : POp) (ins : List Incoming) (df : Bool), (∀ i ∈ ins, i.id < g.nodes.length) →
      ∃ g' t, g.build { inNodes := ins, differentiable := df } op = .ok (g', t) ∧ BInv g' ∧ g.nodes.length ≤ g'.nodes.length ∧ g'.nodes.length ≤ g.nodes.length + 4 ∧ t < g'.nodes.length := by
    intro op ins df h
    obtain ⟨g', t, h1, h2, h3, h4, _⟩ := hi.build (b := { inNodes := ins, differentiable := df }) (op := op) h (by simp) (by omega)
    exact ⟨g', t, h1, h2, by omega, by omega, h4⟩
  have hlike : ∀ (op : POp) (ins : List Incoming) (x : Nat), (∀ i ∈ ins, i.id < g.nodes.length) → x < g.nodes.length →
      ∃ g' t, construct hintOps g (.like op ins x) = .ok (g', t) ∧ BInv g' ∧ g.nodes.length ≤ g'.nodes.length ∧ g'.nodes.length ≤ g.nodes.length + 4 ∧ t < g'.nodes.length := by
    intro op ins x h hx
    obtain ⟨g1, s1, a1, a2, a3, a4, a5⟩ := hi.shape hx (by omega)
    obtain ⟨g', t, h1, h2, h3, h4, _⟩ := a2.build (b := { inNodes := ins, shape := some s1 }) (op := op) (fun i hi => by have := h i hi; omega)
      (by simpa using a5) (by omega)
    exact ⟨g', t, by simp only [construct, a1, h1, bind, Except.bind], h2, by omega, by omega, h4⟩
  have hbin : ∀ (op : POp) (a b : Nat), a < g.nodes.length → b < g.nodes.length →
      ∃ g' t, construct hintOps g (.binary op a b) = .ok (g', t) ∧ BInv g' ∧ g.nodes.length ≤ g'.nodes.length ∧ g'.nodes.length ≤ g.nodes.length + 4 ∧ t < g'.nodes.length := by
    intro op a b ha hb
    obtain ⟨g1, s1, a1, a2, a3, a4, a5⟩ := hi.shape ha (by omega)
    obtain ⟨g2, s2, b1, b2, b3, b4, b5⟩ := a2.shape (x := b) (by omega) (by omega)
    obtain ⟨g3, s3, c1, c2, c3, c4, _⟩ := b2.build (b := { inNodes := [{ id := s1 }, { id := s2 }] }) (op := hintOps.inferOp)
      (by simp; exact ⟨by omega, by omega⟩) (by simp) (by omega)
    obtain ⟨g', t, h1, h2, h3, h4, _⟩ := c2.build (b := { inNodes := [{ id := a }, { id := b }], shape := some s3 }) (op := op)
      (by simp; exact ⟨by omega, by omega⟩) (by simpa using c4) (by omega)
    exact ⟨g', t, by simp only [construct, a1, b1, c1, h1, bind, Except.bind], h2, by omega, by omega, h4⟩
  have hmem : ∀ as : List Nat, (∀ a ∈ as, f a < g.nodes.length) → ∀ i ∈ (as.map f).map inp, i.id < g.nodes.length := by
    intro as h i hi
    simp only [List.mem_map, exists_exists_and_eq_and] at hi
    obtain ⟨a, h1, rfl⟩ := hi
    exact h a h1
  cases s
  case var vid =>
    simp only [Stmt.rename, Stmt.ctor, construct, variableById]
    split
    · rename_i tid ht
      exact ⟨g, tid, rfl, hi, by omega, by omega, hi.vars vid tid ht⟩
    · obtain ⟨g', t, h1, h2, h3, h4, h5⟩ := hi.build (b := { variableId := some vid }) (op := hintOps.varOp) (by simp) (by simp) (by omega)
      refine ⟨{ g' with var2node := fun v => if v = vid then some t else g'.var2node v }, t, by simp only [h1, bind, Except.bind], ⟨h2.hints, fun w tid h => ?_⟩, by show _ ≤ g'.nodes.length; omega, by show g'.nodes.length ≤ _; omega, h4⟩
      simp only at h
      split at h
      · cases h; exact h4
      · exact h2.vars w tid h
  case placeholder name d =>
    have hks : knownShapeNew d = .ok d := by
      unfold knownShapeNew
      rw [if_pos]
      rw [List.all_eq_true]
      intro a h
      rcases hd name d rfl a h with rfl | h
      · rfl
      · simp; right; exact ⟨by omega, by omega⟩
    have : ∃ g1 hint, g.placeholderHint hintOps.constOp d = .ok (g1, hint) ∧ BInv g1 ∧ g.nodes.length ≤ g1.nodes.length ∧ g1.nodes.length ≤ g.nodes.length + 2 ∧
        ∀ s, hint = some s → s < g1.nodes.length := by
      unfold placeholderHint
      split
      · obtain ⟨ga, s1, a1, a2, a3, a4, _⟩ := hi.build (b := {}) (op := hintOps.constOp [(d.length : Int)]) (by simp) (by simp) (by omega)
        obtain ⟨gb, s2, b1, b2, b3, b4, _⟩ := a2.build (b := { shape := some s1 }) (op := hintOps.constOp d) (by simp) (by simpa using a4) (by omega)
        exact ⟨gb, some s2, by simp only [a1, b1, bind, Except.bind], b2, by omega, by omega, by simpa using b4⟩
      · exact ⟨g, none, rfl, hi, by omega, by omega, by simp⟩
    obtain ⟨g1, hint, a1, a2, a3, a4, a5⟩ := this
    obtain ⟨g', t, h1, h2, h3, h4, _⟩ := a2.build (b := { placeholderName := some name, shape := hint, knownShape := some d }) (op := hintOps.phOp) (by simp)
      a5 (by omega)
    exact ⟨g', t, by simp only [Stmt.rename, Stmt.ctor, construct, Graph.placeholder, a1, hks, h1, bind, Except.bind], h2, by omega, by omega, h4⟩
  case const a =>
    obtain ⟨ga, s1, a1, a2, a3, a4, _⟩ := hi.build (b := {}) (op := hintOps.constOp (a.shape.map (fun n : Nat => (n : Int)))) (by simp) (by simp) (by omega)
    obtain ⟨gb, s2, b1, b2, b3, b4, _⟩ := a2.build (b := { shape := some s1 }) (op := .const a) (by simp) (by simpa using a4) (by omega)
    exact ⟨gb, s2, by simp only [Stmt.rename, Stmt.ctor, construct, a1, b1, bind, Except.bind], b2, by omega, by omega, b4⟩
  case scalar c =>
    obtain ⟨ga, s1, a1, a2, a3, a4, _⟩ := hi.build (b := {}) (op := hintOps.constOp [0]) (by simp) (by simp) (by omega)
    obtain ⟨gb, s2, b1, b2, b3, b4, _⟩ := a2.build (b := { shape := some s1 }) (op := hintOps.constOp []) (by simp) (by simpa using a4) (by omega)
    obtain ⟨gc, s3, c1, c2, c3, c4, _⟩ := b2.build (b := { shape := some s2 }) (op := .scalar c) (by simp) (by simpa using b4) (by omega)
    exact ⟨gc, s3, by simp only [Stmt.rename, Stmt.ctor, construct, a1, b1, c1, bind, Except.bind], c2, by omega, by omega, c4⟩
  case add a b => exact hbin _ _ _ (ha a (by simp [Stmt.args])) (ha b (by simp [Stmt.args]))
  case sub a b => exact hbin _ _ _ (ha a (by simp [Stmt.args])) (ha b (by simp [Stmt.args]))
  case mul a b => exact hbin _ _ _ (ha a (by simp [Stmt.args])) (ha b (by simp [Stmt.args]))
  case div a b => exact hbin _ _ _ (ha a (by simp [Stmt.args])) (ha b (by simp [Stmt.args]))
  case un op x =>
    have hx := ha x (by simp [Stmt.args])
    cases op
    case neg => exact hplain _ _ _ (by simpa using hx)
    case clip => exact hplain _ _ _ (by simpa using hx)
    all_goals exact hlike _ _ _ (by simpa using hx) hx
  case addN x y zs =>
    refine hlike _ _ _ ?_ (ha x (by simp [Stmt.args]))
    have := hmem _ ha
    simpa [Stmt.args] using this
  case shapeOf x =>
    obtain ⟨g', s, h1, h2, h3, h4, h5⟩ := hi.shape (ha x (by simp [Stmt.args])) (by omega)
    exact ⟨g', s, h1, h2, h3, by omega, h5⟩
  case sizeOf x => exact hplain _ _ _ (by simpa [Stmt.args] using ha)
  case stopGradient x => exact hplain _ _ _ (by simpa [Stmt.args] using ha)
  case logSoftmax bot lay x axis => exact hlike _ _ _ (by simpa [Stmt.args] using ha) (ha x (by simp [Stmt.args]))
  case sigmoidCE x t => exact hlike _ _ _ (by simpa [Stmt.args] using ha) (ha x (by simp [Stmt.args]))
  case ident x => exact hlike _ _ _ (by simpa [Stmt.args] using ha) (ha x (by simp [Stmt.args]))
  all_goals exact hplain _ _ _ (by simpa [Stmt.args] using ha)

theorem buildFrom_total : ∀ {l : List Stmt} {g : Graph POp} {ids : List Nat}, BInv g → ScopedFrom ids.length l → (∀ k < ids.length, ids.getD k 0 < g.nodes.length) →
    (∀ name d, Stmt.placeholder name d ∈ l → ∀ n ∈ d, n = -1 ∨ 0 < n) → g.nodes.length + 4 * l.length ≤ numNodesCritical → ∃ g' ids', buildFrom l g ids = .ok (g', ids') ∧
      g'.nodes.length ≤ g.nodes.length + 4 * l.length := by
  intro l
  induction l with
  | nil => intro g ids _ _ _ _ _; exact ⟨g, ids, rfl, by simp⟩
  | cons s l ih =>
    intro g ids hi hs hk hd hl
    obtain ⟨ha, hs'⟩ := scopedFrom_tail hs
    simp only [List.length_cons] at hl ⊢
    obtain ⟨g1, t, h1, h2, h3, h4, h5⟩ := hi.call (s := s) (f := fun k => ids.getD k 0) (fun a h => hk a (ha a h)) (by omega)
      (fun name d h => hd name d (by rw [h]; simp))
    obtain ⟨g', ids', h6, h7⟩ := ih (g := g1) (ids := ids ++ [t]) h2 (by simpa using hs') (by
      intro k hk'
      simp only [List.length_append, List.length_singleton] at hk'
      by_cases hlt : k < ids.length
      · have : (ids ++ [t]).getD k 0 = ids.getD k 0 := by simp [List.getD_eq_getElem?_getD, hlt, List.getElem?_append_left]
        rw [this]
        have := hk k hlt
        omega
      · have : k = ids.length := by omega
        subst this
        have : (ids ++ [t]).getD ids.length 0 = t := by simp [List.getD_eq_getElem?_getD]
        rw [this]
        exact h5) (fun name d h => hd name d (by simp [h])) (by omega)
    exact ⟨g', ids', by simp only [buildFrom, h1, bind, Except.bind, h6], by omega⟩

theorem buildCalls_total {l : List Stmt} (hs : Scoped l) (hd : DimsOk l) (hl : 4 * l.length ≤ numNodesCritical) : ∃ g ids, buildCalls l = .ok (g, ids) ∧ g.nodes.length ≤ 4 * l.length := by
  have := buildFrom_total (l := l) binv_empty (ids := []) (by intro k s hk a ha; have := hs k s hk a ha; simpa using this) (by simp) hd
    (by simpa [Graph.empty] using hl)
  simpa [Graph.empty, buildCalls] using this

/-! ## What the tensors are -/

/-- The tensor `t` returned by a call. -/
def TensorFor (g : Graph POp) (t : Nat) : Stmt → Prop
  | .var vid => IsVariable g t vid
  | .placeholder name d => ∃ nd, g.nodes[t]? = some nd ∧ nd.placeholderName = some name ∧ nd.variableId = none ∧ nd.knownShape = some d
  | s => ∀ op as, s.app = some (op, as) → IsApp g t op as

theorem TensorFor.grows {g g' : Graph POp} (h : Grows g g') {t : Nat} {s : Stmt} (ht : TensorFor g t s) : TensorFor g' t s := by
  cases s
  case var vid => obtain ⟨nd, a, b⟩ := ht; exact ⟨nd, h.1 _ _ a, b⟩
  case placeholder name d => obtain ⟨nd, a, b⟩ := ht; exact ⟨nd, h.1 _ _ a, b⟩
  all_goals exact fun op as ho => isApp_mono h (ht op as ho)

theorem construct_tensor {g g' : Graph POp} (hw : WF g) {s : Stmt} {t : Nat} (h : construct hintOps g s.ctor = .ok (g', t)) : TensorFor g' t s := by
  have happ : ∀ op as, ctorApp s.ctor = some (op, as.map inp) → IsApp g' t op as := fun op as hc => (construct_app h hc).2
  cases s
  case var vid =>
    rcases variableById_ok h with ⟨rfl, h1⟩ | ⟨_, rfl, h1, _, _⟩
    · exact (hw.cache vid t).1 h1
    · exact ⟨({ variableId := some vid } : Builder).toNode hintOps.varOp 0, by rw [h1]; simp, rfl⟩
  case placeholder name d =>
    simp only [Stmt.ctor, construct, Graph.placeholder, bind_ok] at h
    obtain ⟨⟨g1, hint⟩, h1, ks, h2, h3⟩ := h
    have hks : ks = d := by
      unfold knownShapeNew at h2
      split at h2
      · cases h2; rfl
      · cases h2
    subst hks
    obtain ⟨r, hn⟩ := build_node h3
    exact ⟨_, hn, rfl, rfl, rfl⟩
  case shapeOf x => intro op as ho; cases ho
  case sizeOf x => intro op as ho; cases ho; exact build_isApp h rfl rfl rfl
  case stopGradient x => intro op as ho; cases ho; exact build_isApp h rfl rfl rfl
  case un op x => intro op' as ho; cases ho; exact happ _ _ (by cases op <;> rfl)
  all_goals intro op as ho; cases ho; exact happ _ _ rfl

theorem constructAll_tensors {C : List (Ctor POp)} : ∀ {l : List Stmt} {g g' : Graph POp} {ts : List Nat}, HInv hintOps C g → (∀ c ∈ l.map Stmt.ctor, c ∈ C) →
    constructAll hintOps g (l.map Stmt.ctor) = .ok (g', ts) → ∀ (k : Nat) (s : Stmt) (t : Nat), l[k]? = some s → ts[k]? = some t → TensorFor g' t s := by
  intro l
  induction l with
  | nil => intro g g' ts _ _ _ k s t h; simp at h
  | cons c l ih =>
    intro g g' ts hi hC h k s t hk ht
    simp only [List.map_cons, constructAll, bind_ok] at h
    obtain ⟨⟨g1, t1⟩, h1, ⟨g2, ts2⟩, h2, h3⟩ := h
    obtain ⟨rfl, rfl⟩ := Prod.mk.inj (Except.ok.inj h3)
    obtain ⟨_, hi1, _⟩ := construct_ok hi (hC _ (by simp)) h1
    cases k with
    | zero =>
      cases hk; cases ht
      exact (construct_tensor hi.reach.wf h1).grows (constructAll_ok hi1 (fun c hc => hC c (List.mem_cons_of_mem _ hc)) h2).1
    | succ k => exact ih hi1 (fun c hc => hC c (List.mem_cons_of_mem _ hc)) h2 k s t hk ht

theorem stmt_noMut {s : Stmt} {op : POp} {ins : List Incoming} (h : ctorNode s.ctor = some (op, ins)) : ∀ i ∈ ins, i.allowMut = false := by
  cases s
  case un e x => cases e <;> simp only [Stmt.ctor, unCtor, ctorNode, Option.some.injEq, Prod.mk.injEq] at h <;> (obtain ⟨_, rfl⟩ := h; simp [inp])
  all_goals simp only [Stmt.ctor, ctorNode, reduceCtorEq, Option.some.injEq, Prod.mk.injEq] at h
  all_goals obtain ⟨_, rfl⟩ := h
  all_goals simp [inp]

/-- Ops only read older tensors. -/
theorem run_oldRead {l : List Stmt} {g : Graph POp} {ts : List Nat} (hl : runProgram l = .ok (g, ts)) : OldRead g := by
  obtain ⟨_, hi, _⟩ := constructAll_ok hinv_empty (fun _ h => h) hl
  have hp : PInv hintOps (l.map Stmt.ctor) g := PInv.constructAll pinv_empty (fun _ h => h) hl
  intro k n hn i hii
  refine ⟨hi.older k n hn i hii, ?_⟩
  cases hp.made k n hn with
  | var _ h _ _ => rw [h] at hii; cases hii
  | placeholder _ h _ _ => rw [h] at hii; cases hii
  | const _ h _ => rw [h] at hii; cases hii
  | shape _ h _ _ => rw [h, List.mem_singleton] at hii; rw [hii]
  | infer _ h _ _ _ =>
    rw [h] at hii
    simp only [List.mem_cons, List.not_mem_nil, or_false] at hii
    rcases hii with rfl | rfl <;> rfl
  | ctor hm hc _ h _ _ =>
    obtain ⟨st, _, rfl⟩ := List.mem_map.1 hm
    rw [h] at hii
    exact stmt_noMut hc i hii

end Verif.Prog
