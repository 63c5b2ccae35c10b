import Verif.Lemmas.CallsGrad
import Verif.Lemmas.HoLoop
import Verif.Spec.HigherOrder

/-! Variables and placeholders of programs that call `grad`, and what a small change of them does. -/

namespace Verif.Prog
open Verif Verif.Graph Verif.Nd Verif.Hint Verif.Gradient Verif.Spec Verif.Eval Filter Topology

/-! ## Which tensors are variables and placeholders -/

theorem build_cases {Op : Type} {g g' : Graph Op} {b : Builder} {op : Op} {t : Nat} (h : g.build b op = .ok (g', t)) {z : Nat} {nd : Node Op} (hz : g'.nodes[z]? = some nd) :
    g.nodes[z]? = some nd ∨ z = t ∧ ∃ r, nd = b.toNode op r := by
  obtain ⟨r, _, _, rfl, _, e⟩ := build_ok h
  rw [e] at hz
  rcases Nat.lt_trichotomy z g.nodes.length with h1 | h1 | h1
  · rw [List.getElem?_append_left h1] at hz
    exact .inl hz
  · rw [h1, List.getElem?_append_right (Nat.le_refl _)] at hz
    simp at hz
    exact .inr ⟨h1, r, hz.symm⟩
  · rw [List.getElem?_eq_none (by simp; omega)] at hz; cases hz

theorem builds_leaf {Op : Type} {g g' : Graph Op} (h : Builds g g') {z : Nat} {nd : Node Op} (hz : g'.nodes[z]? = some nd)
    (hl : nd.placeholderName ≠ none ∨ nd.variableId ≠ none) : g.nodes[z]? = some nd := by
  induction h with
  | refl => exact hz
  | step _ hb h1 h2 _ _ ih =>
    rcases build_cases hb hz with h | ⟨_, r, rfl⟩
    · exact ih h
    · simp [Builder.toNode, h1, h2] at hl

theorem stmt_builds {g g' : Graph POp} {s : Stmt} {t : Nat} (h : construct hintOps g s.ctor = .ok (g', t)) (hl : leafOf s = none) : Builds g g' := by
  have key : ∀ {c : Ctor POp} {op : POp} {xs : List Nat}, construct hintOps g c = .ok (g', t) → ctorApp c = some (op, xs.map inp) → Builds g g' :=
    fun h hc => mk_builds (lift_ok.2 h) hc
  have hone : ∀ {op : POp} {xs : List Nat} {b : Builder}, g.build b op = .ok (g', t) → b.inNodes = xs.map inp → b.variableId = none → b.placeholderName = none → Builds g g' :=
    fun {op xs b} h h1 h2 h3 => .one h h2 h3 (by
      intro i hi
      rw [h1] at hi
      obtain ⟨x, _, rfl⟩ := List.mem_map.1 hi
      rfl) (.inr trivial)
  cases s with
  | var vid => cases hl
  | placeholder name sh => cases hl
  | const a => exact key (xs := []) h rfl
  | scalar c => exact key (xs := []) h rfl
  | add a b => exact key (xs := [a, b]) h rfl
  | sub a b => exact key (xs := [a, b]) h rfl
  | mul a b => exact key (xs := [a, b]) h rfl
  | div a b => exact key (xs := [a, b]) h rfl
  | un op x => exact key h (unCtor_app op x)
  | matmul a b => exact key (xs := [a, b]) h rfl
  | sumAll x => exact key (xs := [x]) h rfl
  | reduceSum x axes keep => exact key (xs := [x, axes]) h rfl
  | addN x y zs => exact key (xs := x :: y :: zs) h rfl
  | shapeOf x => exact shape_builds (lift_ok.2 h)
  | sizeOf x => exact hone (xs := [x]) h rfl rfl rfl
  | reduceMean x axes keep => exact key (xs := [x, axes]) h rfl
  | softmax bot lay x axis => exact key (xs := [x]) h rfl
  | logSoftmax bot lay x axis => exact key (xs := [x]) h rfl
  | sigmoidCE x t => exact key (xs := [x, t]) h rfl
  | sparseCE bot lay x t => exact key (xs := [x, t]) h rfl
  | zeros s => exact key (xs := [s]) h rfl
  | ones s => exact key (xs := [s]) h rfl
  | ident x => exact key (xs := [x]) h rfl
  | slice x starts stops => exact key (xs := [x]) h rfl
  | squeeze x axes => exact key (xs := [x, axes]) h rfl
  | transpose x axes => exact key (xs := [x, axes]) h rfl
  | hook x => exact key (xs := [x]) h rfl
  | extremum mx a b => exact key (xs := [a, b]) h rfl
  | reduceExt mx lim x axes keep => exact key (xs := [x, axes]) h rfl
  | stopGradient x => exact hone (xs := [x]) h rfl rfl rfl
  | reshape x s => exact key (xs := [x, s]) h rfl
  | gather normalize indices param axis => exact key (xs := [indices, param]) h rfl
  | expandDims x axes => exact key (xs := [x, axes]) h rfl
  | conv2d pad stride dil x w => exact key (xs := [x, w]) h rfl
  | maxPool bot k pad stride x => exact key (xs := [x]) h rfl
  | dropout train ratio mask x => exact key (xs := [x]) h rfl
  | argMax bot lay x axis keep => exact key (xs := [x]) h rfl
  | cmp c a b => exact key (xs := [a, b]) h rfl

/-- The node is this variable or placeholder. -/
def LeafNode (nd : Node POp) : Leaf → Prop
  | .variable_ vid => nd.variableId = some vid
  | .placeholder name => nd.placeholderName = some name

theorem leafNode_unique {g : Graph POp} (hw : WF g) {z : Nat} {nd : Node POp} (hz : g.nodes[z]? = some nd) {a b : Leaf} (ha : LeafNode nd a) (hb : LeafNode nd b) : a = b := by
  have := hw.notBoth z nd hz
  cases a <;> cases b <;> simp_all [LeafNode]

theorem isLeaf_node {g : Graph POp} {z : Nat} (h : IsLeaf g z) : ∃ nd leaf, g.nodes[z]? = some nd ∧ LeafNode nd leaf := by
  obtain ⟨nd, hn, h | h⟩ := h
  · obtain ⟨name, e⟩ := Option.ne_none_iff_exists'.1 h
    exact ⟨nd, .placeholder name, hn, e⟩
  · obtain ⟨vid, e⟩ := Option.ne_none_iff_exists'.1 h
    exact ⟨nd, .variable_ vid, hn, e⟩

theorem LeafNode.isLeaf {g : Graph POp} {z : Nat} {nd : Node POp} {leaf : Leaf} (hz : g.nodes[z]? = some nd) (h : LeafNode nd leaf) : IsLeaf g z := by
  cases leaf with
  | variable_ vid => exact ⟨nd, hz, .inr (by rw [show nd.variableId = some vid from h]; simp)⟩
  | placeholder name => exact ⟨nd, hz, .inl (by rw [show nd.placeholderName = some name from h]; simp)⟩

/-- What is known of the graph of a program. -/
structure LeavesOk (g : Graph POp) (ids : List Nat) (leaves : List (Option Leaf)) : Prop where
  reach : Props.Reachable hintOps.toOps g
  len : ids.length = leaves.length
  node : ∀ (k : Nat) (leaf : Leaf), leaves[k]? = some (some leaf) → ∃ nd, g.nodes[ids.getD k 0]? = some nd ∧ LeafNode nd leaf
  known : ∀ (z : Nat) (nd : Node POp) (name : String), g.nodes[z]? = some nd → nd.placeholderName = some name → some (Leaf.placeholder name) ∈ leaves
  unique : ∀ (z z' : Nat) (nd nd' : Node POp) (name : String), g.nodes[z]? = some nd → g.nodes[z']? = some nd' → nd.placeholderName = some name →
    nd'.placeholderName = some name → z = z'

theorem leavesOk_empty : LeavesOk (Graph.empty : Graph POp) [] [] :=
  ⟨.init, rfl, by simp, by intro z nd name h; simp [Graph.empty] at h, by intro z z' nd nd' name h; simp [Graph.empty] at h⟩

theorem getD_append_left {α : Type} {l l' : List α} {k : Nat} {d : α} (h : k < l.length) : (l ++ l').getD k d = l.getD k d := by
  rw [List.getD_eq_getElem?_getD, List.getD_eq_getElem?_getD, List.getElem?_append_left h]

theorem getD_append_right {α : Type} {l l' : List α} {k : Nat} {d : α} (h : l.length ≤ k) : (l ++ l').getD k d = l'.getD (k - l.length) d := by
  rw [List.getD_eq_getElem?_getD, List.getD_eq_getElem?_getD, List.getElem?_append_right h]

/-- Tensors that are no variables or placeholders are added. -/
theorem LeavesOk.builds {g g' : Graph POp} {ids : List Nat} {leaves : List (Option Leaf)} (h : LeavesOk g ids leaves) (hb : Builds g g') {ts : List Nat} {ms : List (Option Leaf)}
    (hlen : ts.length = ms.length) (hms : ∀ m ∈ ms, m = none) : LeavesOk g' (ids ++ ts) (leaves ++ ms) := by
  refine ⟨hb.reach h.reach, by simp [h.len, hlen], ?_, ?_, ?_⟩
  · intro k leaf hk
    by_cases hkl : k < leaves.length
    · rw [List.getElem?_append_left hkl] at hk
      obtain ⟨nd, h1, h2⟩ := h.node k leaf hk
      rw [getD_append_left (by rw [h.len]; exact hkl)]
      exact ⟨nd, hb.grows.1 _ _ h1, h2⟩
    · rw [List.getElem?_append_right (by omega)] at hk
      exact absurd (hms _ (List.mem_of_getElem? hk)) (by simp)
  · intro z nd name hz hn
    exact List.mem_append_left _ (h.known z nd name (builds_leaf hb hz (.inl (by rw [hn]; simp))) hn)
  · intro z z' nd nd' name hz hz' hn hn'
    exact h.unique z z' nd nd' name (builds_leaf hb hz (.inl (by rw [hn]; simp))) (builds_leaf hb hz' (.inl (by rw [hn']; simp))) hn hn'

theorem LeavesOk.stmt {g g' : Graph POp} {ids : List Nat} {leaves : List (Option Leaf)} (h : LeavesOk g ids leaves) {s : Stmt} {t : Nat}
    (hc : construct hintOps g s.ctor = .ok (g', t)) (hnew : ∀ name sh, s = .placeholder name sh → some (.placeholder name) ∉ leaves) :
    LeavesOk g' (ids ++ [t]) (leaves ++ [leafOf s]) := by
  have last : ∀ {k : Nat} {leaf : Leaf}, (leaves ++ [leafOf s])[k]? = some (some leaf) → ¬ k < leaves.length → (ids ++ [t]).getD k 0 = t ∧ leafOf s = some leaf := by
    intro k leaf hk hkl
    rw [List.getElem?_append_right (by omega)] at hk
    rw [getD_append_right (by rw [h.len]; omega), h.len]
    have : k - leaves.length = 0 := by
      have := (List.getElem?_eq_some_iff.1 hk).1
      simpa using this
    rw [this] at hk ⊢
    simp at hk
    exact ⟨rfl, hk⟩
  cases s with
  | var vid =>
    have hr : Props.Reachable hintOps.toOps g' := .cmd (c := .var vid) (t := t) h.reach hc
    have hcache : Grows g g' ∧ g'.var2node vid = some t := by
      rcases variableById_ok hc with ⟨rfl, h'⟩ | ⟨_, h1, h2, h3, _⟩
      · exact ⟨grows_refl _, h'⟩
      · refine ⟨⟨fun i n hi => by rw [h2, List.getElem?_append_left (List.getElem?_eq_some_iff.1 hi).1]; exact hi, fun hcl id n hid i hi => ?_⟩, by rw [h3]; simp⟩
        exact hr.wf.closed id n hid i hi
    obtain ⟨hg, hcache⟩ := hcache
    obtain ⟨nd0, hn0, hv0⟩ := (hr.wf.cache vid t).1 hcache
    have h' := hc
    have hold : ∀ (z : Nat) (nd : Node POp), g'.nodes[z]? = some nd → nd.placeholderName ≠ none → g.nodes[z]? = some nd := by
      intro z nd hz hp
      simp only [Stmt.ctor, construct, variableById] at h'
      split at h'
      · obtain ⟨rfl, _⟩ := Prod.mk.inj (Except.ok.inj h'); exact hz
      · simp only [bind_ok] at h'
        obtain ⟨⟨g1, t1⟩, h1, h2⟩ := h'
        have h3 := Prod.mk.inj (Except.ok.inj h2)
        obtain ⟨rfl, rfl⟩ := h3
        rcases build_cases h1 hz with h | ⟨_, r, rfl⟩
        · exact h
        · simp [Builder.toNode] at hp
    refine ⟨hr, by simp [h.len], ?_, ?_, ?_⟩
    · intro k leaf hk
      by_cases hkl : k < leaves.length
      · rw [List.getElem?_append_left hkl] at hk
        obtain ⟨nd, h1, h2⟩ := h.node k leaf hk
        rw [getD_append_left (by rw [h.len]; exact hkl)]
        exact ⟨nd, hg.1 _ _ h1, h2⟩
      · obtain ⟨e1, e2⟩ := last hk hkl
        rw [e1]
        cases e2
        exact ⟨nd0, hn0, hv0⟩
    · intro z nd name hz hn
      exact List.mem_append_left _ (h.known z nd name (hold z nd hz (by rw [hn]; simp)) hn)
    · intro z z' nd nd' name hz hz' hn hn'
      exact h.unique z z' nd nd' name (hold z nd hz (by rw [hn]; simp)) (hold z' nd' hz' (by rw [hn']; simp)) hn hn'
  | placeholder name sh =>
    have hfresh := hnew name sh rfl
    have hr : Props.Reachable hintOps.toOps g' := .cmd (c := .placeholder name sh) (t := t) h.reach hc
    simp only [Stmt.ctor, construct, Graph.placeholder, bind_ok] at hc
    obtain ⟨⟨g1, hint⟩, h1, ks, h2, h3⟩ := hc
    have hb : Builds g g1 := by
      unfold placeholderHint at h1
      split at h1
      · simp only [bind_ok] at h1
        obtain ⟨⟨ga, sa⟩, k1, ⟨gb, c⟩, k2, k3⟩ := h1
        obtain ⟨rfl, rfl⟩ := Prod.mk.inj (Except.ok.inj k3)
        exact (BuildsW.one k1 rfl rfl (by simp)).trans (.one k2 rfl rfl (by simp))
      · cases h1; exact .refl
    have hcase : ∀ (z : Nat) (nd : Node POp) (nm : String), g'.nodes[z]? = some nd → nd.placeholderName = some nm → g.nodes[z]? = some nd ∨ z = t ∧ nm = name := by
      intro z nd nm hz hn
      rcases build_cases h3 hz with h | ⟨e, r, rfl⟩
      · exact .inl (builds_leaf hb h (.inl (by rw [hn]; simp)))
      · exact .inr ⟨e, by simpa [Builder.toNode] using hn.symm⟩
    have hg := hb.grows.trans (build_grows h3)
    refine ⟨hr, by simp [h.len], ?_, ?_, ?_⟩
    · intro k leaf hk
      by_cases hkl : k < leaves.length
      · rw [List.getElem?_append_left hkl] at hk
        obtain ⟨nd, h1, h2⟩ := h.node k leaf hk
        rw [getD_append_left (by rw [h.len]; exact hkl)]
        exact ⟨nd, hg.1 _ _ h1, h2⟩
      · obtain ⟨e1, e2⟩ := last hk hkl
        rw [e1]
        cases e2
        obtain ⟨r, hn⟩ := build_node h3
        exact ⟨_, hn, rfl⟩
    · intro z nd nm hz hn
      rcases hcase z nd nm hz hn with h' | ⟨_, rfl⟩
      · exact List.mem_append_left _ (h.known z nd nm h' hn)
      · exact List.mem_append_right _ (by simp [leafOf])
    · intro z z' nd nd' nm hz hz' hn hn'
      rcases hcase z nd nm hz hn with a | ⟨a, e⟩ <;> rcases hcase z' nd' nm hz' hn' with b | ⟨b, e'⟩
      · exact h.unique z z' nd nd' nm a b hn hn'
      · subst e'; exact absurd (h.known z nd nm a hn) hfresh
      · subst e; exact absurd (h.known z' nd' nm b hn') hfresh
      · rw [a, b]
  | _ => exact h.builds (stmt_builds hc rfl) rfl (by simp [leafOf])

/-! ## Changing one element -/

/-- The values at a point. -/
noncomputable def Point.setting (I : Point) : Setting POp Unit (Arr ℝ) := Prog.setting (named I.feeds) I.env

theorem fedAs_nudge {fs : List (String × Arr ℝ)} {name nm : String} {v : Arr ℝ} (h : FedAs fs name v) (i : List Nat) (u : ℝ) :
    FedAs (fs.map (fun f => if f.1 = nm then (f.1, Prog.nudge f.2 i u) else f)) name (if name = nm then Prog.nudge v i u else v) := by
  obtain ⟨pre, post, rfl, h⟩ := h
  refine ⟨pre.map (fun f => if f.1 = nm then (f.1, Prog.nudge f.2 i u) else f), post.map (fun f => if f.1 = nm then (f.1, Prog.nudge f.2 i u) else f), ?_, ?_⟩
  · rw [List.map_append, List.map_cons]
    congr 2
    by_cases e : name = nm <;> simp [e]
  · intro f hf
    obtain ⟨f', hf', rfl⟩ := List.mem_map.1 hf
    have := h f' hf'
    split <;> exact this

theorem leaf_nudge {g : Graph POp} (hw : WF g) {z : Nat} {nd : Node POp} (hz : g.nodes[z]? = some nd) {leaf : Leaf} (hl : LeafNode nd leaf) {I : Point} {v : Arr ℝ}
    (h : Evals I.setting g z v) (leaf' : Leaf) (i : List Nat) (u : ℝ) :
    (leaf = leaf' → Evals (I.nudge leaf' i u).setting g z (Prog.nudge v i u)) ∧ (leaf ≠ leaf' → Evals (I.nudge leaf' i u).setting g z v) := by
  cases h.1 with
  | @placeholder n v hn hv hf =>
    rw [hz] at hn; cases hn
    obtain ⟨name, ks, h1, h2, h3, h4⟩ := hf
    have e : leaf = .placeholder name := leafNode_unique hw hz hl h1
    have hfed := first_fedAs h3
    have key : ∀ {I' : Point} {v' : Arr ℝ}, FedAs I'.feeds name v' → v'.shape = v.shape → Evals I'.setting g z v' := fun {I' v'} hf hs =>
      ⟨.placeholder hz hv ⟨name, ks, h1, h2, fedAs_first hf z, by show ShapeAccepts ks v'.shape; rw [hs]; exact h4⟩, h.2⟩
    subst e
    cases leaf' with
    | variable_ vid => exact ⟨fun h => (by cases h), fun _ => key hfed rfl⟩
    | placeholder nm =>
      have := fedAs_nudge (nm := nm) hfed i u
      constructor
      · intro e
        cases e
        rw [if_pos rfl] at this
        exact key this rfl
      · intro e
        rw [if_neg (fun h => e (by rw [h]))] at this
        exact key this rfl
  | @variable_ n vid a hn hv ha =>
    rw [hz] at hn; cases hn
    have e : leaf = .variable_ vid := leafNode_unique hw hz hl hv
    have ha' : I.env[vid]? = some v := ha
    have key : ∀ {I' : Point} {v' : Arr ℝ}, I'.env[vid]? = some v' → Evals I'.setting g z v' := fun h' => ⟨.variable_ hz hv h', h.2⟩
    subst e
    cases leaf' with
    | placeholder nm => exact ⟨fun h => (by cases h), fun _ => key ha'⟩
    | variable_ vid' =>
      constructor
      · intro e
        cases e
        exact key (by simp [Point.nudge, ha'])
      · intro e
        have : vid' ≠ vid := fun h => e (by rw [h])
        exact key (by simp [Point.nudge, ha', this])
  | result hm _ => cases hm with
    | run _ ho _ _ _ =>
      exfalso
      obtain ⟨nd', hn', h1, h2⟩ := ho
      rw [hz] at hn'; cases hn'
      cases leaf with
      | variable_ vid => rw [show nd.variableId = some vid from hl] at h2; cases h2
      | placeholder name => rw [show nd.placeholderName = some name from hl] at h1; cases h1

end Verif.Prog
