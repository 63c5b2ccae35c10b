import Verif.Lemmas.Reachable

/-! # Property theorems about graph construction: C01, C02, C14 -/

namespace Verif.Props
open Verif Verif.Spec Verif.Graph
variable {Op : Type}

/-- A call that creates a tensor of its own (as opposed to looking up a variable tensor or redirecting an input). -/
def Creates : Cmd Op → Prop
  | .build _ _ => True
  | .placeholder _ _ => True
  | _ => False

/-! ## C01 -/

/-- **C01** Whatever is built afterwards, an existing handle keeps designating the same node; only tensors on which `depends_on` was
called change, and there only the tensor that the first input refers to. -/
theorem C01_handles_stable (O : Ops Op) (g g' : Graph Op) (cs : List (Cmd Op)) (ts : List Nat)
    (h : g.execAll O cs = .ok (g', ts)) :
    (∀ (id : Nat) (n : Node Op), g.nodes[id]? = some n → id ∉ dependsOnTargets cs → g'.nodes[id]? = some n) ∧
    (∀ (id : Nat) (n : Node Op), g.nodes[id]? = some n → ∃ n', g'.nodes[id]? = some n' ∧ (n' = n ∨ SameExceptFirstInput n n')) := by
  constructor
  · intro id n hn hid
    obtain ⟨n', hn', rfl | ⟨hd, _⟩⟩ := execAll_frame h hn
    · exact hn'
    · exact absurd hd hid
  · intro id n hn
    obtain ⟨n', hn', he⟩ := execAll_frame h hn
    exact ⟨n', hn', he.imp_right And.right⟩

/-- **C01** A created tensor is new: its handle differs from every handle valid before, and the node it designates has the
requested op, inputs, differentiability and back-propagation inputs. -/
theorem C01_created_is_fresh (O : Ops Op) (g g' : Graph Op) (t : Nat) (b : Builder) (op : Op)
    (h : g.exec O (.build b op) = .ok (g', t)) :
    g.nodes[t]? = none ∧
    ∃ n, g'.nodes[t]? = some n ∧ n.op = op ∧ n.incoming = b.inNodes ∧ n.differentiable = b.differentiable ∧
      n.backpropInputs = b.backpropInputs ∧ n.shape = b.shape := by
  obtain ⟨r, hr, hl, rfl, e1, e2⟩ := build_ok h
  refine ⟨by simp, _, by rw [e2]; simp; rfl, rfl, rfl, rfl, rfl, rfl⟩

/-- **C01** In a whole history, starting from the empty graph, the handle of a created tensor is different from all the
handles handed out before, and all handles handed out are valid at the end. -/
theorem C01_handles_distinct (O : Ops Op) (g' : Graph Op) (cs : List (Cmd Op)) (c : Cmd Op) (ts : List Nat) (t : Nat)
    (h : (Graph.empty : Graph Op).execAll O (cs ++ [c]) = .ok (g', ts ++ [t])) (hc : Creates c) :
    t ∉ ts ∧ (∀ u ∈ ts ++ [t], (g'.nodes[u]?).isSome) := by
  have valid : ∀ {cs : List (Cmd Op)} {g g' : Graph Op} {ts}, WF g → g.execAll O cs = .ok (g', ts) →
      ∀ u ∈ ts, u < g'.nodes.length := by
    intro cs
    induction cs with
    | nil => intro g g' ts _ h; simp [(execAll_nil.1 h).2]
    | cons c cs ih =>
      intro g g' ts hw h u hu
      obtain ⟨g1, t, ts', h1, h2, rfl⟩ := execAll_cons.1 h
      rcases List.mem_cons.1 hu with rfl | hu
      · refine Nat.lt_of_lt_of_le ?_ (execAll_size h2)
        cases c with
        | build b op =>
          obtain ⟨r, hr, hl, rfl, e1, e2⟩ := build_ok h1
          simp [e2]
        | var v =>
          have := (hw.exec h1).cache v u
          rcases variableById_ok h1 with ⟨rfl, h3⟩ | ⟨_, rfl, e, _⟩
          · obtain ⟨n, hn, _⟩ := this.1 h3
            exact (List.getElem?_eq_some_iff.1 hn).1
          · simp [e]
        | placeholder nm s =>
          obtain ⟨_, _, _, _, _, hb, _⟩ := placeholder_ok h1
          obtain ⟨r, hr, hl, rfl, e1, e2⟩ := build_ok hb
          simp [e2]
        | dependsOn x deps =>
          obtain ⟨rfl, _⟩ := controlDependencies_ok h1
          have hr := controlDependencies_redirect h1
          have := hr.x_lt; have := hr.len; omega
      · exact ih (hw.exec h1) h2 u hu
  refine ⟨?_, fun u hu => ?_⟩
  · obtain ⟨g1, ts1, ts2, h1, h2, e⟩ := execAll_append.1 h
    obtain ⟨g2, t', ts', h3, h4, rfl⟩ := execAll_cons.1 h2
    obtain ⟨rfl, rfl⟩ := execAll_nil.1 h4
    obtain ⟨e1, e2⟩ := List.append_inj' e rfl
    cases e2
    subst e1
    have hv := valid wf_empty h1
    have : g1.nodes.length ≤ t := by
      cases c with
      | build b op => obtain ⟨r, hr, hl, rfl, _⟩ := build_ok h3; exact Nat.le_refl _
      | placeholder nm s =>
        obtain ⟨_, _, ha, _, _, hb, _⟩ := placeholder_ok h3
        obtain ⟨r, hr, hl, rfl, e1, e2⟩ := build_ok hb
        exact ha.prefix.length_le
      | var v => exact absurd hc id
      | dependsOn x deps => exact absurd hc id
    intro hmem
    have := hv t hmem; omega
  · have := valid wf_empty h u hu
    simp [this]

/-! ## C02 -/

/-- **C02** Without `depends_on` the recorded topological rank of a tensor is above the rank of each of its inputs, and the graph is
acyclic. -/
theorem C02_ranks_and_acyclic (O : Ops Op) (g : Graph Op) (cs : List (Cmd Op)) (ts : List Nat)
    (h : (Graph.empty : Graph Op).execAll O cs = .ok (g, ts)) (hno : NoDependsOn cs) :
    (∀ (a b : Nat) (n m : Node Op), g.nodes[a]? = some n → DependsDirectly g a b → g.nodes[b]? = some m → m.topoRank < n.topoRank) ∧
    Acyclic g := by
  have key : ∀ {cs : List (Cmd Op)} {g g' : Graph Op} {ts}, NoDependsOn cs → g.execAll O cs = .ok (g', ts) →
      Appends g g' := by
    intro cs
    induction cs with
    | nil => intro g g' ts _ h; rw [(execAll_nil.1 h).1]; exact .refl
    | cons c cs ih =>
      intro g g' ts hno h
      obtain ⟨g1, t, ts', h1, h2, rfl⟩ := execAll_cons.1 h
      refine (exec_appends h1 ?_).trans (ih ?_ h2)
      · rintro x deps rfl; exact hno x deps (List.mem_cons_self ..)
      · intro x deps hm; exact hno x deps (List.mem_cons_of_mem _ hm)
  have ha := key hno h
  refine ⟨?_, (ha.acyclic closed_empty).2 acyclic_empty⟩
  have rk : ∀ {g g' : Graph Op}, Appends g g' → Closed g →
      (∀ (a : Nat) (n : Node Op), g.nodes[a]? = some n → ∀ i ∈ n.incoming, ∃ m, g.nodes[i.id]? = some m ∧ m.topoRank < n.topoRank) →
      (∀ (a : Nat) (n : Node Op), g'.nodes[a]? = some n → ∀ i ∈ n.incoming, ∃ m, g'.nodes[i.id]? = some m ∧ m.topoRank < n.topoRank) := by
    intro g g' ha hcl h0
    induction ha with
    | refl => exact h0
    | tail hab hs ih =>
      intro a n hn i hi
      obtain ⟨nn, e, hr, _⟩ := id hs
      rw [e, getElem?_snoc] at hn
      rcases hn with hn | ⟨_, rfl⟩
      · obtain ⟨m, hm, hlt⟩ := ih a n hn i hi
        exact ⟨m, by rw [e, getElem?_snoc]; exact .inl hm, hlt⟩
      · obtain ⟨m, hm, hlt⟩ := hr i hi
        exact ⟨m, by rw [e, getElem?_snoc]; exact .inl hm, hlt⟩
  intro a b n m hn hd hm
  obtain ⟨n', hn', i, hi, rfl⟩ := hd
  rw [hn] at hn'; cases hn'
  obtain ⟨m', hm', hlt⟩ := rk ha closed_empty (by simp [Graph.empty]) a n hn i hi
  rw [hm] at hm'; cases hm'; exact hlt

/-- **C02** The rank of a newly built tensor is 0 without inputs, and otherwise exactly one more than the highest rank of an input. -/
theorem C02_rank_exact (O : Ops Op) (g g' : Graph Op) (b : Builder) (op : Op) (t : Nat)
    (h : g.exec O (.build b op) = .ok (g', t)) :
    ∃ n, g'.nodes[t]? = some n ∧ (b.inNodes = [] → n.topoRank = 0) ∧
      (∀ i ∈ b.inNodes, ∃ m, g.nodes[i.id]? = some m ∧ m.topoRank + 1 ≤ n.topoRank) ∧
      (b.inNodes ≠ [] → ∃ i ∈ b.inNodes, ∃ m, g.nodes[i.id]? = some m ∧ n.topoRank = m.topoRank + 1) := by
  obtain ⟨r, hr, _, rfl, _, e⟩ := build_ok h
  refine ⟨_, by rw [e]; exact List.getElem?_concat_length, ?_, ?_, ?_⟩
  · intro h0
    have hr0 : g.buildRank b.inNodes = .ok r := hr
    rw [h0] at hr0; cases hr0; rfl
  · intro i hi
    obtain ⟨m, hm, hlt⟩ := buildRank_ok hr i hi
    exact ⟨m, hm, hlt⟩
  · intro hne
    rcases buildRank_exact hr with ⟨_, h0⟩ | h1
    · exact absurd h0 hne
    · exact h1

example : ∃ g' : Graph Nat, (⟨[⟨0, [], 0, none, none, true, none, none, none⟩], fun _ => none⟩ : Graph Nat).exec ⟨0, 1, 2, fun _ => 3⟩
    (.build { inNodes := [{ id := 0 }] } 5) = .ok (g', 1) := ⟨_, rfl⟩

/-- Every `depends_on` call of the history was safe: when it was made, none of its dependencies was or depended on the tensor. -/
def SafeHistory (O : Ops Op) (cs : List (Cmd Op)) : Prop :=
  ∀ pre x deps post g ts, cs = pre ++ Cmd.dependsOn x deps :: post →
    (Graph.empty : Graph Op).execAll O pre = .ok (g, ts) → ∀ d ∈ deps, ¬ DependsOnRefl g d x

/-- **C02** One `depends_on` call keeps the graph acyclic exactly when no dependency already is, or depends on, the tensor. -/
theorem C02_depends_on_iff (O : Ops Op) (g g' : Graph Op) (cs : List (Cmd Op)) (ts : List Nat) (x t : Nat) (deps : List Nat)
    (h0 : (Graph.empty : Graph Op).execAll O cs = .ok (g, ts))
    (h : g.exec O (.dependsOn x deps) = .ok (g', t)) :
    Acyclic g' ↔ Acyclic g ∧ ∀ d ∈ deps, ¬ DependsOnRefl g d x := by
  exact (controlDependencies_redirect h).acyclic (execAll_closed h0 closed_empty)

/-- **C02** After any history of builder calls the graph is acyclic if and only if every `depends_on` call was safe when it was
made: cycles arise in no other way and, once made, never disappear. -/
theorem C02_acyclic_iff_safe_history (O : Ops Op) (g : Graph Op) (cs : List (Cmd Op)) (ts : List Nat)
    (h : (Graph.empty : Graph Op).execAll O cs = .ok (g, ts)) :
    Acyclic g ↔ SafeHistory O cs := by
  -- generalise over the end of the history
  have key : ∀ (post pre : List (Cmd Op)) (g1 : Graph Op) (ts1 ts2 : List Nat),
      (Graph.empty : Graph Op).execAll O pre = .ok (g1, ts1) → g1.execAll O post = .ok (g, ts2) →
      (Acyclic g ↔ Acyclic g1 ∧
        ∀ p x deps q g2 ts3, post = p ++ Cmd.dependsOn x deps :: q → g1.execAll O p = .ok (g2, ts3) →
          ∀ d ∈ deps, ¬ DependsOnRefl g2 d x) := by
    intro post
    induction post with
    | nil =>
      intro pre g1 ts1 ts2 _ h2
      obtain ⟨rfl, _⟩ := execAll_nil.1 h2
      simp
    | cons c post ih =>
      intro pre g1 ts1 ts2 h1 h2
      have hcl := execAll_closed h1 closed_empty
      obtain ⟨g2, t, ts', h3, h4, rfl⟩ := execAll_cons.1 h2
      have h1' : (Graph.empty : Graph Op).execAll O (pre ++ [c]) = .ok (g2, ts1 ++ [t]) :=
        execAll_append.2 ⟨g1, ts1, [t], h1, execAll_cons.2 ⟨g2, t, [], h3, execAll_nil.2 ⟨rfl, rfl⟩, rfl⟩, rfl⟩
      rw [ih (pre ++ [c]) g2 _ _ h1' h4]
      have hstep : Acyclic g2 ↔ Acyclic g1 ∧ ∀ x deps, c = .dependsOn x deps → ∀ d ∈ deps, ¬ DependsOnRefl g1 d x := by
        rcases exec_cases h3 with ha | ⟨x, deps, rfl, hr⟩
        · rw [ha.acyclic hcl]
          constructor
          · intro hac
            refine ⟨hac, ?_⟩
            rintro x deps rfl
            have hr := controlDependencies_redirect h3
            exact ((hr.acyclic hcl).1 ((ha.acyclic hcl).2 hac)).2
          · exact And.left
        · rw [hr.acyclic hcl]
          constructor
          · rintro ⟨h5, h6⟩
            refine ⟨h5, ?_⟩
            rintro x' deps' e; cases e; exact h6
          · rintro ⟨h5, h6⟩; exact ⟨h5, h6 x deps rfl⟩
      rw [hstep]
      constructor
      · rintro ⟨⟨h5, h6⟩, h7⟩
        refine ⟨h5, ?_⟩
        intro p x deps q g3 ts3 e he
        cases p with
        | nil =>
          simp at e
          obtain ⟨rfl, _⟩ := execAll_nil.1 he
          exact h6 x deps e.1
        | cons c' p =>
          simp at e
          obtain ⟨rfl, e⟩ := e
          obtain ⟨g4, t4, ts4, h8, h9, rfl⟩ := execAll_cons.1 he
          rw [h3] at h8; cases h8
          exact h7 p x deps q g3 ts4 e h9
      · rintro ⟨h5, h6⟩
        refine ⟨⟨h5, ?_⟩, ?_⟩
        · rintro x deps rfl
          exact h6 [] x deps post g1 [] rfl (execAll_nil.2 ⟨rfl, rfl⟩)
        · intro p x deps q g3 ts3 e he
          exact h6 (c :: p) x deps q g3 (t :: ts3) (by simp [e]) (execAll_cons.2 ⟨g2, t, ts3, h3, he, rfl⟩)
  rw [key cs [] Graph.empty [] ts (execAll_nil.2 ⟨rfl, rfl⟩) h]
  constructor
  · rintro ⟨_, h2⟩ pre x deps post g1 ts1 e h1
    exact h2 pre x deps post g1 ts1 e h1
  · intro hs
    exact ⟨acyclic_empty, hs⟩

/-! ## C14 -/

/-- **C14** The tensor returned for a variable belongs to the current graph and is bound to this variable (so no stale tensor is
returned after `clear`); and every tensor of the graph that is bound to this variable is this one. -/
theorem C14_variable_tensor_unique (O : Ops Op) (g g' : Graph Op) (v t : Nat) (hg : Reachable O g)
    (h : g.exec O (.var v) = .ok (g', t)) :
    (∃ n, g'.nodes[t]? = some n ∧ n.variableId = some v) ∧
    (∀ (u : Nat) (n : Node Op), g'.nodes[u]? = some n → n.variableId = some v → u = t) := by
  have hw := hg.wf.exec h
  have hc : g'.var2node v = some t := by
    rcases variableById_ok h with ⟨rfl, h1⟩ | ⟨_, rfl, _, e, _⟩
    · exact h1
    · simp [e]
  refine ⟨(hw.cache v t).1 hc, ?_⟩
  intro u n hu hn
  have := (hw.cache v u).2 ⟨n, hu, hn⟩
  rw [hc] at this; cases this; rfl

/-- **C14** Two lookups, with any builder calls in between, return the same tensor exactly when they are for the same variable. -/
theorem C14_lookups_agree (O : Ops Op) (g0 g1 g2 g3 : Graph Op) (cs : List (Cmd Op)) (ts : List Nat) (v w t u : Nat)
    (hg : Reachable O g0) (h1 : g0.exec O (.var v) = .ok (g1, t)) (h2 : g1.execAll O cs = .ok (g2, ts))
    (h3 : g2.exec O (.var w) = .ok (g3, u)) : t = u ↔ v = w := by
  have r1 : Reachable O g1 := hg.cmd h1
  have r2 : Reachable O g2 := r1.all h2
  obtain ⟨⟨n, hn, hv⟩, _⟩ := C14_variable_tensor_unique O g0 g1 v t hg h1
  obtain ⟨⟨m, hm, hw⟩, hu⟩ := C14_variable_tensor_unique O g2 g3 w u r2 h3
  -- the tensor found first is still bound to `v` at the end
  have hkeep : ∃ n', g3.nodes[t]? = some n' ∧ n'.variableId = some v := by
    obtain ⟨n1, hn1, e1⟩ := (C01_handles_stable O g1 g2 cs ts h2).2 t n hn
    have e1' : n1.variableId = some v := by
      rcases e1 with rfl | ⟨_, _, _, _, rfl⟩ <;> exact hv
    obtain ⟨n2, hn2, e2⟩ := exec_frame h3 hn1
    refine ⟨n2, hn2, ?_⟩
    rcases e2 with rfl | ⟨_, _, _, _, _, rfl⟩ <;> exact e1'
  obtain ⟨n', hn', hv'⟩ := hkeep
  constructor
  · rintro rfl
    rw [hm] at hn'; cases hn'
    rw [hw] at hv'; cases hv'; rfl
  · rintro rfl
    exact hu t n' hn' hv'

/-! ## The hypotheses are met by concrete graphs -/

section Examples

/-- ops are just names here -/
private def exO : Ops String := ⟨"ctrl", "var", "ph", fun _ => "const"⟩

/-- `v = variable(7); p = placeholder("x", [-1]); q = placeholder("y", [2]); a = v + p; b = a * a; b.depends_on(a'); variable(7)` -/
private def exCmds : List (Cmd String) :=
  [.var 7, .placeholder "x" [-1], .placeholder "y" [2], .build { inNodes := [⟨0, false, 0⟩, ⟨1, false, 0⟩] } "add",
   .build { inNodes := [⟨5, false, 0⟩, ⟨5, false, 0⟩] } "mul", .build { inNodes := [⟨0, true, 0⟩, ⟨1, false, 0⟩] } "assign"]

example : ∃ g ts, (Graph.empty : Graph String).execAll exO exCmds = .ok (g, ts) ∧ ts = [0, 1, 4, 5, 6, 7] ∧
    NoDependsOn exCmds := by
  refine ⟨_, _, rfl, rfl, ?_⟩
  intro x deps h; simp [exCmds] at h

example : ∃ g ts, (Graph.empty : Graph String).execAll exO (exCmds ++ [.dependsOn 6 [7]]) = .ok (g, ts) ∧
    ts = [0, 1, 4, 5, 6, 7, 6] ∧ dependsOnTargets (exCmds ++ [.dependsOn 6 [7]]) = [6] :=
  ⟨_, _, rfl, rfl, rfl⟩

example : ∃ g ts, (Graph.empty : Graph String).execAll exO (exCmds ++ [.build { inNodes := [⟨6, false, 0⟩] } "neg"]) = .ok (g, ts ++ [8]) :=
  ⟨_, [0, 1, 4, 5, 6, 7], rfl⟩

/-- Both answers of `C02_depends_on_iff` occur: making tensor 6 depend on the assignment 7 is harmless, making tensor 5 depend on 6
(which depends on 5) creates a cycle. -/
example : (∃ g g' ts t, (Graph.empty : Graph String).execAll exO exCmds = .ok (g, ts) ∧
      g.exec exO (.dependsOn 5 [6]) = .ok (g', t) ∧ ¬ Acyclic g') := by
  refine ⟨_, _, _, _, rfl, rfl, ?_⟩
  intro hac
  refine hac 5 (.tail (.tail (.single (b := 8) ?_) (c := 6) ?_) ?_)
  · exact ⟨_, rfl, ⟨8, false, 0⟩, .head _, rfl⟩
  · exact ⟨_, rfl, ⟨6, false, 0⟩, .tail _ (.head _), rfl⟩
  · exact ⟨_, rfl, ⟨5, false, 0⟩, .head _, rfl⟩

example : ∃ g0 g1 g2 g3 t u ts, Reachable exO g0 ∧ g0.exec exO (.var 3) = .ok (g1, t) ∧
    g1.execAll exO exCmds = .ok (g2, ts) ∧ g2.exec exO (.var 7) = .ok (g3, u) ∧ t = 0 ∧ u = 1 :=
  ⟨_, _, _, _, _, _, _, .init, rfl, rfl, rfl, rfl, rfl⟩

end Examples

end Verif.Props
