import Verif.Lemmas.DependsOn
import Verif.Lemmas.EvalDemo
import Verif.Props.Eval

/-! # Property theorems: C12 (placeholder shapes) and C13 (`depends_on`) -/

namespace Verif.Props
open Verif Verif.Spec Verif.Eval Verif.Graph Relation
variable {Op V E W : Type}

/-! ## C12 -/

/-- **C12** Declaring a placeholder succeeds only if every dimension is positive or -1 (and the graph is not too large); then the
tensor has the declared name and shape. -/
theorem C12_declaration (O : Ops Op) (g g' : Graph Op) (name : String) (s : List Int) (t : Nat)
    (h : g.exec O (.placeholder name s) = .ok (g', t)) :
    (∀ d ∈ s, d = -1 ∨ 0 < d) ∧ ∃ n, g'.nodes[t]? = some n ∧ n.placeholderName = some name ∧ n.knownShape = some s := by
  obtain ⟨g1, hint, _, _, hk, hb, _⟩ := placeholder_ok h
  refine ⟨?_, ?_⟩
  · intro d hd
    unfold knownShapeNew at hk
    split at hk
    · rename_i hall
      have := List.all_eq_true.1 hall d hd
      simp at this
      omega
    · cases hk
  · obtain ⟨r, _, _, rfl, _, e⟩ := build_ok hb
    exact ⟨_, by rw [e]; simp; rfl, rfl, rfl⟩

/-- **C12** Conversely a declaration with positive or -1 dimensions succeeds as long as the graph is not too large. -/
theorem C12_declaration_succeeds (O : Ops Op) (g : Graph Op) (name : String) (s : List Int) (hs : ∀ d ∈ s, d = -1 ∨ 0 < d)
    (hsize : g.size + 3 ≤ numNodesCritical) : ∃ g' t, g.exec O (.placeholder name s) = .ok (g', t) := by
  have hk : knownShapeNew s = .ok s := by
    unfold knownShapeNew
    rw [if_pos]
    rw [List.all_eq_true]
    intro d hd
    have := hs d hd
    simp; omega
  have hbuild : ∀ (g : Graph Op) (b : Builder) (op : Op), b.inNodes = [] → g.nodes.length ≤ numNodesCritical →
      ∃ g' t, g.build b op = .ok (g', t) ∧ g'.nodes.length = g.nodes.length + 1 := by
    intro g b op hb hl
    simp only [Graph.build, hb, buildRank, bind, Except.bind, install]
    rw [if_neg (by have : g.size = g.nodes.length := rfl; omega)]
    exact ⟨_, _, rfl, by simp⟩
  simp only [exec, placeholder, placeholderHint, hk]
  have hsz : g.size = g.nodes.length := rfl
  split
  · obtain ⟨g1, t1, h1, l1⟩ := hbuild g {} (O.constOp [(s.length : Int)]) rfl (by omega)
    obtain ⟨g2, t2, h2, l2⟩ := hbuild g1 { shape := some t1 } (O.constOp s) rfl (by omega)
    obtain ⟨g3, t3, h3, l3⟩ := hbuild g2 { placeholderName := some name, shape := some t2, knownShape := some s } O.phOp rfl (by omega)
    exact ⟨g3, t3, by simp only [bind, Except.bind, h1, h2]; exact h3⟩
  · obtain ⟨g3, t3, h3, l3⟩ := hbuild g { placeholderName := some name, shape := none, knownShape := some s } O.phOp rfl (by omega)
    exact ⟨g3, t3, by simp only [bind, Except.bind]; exact h3⟩

/-- **C12/C11** Evaluating a placeholder of declared shape `d`: the first matching feed is returned if and only if its shape is accepted;
otherwise evaluation panics, as it does without a matching feed. -/
theorem C12_accepted_exactly (O : Ops Op) (S : Sem Op V E W) (g : Graph Op) (fuel t : Nat) (feeds : List (Feed V)) (env : List V) (w : W)
    (n : Node Op) (name : String) (d : List Int) (hg : Reachable O g) (hn : g.nodes[t]? = some n)
    (hp : n.placeholderName = some name) (hd : n.knownShape = some d) (hf : 2 ≤ fuel) :
    (∀ v, FirstFeed t name feeds v → ShapeAccepts d (S.shapeOf v) →
      eval S g fuel [t] feeds env w = some (.ok ⟨[.ok v], env, w, []⟩)) ∧
    (∀ v, FirstFeed t name feeds v → ¬ ShapeAccepts d (S.shapeOf v) →
      eval S g fuel [t] feeds env w = some (.error .placeholderShape)) ∧
    ((∀ v, ¬ FirstFeed t name feeds v) → eval S g fuel [t] feeds env w = some (.error .placeholderUnfilled)) := by
  have hw := hg.wf
  have hk := hw.phKnown t n hn (by simp [hp])
  have hv : n.variableId = none := by
    rcases hw.notBoth t n hn with h1 | h1
    · rw [hp] at h1; cases h1
    · exact h1
  have hin : n.incoming = [] := hw.leafSource t n hn (by simp [Node.isLeafInput, hp])
  have hloop : loop S g feeds fuel (initState [t] env w) = some (.ok { stack := [], storage := fun _ => none, env := env, world := w, log := [] }) := by
    obtain ⟨k, rfl⟩ := Nat.exists_eq_add_of_le hf
    rw [Nat.add_comm]
    simp [loop, initState, step, access_ok.2 hn, hin, childrenToPush, visit, wouldNotVisit, hp, bind, Except.bind]
  have heval : eval S g fuel [t] feeds env w = match findFeed S.shapeOf t n.knownShape name feeds with
      | .ok v => some (.ok ⟨[.ok v], env, w, []⟩)
      | .error p => some (.error p) := by
    simp only [eval, hloop, aggregate, access_ok.2 hn, hv, hp, bind, Except.bind]
    cases findFeed S.shapeOf t n.knownShape name feeds <;> rfl
  rw [heval]
  refine ⟨?_, ?_, ?_⟩
  · intro v h1 h2
    rw [(findFeed_ok hk).2 ⟨h1, d, hd, h2⟩]
  · intro v h1 h2
    cases hfe : findFeed S.shapeOf t n.knownShape name feeds with
    | ok u =>
      obtain ⟨h3, d', hd', h4⟩ := (findFeed_ok hk).1 hfe
      rw [hd] at hd'; cases hd'
      rw [firstFeed_unique h1 h3] at h2; exact absurd h4 h2
    | error p =>
      rcases findFeed_error hk hfe with ⟨_, h3⟩ | ⟨rfl, _⟩
      · exact absurd h1 (h3 v)
      · rfl
  · intro h1
    cases hfe : findFeed S.shapeOf t n.knownShape name feeds with
    | ok u => exact absurd ((findFeed_ok hk).1 hfe).1 (h1 u)
    | error p =>
      rcases findFeed_error hk hfe with ⟨rfl, _⟩ | ⟨_, v, _, _, h3, _⟩
      · rfl
      · exact absurd h3 (h1 v)

/-! ## C13 -/

/-- **C13** (partial: only the op of the tensor itself is ordered after the dependencies, see `C13_other_inputs_violated`)
After `x.depends_on(deps)`, whenever `x` is executed each dependency that is an op has been executed before, and `x` is executed in a
state in which all their effects have happened. -/
theorem C13_runs_after_dependencies_partial (O : Ops Op) (S : Sem Op V E W) (g g' : Graph Op) (x t : Nat) (deps : List Nat)
    (fuel : Nat) (targets : List Nat) (feeds : List (Feed V)) (env : List V) (w : W) (res : EvalResult V E W)
    (hg : Reachable O g) (hdep : g.exec O (.dependsOn x deps) = .ok (g', t)) (ht : ∀ t ∈ targets, t < g'.size)
    (h : eval S g' fuel targets feeds env w = some (.ok res)) (hx : Needed g' targets x) :
    ∃ pre b post s1 s2, res.log = pre ++ (x, b) :: post ∧ ExecList S g' feeds (.start env w) pre s1 ∧
      ExecOne S g' feeds s1 (x, b) s2 ∧ ∀ d ∈ deps, IsOp g' d → d ∈ pre.map Prod.fst := by
  have hr := controlDependencies_redirect hdep
  have hg' : Reachable O g' := hg.cmd hdep
  obtain ⟨hnd, hneed, final, hex, _⟩ := C04_needed_exactly_once O S g' fuel targets feeds env w res hg' ht h
  have hord := C05_topological_order O S g' fuel targets feeds env w res hg' ht h
  obtain ⟨⟨x', b⟩, hm, rfl⟩ := List.mem_map.1 ((hneed x).2 hx)
  obtain ⟨pre, post, e⟩ := List.append_of_mem hm
  rw [e] at hex
  obtain ⟨s1, h1, h2⟩ := execList_append hex
  obtain ⟨s2, h3, h4⟩ := execList_cons h2
  refine ⟨pre, b, post, s1, s2, e, h1, h3, ?_⟩
  intro d hd hdo
  obtain ⟨nx, i0, rest, hx0, hin, hx', nc, hnc, hci, hcv, hcp, _⟩ := hr.node
  have hco : IsOp g' g.nodes.length := ⟨nc, hnc, hcp, hcv⟩
  have hu1 : Uses g' x' g.nodes.length := ⟨hr.edge_x, hco⟩
  have hu2 : Uses g' g.nodes.length d := ⟨hr.edge_dep hd, hdo⟩
  have hmap : res.log.map Prod.fst = pre.map Prod.fst ++ x' :: post.map Prod.fst := by rw [e]; simp
  have hc := hord _ _ _ hmap _ hu1
  obtain ⟨p1, p2, hp⟩ := List.append_of_mem hc
  have hmap2 : res.log.map Prod.fst = p1 ++ g.nodes.length :: (p2 ++ x' :: post.map Prod.fst) := by rw [hmap, hp]; simp
  have := hord _ _ _ hmap2 _ hu2
  rw [hp]; simp [this]

/-- **C13** (partial: the first input must not be a selected output `k > 0` nor a mutable input, see
`C13_selected_output_violated` and `C13_assign_violated`) In a graph of pure ops `depends_on` changes no meaning: every tensor that had a
meaning keeps it, provided the dependencies have values. -/
theorem C13_values_unchanged_partial (O : Ops Op) (f : Op → List (OpInput V) → Option (Except E (List V))) (shapeOf : V → List Nat)
    (g g' : Graph Op) (x t : Nat) (deps : List Nat) (feeds : List (Feed V)) (env : List V) (hg : Reachable O g)
    (hdep : g.exec O (.dependsOn x deps) = .ok (g', t)) (hac : Acyclic g')
    (hctrl : ∀ y ys, f O.ctrlOp (y :: ys) = some (.ok [y.val]))
    (hdeps : ∀ d ∈ deps, ∃ v, TargetMeans f shapeOf g feeds env d (.ok v))
    (nx : Node Op) (i0 : Incoming) (rest : List Incoming) (hx : g.nodes[x]? = some nx) (hin : nx.incoming = i0 :: rest)
    (hsel : i0.selector = 0) (hmut : i0.allowMut = false)
    (hval : ∀ xs xs' : List (OpInput V), xs.map OpInput.val = xs'.map OpInput.val → f nx.op xs = f nx.op xs')
    (id : Nat) (r : Except E V) (hm : TargetMeans f shapeOf g feeds env id r) : TargetMeans f shapeOf g' feeds env id r := by
  have hr := controlDependencies_redirect hdep
  have hacs := (hr.acyclic hg.wf.closed).1 hac
  have hcop : ∃ nc : Node Op, g'.nodes[g.nodes.length]? = some nc ∧ nc.op = O.ctrlOp := by
    obtain ⟨_, nx, i0, rest, rk, hx, hin, _, _, _, hn⟩ := controlDependencies_ok hdep
    have hxlt := (List.getElem?_eq_some_iff.1 hx).1
    rw [hn, List.getElem?_set_ne (by omega), List.getElem?_append_right (by omega)]
    simp
    rfl
  have key : ∀ {id r}, Means f shapeOf g feeds env id r → Means f shapeOf g' feeds env id r := by
    intro id r hmm
    refine redirect_means hg.wf hr hcop hctrl hdeps hacs.2 ?_ hmm
    intro nx' i0' rest' hx' hin'
    rw [hx] at hx'; cases hx'
    rw [hin] at hin'; cases hin'
    refine ⟨hsel, hmut, ?_, hval⟩
    intro hd
    have hdd : DependsDirectly g x i0.id := ⟨nx, hx, i0, by simp [hin], rfl⟩
    exact hacs.1 x (TransGen.head' hdd hd)
  obtain ⟨nx', i0', rest', hx0, hin0, hx', _⟩ := hr.node
  cases hm with
  | placeholder hn hv hf =>
    by_cases h1 : id = x
    · subst h1; rw [hx0] at hn; cases hn
      obtain ⟨a, b, h2, h3, h4, h5⟩ := hf
      exact .placeholder hx' hv ⟨a, b, h2, h3, h4, h5⟩
    · have := (List.getElem?_eq_some_iff.1 hn).1
      exact .placeholder (by rw [hr.other _ h1 (by omega)]; exact hn) hv hf
  | variable_ hn hv ha =>
    by_cases h1 : id = x
    · subst h1; rw [hx0] at hn; cases hn
      exact .variable_ hx' hv ha
    · have := (List.getElem?_eq_some_iff.1 hn).1
      exact .variable_ (by rw [hr.other _ h1 (by omega)]; exact hn) hv ha
  | result h1 h2 => exact .result (key h1) h2
  | failed h1 => exact .failed (key h1)

/-! ### Violations of C13, with concrete ops over integers -/

/-- **C13** violated for inputs other than the first: with `v = 1`, after `y.depends_on(&[u])` where `u` sets `v` to 5, evaluating `y`
returns `0 + 2 * 1`, although `u` did run; evaluating `u` first and then `y` gives `0 + 2 * 5`. -/
theorem C13_other_inputs_violated :
    ∃ g g' ts t, (Graph.empty : Graph DemoOp).execAll demoOps demoCmds = .ok (g, ts) ∧
      g.exec demoOps (.dependsOn 5 [2]) = .ok (g', t) ∧ Acyclic g' ∧
      (∃ res, eval demoSem g' 100 [5] [] [1] () = some (.ok res) ∧ res.results = [.ok 2] ∧ res.env = [5]) ∧
      (∃ res1 res2, eval demoSem g 100 [2] [] [1] () = some (.ok res1) ∧
        eval demoSem g 100 [5] [] res1.env () = some (.ok res2) ∧ res2.results = [.ok 10]) := by
  refine ⟨_, _, _, _, rfl, rfl, ?_, ⟨_, rfl, rfl, rfl⟩, ⟨_, _, rfl, rfl, rfl⟩⟩
  refine (C02_depends_on_iff demoOps _ _ demoCmds _ 5 _ [2] rfl rfl).2 ⟨?_, ?_⟩
  · refine (C02_ranks_and_acyclic demoOps _ demoCmds _ rfl ?_).2
    intro x deps h; simp [demoCmds] at h
  · intro d hd hr
    simp at hd; subst hd
    -- tensor 2 depends on 0 and 1 only
    rcases ReflTransGen.cases_head hr with h | ⟨c, ⟨n, hn, i, hi, rfl⟩, hc⟩
    · cases h
    · cases hn
      simp only [List.mem_cons, List.not_mem_nil, or_false, Builder.toNode] at hi
      rcases hi with rfl | rfl
      all_goals
        rcases ReflTransGen.cases_head hc with h | ⟨c, ⟨n, hn, i, hi, rfl⟩, hc⟩
        · cases h
        · cases hn
          simp [Builder.toNode] at hi

/-- **C13** violated for a tensor whose first input is a selected output: `nth_tensor(two(3), 1)`-style inputs ask the control node
for an output that it does not have, and evaluation panics. -/
theorem C13_selected_output_violated :
    ∃ g g' ts t, (Graph.empty : Graph DemoOp).execAll demoOps
        [.build {} (.num 3), .build { inNodes := [⟨0, false, 0⟩] } .two, .build { inNodes := [⟨1, false, 1⟩] } .double,
         .build {} (.num 7)] = .ok (g, ts) ∧
      g.exec demoOps (.dependsOn 2 [3]) = .ok (g', t) ∧
      (∃ res, eval demoSem g 100 [2] [] [] () = some (.ok res) ∧ res.results = [.ok 8]) ∧
      eval demoSem g' 100 [2] [] [] () = some (.error .badSelector) :=
  ⟨_, _, _, _, rfl, rfl, ⟨_, rfl, rfl⟩, rfl⟩

/-- **C13** violated for ops with a mutable first input: after `assign(v, 5).depends_on(..)` the assignment panics. -/
theorem C13_assign_violated :
    ∃ g g' ts t, (Graph.empty : Graph DemoOp).execAll demoOps demoCmds = .ok (g, ts) ∧
      g.exec demoOps (.dependsOn 2 [3]) = .ok (g', t) ∧
      (∃ res, eval demoSem g 100 [2] [] [1] () = some (.ok res) ∧ res.env = [5]) ∧
      eval demoSem g' 100 [2] [] [1] () = some (.error .opPanic) :=
  ⟨_, _, _, _, rfl, rfl, ⟨_, rfl, rfl⟩, rfl⟩

/-! ## The hypotheses are met by concrete, non-trivial cases -/

section Examples

/-- C11, C12: a placeholder fed twice, by name and by tensor. -/
example : ∃ g ts res, (Graph.empty : Graph DemoOp).execAll demoOps [.placeholder "p" [], .build { inNodes := [⟨2, false, 0⟩] } .double]
      = .ok (g, ts) ∧ ts = [2, 3] ∧
    eval demoSem g 60 [3, 2] [⟨.name "q", 9⟩, ⟨.name "p", 4⟩, ⟨.id 2, 5⟩] [] () = some (.ok res) ∧ res.results = [.ok 8, .ok 4] :=
  ⟨_, _, _, rfl, rfl, rfl, rfl⟩

end Examples

end Verif.Props
