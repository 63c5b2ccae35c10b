import Verif.Lemmas.EvalFeeds
import Verif.Lemmas.EvalDemo
import Verif.Props.Graph

/-! # Property theorems about evaluation: C03 - C09, C11, C12

`S` is an arbitrary interpretation of ops, possibly with side effects; `g` is any graph that can be built; `targets` are
handles of that graph. `eval .. = none` means that the given number of loop iterations did not suffice. -/

namespace Verif.Props
open Verif Verif.Spec Verif.Eval Verif.Graph Relation
variable {Op V E W : Type}

/-! ## C03 Termination -/

/-- **C03** On an acyclic graph evaluation finishes (with results or a panic) within `2 * (targets + edges)` loop iterations, and what
it finishes with does not depend on the bound. -/
theorem C03_terminates (O : Ops Op) (S : Sem Op V E W) (g : Graph Op) (targets : List Nat) (feeds : List (Feed V)) (env : List V) (w : W)
    (hg : Reachable O g) (ht : ∀ t ∈ targets, t < g.size) (hac : Acyclic g) :
    ∃ r, ∀ fuel, 2 * (targets.length + (g.nodes.map (fun n => n.incoming.length)).sum) ≤ fuel →
      eval S g fuel targets feeds env w = some r := by
  obtain ⟨r, hl⟩ := loop_total (S := S) (feeds := feeds) hg.wf hac (2 * (targets.length + edgeCount g))
    (initState targets env w : EvalState V E W) (inv_init ht env w)
    (initState_aboveDeps targets env w) (potential_init targets env w)
  have hstable : ∀ fuel, 2 * (targets.length + (g.nodes.map (fun n => n.incoming.length)).sum) ≤ fuel →
      loop S g feeds fuel (initState targets env w) = some r := by
    intro fuel hf
    obtain ⟨k, rfl⟩ := Nat.exists_eq_add_of_le hf
    exact loop_mono hl k
  cases r with
  | error p => exact ⟨.error p, fun fuel hf => by simp only [eval, hstable fuel hf]⟩
  | ok st =>
    cases ha : aggregate S g feeds st.env targets st.storage with
    | error p => exact ⟨.error p, fun fuel hf => by simp only [eval, hstable fuel hf, ha]⟩
    | ok rs => exact ⟨.ok ⟨rs, st.env, st.world, st.log.reverse⟩, fun fuel hf => by simp only [eval, hstable fuel hf, ha]⟩

/-- A cycle of dependencies below a tensor is a cycle of op results. -/
private theorem uses_of_depends {g : Graph Op} (hw : Graph.WF g) {a b : Nat} (h : DependsOn g a b) (hb : IsOp g b) :
    TransGen (Uses g) a b := by
  induction h with
  | single h => exact .single ⟨h, hb⟩
  | tail _ h ih =>
    have ho : IsOp g _ := uses_isOp_left hw (⟨h, hb⟩ : Uses g _ _)
    exact (ih ho).tail ⟨h, hb⟩

/-- **C03** If a target is or depends on a tensor that depends on itself, evaluation never returns, however many iterations are
granted; and unless something panics it runs forever. -/
theorem C03_cycle_never_returns (O : Ops Op) (S : Sem Op V E W) (g : Graph Op) (targets : List Nat) (feeds : List (Feed V)) (env : List V)
    (w : W) (hg : Reachable O g) (ht : ∀ t ∈ targets, t < g.size) (t a : Nat) (htm : t ∈ targets)
    (hta : DependsOnRefl g t a) (haa : DependsOn g a a) :
    (∀ fuel res, eval S g fuel targets feeds env w ≠ some (.ok res)) ∧
    ((∀ p, ¬ PanicCause S g targets feeds env p) → ∀ fuel, eval S g fuel targets feeds env w = none) := by
  have hw := hg.wf
  have key : ∀ fuel res, eval S g fuel targets feeds env w ≠ some (.ok res) := by
    intro fuel res h
    have hao : IsOp g a := by
      obtain ⟨c, h1, _⟩ := TransGen.head'_iff.1 haa
      obtain ⟨n, hn, i, hi, _⟩ := h1
      rw [isOp_iff hn]
      cases hl : n.isLeafInput with
      | false => rfl
      | true => have := hw.leafSource _ _ hn hl; simp [this] at hi
    obtain ⟨st, _, hs, hinv, _⟩ := eval_ok hw ht h
    have hneed : Needed g targets a := by
      rcases ReflTransGen.cases_head hta with rfl | ⟨c, hc, hca⟩
      · exact ⟨t, htm, hao, .refl⟩
      · have hu := uses_of_depends hw (TransGen.head' hc hca) hao
        obtain ⟨c, h1, _⟩ := TransGen.head'_iff.1 hu
        exact ⟨t, htm, uses_isOp_left hw h1, hu.to_reflTransGen⟩
    have hcyc := uses_of_depends hw haa hao
    -- a is in the log, hence after itself
    have hmem := hinv.complete hs hneed
    have hlt : ∀ {x y}, TransGen (Uses g) x y → ∀ {l : List Nat}, TopoLog g l → l.Nodup → x ∈ l →
        ∃ p q, l = p ++ x :: q ∧ y ∈ q := by
      intro x y hxy
      induction hxy with
      | single h =>
        intro l hl _ hx
        induction l with
        | nil => cases hx
        | cons z l ih =>
          rename_i y hnd
          by_cases hz : x = z
          · subst hz; exact ⟨[], l, rfl, hl.1 _ h⟩
          · have hx' : x ∈ l := by
              rcases List.mem_cons.1 hx with h' | h'
              · exact absurd h' hz
              · exact h'
            obtain ⟨p, q, rfl, hy⟩ := ih hl.2 (List.nodup_cons.1 hnd).2 hx'
            exact ⟨z :: p, q, rfl, hy⟩
      | tail hab hbc ih =>
        intro l hl hnd hx
        obtain ⟨p, q, rfl, hy⟩ := ih hl hnd hx
        refine ⟨p, q, rfl, ?_⟩
        have : ∀ {p : List Nat}, TopoLog g (p ++ x :: q) → TopoLog g q := by
          intro p
          induction p with
          | nil => exact fun h => h.2
          | cons z p ih => exact fun h => ih h.2
        exact topoLog_closed (this hl) hy hbc
    obtain ⟨p, q, e, hy⟩ := hlt hcyc hinv.topo hinv.nodup hmem
    have := hinv.nodup
    rw [e] at this
    simp [List.nodup_append] at this
    exact absurd hy this.2.1.1
  refine ⟨key, fun hno fuel => ?_⟩
  cases he : eval S g fuel targets feeds env w with
  | none => rfl
  | some r =>
    cases r with
    | ok res => exact absurd he (key fuel res)
    | error p => exact absurd (eval_cause hw ht he) (hno p)

/-- **C03** An evaluation panics only for one of the causes listed in `PanicCause`: the code of a needed op panics, a needed placeholder
is unfed or fed with the wrong shape, a variable or output does not exist, or an op tensor is requested twice. -/
theorem C03_panic_causes (O : Ops Op) (S : Sem Op V E W) (g : Graph Op) (fuel : Nat) (targets : List Nat) (feeds : List (Feed V))
    (env : List V) (w : W) (p : Panic) (hg : Reachable O g) (ht : ∀ t ∈ targets, t < g.size)
    (h : eval S g fuel targets feeds env w = some (.error p)) : PanicCause S g targets feeds env p :=
  eval_cause hg.wf ht h

-- The hypotheses of the first theorem hold for a graph with all kinds of tensors; the evaluation of its unfed placeholder panics.
example : Reachable demoOps demoEvalGraph ∧ (∀ t ∈ [6, 0, 4, 7], t < demoEvalGraph.size) ∧ Acyclic demoEvalGraph ∧
    ∃ p, eval demoSem demoEvalGraph 60 [1] [] [1] () = some (.error p) :=
  ⟨demo_reach (ts := [0, 1, 2, 3, 4, 5, 6, 7]) rfl, by decide, (C02_ranks_and_acyclic demoOps _ demoHist _ rfl (by intro x deps h; simp [demoHist] at h)).2, _, rfl⟩

-- A graph with a cycle through the target.
example : ∃ g g' ts t, (Graph.empty : Graph DemoOp).execAll demoOps demoCmds = .ok (g, ts) ∧
    g.exec demoOps (.dependsOn 4 [5]) = .ok (g', t) ∧ Reachable demoOps g' ∧ DependsOn g' 5 5 := by
  refine ⟨_, _, _, _, rfl, rfl, .cmd (c := .dependsOn 4 [5]) (Reachable.all (cs := demoCmds) .init rfl) rfl, ?_⟩
  refine .tail (.tail (.single (b := 4) ?_) (c := 6) ?_) ?_
  · exact ⟨_, rfl, ⟨4, false, 0⟩, .tail _ (.head _), rfl⟩
  · exact ⟨_, rfl, ⟨6, false, 0⟩, .head _, rfl⟩
  · exact ⟨_, rfl, ⟨5, false, 0⟩, .tail _ (.head _), rfl⟩

/-! ## C04, C05 What runs, and in which order -/

/-- **C04** An evaluation that returns has processed exactly the needed op tensors, each exactly once, and it amounts to executing
them one after the other in the order of the log, with the effects on variables and world that this has. -/
theorem C04_needed_exactly_once (O : Ops Op) (S : Sem Op V E W) (g : Graph Op) (fuel : Nat) (targets : List Nat) (feeds : List (Feed V))
    (env : List V) (w : W) (res : EvalResult V E W) (hg : Reachable O g) (ht : ∀ t ∈ targets, t < g.size)
    (h : eval S g fuel targets feeds env w = some (.ok res)) :
    (res.log.map Prod.fst).Nodup ∧ (∀ b, b ∈ res.log.map Prod.fst ↔ Needed g targets b) ∧
    ∃ final, ExecList S g feeds (.start env w) res.log final ∧ final.env = res.env ∧ final.world = res.world := by
  obtain ⟨st, _, hs, hi, hlog, henv, hwd, hx, _⟩ := eval_ok hg.wf ht h
  refine ⟨?_, ?_, toExec st, hx, henv.symm, hwd.symm⟩
  · rw [hlog, List.map_reverse, List.nodup_reverse]; exact hi.nodup
  · intro b
    rw [hlog, List.map_reverse, List.mem_reverse]
    exact ⟨fun hb => (hi.logNeeded b hb).1, fun hb => hi.complete hs hb⟩

/-- **C05** The order of execution is a topological order: each op tensor comes after all op tensors it uses. -/
theorem C05_topological_order (O : Ops Op) (S : Sem Op V E W) (g : Graph Op) (fuel : Nat) (targets : List Nat) (feeds : List (Feed V))
    (env : List V) (w : W) (res : EvalResult V E W) (hg : Reachable O g) (ht : ∀ t ∈ targets, t < g.size)
    (h : eval S g fuel targets feeds env w = some (.ok res)) : InDependencyOrder g (res.log.map Prod.fst) := by
  obtain ⟨st, _, hs, hi, hlog, _⟩ := eval_ok hg.wf ht h
  rw [hlog, List.map_reverse]
  exact topoLog_order hi.topo

-- An evaluation with sharing, a failing op below one target and an assignment.
example : Reachable demoOps demoEvalGraph ∧ (∀ t ∈ [6, 0, 4, 7], t < demoEvalGraph.size) ∧
    ∃ res, eval demoSem demoEvalGraph 60 [6, 0, 4, 7] [] [1] () = some (.ok res) ∧
      res.results = [.error "failed", .ok 5, .ok 20, .ok 0] ∧ res.env = [5] ∧
      res.log = [(2, true), (7, true), (3, true), (4, true), (5, true), (6, false)] :=
  ⟨demo_reach (ts := [0, 1, 2, 3, 4, 5, 6, 7]) rfl, by decide, _, rfl, rfl, rfl, rfl⟩

/-! ## C06 The value of a graph -/

/-- The needed ops compute the functions `f` of their inputs. -/
def NeededPure (S : Sem Op V E W) (g : Graph Op) (targets : List Nat) (f : Op → List (OpInput V) → Option (Except E (List V))) : Prop :=
  ∀ (a : Nat) (n : Node Op), Needed g targets a → g.nodes[a]? = some n → Computes S n.op (f n.op)

/-- No needed op can write to a variable. -/
def NeededReadOnly (g : Graph Op) (targets : List Nat) : Prop :=
  ∀ a vid, Needed g targets a → ¬ MayWrite g a vid

/-- **C06** Partial correctness: if evaluation returns, each result is the mathematical meaning of its target, and no variable
has changed. -/
theorem C06_results_are_meanings (O : Ops Op) (S : Sem Op V E W) (g : Graph Op) (fuel : Nat) (targets : List Nat) (feeds : List (Feed V))
    (env : List V) (w : W) (res : EvalResult V E W) (f : Op → List (OpInput V) → Option (Except E (List V)))
    (hg : Reachable O g) (ht : ∀ t ∈ targets, t < g.size) (hpure : NeededPure S g targets f) (hro : NeededReadOnly g targets)
    (h : eval S g fuel targets feeds env w = some (.ok res)) :
    List.Forall₂ (fun t r => TargetMeans f S.shapeOf g feeds env t r) targets res.results ∧ res.env = env :=
  eval_pure_partial hg.wf ht hpure hro h

/-- **C06** Total correctness: if all targets have a meaning (no op panics, all needed placeholders are fed, ...) and no op tensor is
requested twice, evaluation of an acyclic graph does return, and the results are these meanings. -/
theorem C06_total (O : Ops Op) (S : Sem Op V E W) (g : Graph Op) (targets : List Nat) (feeds : List (Feed V))
    (env : List V) (w : W) (f : Op → List (OpInput V) → Option (Except E (List V))) (rs : List (Except E V))
    (hg : Reachable O g) (hac : Acyclic g) (ht : ∀ t ∈ targets, t < g.size) (hpure : NeededPure S g targets f)
    (hro : NeededReadOnly g targets)
    (hd : ∀ pre t mid post, targets = pre ++ t :: mid ++ t :: post → ¬ IsOp g t)
    (hm : List.Forall₂ (fun t r => TargetMeans f S.shapeOf g feeds env t r) targets rs) :
    ∃ fuel0, ∀ fuel, fuel0 ≤ fuel → ∃ res, eval S g fuel targets feeds env w = some (.ok res) ∧ res.results = rs := by
  have hex : ∀ t ∈ targets, ∃ r, TargetMeans f S.shapeOf g feeds env t r := by
    intro t htm
    clear hpure hro hd ht
    induction hm with
    | nil => cases htm
    | cons h _ ih =>
      rcases List.mem_cons.1 htm with rfl | htm
      · exact ⟨_, h⟩
      · exact ih htm
  refine ⟨2 * (targets.length + edgeCount g), fun fuel hf => ?_⟩
  obtain ⟨res, hres⟩ := eval_pure_total (w := w) hg.wf hac ht hpure hro hd hex hf
  refine ⟨res, hres, ?_⟩
  have h1 := (eval_pure_partial hg.wf ht hpure hro hres).1
  have : ∀ {ts : List Nat} {a b : List (Except E V)}, List.Forall₂ (fun t r => TargetMeans f S.shapeOf g feeds env t r) ts a →
      List.Forall₂ (fun t r => TargetMeans f S.shapeOf g feeds env t r) ts b → a = b := by
    intro ts a b ha
    induction ha generalizing b with
    | nil => intro hb; cases hb; rfl
    | cons h _ ih => intro hb; cases hb with | cons h' hb => rw [targetMeans_unique h h', ih hb]
  exact this h1 hm

/-- **C06** The value of a target does not depend on the other targets, nor on their order, nor on what else is built afterwards:
two evaluations, of different target lists and the second one in a graph that has grown, agree on a common target. -/
theorem C06_independent (O : Ops Op) (S : Sem Op V E W) (g g' : Graph Op) (cs : List (Cmd Op)) (ids : List Nat)
    (fuel fuel' : Nat) (targets targets' : List Nat) (feeds : List (Feed V)) (env : List V) (w w' : W) (res res' : EvalResult V E W)
    (f : Op → List (OpInput V) → Option (Except E (List V)))
    (hg : Reachable O g) (hgrow : g.execAll O cs = .ok (g', ids)) (hno : NoDependsOn cs)
    (ht : ∀ t ∈ targets, t < g.size) (ht' : ∀ t ∈ targets', t < g'.size)
    (hpure : NeededPure S g targets f) (hro : NeededReadOnly g targets)
    (hpure' : NeededPure S g' targets' f) (hro' : NeededReadOnly g' targets')
    (h : eval S g fuel targets feeds env w = some (.ok res))
    (h' : eval S g' fuel' targets' feeds env w' = some (.ok res'))
    (k k' t : Nat) (hk : targets[k]? = some t) (hk' : targets'[k']? = some t) :
    ∃ r, res.results[k]? = some r ∧ res'.results[k']? = some r := by
  have hext : Extends g g' := by
    intro id n hn
    refine (C01_handles_stable O g g' cs ids hgrow).1 id n hn ?_
    have : dependsOnTargets cs = [] := by
      clear hgrow
      induction cs with
      | nil => rfl
      | cons c cs ih =>
        have := ih (fun x deps hm => hno x deps (List.mem_cons_of_mem _ hm))
        cases c with
        | dependsOn x deps => exact absurd (List.mem_cons_self ..) (hno x deps)
        | _ => simpa [dependsOnTargets] using this
    simp [this]
  have hg' := hg.all hgrow
  obtain ⟨r, hr, hm⟩ :=
    (forall₂_get (C06_results_are_meanings O S g fuel targets feeds env w res f hg ht hpure hro h).1).2 k t hk
  obtain ⟨r', hr', hm'⟩ :=
    (forall₂_get (C06_results_are_meanings O S g' fuel' targets' feeds env w' res' f hg' ht' hpure' hro' h').1).2 k' t hk'
  rw [targetMeans_unique (hext.targetMeans hg.wf.closed hm) hm'] at hr
  exact ⟨r', hr, hr'⟩

-- Tensor 4 of the graph of the last example has the meaning `(v + 5) + (v + 5)`, and the ops it needs are pure and read-only.
example : Reachable demoOps demoEvalGraph ∧ NeededPure demoSem demoEvalGraph [4] demoFn ∧
    NeededReadOnly demoEvalGraph [4] ∧ Acyclic demoEvalGraph ∧ TargetMeans demoFn demoSem.shapeOf demoEvalGraph [] [1] 4 (.ok 12) := by
  refine ⟨demo_reach (ts := [0, 1, 2, 3, 4, 5, 6, 7]) rfl, ?_, ?_, (C02_ranks_and_acyclic demoOps _ demoHist _ rfl (by intro x deps h; simp [demoHist] at h)).2, ?_⟩
  · intro a n _ _ w xs; cases w; rfl
  · rintro a vid ⟨t, ht, _, hr⟩ ⟨n, hn, i, hi, hm, _⟩
    simp at ht; subst ht
    -- only tensor 7 has a mutable input, and it is not below 4
    have : ∀ {b}, ReflTransGen (Uses demoEvalGraph) 4 b → b = 4 ∨ b = 3 ∨ b = 2 := by
      intro b hb
      induction hb with
      | refl => exact .inl rfl
      | tail _ hu ih =>
        obtain ⟨⟨n, hn, i, hi, rfl⟩, m, hm, _, hvar⟩ := hu
        rcases ih with rfl | rfl | rfl
        · cases hn
          simp [Builder.toNode] at hi
          rcases hi with rfl; simp
        · cases hn
          simp [Builder.toNode] at hi
          rcases hi with rfl | rfl
          · cases hm; cases hvar
          · simp
        · cases hn
          simp [Builder.toNode] at hi
    rcases this hr with rfl | rfl | rfl
    · cases hn; simp [Builder.toNode] at hi; rcases hi with rfl; cases hm
    · cases hn; simp [Builder.toNode] at hi; rcases hi with rfl | rfl <;> cases hm
    · cases hn; simp [Builder.toNode] at hi
  · have m2 : Means demoFn demoSem.shapeOf demoEvalGraph [] [1] 2 (.ok [5]) :=
      .run (cv := fun _ => .ok []) rfl ⟨_, rfl, rfl, rfl⟩ (by
        rintro b ⟨⟨n, hn, i, hi, _⟩, _⟩; cases hn; simp [Builder.toNode] at hi) .nil rfl
    have m3 : Means demoFn demoSem.shapeOf demoEvalGraph [] [1] 3 (.ok [6]) :=
      .run (cv := fun _ => .ok [5]) rfl ⟨_, rfl, rfl, rfl⟩ (by
        rintro b ⟨⟨n, hn, i, hi, rfl⟩, m, hm, _, hvar⟩; cases hn; simp [Builder.toNode] at hi
        rcases hi with rfl | rfl
        · cases hm; cases hvar
        · exact m2) (.cons (.variable_ rfl rfl rfl rfl) (.cons (.result ⟨_, rfl, rfl, rfl⟩ rfl rfl) .nil)) rfl
    refine .result (.run (cv := fun _ => .ok [6]) rfl ⟨_, rfl, rfl, rfl⟩ (by
        rintro b ⟨⟨n, hn, i, hi, rfl⟩, m, hm, _, hvar⟩; cases hn; simp [Builder.toNode] at hi
        rcases hi with rfl; exact m3)
      (.cons (.result ⟨_, rfl, rfl, rfl⟩ rfl rfl) (.cons (.result ⟨_, rfl, rfl, rfl⟩ rfl rfl) .nil)) rfl) rfl

-- The graph can grow, here by the double of tensor 4, and be evaluated at both.
example : ∃ g' res res', demoEvalGraph.execAll demoOps [.build { inNodes := [⟨4, false, 0⟩] } .double] = .ok (g', [8]) ∧
    NoDependsOn ([.build { inNodes := [⟨4, false, 0⟩] } .double] : List (Cmd DemoOp)) ∧ (∀ t ∈ [8, 4], t < g'.size) ∧ NeededPure demoSem g' [8, 4] demoFn ∧
    eval demoSem demoEvalGraph 60 [4] [] [1] () = some (.ok res) ∧ eval demoSem g' 60 [8, 4] [] [1] () = some (.ok res') ∧ res'.results = [.ok 24, .ok 12] :=
  ⟨_, _, _, rfl, by intro x deps h; simp at h, by decide, fun a n _ _ w xs => by cases w; rfl, rfl, rfl, rfl⟩

/-! ## C07 Results in request order -/

/-- **C07** (partial: no op tensor may be requested twice, see `C07_repeated_target_violated`) One result per target, in the order of
the request: the result at a position is the one of the tensor requested at this position. -/
theorem C07_request_order_partial (O : Ops Op) (S : Sem Op V E W) (g : Graph Op) (fuel : Nat) (targets : List Nat) (feeds : List (Feed V))
    (env : List V) (w : W) (res : EvalResult V E W) (hg : Reachable O g) (ht : ∀ t ∈ targets, t < g.size)
    (h : eval S g fuel targets feeds env w = some (.ok res)) :
    ∃ final, ExecList S g feeds (.start env w) res.log final ∧
      List.Forall₂ (fun t r => TargetReturns S g feeds final t r) targets res.results := by
  obtain ⟨st, _, _, _, _, _, _, hx, hres, _⟩ := eval_ok hg.wf ht h
  exact ⟨toExec st, hx, hres⟩

/-- **C07** violated: whenever an op tensor is requested twice, evaluation never returns results, whatever the graph. (Requesting a
variable or placeholder twice is fine.) -/
theorem C07_repeated_target_violated (O : Ops Op) (S : Sem Op V E W) (g : Graph Op) (fuel : Nat) (feeds : List (Feed V))
    (env : List V) (w : W) (pre mid post : List Nat) (t : Nat) (hg : Reachable O g)
    (ht : ∀ u ∈ pre ++ t :: mid ++ t :: post, u < g.size) (hop : IsOp g t) (res : EvalResult V E W) :
    eval S g fuel (pre ++ t :: mid ++ t :: post) feeds env w ≠ some (.ok res) := by
  intro h
  obtain ⟨_, _, _, _, _, _, _, _, _, hd⟩ := eval_ok hg.wf ht h
  exact hd pre t mid post rfl hop

-- In the evaluation of the example for C04 the targets include a failing op, a variable, a sum and an assignment. Tensor 4 cannot be requested twice.
example : Reachable demoOps demoEvalGraph ∧ (∀ u ∈ [6, 4, 0, 4], u < demoEvalGraph.size) ∧ IsOp demoEvalGraph 4 :=
  ⟨demo_reach (ts := [0, 1, 2, 3, 4, 5, 6, 7]) rfl, by decide, ⟨_, rfl, rfl, rfl⟩⟩

/-! ## C08 Errors -/

/-- **C08** A requested op tensor yields an error exactly when an op call at or below it failed, and then its error is the error
returned by one of these calls. -/
theorem C08_errors_reach_dependents (O : Ops Op) (S : Sem Op V E W) (g : Graph Op) (fuel : Nat) (targets : List Nat) (feeds : List (Feed V))
    (env : List V) (w : W) (res : EvalResult V E W) (hg : Reachable O g) (ht : ∀ t ∈ targets, t < g.size)
    (h : eval S g fuel targets feeds env w = some (.ok res)) (k t : Nat) (r : Except E V)
    (hk : targets[k]? = some t) (hop : IsOp g t) (hr : res.results[k]? = some r) :
    ((∃ e, r = .error e) ↔ ∃ b e, ReflTransGen (Uses g) t b ∧ CallResult S g feeds env w res.log b (.error e)) ∧
    (∀ e, r = .error e → ∃ b, ReflTransGen (Uses g) t b ∧ CallResult S g feeds env w res.log b (.error e)) := by
  obtain ⟨st, _, hs, hi, hlog, _, _, hx, hres, _⟩ := eval_ok hg.wf ht h
  have hnd : (res.log.map Prod.fst).Nodup := by rw [hlog, List.map_reverse, List.nodup_reverse]; exact hi.nodup
  have hret : TargetReturns S g feeds (toExec st) t r := by
    obtain ⟨r', hr', h1⟩ := (forall₂_get hres).2 k t hk
    rw [hr] at hr'; cases hr'; exact h1
  have herr : ∀ e, r = .error e → (toExec st).results t = some (.error e) := by
    rintro e rfl
    cases hret with
    | failed _ h1 => exact h1
  refine ⟨⟨?_, ?_⟩, ?_⟩
  · rintro ⟨e, he⟩
    obtain ⟨b, h1, h2⟩ := error_origin hx (herr e he)
    exact ⟨b, e, h1, h2⟩
  · rintro ⟨b, e, h1, h2⟩
    have hmem : ∀ x, ReflTransGen (Uses g) t x → x ∈ res.log.map Prod.fst := by
      intro x hxr
      rw [hlog, List.map_reverse, List.mem_reverse]
      exact hi.complete hs ⟨t, List.mem_of_getElem? hk, hop, hxr⟩
    obtain ⟨_, hb⟩ := (callResult_iff hx hnd).1 h2
    -- climb from b to t
    have : ∀ {x}, ReflTransGen (Uses g) t x → ∀ {e}, (toExec st).results x = some (.error e) →
        ∃ e, (toExec st).results t = some (.error e) := by
      intro x hxr
      induction hxr with
      | refl => intro e he; exact ⟨e, he⟩
      | tail hab hbc ih =>
        intro e he
        obtain ⟨_, e', he'⟩ := error_spreads hx hnd (hmem _ hab) hbc he
        exact ih he'
    obtain ⟨e', he'⟩ := this h1 hb
    obtain ⟨m, hm, hp, hv⟩ := hop
    cases hret with
    | variable_ hn hv' => rw [hm] at hn; cases hn; rw [hv] at hv'; cases hv'
    | placeholder hn _ hf => obtain ⟨_, _, hp', _⟩ := hf; rw [hm] at hn; cases hn; rw [hp] at hp'; cases hp'
    | result _ h3 _ => rw [he'] at h3; cases h3
    | failed _ h3 => exact ⟨_, rfl⟩
  · intro e he
    exact error_origin hx (herr e he)

/-- **C08** A needed op is called exactly when no op call below it failed. -/
theorem C08_called_iff_no_failure_below (O : Ops Op) (S : Sem Op V E W) (g : Graph Op) (fuel : Nat) (targets : List Nat)
    (feeds : List (Feed V)) (env : List V) (w : W) (res : EvalResult V E W) (hg : Reachable O g) (ht : ∀ t ∈ targets, t < g.size)
    (h : eval S g fuel targets feeds env w = some (.ok res)) (a : Nat) (ha : Needed g targets a) :
    (a, true) ∈ res.log ↔ ¬ ∃ b e, TransGen (Uses g) a b ∧ CallResult S g feeds env w res.log b (.error e) := by
  obtain ⟨st, _, hs, hi, hlog, _, _, hx, hres, _⟩ := eval_ok hg.wf ht h
  have hnd : (res.log.map Prod.fst).Nodup := by rw [hlog, List.map_reverse, List.nodup_reverse]; exact hi.nodup
  have hmem : ∀ x, ReflTransGen (Uses g) a x → x ∈ res.log.map Prod.fst := by
    intro x hxr
    rw [hlog, List.map_reverse, List.mem_reverse]
    obtain ⟨t, h1, h2, h3⟩ := ha
    exact hi.complete hs ⟨t, h1, h2, h3.trans hxr⟩
  constructor
  · rintro htrue ⟨b, e, hab, hb⟩
    obtain ⟨c, hac, hcb⟩ := TransGen.head'_iff.1 hab
    obtain ⟨_, hb⟩ := (callResult_iff hx hnd).1 hb
    have : ∀ {x}, ReflTransGen (Uses g) c x → ∀ {e}, (toExec st).results x = some (.error e) →
        ∃ e, (toExec st).results c = some (.error e) := by
      intro x hxr
      induction hxr with
      | refl => intro e he; exact ⟨e, he⟩
      | tail hab hbc ih =>
        intro e he
        obtain ⟨_, e', he'⟩ := error_spreads hx hnd (hmem _ (ReflTransGen.head hac hab)) hbc he
        exact ih he'
    obtain ⟨e', he'⟩ := this hcb hb
    obtain ⟨hfalse, _⟩ := error_spreads hx hnd (hmem _ .refl) hac he'
    -- both flags in a log without repetitions
    obtain ⟨p, q, e1⟩ := List.append_of_mem htrue
    rw [e1] at hfalse hnd
    simp only [List.map_append, List.map_cons, List.nodup_append, List.nodup_cons] at hnd
    rcases List.mem_append.1 hfalse with h1 | h1
    · exact hnd.2.2 a (List.mem_map.2 ⟨_, h1, rfl⟩) a (by simp) rfl
    · rcases List.mem_cons.1 h1 with h1 | h1
      · cases h1
      · exact hnd.2.1.1 (List.mem_map.2 ⟨_, h1, rfl⟩)
  · intro hno
    obtain ⟨⟨a', flag⟩, hm, rfl⟩ := List.mem_map.1 (hmem a .refl)
    cases flag with
    | true => exact hm
    | false =>
      exfalso
      obtain ⟨n, cv, hn, hcv, _, hf⟩ := execList_final hx hnd hm
      obtain ⟨_, e, hin, _⟩ := hf rfl
      obtain ⟨pre, i, post, hii, hio, hce, _⟩ := inputsAre_error hin
      have hu : Uses g a' i.id := ⟨⟨n, hn, i, by simp [hii], rfl⟩, hio⟩
      have := hcv _ hu
      rw [hce] at this
      obtain ⟨b, hb1, hb2⟩ := error_origin hx this
      exact hno ⟨b, e, TransGen.head' hu hb1, hb2⟩

/-- **C08** An op that is not called inherits the error of its first failing input. -/
theorem C08_first_failing_input (O : Ops Op) (S : Sem Op V E W) (g : Graph Op) (fuel : Nat) (targets : List Nat)
    (feeds : List (Feed V)) (env : List V) (w : W) (res : EvalResult V E W) (hg : Reachable O g) (ht : ∀ t ∈ targets, t < g.size)
    (h : eval S g fuel targets feeds env w = some (.ok res)) (a : Nat) (ha : (a, false) ∈ res.log) :
    ∃ final n pre i post e, ExecList S g feeds (.start env w) res.log final ∧ g.nodes[a]? = some n ∧ n.incoming = pre ++ i :: post ∧
      IsOp g i.id ∧ final.results i.id = some (.error e) ∧ final.results a = some (.error e) ∧
      ∀ j ∈ pre, IsOp g j.id → ∃ ys, final.results j.id = some (.ok ys) := by
  obtain ⟨st, _, hs, hi, hlog, _, _, hx, hres, _⟩ := eval_ok hg.wf ht h
  have hnd : (res.log.map Prod.fst).Nodup := by rw [hlog, List.map_reverse, List.nodup_reverse]; exact hi.nodup
  obtain ⟨n, cv, hn, hcv, _, hf⟩ := execList_final hx hnd ha
  obtain ⟨_, e, hin, hra⟩ := hf rfl
  obtain ⟨pre, i, post, hii, hio, hce, hpre⟩ := inputsAre_error hin
  refine ⟨toExec st, n, pre, i, post, e, hx, hn, hii, hio, ?_, hra, ?_⟩
  · rw [hcv _ ⟨⟨n, hn, i, by simp [hii], rfl⟩, hio⟩, hce]
  · intro j hj hjo
    obtain ⟨ys, hys⟩ := hpre j hj hjo
    exact ⟨ys, by rw [hcv _ ⟨⟨n, hn, j, by simp [hii, hj], rfl⟩, hjo⟩, hys]⟩

/-- **C08** violated in debug builds: an op that reports an error without having appended an output (as the ops of this crate do when
they return `Err`) makes the evaluation panic instead of yielding the error. -/
theorem C08_debug_build_violated (compute : Unit → W → List (OpInput V) → Outcome V E W) (shapeOf : V → List Nat) (w : W) (e : E)
    (hc : ∀ w xs, compute () w xs = .done w [] [] (.error e)) :
    let g : Graph Unit := ⟨[(({} : Builder).toNode () 0)], fun _ => none⟩
    Reachable ⟨(), (), (), fun _ => ()⟩ g ∧
    (∀ fuel, 2 ≤ fuel → eval ⟨compute, shapeOf, true⟩ g fuel [0] [] [] w = some (.error .emptyOutput)) ∧
    (∀ fuel, 2 ≤ fuel → ∃ res, eval ⟨compute, shapeOf, false⟩ g fuel [0] [] [] w = some (.ok res) ∧ res.results = [.error e]) := by
  refine ⟨?_, ?_, ?_⟩
  · exact .cmd (c := .build {} ()) .init rfl
  · intro fuel hf
    obtain ⟨k, rfl⟩ := Nat.exists_eq_add_of_le hf
    rw [Nat.add_comm]
    simp [eval, loop, initState, step, Graph.access, Builder.toNode, childrenToPush, visit, wouldNotVisit, Node.isVariable, gather, hc,
      bind, Except.bind]
  · intro fuel hf
    obtain ⟨k, rfl⟩ := Nat.exists_eq_add_of_le hf
    rw [Nat.add_comm]
    simp [eval, loop, initState, step, Graph.access, Builder.toNode, childrenToPush, visit, wouldNotVisit, Node.isVariable, gather, hc,
      bind, Except.bind, applyWrites, aggregate, take, Eval.insert]

-- In the evaluation of the example for C04, tensor 6 fails because of tensor 5, and is not called.
example : ∃ res, eval demoSem demoEvalGraph 60 [6, 0, 4, 7] [] [1] () = some (.ok res) ∧ [6, 0, 4, 7][0]? = some 6 ∧ IsOp demoEvalGraph 6 ∧
    res.results[0]? = some (.error "failed") ∧ Needed demoEvalGraph [6, 0, 4, 7] 6 ∧ (6, false) ∈ res.log :=
  ⟨_, rfl, rfl, ⟨_, rfl, rfl, rfl⟩, rfl, ⟨6, by simp, ⟨_, rfl, rfl, rfl⟩, .refl⟩, by decide⟩

/-! ## C09 Variables -/

/-- **C09** The number of variables does not change, a variable that no called op takes as a mutable input keeps its array, and a
requested variable tensor yields the array after all ops have run. -/
theorem C09_variable_frame (O : Ops Op) (S : Sem Op V E W) (g : Graph Op) (fuel : Nat) (targets : List Nat) (feeds : List (Feed V))
    (env : List V) (w : W) (res : EvalResult V E W) (hg : Reachable O g) (ht : ∀ t ∈ targets, t < g.size)
    (h : eval S g fuel targets feeds env w = some (.ok res)) :
    res.env.length = env.length ∧
    (∀ vid, (∀ a, (a, true) ∈ res.log → ¬ MayWrite g a vid) → res.env[vid]? = env[vid]?) ∧
    (∀ (k t : Nat) (n : Node Op) (vid : Nat), targets[k]? = some t → g.nodes[t]? = some n → n.variableId = some vid →
      ∃ a, res.env[vid]? = some a ∧ res.results[k]? = some (.ok a)) := by
  obtain ⟨st, _, hs, hi, hlog, henv, _, hx, hres, _⟩ := eval_ok hg.wf ht h
  refine ⟨?_, ?_, ?_⟩
  · have := execList_env_length hx
    rw [henv]; exact this
  · intro vid hno
    have := execList_frame hx hno
    rw [henv]; exact this
  · rw [henv]
    intro k t n vid hk hn hv
    obtain ⟨r, hr, h1⟩ := (forall₂_get hres).2 k t hk
    rw [hr]
    cases h1 with
    | variable_ hn' hv' ha => rw [hn] at hn'; cases hn'; rw [hv] at hv'; cases hv'; exact ⟨_, ha, rfl⟩
    | placeholder hn' hv' _ => rw [hn] at hn'; cases hn'; rw [hv] at hv'; cases hv'
    | result ho => obtain ⟨m, hm, _, hv'⟩ := ho; rw [hn] at hm; cases hm; rw [hv] at hv'; cases hv'
    | failed ho => obtain ⟨m, hm, _, hv'⟩ := ho; rw [hn] at hm; cases hm; rw [hv] at hv'; cases hv'

-- In the evaluation of the example for C04 the variable is read at the end, after the assignment that may write to it.
example : ∃ res, eval demoSem demoEvalGraph 60 [6, 0, 4, 7] [] [1] () = some (.ok res) ∧ (7, true) ∈ res.log ∧ MayWrite demoEvalGraph 7 0 ∧ res.env = [5] ∧
    res.results[1]? = some (.ok 5) :=
  ⟨_, rfl, by decide, ⟨_, rfl, ⟨0, true, 0⟩, .head _, rfl, _, rfl, rfl, rfl⟩, rfl, rfl⟩

/-! ## C11, C12 Feeds -/

/-- **C11/C12** When an op is called, each input that is a placeholder has the value of the first feed, in push order, that names the
placeholder by tensor or by name; so an unfed placeholder is never silently given a value. Its shape is accepted by the declared shape. -/
theorem C11_op_inputs_are_first_feeds (O : Ops Op) (S : Sem Op V E W) (g : Graph Op) (fuel : Nat) (targets : List Nat)
    (feeds : List (Feed V)) (env : List V) (w : W) (res : EvalResult V E W) (hg : Reachable O g) (ht : ∀ t ∈ targets, t < g.size)
    (h : eval S g fuel targets feeds env w = some (.ok res)) (a : Nat) (ha : (a, true) ∈ res.log) (n m : Node Op)
    (hn : g.nodes[a]? = some n) (j : Nat) (i : Incoming) (hj : n.incoming[j]? = some i) (hm : g.nodes[i.id]? = some m)
    (name : String) (hp : m.placeholderName = some name) :
    ∃ w1 xs v d, S.compute n.op w1 xs ≠ .panic ∧ (∃ r, CallResult S g feeds env w res.log a r ∧
        outcomeResult S.debug (S.compute n.op w1 xs) = some r) ∧
      xs[j]? = some ⟨.nonVariable, v⟩ ∧ FirstFeed i.id name feeds v ∧ m.knownShape = some d ∧ ShapeAccepts d (S.shapeOf v) := by
  obtain ⟨st, _, hs, hi, hlog, _, _, hx, hres, _⟩ := eval_ok hg.wf ht h
  obtain ⟨pre, post, e⟩ := List.append_of_mem ha
  rw [e] at hx
  obtain ⟨s1, h1, h2⟩ := execList_append hx
  obtain ⟨s2, h3, h4⟩ := execList_cons h2
  have h3' := h3
  cases h3 with
  | @run _ _ cv xs w1 ws ys status r env' hn' ho hcv hin hc hr he =>
    rw [hn] at hn'; cases hn'
    obtain ⟨x, hxj, hxi⟩ := (inputsAre_ok_all hin).2 j i hj
    cases hxi with
    | placeholder hm' hf =>
      rw [hm] at hm'; cases hm'
      obtain ⟨nm, d, hp', hd, hff, hacc⟩ := hf
      rw [hp] at hp'; cases hp'
      refine ⟨s1.world, xs, _, d, by rw [hc]; simp, ⟨r, ⟨pre, post, s1, _, e, h1, h3', by simp⟩, ?_⟩, hxj, hff, hd, hacc⟩
      rw [hc]; exact hr
    | variable_ hm' hp' => rw [hm] at hm'; cases hm'; rw [hp] at hp'; cases hp'
    | result ho' => obtain ⟨k, hk, hp', _⟩ := ho'; rw [hm] at hk; cases hk; rw [hp] at hp'; cases hp'

/-- **C11/C12** A requested placeholder yields the value of its first matching feed, whose shape is accepted. -/
theorem C11_target_is_first_feed (O : Ops Op) (S : Sem Op V E W) (g : Graph Op) (fuel : Nat) (targets : List Nat)
    (feeds : List (Feed V)) (env : List V) (w : W) (res : EvalResult V E W) (hg : Reachable O g) (ht : ∀ t ∈ targets, t < g.size)
    (h : eval S g fuel targets feeds env w = some (.ok res)) (k t : Nat) (n : Node Op) (name : String)
    (hk : targets[k]? = some t) (hn : g.nodes[t]? = some n) (hp : n.placeholderName = some name) :
    ∃ v d, res.results[k]? = some (.ok v) ∧ FirstFeed t name feeds v ∧ n.knownShape = some d ∧ ShapeAccepts d (S.shapeOf v) := by
  obtain ⟨st, _, hs, hi, hlog, _, _, hx, hres, _⟩ := eval_ok hg.wf ht h
  have hv : n.variableId = none := by
    rcases hg.wf.notBoth t n hn with h1 | h1
    · rw [hp] at h1; cases h1
    · exact h1
  obtain ⟨r, hr, h1⟩ := (forall₂_get hres).2 k t hk
  rw [hr]
  cases h1 with
  | variable_ hn' hv' ha => rw [hn] at hn'; cases hn'; rw [hv] at hv'; cases hv'
  | placeholder hn' hv' hf =>
    rw [hn] at hn'; cases hn'
    obtain ⟨nm, d, hp', hd, hff, hacc⟩ := hf
    rw [hp] at hp'; cases hp'
    exact ⟨_, d, rfl, hff, hd, hacc⟩
  | result ho => obtain ⟨m, hm, hp', _⟩ := ho; rw [hn] at hm; cases hm; rw [hp] at hp'; cases hp'
  | failed ho => obtain ⟨m, hm, hp', _⟩ := ho; rw [hn] at hm; cases hm; rw [hp] at hp'; cases hp'

/-- **C11** A feed that matches no needed placeholder has no effect at all. -/
theorem C11_unrelated_feed_ignored (O : Ops Op) (S : Sem Op V E W) (g : Graph Op) (fuel : Nat) (targets : List Nat)
    (pre post : List (Feed V)) (f : Feed V) (env : List V) (w : W) (hg : Reachable O g) (ht : ∀ t ∈ targets, t < g.size)
    (hno : ∀ (t : Nat) (n : Node Op) (name : String), (t ∈ targets ∨ ∃ a, Needed g targets a ∧ DependsDirectly g a t) →
      g.nodes[t]? = some n → n.placeholderName = some name → ¬ FeedMatches t name f) :
    eval S g fuel targets (pre ++ f :: post) env w = eval S g fuel targets (pre ++ post) env w :=
  eval_congr hg.wf ht (fun t n name ht hn hp => findFeed_skip (hno t n name ht hn hp)) fuel env w

/-- **C11** Two placeholders with the same name, of which none is fed by tensor, get the same value. -/
theorem C11_same_name_same_value (feeds : List (Feed V)) (name : String) (t u : Nat) (v : V)
    (ht : ∀ f ∈ feeds, f.key ≠ .id t) (hu : ∀ f ∈ feeds, f.key ≠ .id u) :
    FirstFeed t name feeds v ↔ FirstFeed u name feeds v := by
  have key : ∀ {t u : Nat}, (∀ f ∈ feeds, f.key ≠ .id t) → (∀ f ∈ feeds, f.key ≠ .id u) →
      FirstFeed t name feeds v → FirstFeed u name feeds v := by
    rintro t u ht hu ⟨pre, f, post, e, hm, hv, hpre⟩
    subst e
    refine ⟨pre, f, post, rfl, .inr ?_, hv, ?_⟩
    · rcases hm with h | h
      · exact absurd h (ht f (by simp))
      · exact h
    · intro f' hf' hm'
      rcases hm' with h | h
      · exact hu f' (by simp [hf']) h
      · exact hpre f' hf' (.inr h)
  exact ⟨key ht hu, key hu ht⟩

-- A placeholder that is fed twice, by name and by tensor, and is both a target and an input; the feed "q" matches nothing.
example : ∃ g ts res, (Graph.empty : Graph DemoOp).execAll demoOps [.placeholder "p" [], .build { inNodes := [⟨2, false, 0⟩] } .double]
      = .ok (g, ts) ∧ ts = [2, 3] ∧ (∃ m, g.nodes[2]? = some m ∧ m.placeholderName = some "p") ∧ (∃ n, g.nodes[3]? = some n ∧ n.incoming[0]? = some ⟨2, false, 0⟩) ∧
    eval demoSem g 60 [3, 2] [⟨.name "q", 9⟩, ⟨.name "p", 4⟩, ⟨.id 2, 5⟩] [] () = some (.ok res) ∧ res.results = [.ok 8, .ok 4] ∧ (3, true) ∈ res.log ∧
    ¬ FeedMatches 2 "p" (⟨.name "q", 9⟩ : Feed Int) ∧ ∀ f ∈ ([⟨.name "q", 9⟩, ⟨.name "p", 4⟩] : List (Feed Int)), f.key ≠ .id 2 ∧ f.key ≠ .id 3 :=
  ⟨_, _, _, rfl, rfl, ⟨_, rfl, rfl⟩, ⟨_, rfl, rfl⟩, rfl, rfl, by decide, by simp [FeedMatches], by simp⟩

end Verif.Props
