import Verif.Lemmas.OrderCheck
import Verif.Lemmas.UpdateOp
import Verif.Lemmas.OrderExamples
import Verif.Props.ExpandSqueeze

/-! # Property theorems about the order of execution: C65, C45 (order of the parameters), C67 -/

namespace Verif.Props
open Verif Verif.Spec Verif.Eval Verif.Graph Verif.Opt Verif.OptState Verif.Nd Verif.Gradient Verif.Prog Relation
variable {Op V E W R : Type}

/-! ## C65 Order of execution -/

/-- **C65** The ops of an evaluation are executed in the order of a depth-first traversal: the targets from last to first, the inputs of an op from last to first, every op once,
after its inputs. -/
theorem C65_depth_first (O : Ops Op) (S : Sem Op V E W) (g : Graph Op) (hg : Reachable O g) (fuel : Nat) (targets : List Nat) (feeds : List (Feed V)) (env : List V) (w : W)
    (res : EvalResult V E W) (ht : ∀ t ∈ targets, t < g.size) (h : eval S g fuel targets feeds env w = some (.ok res)) :
    Visits g [] targets.reverse (res.log.map Prod.fst) := eval_visits hg.wf ht h

/-- **C65** The order depends on the graph and the targets only: two evaluations execute the same ops in the same order, whatever the ops compute, and whatever is fed and stored in
variables. -/
theorem C65_determined {V' E' W' : Type} (O : Ops Op) (S : Sem Op V E W) (S' : Sem Op V' E' W') (g : Graph Op) (hg : Reachable O g) (fuel fuel' : Nat) (targets : List Nat)
    (feeds : List (Feed V)) (feeds' : List (Feed V')) (env : List V) (env' : List V') (w : W) (w' : W') (res : EvalResult V E W) (res' : EvalResult V' E' W')
    (ht : ∀ t ∈ targets, t < g.size) (h : eval S g fuel targets feeds env w = some (.ok res)) (h' : eval S' g fuel' targets feeds' env' w' = some (.ok res')) :
    res.log.map Prod.fst = res'.log.map Prod.fst :=
  (eval_visits hg.wf ht h).unique (eval_visits hg.wf ht h')

/-- **C65** When a target is executed: if no later target needs it, then exactly the ops needed by it and by the targets after it in the list have been executed up to it. -/
theorem C65_position (O : Ops Op) (S : Sem Op V E W) (g : Graph Op) (hg : Reachable O g) (fuel : Nat) (before : List Nat) (t : Nat) (after : List Nat) (feeds : List (Feed V))
    (env : List V) (w : W) (res : EvalResult V E W) (ht : ∀ x ∈ before ++ t :: after, x < g.size)
    (h : eval S g fuel (before ++ t :: after) feeds env w = some (.ok res)) (ho : IsOp g t) (hn : ¬ Needed g after t) :
    ∃ l1 l2, res.log.map Prod.fst = l1 ++ t :: l2 ∧ ∀ a, (a ∈ l1 ∨ a = t) ↔ Needed g (t :: after) a := by
  have hv := eval_visits hg.wf ht h
  rw [show (before ++ t :: after).reverse = after.reverse ++ t :: before.reverse by simp] at hv
  have hrev : ∀ l a, Needed g (List.reverse l) a ↔ Needed g l a := fun l a => by simp [Needed]
  obtain ⟨l1, l2, h1, _, h2⟩ := hv.at ho (fun hh => hn ((hrev _ _).1 hh))
  refine ⟨l1, l2, h1, fun a => ?_⟩
  rw [h2, show after.reverse ++ [t] = (t :: after).reverse by simp, hrev]

/-- `w1`, `w2`, `1`, `h = 1 * w1`, `y = h * w2`, and the gradients `y * w2` and `y * h` of `y² / 2` with respect to `w1` and `w2`. -/
def ordCmds : List (Cmd UpdOp) :=
  [.var 0, .var 1, .build {} .one, .build { inNodes := [⟨2, false, 0⟩, ⟨0, false, 0⟩] } .mul, .build { inNodes := [⟨3, false, 0⟩, ⟨1, false, 0⟩] } .mul,
   .build { inNodes := [⟨4, false, 0⟩, ⟨1, false, 0⟩] } .mul, .build { inNodes := [⟨4, false, 0⟩, ⟨3, false, 0⟩] } .mul]

/-- The graph of the examples, and an evaluation of both gradients: tensor 6 (the last target) comes before tensor 5, but after its inputs. -/
example : ∃ g ts res, (Graph.empty : Graph UpdOp).execAll updOps ordCmds = .ok (g, ts) ∧ Reachable updOps g ∧
    eval updSem g 100 [5, 6] [] [updNum 2, updNum 3] () = some (.ok res) ∧ (∀ t ∈ [5, 6], t < g.size) ∧ res.log.map Prod.fst = [2, 3, 4, 6, 5] ∧ IsOp g 6 ∧ ¬ Needed g [] 6 := by
  refine ⟨_, _, _, rfl, Reachable.init.all (cs := ordCmds) rfl, rfl, ?_, rfl, ⟨_, rfl, rfl, rfl⟩, ?_⟩
  · decide
  · rintro ⟨t, h, _⟩; cases h

/-! ## C45 The order of the parameters -/

/-- **C45** (partial: under `hrf`, which depends on the order of the parameters, see `C45_update_violated`) All updates of one run use the gradients at the variable values before
the run, and all other targets are evaluated at these values, provided that in the order of execution (the targets from last to first) no variable is read by a new op after an
update of it: `ReadsFirst`. Unlike in `C45_gradients_before_step_partial` an update may precede others that need the old value of its variable, if they need it through ops that
are executed earlier. -/
theorem C45_execution_order_partial (O : Ops Op) (S : Sem Op V E W) (g : Graph Op) (fuel : Nat) (targets : List Nat) (feeds : List (Feed V))
    (env : List V) (w : W) (res : EvalResult V E W) (f : Op → List (OpInput V) → Option (Except E (List V)))
    (hg : Reachable O g) (ht : ∀ t ∈ targets, t < g.size) (h : eval S g fuel targets feeds env w = some (.ok res))
    (hpure : ∀ a n, Needed g targets a → Clean g a → g.nodes[a]? = some n → Computes S n.op (f n.op))
    (hwr : ∀ a vid, Needed g targets a → MayWrite g a vid → a ∈ targets)
    (hrf : ReadsFirst g targets.reverse) :
    (∀ u ∈ targets, ∀ o pv svs gr x, IsUpdate g o pv svs u gr → IsOp g gr.id → Clean g gr.id → InputRead S g feeds env w res.log u gr x →
      InputMeans f S.shapeOf g feeds env gr x) ∧
    ∀ (i t : Nat) r, targets[i]? = some t → res.results[i]? = some r → IsOp g t → Clean g t → TargetMeans f S.shapeOf g feeds env t r := by
  have hw := hg.wf
  have hrev : ∀ a, Needed g targets.reverse a ↔ Needed g targets a := fun a => by simp [Needed]
  obtain ⟨l1, l2, l3, final, l4, _, l5⟩ := eval_log hw ht h
  obtain ⟨k1, k2⟩ := readsFirst_means (f := f) hw l4 (eval_visits hw ht h) l1 (fun a n ha => hpure a n ((hrev a).1 ha)) (fun a vid ha hm => by simpa using hwr a vid ((hrev a).1 ha) hm) hrf
  refine ⟨fun u hu o pv svs gr x hiu ho hc hx => ?_, fun i t r hi hr ho hc => ?_⟩
  · obtain ⟨n, p, ss, hn, _, hin, _⟩ := hiu
    refine k2 u gr n x (by simpa using hu) hn (by simp [hin]) (fun _ => hc) (fun m vid before u' after hm hv => ?_) hx
    obtain ⟨m', hm', _, hv'⟩ := ho
    rw [hm] at hm'; cases hm'
    rw [hv] at hv'; cases hv'
  · obtain ⟨r', h5, h6⟩ := (forall₂_get l5).2 i t hi
    rw [hr] at h5; cases h5
    obtain ⟨m, hm, hp, hv⟩ := ho
    cases h6 with
    | variable_ hn' hv' => rw [hm] at hn'; cases hn'; rw [hv] at hv'; cases hv'
    | placeholder hn' _ hf => obtain ⟨_, _, hp', _⟩ := hf; rw [hm] at hn'; cases hn'; rw [hp] at hp'; cases hp'
    | result _ h7 h8 => exact .result (k1 t _ hc h7) h8
    | failed _ h7 => exact .failed (k1 t _ hc h7)

/-- With the parameters in the order `w2`, `w1` all hypotheses hold (those of `C45_gradients_before_step_partial` do not: the gradient of `w1` reads `w2`, and is not needed for the
gradient of `w2`). -/
example : ∃ g g' ts us res, (Graph.empty : Graph UpdOp).execAll updOps ordCmds = .ok (g, ts) ∧ sgdLoop .sgd g [(1, 6), (0, 5)] = .ok (g', us) ∧ us = [7, 8] ∧
    Reachable updOps g' ∧ eval updSem g' 100 us [] [updNum 2, updNum 3] () = some (.ok res) ∧ (∀ t ∈ us, t < g'.size) ∧
    (∀ a n, Needed g' us a → Clean g' a → g'.nodes[a]? = some n → Computes updSem n.op (ordMeaning n.op)) ∧
    (∀ a vid, Needed g' us a → MayWrite g' a vid → a ∈ us) ∧ ReadsFirst g' us.reverse ∧
    IsUpdate g' .sgd 0 [] 8 { id := 5 } ∧ IsOp g' 5 ∧ Clean g' 5 ∧ ReadsVar g' 5 1 ∧ ¬ Needed g' [7] 5 := by
  obtain ⟨g, g', ts, us, h, h', rfl, hold, hrf, hcl, hops, hsz, hn5, h7, h8, ho, hr, hv, res, he⟩ : ∃ g g' ts us, (Graph.empty : Graph UpdOp).execAll updOps ordCmds = .ok (g, ts) ∧
    sgdLoop .sgd g [(1, 6), (0, 5)] = .ok (g', us) ∧ us = [7, 8] ∧ olderB g' = true ∧ readsFirstB g' [] [8, 7] = true ∧ cleanB g' 5 = true ∧
    ordOpsB g' [7, 8] [7, 8] [7, 8] = true ∧ (∀ t ∈ [7, 8], t < g'.size) ∧ 5 ∉ neededB g' [7] ∧ IsUpdate g' .sgd 1 [] 7 { id := 6 } ∧ IsUpdate g' .sgd 0 [] 8 { id := 5 } ∧ IsOp g' 5 ∧ ReadsVar g' 5 1 ∧
    (VarTensor g 0 0 ∧ VarTensor g 1 1 ∧ g.size = 7 ∧ ∀ n ∈ g.nodes, ∀ i ∈ n.incoming, i.allowMut = false) ∧
    ∃ res, eval updSem g' 100 us [] [updNum 2, updNum 3] () = some (.ok res) :=
    ⟨_, _, _, _, rfl, rfl, rfl, by decide, by decide, by decide, by decide, by decide, by decide,
      ⟨_, ⟨1, true, 0⟩, [], rfl, rfl, rfl, ⟨rfl, _, rfl, rfl, rfl⟩, rfl, .nil⟩, ⟨_, ⟨0, true, 0⟩, [], rfl, rfl, rfl, ⟨rfl, _, rfl, rfl, rfl⟩, rfl, .nil⟩,
      ⟨_, rfl, rfl, rfl⟩, ⟨_, rfl, ⟨1, false, 0⟩, .tail _ (.head _), _, rfl, rfl⟩, ⟨⟨_, rfl, rfl⟩, ⟨_, rfl, rfl⟩, rfl, by decide⟩, _, rfl⟩
  have hold := older_iff hold
  have hreach : Reachable updOps g' := (C44_update_sgd updOps updSem .sgd g g' (Reachable.init.all h) [(1, 6), (0, 5)] [7, 8]
    (by obtain ⟨v0, v1, v2, _⟩ := hv; simp [v2]; exact ⟨⟨1, v1⟩, ⟨0, v0⟩⟩)
    (fun a vid _ ⟨n, c1, i, c2, c3, _⟩ => by rw [hv.2.2.2 n (List.mem_of_getElem? c1) i c2] at c3; cases c3) h' (by simp)).1
  obtain ⟨k1, k2⟩ := ordOps_of hold hops
  refine ⟨g, g', ts, _, res, h, h', rfl, hreach, he, hsz, fun a n ha hc hn => k1 a n ha (fun hm => ?_) hn, k2, readsFirst_of hold hrf, h8, ho, clean_of hold hcl, hr,
    fun hh => hn5 ((neededB_iff hold).2 hh)⟩
  rcases List.mem_cons.1 hm with rfl | hm
  · exact hc 7 1 .refl ((isUpdate_mayWrite h7).2 (by simp))
  · rw [List.mem_singleton.1 hm] at hc
    exact hc 8 0 .refl ((isUpdate_mayWrite h8).2 (by simp))

/-- **C45** violated, and the order of the parameters matters: `y² / 2` with `y = w1 * w2`, `w1 = 2`, `w2 = 3` and learning rate 1. The gradients are 18 and 12. With the parameters
in the order `w2`, `w1` the step is `2 - 18`, `3 - 12`; in the order `w1`, `w2` the parameter `w1` becomes `2 - 6 * (3 - 12) = 56`. -/
theorem C45_order_violated :
    ∃ g ts, (Graph.empty : Graph UpdOp).execAll updOps ordCmds = .ok (g, ts) ∧
      (∃ res, eval updSem g 100 [5, 6] [] [updNum 2, updNum 3] () = some (.ok res) ∧ res.results.map (fun r => r.toOption.map (fun a => a.get [])) = [some 18, some 12]) ∧
      (∃ g' us env', sgdLoop .sgd g [(1, 6), (0, 5)] = .ok (g', us) ∧ runUpdates updSem g' 100 us [] [updNum 2, updNum 3] () = some (.ok env') ∧
        env'.map (fun a => a.get []) = [2 - 18, 3 - 12]) ∧
      ∃ g' us env', sgdLoop .sgd g [(0, 5), (1, 6)] = .ok (g', us) ∧ runUpdates updSem g' 100 us [] [updNum 2, updNum 3] () = some (.ok env') ∧
        env'.map (fun a => a.get []) = [56, 3 - 12] := by
  refine ⟨_, _, rfl, ⟨_, rfl, ?_⟩, ⟨_, _, _, rfl, rfl, ?_⟩, _, _, _, rfl, rfl, ?_⟩
  · norm_num [Except.toOption, ofFn, updNum]
  · show [(2 : ℚ) - 1 * ((1 * 2) * 3 * 3), 3 - 1 * ((1 * 2) * 3 * (1 * 2))] = [2 - 18, 3 - 12]
    norm_num
  · show [(2 : ℚ) - 1 * ((1 * 2) * 3 * (3 - 1 * ((1 * 2) * 3 * (1 * 2)))), 3 - 1 * ((1 * 2) * 3 * (1 * 2))] = [56, 3 - 12]
    norm_num

/-! ## C67 `get_update_op` -/

/-- **C67** Evaluating the tensor made by `get_update_op` does what `update` does: if the evaluation of the update tensors returns with the variables `env'`, then evaluating the tensor
returns, with the same variables, and its result is the scalar 0; if it panics, so does evaluating the tensor. (`us`: the tensors made by `compute_updates`, whose ops write to
variables and return the scalar 0; at least one.) -/
theorem C67_same_step [Field R] (O : Ops Op) (G : GradOps Op) (S : Sem Op (Arr R) E W) (g g' : Graph Op) (hg : Reachable O g) (hg' : Reachable O g') (us : List Nat) (hnd : us.Nodup) (up : Nat)
    (hup : updateOp G g us = some (.ok (g', up)))
    (hS : ∀ u ∈ us, IsOp g u ∧ ∀ n, g.nodes[u]? = some n → ∃ wr : List (OpInput (Arr R)) → Res (List (Nat × Arr R)), ∀ w xs, S.compute n.op w xs = mutOutcome (wr xs) w)
    (hA : ∀ w xs y, Nd.addN (xs.map OpInput.val) = .ok y → S.compute G.addN w xs = .done w [] [y] (.ok ()))
    (feeds : List (Feed (Arr R))) (env : List (Arr R)) (w : W) (fuel : Nat) :
    (∀ env', runUpdates S g fuel us feeds env w = some (.ok env') →
      ∃ fuel' res y, eval S g' fuel' [up] feeds env w = some (.ok res) ∧ res.env = env' ∧ res.results = [.ok y] ∧ y.shape = [] ∧ y.get [] = 0) ∧
    ∀ p, eval S g fuel us feeds env w = some (.error p) → ∃ fuel', eval S g' fuel' [up] feeds env w = some (.error p) := by
  have hop : ∀ u ∈ us, IsOp g u := fun u hu => (hS u hu).1
  have hz : ∀ u ∈ us, ∀ n, g.nodes[u]? = some n → ∀ w xs w' ws ys st, S.compute n.op w xs = .done w' ws ys st → ys = [ofFn [] (fun _ => (0 : R))] := by
    intro u hu n hn w xs w' ws ys st hc
    obtain ⟨wr, hw⟩ := (hS u hu).2 n hn
    rw [hw] at hc
    unfold mutOutcome at hc
    split at hc
    · cases hc; rfl
    · cases hc
  refine ⟨fun env' h => ?_, fun p h => ⟨_, updateOp_panics (O := G) hg.wf hg'.wf hop hup (updates_panic hg.wf hnd hop hz h)⟩⟩
  obtain ⟨res, y, h1, h2, h3, h4⟩ := updateOp_runs (O := G) (P := fun y => y.shape = [] ∧ y.get [] = 0) hg.wf hg'.wf hop hz ⟨rfl, rfl⟩ (fun k w hk => by
    obtain ⟨y, h1, h2, h3⟩ := C53_add_n_partial (List.replicate k (ofFn [] (fun _ => (0 : R)))) [] (by simp; omega) (by simp [ofFn])
    refine ⟨y, ⟨h2, ?_⟩, hA w _ y (by rw [List.map_replicate]; exact h1)⟩
    rw [h3 [] (by simp [InB])]
    simp [ofFn]) hup h 0
  exact ⟨_, res, y, h1, h2, h3, h4⟩

/-- Two parameters: the graph of `get_update_op` and what the hypotheses say about it. -/
example : ∃ g g1 g' ts us up env', (Graph.empty : Graph UpdOp).execAll updOps ordCmds = .ok (g, ts) ∧ sgdLoop .sgd g [(1, 6), (0, 5)] = .ok (g1, us) ∧
    updateOp updGrad g1 us = some (.ok (g', up)) ∧ us.Nodup ∧ us = [7, 8] ∧ up = 10 ∧ Reachable updOps g1 ∧ Reachable updOps g' ∧
    (∀ u ∈ us, IsOp g1 u ∧ ∀ n, g1.nodes[u]? = some n → ∃ wr : List (OpInput (Arr ℚ)) → Res (List (Nat × Arr ℚ)), ∀ w xs, updSem.compute n.op w xs = mutOutcome (wr xs) w) ∧
    (∀ w xs y, Nd.addN (xs.map OpInput.val) = .ok y → updSem.compute updGrad.addN w xs = .done w [] [y] (.ok ())) ∧
    runUpdates updSem g1 100 us [] [updNum 2, updNum 3] () = some (.ok env') := by
  obtain ⟨g, g1, g', ts, us, up, h, h', hup, rfl, rfl, hops, hv, hcs, env', he⟩ : ∃ g g1 g' ts us up, (Graph.empty : Graph UpdOp).execAll updOps ordCmds = .ok (g, ts) ∧
    sgdLoop .sgd g [(1, 6), (0, 5)] = .ok (g1, us) ∧ updateOp updGrad g1 us = some (.ok (g', up)) ∧ us = [7, 8] ∧ up = 10 ∧
    (∀ u ∈ [7, 8], IsOp g1 u ∧ (g1.nodes[u]?).map Node.op = some .sgd) ∧
    (VarTensor g 0 0 ∧ VarTensor g 1 1 ∧ g.size = 7 ∧ ∀ n ∈ g.nodes, ∀ i ∈ n.incoming, i.allowMut = false) ∧
    g1.execAll updOps [.build { inNodes := [⟨7, false, 0⟩], differentiable := false } .const, .build { inNodes := [⟨7, false, 0⟩, ⟨8, false, 0⟩], shape := some 9 } .addN] = .ok (g', [9, 10]) ∧
    ∃ env', runUpdates updSem g1 100 us [] [updNum 2, updNum 3] () = some (.ok env') :=
    ⟨_, _, _, _, _, _, rfl, rfl, rfl, rfl, rfl, by
      intro u hu
      rcases List.mem_cons.1 hu with rfl | hu
      · exact ⟨⟨_, rfl, rfl, rfl⟩, rfl⟩
      · rw [List.mem_singleton.1 hu]; exact ⟨⟨_, rfl, rfl, rfl⟩, rfl⟩, ⟨⟨_, rfl, rfl⟩, ⟨_, rfl, rfl⟩, rfl, by decide⟩, rfl, _, rfl⟩
  have hreach : Reachable updOps g1 := (C44_update_sgd updOps updSem .sgd g g1 (Reachable.init.all h) [(1, 6), (0, 5)] [7, 8]
    (by obtain ⟨v0, v1, v2, _⟩ := hv; simp [v2]; exact ⟨⟨1, v1⟩, ⟨0, v0⟩⟩)
    (fun a vid _ ⟨n, c1, i, c2, c3, _⟩ => by rw [hv.2.2.2 n (List.mem_of_getElem? c1) i c2] at c3; cases c3) h' (by simp)).1
  refine ⟨g, g1, g', ts, _, _, env', h, h', hup, by simp, rfl, rfl, hreach, hreach.all hcs, fun u hu => ⟨(hops u hu).1, fun n hn => ⟨sgdWrites 1, fun w xs => ?_⟩⟩, fun w xs y hy => ?_, he⟩
  · have := (hops u hu).2
    rw [hn] at this
    have e : n.op = .sgd := by simpa using this
    rw [e]
    rfl
  · show updCompute .addN w xs = _
    simp only [updCompute, hy]

/-- **C67** Other targets evaluated in the same run, before the tensor in the list, do not change what it does to the variables, if they need no ops that write apart from the updates. -/
theorem C67_with_other_targets (O : Ops Op) (S : Sem Op V E W) (g : Graph Op) (hg : Reachable O g) (ts : List Nat) (up : Nat) (ht : ∀ t ∈ ts ++ [up], t < g.size)
    (hno : ∀ a vid, Needed g ts a → ¬ Needed g [up] a → ¬ MayWrite g a vid) (feeds : List (Feed V)) (env : List V) (w : W) (fuel fuel' : Nat) (res res' : EvalResult V E W)
    (h : eval S g fuel (ts ++ [up]) feeds env w = some (.ok res)) (h' : eval S g fuel' [up] feeds env w = some (.ok res')) : res.env = res'.env :=
  eval_env_first hg.wf ht h h' hno

/-- **C67** (partial: under `hrf`, see `C67_loss_violated`) The loss of the training loops that push the loss and the tensor made by `get_update_op` in one evaluation: the updates
are executed before the loss. If no variable is read by a new op after its update, then the value returned for the loss is its value before the step, and the gradients read by the
updates are those before the step. -/
theorem C67_loss_before_step_partial (O : Ops Op) (S : Sem Op V E W) (g : Graph Op) (hg : Reachable O g) (addN : Op) (us : List Nat) (up : Nat) (hup : IsApp g up addN us) (ts : List Nat)
    (ht : ∀ t ∈ ts ++ [up], t < g.size) (fuel : Nat) (feeds : List (Feed V)) (env : List V) (w : W) (res : EvalResult V E W) (f : Op → List (OpInput V) → Option (Except E (List V)))
    (h : eval S g fuel (ts ++ [up]) feeds env w = some (.ok res))
    (hpure : ∀ a n, Needed g (ts ++ [up]) a → Clean g a → g.nodes[a]? = some n → Computes S n.op (f n.op))
    (hwr : ∀ a vid, Needed g (ts ++ [up]) a → MayWrite g a vid → a ∈ us)
    (hrf : ReadsFirst g (us.reverse ++ up :: ts.reverse)) :
    (∀ (i t : Nat) r, ts[i]? = some t → res.results[i]? = some r → IsOp g t → Clean g t → TargetMeans f S.shapeOf g feeds env t r) ∧
    ∀ u ∈ us, ∀ o pv svs gr x, IsUpdate g o pv svs u gr → IsOp g gr.id → Clean g gr.id → InputRead S g feeds env w res.log u gr x → InputMeans f S.shapeOf g feeds env gr x := by
  have hw := hg.wf
  obtain ⟨l1, l2, l3, final, l4, _, l5⟩ := eval_log hw ht h
  have hv := eval_visits hw ht h
  rw [List.reverse_append] at hv
  obtain ⟨n, hn, hno, hin, hp, hva⟩ := hup
  have hop : IsOp g up := ⟨n, hn, hp, hva⟩
  have hids : n.incoming.map Incoming.id = us := by rw [hin, List.map_map]; simp [Function.comp_def]
  have hv2 := hv.inputs_first l1 hop hn
  rw [hids] at hv2
  have hneed : ∀ a, Needed g (us.reverse ++ up :: ts.reverse) a → Needed g (ts ++ [up]) a := fun a ha => (l2 a).1 ((hv2.mem_iff a).2 ha)
  obtain ⟨k1, k2⟩ := readsFirst_means (f := f) hw l4 hv2 l1 (fun a n ha => hpure a n (hneed a ha)) (fun a vid ha hm => by simp [hwr a vid (hneed a ha) hm]) hrf
  refine ⟨fun i t r hi hr ho hc => ?_, fun u hu o pv svs gr x hiu ho hc hx => ?_⟩
  · obtain ⟨r', h5, h6⟩ := (forall₂_get l5).2 i t (by rw [List.getElem?_append_left (List.getElem?_eq_some_iff.1 hi).1]; exact hi)
    rw [hr] at h5; cases h5
    obtain ⟨m, hm, hp, hv⟩ := ho
    cases h6 with
    | variable_ hn' hv' => rw [hm] at hn'; cases hn'; rw [hv] at hv'; cases hv'
    | placeholder hn' _ hf => obtain ⟨_, _, hp', _⟩ := hf; rw [hm] at hn'; cases hn'; rw [hp] at hp'; cases hp'
    | result _ h7 h8 => exact .result (k1 t _ hc h7) h8
    | failed _ h7 => exact .failed (k1 t _ hc h7)
  · obtain ⟨n, p, ss, hn, _, hin, _⟩ := hiu
    refine k2 u gr n x (by simp [hu]) hn (by simp [hin]) (fun _ => hc) (fun m vid before u' after hm hv => ?_) hx
    obtain ⟨m', hm', _, hv'⟩ := ho
    rw [hm] at hm'; cases hm'
    rw [hv] at hv'; cases hv'

/-- Two parameters, and the tensor `y` of the example evaluated in the same run. -/
example : ∃ g' res, Reachable updOps g' ∧ IsApp g' 10 .addN [7, 8] ∧ (∀ t ∈ [4] ++ [10], t < g'.size) ∧ eval updSem g' 100 ([4] ++ [10]) [] [updNum 2, updNum 3] () = some (.ok res) ∧
    (∀ a n, Needed g' ([4] ++ [10]) a → Clean g' a → g'.nodes[a]? = some n → Computes updSem n.op (ordMeaning n.op)) ∧
    (∀ a vid, Needed g' ([4] ++ [10]) a → MayWrite g' a vid → a ∈ [7, 8]) ∧ ReadsFirst g' ([7, 8].reverse ++ 10 :: [4].reverse) ∧
    (∀ a vid, Needed g' [4] a → ¬ Needed g' [10] a → ¬ MayWrite g' a vid) ∧ IsOp g' 4 ∧ Clean g' 4 ∧ IsUpdate g' .sgd 0 [] 8 { id := 5 } ∧ IsOp g' 5 ∧ Clean g' 5 ∧
    res.results.map (fun r => r.toOption.map (fun a => a.get [])) = [some 6, some 0] := by
  obtain ⟨g, g1, g', ts, us, up, h, h', hup, rfl, rfl, hv, hcs, ha, hold, hrf, hops, hcl4, hcl5, ho4, ho5, h7, h8, hsz, hr, res, he⟩ :
    ∃ g g1 g' ts us up, (Graph.empty : Graph UpdOp).execAll updOps ordCmds = .ok (g, ts) ∧
    sgdLoop .sgd g [(1, 6), (0, 5)] = .ok (g1, us) ∧ updateOp updGrad g1 us = some (.ok (g', up)) ∧ us = [7, 8] ∧ up = 10 ∧
    (VarTensor g 0 0 ∧ VarTensor g 1 1 ∧ g.size = 7 ∧ ∀ n ∈ g.nodes, ∀ i ∈ n.incoming, i.allowMut = false) ∧
    g1.execAll updOps [.build { inNodes := [⟨7, false, 0⟩], differentiable := false } .const, .build { inNodes := [⟨7, false, 0⟩, ⟨8, false, 0⟩], shape := some 9 } .addN] = .ok (g', [9, 10]) ∧
    IsApp g' 10 .addN [7, 8] ∧ olderB g' = true ∧ readsFirstB g' [] [8, 7, 10, 4] = true ∧ ordOpsB g' [4, 10] [7, 8] [7, 8, 10] = true ∧ cleanB g' 4 = true ∧ cleanB g' 5 = true ∧
    IsOp g' 4 ∧ IsOp g' 5 ∧ IsUpdate g' .sgd 1 [] 7 { id := 6 } ∧ IsUpdate g' .sgd 0 [] 8 { id := 5 } ∧ (∀ t ∈ [4] ++ [10], t < g'.size) ∧
    (∀ res, eval updSem g' 100 [4, 10] [] [updNum 2, updNum 3] () = some (.ok res) → res.results.map (fun r => r.toOption.map (fun a => a.get [])) = [some 6, some 0]) ∧
    ∃ res, eval updSem g' 100 [4, 10] [] [updNum 2, updNum 3] () = some (.ok res) := by
    refine ⟨_, _, _, _, _, _, rfl, rfl, rfl, rfl, rfl, ⟨⟨_, rfl, rfl⟩, ⟨_, rfl, rfl⟩, rfl, by decide⟩, rfl, ⟨_, rfl, rfl, rfl, rfl, rfl⟩, by decide, by decide, by decide, by decide, by decide,
      ⟨_, rfl, rfl, rfl⟩, ⟨_, rfl, rfl, rfl⟩, ⟨_, ⟨1, true, 0⟩, [], rfl, rfl, rfl, ⟨rfl, _, rfl, rfl, rfl⟩, rfl, .nil⟩, ⟨_, ⟨0, true, 0⟩, [], rfl, rfl, rfl, ⟨rfl, _, rfl, rfl, rfl⟩, rfl, .nil⟩,
      by decide, ?_, _, rfl⟩
    intro res hr
    cases hr
    show [some ((1 : ℚ) * 2 * 3), some (0 + 0)] = [some 6, some 0]
    norm_num
  have hold := older_iff hold
  have hreach : Reachable updOps g1 := (C44_update_sgd updOps updSem .sgd g g1 (Reachable.init.all h) [(1, 6), (0, 5)] [7, 8]
    (by obtain ⟨v0, v1, v2, _⟩ := hv; simp [v2]; exact ⟨⟨1, v1⟩, ⟨0, v0⟩⟩)
    (fun a vid _ ⟨n, c1, i, c2, c3, _⟩ => by rw [hv.2.2.2 n (List.mem_of_getElem? c1) i c2] at c3; cases c3) h' (by simp)).1
  obtain ⟨k1, k2⟩ := ordOps_of hold hops
  have m7 : MayWrite g' 7 1 := (isUpdate_mayWrite h7).2 (by simp)
  have m8 : MayWrite g' 8 0 := (isUpdate_mayWrite h8).2 (by simp)
  have u7 : Uses g' 10 7 := by
    obtain ⟨n, hn, _, hin, _⟩ := ha
    obtain ⟨m, p, ss, hm, _⟩ := h7
    exact ⟨⟨n, hn, ⟨7, false, 0⟩, by rw [hin]; simp, rfl⟩, mayWrite_isOp (hreach.all hcs).wf m7⟩
  refine ⟨g', res, hreach.all hcs, ha, hsz, he, fun a n hna hc hn => k1 a n hna (fun hm => ?_) hn, k2, readsFirst_of hold hrf, fun a vid h1 h2 hm => ?_, ho4, clean_of hold hcl4, h8, ho5, clean_of hold hcl5, hr res he⟩
  · simp only [List.mem_cons, List.not_mem_nil, or_false] at hm
    rcases hm with rfl | rfl | rfl
    · exact hc 7 1 .refl m7
    · exact hc 8 0 .refl m8
    · exact hc 7 1 (.single u7) m7
  · obtain ⟨t, ht, _, hta⟩ := h1
    rw [List.mem_singleton.1 ht] at hta
    exact clean_of hold hcl4 a vid hta hm

/-- **C67** violated: the loss `1 * w` with `w = 5` and learning rate 1. Evaluated together with the tensor of `get_update_op`, as in the examples `cnn_mnist` and `sine`
(`push(loss).push(update_op)`), the loss is 4, the value after the step; alone, or when the tensor is listed first, it is 5. -/
theorem C67_loss_violated :
    ∃ g g1 g' ts us up, (Graph.empty : Graph UpdOp).execAll updOps [.var 0, .build {} .one, .build { inNodes := [⟨1, false, 0⟩, ⟨0, false, 0⟩] } .mul] = .ok (g, ts) ∧
      sgdLoop .sgd g [(0, 1)] = .ok (g1, us) ∧ updateOp updGrad g1 us = some (.ok (g', up)) ∧
      (∃ res, eval updSem g' 100 [2] [] [updNum 5] () = some (.ok res) ∧ res.results.map (fun r => r.toOption.map (fun a => a.get [])) = [some 5]) ∧
      (∃ res, eval updSem g' 100 [2, up] [] [updNum 5] () = some (.ok res) ∧ res.results.map (fun r => r.toOption.map (fun a => a.get [])) = [some 4, some 0]) ∧
      ∃ res, eval updSem g' 100 [up, 2] [] [updNum 5] () = some (.ok res) ∧ res.results.map (fun r => r.toOption.map (fun a => a.get [])) = [some 0, some 5] := by
  refine ⟨_, _, _, _, _, _, rfl, rfl, rfl, ⟨_, rfl, ?_⟩, ⟨_, rfl, ?_⟩, _, rfl, ?_⟩
  · show [some ((1 : ℚ) * 5)] = [some 5]
    norm_num
  · show [some ((1 : ℚ) * (5 - 1 * 1)), some 0] = [some 4, some 0]
    norm_num
  · show [some (0 : ℚ), some (1 * 5)] = [some 0, some 5]
    norm_num

end Verif.Props
