import Mathlib.Data.Rat.Defs
import Mathlib.Algebra.Field.Rat
import Mathlib.Tactic.NormNum
import Verif.Lemmas.OptimizerRuns
import Verif.Props.OptimizerState

/-! # Property theorems about optimizer updates and assignments: C44

`S` is any interpretation of ops that interprets `o` as the update op in question (hypothesis `hS`); elements are those of any field. -/

namespace Verif.Props
open Verif Verif.Spec Verif.Eval Verif.Graph Verif.Opt Verif.OptState Verif.Nd Relation
variable {Op V E W R : Type} [Field R]

/-! ## C44 The update formulas -/

/-- **C44** SGD: after any training history with the gradients `gs` the parameter is given by `p ← p - α g`. -/
theorem C44_sgd (O : Ops Op) (S : Sem Op (Arr R) E W) (o : Op) (alpha : R)
    (hS : ∀ w xs, S.compute o w xs = mutOutcome (sgdWrites alpha xs) w) (pv : Nat) (env0 env gs : List (Arr R)) (p : Arr R)
    (hp : env0[pv]? = some p) (h : Training O S o pv [] env0 gs env) :
    ∃ p', env[pv]? = some p' ∧ p'.shape = p.shape ∧ (∀ a ∈ gs, BroadcastsTo a.shape p.shape) ∧
      ∀ idx g, InB idx p.shape → GradAt gs idx g → p'.get idx = sgdParam alpha (p.get idx) g gs.length := by
  obtain ⟨vals', h1, h2⟩ := training_steps (svs := []) (by simp) (sgd_updatesBy hS) (vals := [p]) (.cons hp .nil) h
  obtain ⟨p', rfl, h3, h4, h5⟩ := sgd_steps h1
  cases h2 with
  | cons h6 _ => exact ⟨p', h6, h3, h4, h5⟩

/-- **C44** MomentumSGD, with the state made by `MomentumSGD::new`: after any training history with the gradients `gs` parameter and
velocity are given by `v ← μ v - η g`, `p ← p + v`, starting from `v = 0`. -/
theorem C44_momentum (O : Ops Op) (S : Sem Op (Arr R) E W) (o : Op) (lr mu : R)
    (hS : ∀ w xs, S.compute o w xs = mutOutcome (momentumWrites lr mu xs) w) (z : Arr R → Arr R) (hz : ZerosLike z)
    (ns : Str) (e0 e1 : VarEnv (Arr R)) (vids : List Nat) (hnew : singleNew z ns e0 vids = .ok e1)
    (pv : Nat) (hv : pv ∈ vids) (p : Arr R) (hp : e0.getById pv = some p) :
    ∃ s, singleState e1 ns pv = some s ∧ ∀ env gs, Training O S o pv [s] e1.arrays gs env →
      ∃ p' v', env[pv]? = some p' ∧ env[s]? = some v' ∧ p'.shape = p.shape ∧ v'.shape = p.shape ∧
        (∀ a ∈ gs, BroadcastsTo a.shape p.shape) ∧
        ∀ idx g, InB idx p.shape → GradAt gs idx g →
          p'.get idx = momentumParam lr mu (p.get idx) g gs.length ∧ v'.get idx = momentumVel lr mu g gs.length := by
  obtain ⟨s, z0, h1, h2, h3, h4, h5⟩ := single_start hz hnew hv hp
  refine ⟨s, h1, fun env gs h => ?_⟩
  obtain ⟨vals', i1, i2⟩ := training_steps h2 (momentum_updatesBy hS) h3 h
  obtain ⟨p', v', rfl, i3, i4, i5, i6⟩ := momentum_steps h4 (fun idx _ => h5 idx) i1
  cases i2 with
  | cons a b => cases b with | cons b _ => exact ⟨p', v', a, b, i3, i4, i5, i6⟩

/-- **C44** AdaGrad, with the state made by `AdaGrad::new`: `h ← h + g²`, `p ← p - η g / (√h + 10⁻⁷)`, starting from `h = 0`. -/
theorem C44_adagrad (O : Ops Op) (S : Sem Op (Arr R) E W) (o : Op) (sqrt : R → R) (lr : R)
    (hS : ∀ w xs, S.compute o w xs = mutOutcome (adagradWrites sqrt lr xs) w) (z : Arr R → Arr R) (hz : ZerosLike z)
    (ns : Str) (e0 e1 : VarEnv (Arr R)) (vids : List Nat) (hnew : singleNew z ns e0 vids = .ok e1)
    (pv : Nat) (hv : pv ∈ vids) (p : Arr R) (hp : e0.getById pv = some p) :
    ∃ s, singleState e1 ns pv = some s ∧ ∀ env gs, Training O S o pv [s] e1.arrays gs env →
      ∃ p' h', env[pv]? = some p' ∧ env[s]? = some h' ∧ p'.shape = p.shape ∧ h'.shape = p.shape ∧
        (∀ a ∈ gs, BroadcastsTo a.shape p.shape) ∧
        ∀ idx g, InB idx p.shape → GradAt gs idx g →
          p'.get idx = adagradParam sqrt lr (p.get idx) g gs.length ∧ h'.get idx = adagradAcc g gs.length := by
  obtain ⟨s, z0, h1, h2, h3, h4, h5⟩ := single_start hz hnew hv hp
  refine ⟨s, h1, fun env gs h => ?_⟩
  obtain ⟨vals', i1, i2⟩ := training_steps h2 (adagrad_updatesBy hS) h3 h
  obtain ⟨p', v', rfl, i3, i4, i5, i6⟩ := adagrad_steps h4 (fun idx _ => h5 idx) i1
  cases i2 with
  | cons a b => cases b with | cons b _ => exact ⟨p', v', a, b, i3, i4, i5, i6⟩

/-- **C44** Adam, with the state made by `Adam::new`: both moments are the exponential moving averages of the gradients and of their
squares, the parameter follows the bias-corrected rule, and the step counter is one more than the number of updates. -/
theorem C44_adam (O : Ops Op) (S : Sem Op (Arr R) E W) (o : Op) (sqrt : R → R) (powf : R → R → R) (cfg : AdamCfg R)
    (hpow : ∀ (b : R) (n : Nat), powf b (n : R) = b ^ n)
    (hS : ∀ w xs, S.compute o w xs = mutOutcome (adamWrites sqrt powf cfg xs) w) (z : Arr R → Arr R) (hz : ZerosLike z)
    (one : Arr R) (hone : one.shape = [] ∧ one.get [] = 1)
    (ns : Str) (hist : List (VarAction (Arr R))) (e0 e1 : VarEnv (Arr R)) (H : VarHist hist e0) (vids : List Nat)
    (hnew : adamNew z one ns e0 vids = .ok e1)
    (pv : Nat) (hv : pv ∈ vids) (p : Arr R) (hp : e0.getById pv = some p) :
    ∃ m v t, adamState e1 ns pv = some (m, v, t) ∧ ∀ env gs, Training O S o pv [m, v, t] e1.arrays gs env →
      ∃ p' m' v' t', env[pv]? = some p' ∧ env[m]? = some m' ∧ env[v]? = some v' ∧ env[t]? = some t' ∧
        p'.shape = p.shape ∧ m'.shape = p.shape ∧ v'.shape = p.shape ∧ t'.shape = [] ∧ t'.get [] = (gs.length : R) + 1 ∧
        (∀ a ∈ gs, BroadcastsTo a.shape p.shape) ∧
        ∀ idx g, InB idx p.shape → GradAt gs idx g →
          p'.get idx = adamParam sqrt cfg.alpha cfg.eps cfg.b1 cfg.b2 (p.get idx) g gs.length ∧
          m'.get idx = movingAvg cfg.b1 g gs.length ∧ v'.get idx = movingAvg cfg.b2 (fun j => g j ^ 2) gs.length := by
  obtain ⟨m, v, t, a, h1, h2, h3, h4, h5, h6, h7, h8⟩ := adamNew_state hnew hv
  have hpa := (C46_adam_fresh_state z one ns e0 e1 vids hnew).1 pv p hp
  rw [h2] at hpa
  cases hpa
  have hlt : pv < e0.arrays.length := (List.getElem?_eq_some_iff.1 hp).1
  obtain ⟨hist', H'⟩ := adamNew_hist H hnew
  obtain ⟨d1, d2, d3⟩ := (C46_state_not_shared hist' e1 H' ns ns pv pv).1 m v t h1
  refine ⟨m, v, t, h1, fun env gs h => ?_⟩
  have hnd : [pv, m, v, t].Nodup := by
    simp only [List.nodup_cons, List.mem_cons, List.not_mem_nil, or_false, not_or, not_false_eq_true, List.nodup_nil, and_true]
    exact ⟨⟨by omega, by omega, by omega⟩, ⟨d1, d2⟩, d3⟩
  obtain ⟨vals', i1, i2⟩ := training_steps hnd (adam_updatesBy hS) (vals := [p, z p, z p, one])
    (.cons h2 (.cons h3 (.cons h4 (.cons h5 .nil)))) h
  obtain ⟨p', m', v', t', rfl, i3, i4, i5, i6, i7, i8, i9⟩ :=
    adam_steps hpow (hz p).1 (fun idx _ => (hz p).2 idx) (hz p).1 (fun idx _ => (hz p).2 idx) hone.1 hone.2 i1
  cases i2 with
  | cons a1 b => cases b with
    | cons a2 b => cases b with
      | cons a3 b => cases b with
        | cons a4 _ => exact ⟨p', m', v', t', a1, a2, a3, a4, i3, i4, i5, i6, i7, i8, i9⟩

/-! ## C44 `Optimizer::update` makes such a step -/

/-- **C44** `update` of the optimizers with state. If the parameters are different variables and none of them is itself a state variable
of this optimizer, and if the gradients have no side effects, then a successful `update` uses each parameter's own state and makes exactly
one update of it; it changes nothing but the parameters and their states. (`stateNames` is `adamNames` or `singleNames`, see
`adamNames_separate`, `singleNames_separate` for the hypothesis `hsep`.) -/
theorem C44_update (O : Ops Op) (S : Sem Op V E W) (o : Op) {A : Type} (hist : List (VarAction A)) (venv : VarEnv A) (H : VarHist hist venv)
    (ns : Str) (stateNames : Nat → List Str) (hsep : ∀ v v' s, s ∈ stateNames v → s ∈ stateNames v' → v = v')
    (g g' : Graph Op) (hg : Reachable O g) (pgs : List (Nat × Nat)) (us : List Nat)
    (hpg : ∀ pg ∈ pgs, pg.1 < g.size ∧ pg.2 < g.size) (hro : ∀ a vid, Needed g (pgs.map Prod.snd) a → ¬ MayWrite g a vid)
    (h : updatesLoop O.varOp o venv ns stateNames g pgs = .ok (g', us))
    (hdist : (pgs.map Prod.fst).Nodup)
    (hns : ∀ pg ∈ pgs, ∀ pg' ∈ pgs, ∀ vid vid' s, VarTensor g pg.1 vid → VarTensor g pg'.1 vid' → s ∈ stateNames vid' →
      venv.names.get ⟨ns, s⟩ ≠ some vid) :
    Reachable O g' ∧ (∀ u ∈ us, u < g'.size) ∧ us.length = pgs.length ∧
    (∀ (j p gr u : Nat), pgs[j]? = some (p, gr) → us[j]? = some u → ∃ vid svs, VarTensor g p vid ∧
      List.Forall₂ (fun name sv => venv.names.get ⟨ns, name⟩ = some sv) (stateNames vid) svs ∧
      UpdatesOnce S o g' us vid svs u gr) ∧
    (∀ fuel feeds env w env', runUpdates S g' fuel us feeds env w = some (.ok env') → ∀ vid,
      (∀ pg ∈ pgs, ∀ v, VarTensor g pg.1 v → vid ≠ v ∧ ∀ s ∈ stateNames v, venv.names.get ⟨ns, s⟩ ≠ some vid) →
      env'[vid]? = env[vid]?) := by
  have hw := hg.wf
  obtain ⟨d1, _, _, d4, d5⟩ := updatesLoop_ok hw (fun pg hp => (hpg pg hp).1) h
  have hus : ∀ u ∈ us, u < g'.nodes.length := fun u hu => (d4 u hu).2
  have hreach : Reachable O g' := by obtain ⟨cs, ids, h1, _⟩ := d1; exact hg.all h1
  let B : Nat × Nat → Nat → Nat → List Nat → Prop := fun pg u vid svs => VarTensor g pg.1 vid ∧
    List.Forall₂ (fun name sv => venv.names.get ⟨ns, name⟩ = some sv) (stateNames vid) svs ∧ IsUpdate g' o vid svs u { id := pg.2 }
  have hb : List.Forall₂ (fun pg u => ∃ vid svs, B pg u vid svs) pgs us := d5
  have hname : ∀ {names : List Str} {svs : List Nat}, List.Forall₂ (fun name sv => venv.names.get ⟨ns, name⟩ = some sv) names svs →
      ∀ x ∈ svs, ∃ s ∈ names, venv.names.get ⟨ns, s⟩ = some x := by
    intro names svs hf
    induction hf with
    | nil => simp
    | @cons s sv _ _ h1 _ ih =>
      intro x hx
      rcases List.mem_cons.1 hx with rfl | hx
      · exact ⟨s, by simp, h1⟩
      · obtain ⟨s', h2, h3⟩ := ih x hx
        exact ⟨s', by simp [h2], h3⟩
  refine ⟨hreach, hus, hb.length_eq.symm, ?_, ?_⟩
  · intro j p gr u hj hju
    obtain ⟨u', h1, vid, svs, hB⟩ := (forall₂_get hb).2 j _ hj
    rw [hju] at h1; cases h1
    refine ⟨vid, svs, hB.1, hB.2.1, ?_⟩
    refine updatesOnce_of_built (pg := (p, gr)) hw d1 hus (fun pg hp => (hpg pg hp).2) hro (B := B) (fun _ _ _ _ h => h.2.2) hb hj hju hB ?_
    intro k pg' u' vid' svs' hk hku hB' hkj x hx hx'
    have hne : vid ≠ vid' := by
      rintro rfl
      -- the same variable has only one tensor
      obtain ⟨n1, a1, a2⟩ := hB.1
      obtain ⟨n2, b1, b2⟩ := hB'.1
      have e1 := (hw.cache vid p).2 ⟨n1, a1, a2⟩
      have e2 := (hw.cache vid pg'.1).2 ⟨n2, b1, b2⟩
      rw [e1] at e2
      have e3 : pg'.1 = p := (Option.some.inj e2).symm
      refine hkj ?_
      have hk1 := (List.getElem?_eq_some_iff.1 hk).1
      have hj1 := (List.getElem?_eq_some_iff.1 hj).1
      refine (hdist.getElem_inj_iff (hi := by simpa using hk1) (hj := by simpa using hj1)).1 ?_
      simp [(List.getElem?_eq_some_iff.1 hk).2, (List.getElem?_eq_some_iff.1 hj).2, e3]
    have hm := List.mem_of_getElem? hj
    have hm' := List.mem_of_getElem? hk
    rcases List.mem_cons.1 hx with rfl | hx
    · rcases List.mem_cons.1 hx' with rfl | hx'
      · exact hne rfl
      · obtain ⟨s, h2, h3⟩ := hname hB'.2.1 x hx'
        exact hns _ hm _ hm' _ _ s hB.1 hB'.1 h2 h3
    · obtain ⟨s, h2, h3⟩ := hname hB.2.1 x hx
      rcases List.mem_cons.1 hx' with rfl | hx'
      · exact hns _ hm' _ hm _ _ s hB'.1 hB.1 h2 h3
      · obtain ⟨s', h4, h5⟩ := hname hB'.2.1 x hx'
        have := (name_of_id H h3 h5).2
        subst this
        exact hne (hsep _ _ _ h2 h4)
  · intro fuel feeds env w env' hrun vid hvid
    refine runUpdates_frame hw hreach d1 hus (fun pg hp => (hpg pg hp).2) hro (B := B) (fun _ _ _ _ h => h.2.2) hb hrun ?_
    intro pg e1 u v svs e2 hmem
    obtain ⟨c1, c2⟩ := hvid pg e1 v e2.1
    rcases List.mem_cons.1 hmem with rfl | hmem
    · exact c1 rfl
    · obtain ⟨s, e3, e4⟩ := hname e2.2.1 vid hmem
      exact c2 s e3 e4

/-- **C44** `update` of SGD: if the parameters are tensors of different variables and the gradients have no side effects, a successful
`update` makes exactly one update of each parameter and changes nothing else. -/
theorem C44_update_sgd (O : Ops Op) (S : Sem Op V E W) (o : Op) (g g' : Graph Op) (hg : Reachable O g) (pgs : List (Nat × Nat)) (us : List Nat)
    (hpg : ∀ pg ∈ pgs, (∃ vid, VarTensor g pg.1 vid) ∧ pg.2 < g.size)
    (hro : ∀ a vid, Needed g (pgs.map Prod.snd) a → ¬ MayWrite g a vid)
    (h : sgdLoop o g pgs = .ok (g', us)) (hdist : (pgs.map Prod.fst).Nodup) :
    Reachable O g' ∧ (∀ u ∈ us, u < g'.size) ∧ us.length = pgs.length ∧
    (∀ (j p gr u : Nat), pgs[j]? = some (p, gr) → us[j]? = some u → ∃ vid, VarTensor g p vid ∧ UpdatesOnce S o g' us vid [] u gr) ∧
    (∀ fuel feeds env w env', runUpdates S g' fuel us feeds env w = some (.ok env') → ∀ vid,
      (∀ pg ∈ pgs, ∀ v, VarTensor g pg.1 v → vid ≠ v) → env'[vid]? = env[vid]?) := by
  have hw := hg.wf
  obtain ⟨d1, _, _, d4, d5⟩ := sgdLoop_ok (O := O) hw (fun pg hp => (hpg pg hp).1) h
  have hus : ∀ u ∈ us, u < g'.nodes.length := fun u hu => (d4 u hu).2
  have hreach : Reachable O g' := by obtain ⟨cs, ids, h1, _⟩ := d1; exact hg.all h1
  let B : Nat × Nat → Nat → Nat → List Nat → Prop := fun pg u vid svs => svs = [] ∧ VarTensor g pg.1 vid ∧
    IsUpdate g' o vid [] u { id := pg.2 }
  have hb : List.Forall₂ (fun pg u => ∃ vid svs, B pg u vid svs) pgs us :=
    List.Forall₂.imp (fun pg u ⟨vid, h1, h2⟩ => ⟨vid, [], rfl, h1, h2⟩) d5
  refine ⟨hreach, hus, hb.length_eq.symm, ?_, fun fuel feeds env w env' hrun vid hvid => ?_⟩
  swap
  · refine runUpdates_frame hw hreach d1 hus (fun pg hp => (hpg pg hp).2) hro (B := B)
      (fun _ _ _ _ h => by obtain ⟨rfl, _, h⟩ := h; exact h) hb hrun ?_
    rintro pg e1 u v svs ⟨rfl, e2, _⟩ hmem
    simp only [List.mem_cons, List.not_mem_nil, or_false] at hmem
    exact hvid pg e1 v e2 hmem
  intro j p gr u hj hju
  obtain ⟨u', h1, vid, svs, hB⟩ := (forall₂_get hb).2 j _ hj
  rw [hju] at h1; cases h1
  obtain ⟨rfl, hv, hiu⟩ := id hB
  refine ⟨vid, hv, ?_⟩
  refine updatesOnce_of_built (pg := (p, gr)) hw d1 hus (fun pg hp => (hpg pg hp).2) hro (B := B)
    (fun _ _ _ _ h => by obtain ⟨rfl, _, h⟩ := h; exact h) hb hj hju hB ?_
  rintro k pg' u' vid' svs' hk hku ⟨rfl, hv', _⟩ hkj x hx hx'
  simp only [List.mem_cons, List.not_mem_nil, or_false] at hx hx'
  subst hx
  subst hx'
  obtain ⟨n1, a1, a2⟩ := hv
  obtain ⟨n2, b1, b2⟩ := hv'
  have e1 := (hw.cache x p).2 ⟨n1, a1, a2⟩
  have e2 := (hw.cache x pg'.1).2 ⟨n2, b1, b2⟩
  rw [e1] at e2
  have e3 : pg'.1 = p := (Option.some.inj e2).symm
  refine hkj ?_
  have hk1 := (List.getElem?_eq_some_iff.1 hk).1
  have hj1 := (List.getElem?_eq_some_iff.1 hj).1
  refine (hdist.getElem_inj_iff (hi := by simpa using hk1) (hj := by simpa using hj1)).1 ?_
  simp [(List.getElem?_eq_some_iff.1 hk).2, (List.getElem?_eq_some_iff.1 hj).2, e3]

/-- **C44** Together with the theorems on training histories: a successful `update` prolongs the history of each of its parameters by one
gradient, the value which the gradient tensor has when the update op is called. -/
theorem C44_update_is_step {Op V E W : Type} (O : Ops Op) (S : Sem Op V E W) (o : Op) (g' : Graph Op) (us : List Nat) (vid : Nat) (svs : List Nat) (u gr : Nat)
    (hg : Reachable O g') (hus : ∀ u ∈ us, u < g'.size) (h1 : UpdatesOnce S o g' us vid svs u gr) (fuel : Nat) (feeds : List (Feed V))
    (env0 gs env env' : List V) (w : W) (h : Training O S o vid svs env0 gs env)
    (hrun : runUpdates S g' fuel us feeds env w = some (.ok env')) :
    ∃ res x, eval S g' fuel us feeds env w = some (.ok res) ∧ InputRead S g' feeds env w res.log u { id := gr } x ∧
      Training O S o vid svs env0 (gs ++ [x]) env' := by
  obtain ⟨h2, _, h3⟩ := h1
  obtain ⟨res, x, h4, rfl, h5, h6⟩ := h3 fuel feeds env w env' hrun
  exact ⟨res, x, h4, h5, .evaluation h hg hus h4 h2 h6⟩

/-! ### Example: two updates of a parameter with two elements -/

/-- Ops of the example: an op that gives the gradient `[1, 1]`, and the update op. -/
inductive TrainOp where
  | ctrl | var | ph | const | ones | upd
  deriving DecidableEq

def trainSem (ws : List (OpInput (Arr ℚ)) → Res (List (Nat × Arr ℚ))) : Sem TrainOp (Arr ℚ) Unit Unit :=
  ⟨fun o w xs => match o with
    | .ones => .done w [] [ofFn [2] (fun _ => 1)] (.ok ())
    | .upd => mutOutcome (ws xs) w
    | _ => .panic, Arr.shape, false⟩

def trainOps : Ops TrainOp := ⟨.ctrl, .var, .ph, fun _ => .const⟩
def trainP : Arr ℚ := ofFn [2] (fun i => i.headD 0)
def trainZ (a : Arr ℚ) : Arr ℚ := ofFn a.shape (fun _ => 0)
def trainEnv : VarEnv (Arr ℚ) := (VarEnv.new.register [] ['w'] trainP).1

theorem trainEnv_hist : VarHist [.register [] ['w'] trainP] trainEnv := VarHist.register [] ['w'] trainP VarHist.new
theorem trainZ_zeros : ZerosLike trainZ := fun _ => ⟨rfl, fun _ => rfl⟩

/-- The parameter tensor and the gradient tensor. -/
def trainCmds : List (Cmd TrainOp) := [.var 0, .build {} .ones]

theorem trainGraph {g : Graph TrainOp} {ts : List Nat} (h : (Graph.empty : Graph TrainOp).execAll trainOps trainCmds = .ok (g, ts)) :
    Reachable trainOps g ∧ g.size = 2 ∧ VarTensor g 0 0 ∧ (∀ v, VarTensor g 0 v → v = 0) ∧ ∀ a vid, ¬ MayWrite g a vid := by
  have h0 : Reachable trainOps g := Reachable.init.all h
  cases h
  refine ⟨h0, rfl, ⟨_, rfl, rfl⟩, ?_, ?_⟩
  · rintro v ⟨n, h1, h2⟩
    cases h1; cases h2; rfl
  · rintro a vid ⟨n, h1, i, h2, h3, _⟩
    have : ∀ n ∈ [({ variableId := some 0 } : Builder).toNode trainOps.varOp 0, ({} : Builder).toNode TrainOp.ones 0],
        ∀ i ∈ n.incoming, i.allowMut = false := by decide
    have := this n (List.mem_of_getElem? h1) i h2
    rw [h3] at this; cases this

example : ∃ gs env, Training trainOps (trainSem (sgdWrites (1 / 2))) .upd 0 [] [trainP] gs env ∧ gs.length = 2 := by
  obtain ⟨g, ts, h⟩ : ∃ g ts, (Graph.empty : Graph TrainOp).execAll trainOps trainCmds = .ok (g, ts) := ⟨_, _, rfl⟩
  obtain ⟨a1, a2, a3, a4, a5⟩ := trainGraph h
  obtain ⟨g', us, h', e1, r1, e2, r2⟩ : ∃ g' us, sgdLoop .upd g [(0, 1)] = .ok (g', us) ∧
      ∃ e1, runUpdates (trainSem (sgdWrites (1 / 2))) g' 100 us [] [trainP] () = some (.ok e1) ∧
      ∃ e2, runUpdates (trainSem (sgdWrites (1 / 2))) g' 100 us [] e1 () = some (.ok e2) := by
    cases h; exact ⟨_, _, rfl, _, rfl, _, rfl⟩
  obtain ⟨b1, b2, b3, b4, _⟩ := C44_update_sgd trainOps (trainSem (sgdWrites (1 / 2))) .upd g g' a1 [(0, 1)] us
    (by simp [a2]; exact ⟨0, a3⟩) (fun a vid _ => a5 a vid) h' (by simp)
  obtain ⟨u, rfl⟩ := List.length_eq_one_iff.1 b3
  obtain ⟨vid, c1, c2⟩ := b4 0 0 1 u rfl rfl
  cases a4 vid c1
  obtain ⟨_, x, _, _, d⟩ := C44_update_is_step trainOps _ _ g' [u] 0 [] u 1 b1 b2 c2 _ _ _ _ _ _ _ .start r1
  obtain ⟨_, y, _, _, d⟩ := C44_update_is_step trainOps _ _ g' [u] 0 [] u 1 b1 b2 c2 _ _ _ _ _ _ _ d r2
  exact ⟨_, _, d, rfl⟩

theorem trainTwice (ws : List (OpInput (Arr ℚ)) → Res (List (Nat × Arr ℚ))) (stateNames : Nat → List Str)
    (hsep : ∀ v v' s, s ∈ stateNames v → s ∈ stateNames v' → v = v') (e0 : VarEnv (Arr ℚ)) (hist : List (VarAction (Arr ℚ)))
    (H : VarHist hist e0) (hn : ∀ s ∈ stateNames 0, e0.names.get ⟨['o'], s⟩ ≠ some 0) {g g' : Graph TrainOp} {ts us : List Nat}
    (h : (Graph.empty : Graph TrainOp).execAll trainOps trainCmds = .ok (g, ts))
    (h' : updatesLoop .var .upd e0 ['o'] stateNames g [(0, 1)] = .ok (g', us)) {e1 e2 : List (Arr ℚ)}
    (r1 : runUpdates (trainSem ws) g' 100 us [] e0.arrays () = some (.ok e1))
    (r2 : runUpdates (trainSem ws) g' 100 us [] e1 () = some (.ok e2)) :
    ∃ svs gs env, List.Forall₂ (fun name sv => e0.names.get ⟨['o'], name⟩ = some sv) (stateNames 0) svs ∧
      Training trainOps (trainSem ws) .upd 0 svs e0.arrays gs env ∧ gs.length = 2 := by
  obtain ⟨a1, a2, a3, a4, a5⟩ := trainGraph h
  obtain ⟨b1, b2, b3, b4, _⟩ := C44_update trainOps (trainSem ws) .upd hist e0 H ['o'] stateNames hsep g g' a1 [(0, 1)] us
    (by simp [a2]) (fun a vid _ => a5 a vid) h' (by simp) (by
      intro pg hpg pg' hpg' vid vid' s hv hv' hs
      simp at hpg hpg'; subst hpg; subst hpg'
      cases a4 _ hv; cases a4 _ hv'; exact hn s hs)
  obtain ⟨u, rfl⟩ := List.length_eq_one_iff.1 b3
  obtain ⟨vid, svs, c1, c3, c2⟩ := b4 0 0 1 u rfl rfl
  cases a4 vid c1
  obtain ⟨_, x, _, _, d⟩ := C44_update_is_step trainOps _ _ g' [u] 0 _ u 1 b1 b2 c2 _ _ _ _ _ _ _ .start r1
  obtain ⟨_, y, _, _, d⟩ := C44_update_is_step trainOps _ _ g' [u] 0 _ u 1 b1 b2 c2 _ _ _ _ _ _ _ d r2
  exact ⟨svs, _, _, c3, d, rfl⟩

/-- A history meeting the hypotheses of `C44_momentum`; `C44_adagrad` likewise below. -/
example : ∃ e1 s, singleNew trainZ ['o'] trainEnv [0] = .ok e1 ∧ singleState e1 ['o'] 0 = some s ∧
    ∃ gs env, Training trainOps (trainSem (momentumWrites (1 / 2) (1 / 3))) .upd 0 [s] e1.arrays gs env ∧ gs.length = 2 := by
  obtain ⟨e1, he⟩ : ∃ e1, singleNew trainZ ['o'] trainEnv [0] = .ok e1 := ⟨_, rfl⟩
  obtain ⟨hist, H⟩ := singleNew_hist trainEnv_hist he
  obtain ⟨g, ts, h, g', us, h', x1, r1, x2, r2, hs⟩ : ∃ g ts, (Graph.empty : Graph TrainOp).execAll trainOps trainCmds = .ok (g, ts) ∧
      ∃ g' us, updatesLoop .var .upd e1 ['o'] singleNames g [(0, 1)] = .ok (g', us) ∧
      ∃ x1, runUpdates (trainSem (momentumWrites (1 / 2) (1 / 3))) g' 100 us [] e1.arrays () = some (.ok x1) ∧
      ∃ x2, runUpdates (trainSem (momentumWrites (1 / 2) (1 / 3))) g' 100 us [] x1 () = some (.ok x2) ∧
      singleState e1 ['o'] 0 = some 1 := by
    cases he; exact ⟨_, _, rfl, _, _, rfl, _, rfl, _, rfl, rfl⟩
  obtain ⟨svs, gs, env, k1, k2, k3⟩ := trainTwice _ singleNames singleNames_separate e1 hist H (by
    intro s hs' e; simp only [singleNames, List.mem_singleton] at hs'; subst hs'; unfold singleState at hs; rw [hs] at e; cases e) h h' r1 r2
  cases k1 with
  | @cons _ b _ _ k4 k5 => cases k5; exact ⟨e1, b, he, k4, gs, env, k2, k3⟩

example : ∃ e1 s, singleNew trainZ ['o'] trainEnv [0] = .ok e1 ∧ singleState e1 ['o'] 0 = some s ∧
    ∃ gs env, Training trainOps (trainSem (adagradWrites (fun x => x) (1 / 2))) .upd 0 [s] e1.arrays gs env ∧ gs.length = 2 := by
  obtain ⟨e1, he⟩ : ∃ e1, singleNew trainZ ['o'] trainEnv [0] = .ok e1 := ⟨_, rfl⟩
  obtain ⟨hist, H⟩ := singleNew_hist trainEnv_hist he
  obtain ⟨g, ts, h, g', us, h', x1, r1, x2, r2, hs⟩ : ∃ g ts, (Graph.empty : Graph TrainOp).execAll trainOps trainCmds = .ok (g, ts) ∧
      ∃ g' us, updatesLoop .var .upd e1 ['o'] singleNames g [(0, 1)] = .ok (g', us) ∧
      ∃ x1, runUpdates (trainSem (adagradWrites (fun x => x) (1 / 2))) g' 100 us [] e1.arrays () = some (.ok x1) ∧
      ∃ x2, runUpdates (trainSem (adagradWrites (fun x => x) (1 / 2))) g' 100 us [] x1 () = some (.ok x2) ∧
      singleState e1 ['o'] 0 = some 1 := by
    cases he; exact ⟨_, _, rfl, _, _, rfl, _, rfl, _, rfl, rfl⟩
  obtain ⟨svs, gs, env, k1, k2, k3⟩ := trainTwice _ singleNames singleNames_separate e1 hist H (by
    intro s hs' e; simp only [singleNames, List.mem_singleton] at hs'; subst hs'; unfold singleState at hs; rw [hs] at e; cases e) h h' r1 r2
  cases k1 with
  | @cons _ b _ _ k4 k5 => cases k5; exact ⟨e1, b, he, k4, gs, env, k2, k3⟩

/-- A power function as `C44_adam` demands it. -/
def trainPow (b t : ℚ) : ℚ := b ^ t.num.toNat

example : (∀ (b : ℚ) (n : Nat), trainPow b (n : ℚ) = b ^ n) ∧
    ∃ e1 m v t, adamNew trainZ (ofFn [] (fun _ => 1)) ['o'] trainEnv [0] = .ok e1 ∧ adamState e1 ['o'] 0 = some (m, v, t) ∧
    ∃ gs env, Training trainOps (trainSem (adamWrites (fun x => x) trainPow ⟨1 / 10, 1 / 1000, 1 / 2, 1 / 3⟩)) .upd 0 [m, v, t] e1.arrays gs env ∧
      gs.length = 2 := by
  refine ⟨fun b n => by simp [trainPow], ?_⟩
  obtain ⟨e1, he⟩ : ∃ e1, adamNew trainZ (ofFn [] (fun _ => 1)) ['o'] trainEnv [0] = .ok e1 := ⟨_, rfl⟩
  obtain ⟨hist, H⟩ := adamNew_hist trainEnv_hist he
  obtain ⟨g, ts, h, g', us, h', x1, r1, x2, r2, hs, hno⟩ : ∃ g ts, (Graph.empty : Graph TrainOp).execAll trainOps trainCmds = .ok (g, ts) ∧
      ∃ g' us, updatesLoop .var .upd e1 ['o'] adamNames g [(0, 1)] = .ok (g', us) ∧
      ∃ x1, runUpdates (trainSem (adamWrites (fun x => x) trainPow ⟨1 / 10, 1 / 1000, 1 / 2, 1 / 3⟩)) g' 100 us [] e1.arrays () = some (.ok x1) ∧
      ∃ x2, runUpdates (trainSem (adamWrites (fun x => x) trainPow ⟨1 / 10, 1 / 1000, 1 / 2, 1 / 3⟩)) g' 100 us [] x1 () = some (.ok x2) ∧
      adamState e1 ['o'] 0 = some (1, 2, 3) ∧ ∀ s ∈ adamNames 0, e1.names.get ⟨['o'], s⟩ ≠ some 0 := by
    cases he; exact ⟨_, _, rfl, _, _, rfl, _, rfl, _, rfl, rfl, by decide⟩
  obtain ⟨svs, gs, env, k1, k2, k3⟩ := trainTwice _ adamNames adamNames_separate e1 hist H hno h h' r1 r2
  cases k1 with
  | @cons _ m _ _ k4 k5 => cases k5 with
    | @cons _ v _ _ k6 k5 => cases k5 with
      | @cons _ t _ _ k7 k5 =>
        cases k5
        refine ⟨e1, m, v, t, he, ?_, gs, env, k2, k3⟩
        simp only [adamState, k4, k6, k7]

end Verif.Props
