import Verif.Lemmas.SineTrain
import Verif.Lemmas.LayeredStep

/-! # C70 The training loop of the example `sine` -/

namespace Verif.Props
open Verif Verif.Prog Verif.Nd Verif.Spec Verif.Gradient Verif.Eval Verif.Graph Verif.Hint Verif.Opt Verif.OptState

/-- **C70** (partly) The training loop of the example `sine`, for every optimizer of the crate: with variables `w1`, `w2`, `w3` of fitting shapes and an optimizer created for them, and if the name map lists
`w1` after the other two, the loop runs through any list of drawn columns without a panic, given enough loop iterations inside `grad` and the evaluator, and whatever tensor `grad` processes first among
those of equal rank. Let `W k` be the weights after `k` steps. The loss that step `k` returns is the mean squared error of the network with the weights `W k` for the `k`-th column; the gradients used in step
`k` are its partial derivatives at `W k`, and every element of `W k` results from the update formula of the optimizer with these gradients. Missing: the other four orders of the name map, for which the
updates are not simultaneous (`C70_order_violated`). -/
theorem C70_sine_partial (width batch : Nat) (hbatch : 0 < batch) (u : UOp) (uns : Str) (hist : List (VarAction (Arr ℝ))) (e0 e1 : VarEnv (Arr ℝ)) (H : VarHist hist e0) (vids : List Nat)
    (hnew : u.create uns e0 vids = .ok e1) (hv : ∀ v < 3, v ∈ vids) (W0 : SineWeights) (hW : W0.Shapes width) (he : ∀ v < 3, e0.getById v = some (W0.get v)) (ns : Str)
    (order : List (FullName × Nat)) (hord : idsOf ns order = [1, 2, 0] ∨ idsOf ns order = [2, 1, 0]) (draws : List (Arr ℝ)) (hd : ∀ d ∈ draws, d.shape = [batch, 1]) :
    ∃ N, ∀ fuel, N ≤ fuel → ∀ pick, PicksMax pick → ∃ (W : Nat → SineWeights) (L : Nat → Arr ℝ) (G : Nat → Nat → Arr ℝ), ∀ k, k ≤ draws.length →
      (∃ e, trainSteps ns order u uns pick fuel e1 ((draws.take k).map fun d => (sineCalls d, sineResult d, [])) = some (.ok ((List.range k).map L, e)) ∧
        ∀ v < 3, e.getById v = some ((W k).get v)) ∧
      (W k).Shapes width ∧
      (∀ v < 3, ∀ i, InB i (W0.get v).shape → ((W k).get v).get i = followed u ((W0.get v).get i) (fun m => (G m v).get i) k) ∧
      ∀ d, draws[k]? = some d → (L k).shape = [] ∧ (L k).get [] = (W k).mse width (inputs d) batch ∧
        ∀ v < 3, ∀ i, InB i (W0.get v).shape → HasDerivAt (fun t => ((W k).change (fun a => nudge a i t) v).mse width (inputs d) batch) ((G k v).get i) 0 := by
  have hmem : ∀ v < 3, v ∈ idsOf ns order := fun v hv => by rcases hord with h | h <;> rw [h] <;> simp <;> omega
  have hlt : ∀ v ∈ idsOf ns order, v < 3 := fun v hv => by rcases hord with h | h <;> rw [h] at hv <;> simp at hv <;> omega
  obtain ⟨sv, hS⟩ := step_setup H hnew (vs := idsOf ns order) (fun v h => hv v (hlt v h)) (a0 := W0.get) (fun v h => he v (hlt v h))
  obtain ⟨N, hN⟩ := sine_steps hbatch hW hord rfl hS draws hd
  refine ⟨N, fun fuel hf pick hpick => ?_⟩
  have hsteps : ∀ (k : Nat) (l : List Stmt) (loss : Nat) (feeds : List (Feed (Arr ℝ))), (draws.map fun d => (sineCalls d, sineResult d, ([] : List (Feed (Arr ℝ)))))[k]? = some (l, loss, feeds) →
      ∀ e gs, StepState u e1 (idsOf ns order) sv e gs → ∃ e' L G, trainStep l loss ns order u uns pick fuel e feeds = some (.ok (L, e')) ∧
        StepState u e1 (idsOf ns order) sv e' (fun v => gs v ++ [G v]) ∧
        (fun (k : Nat) (e : VarEnv (Arr ℝ)) (L : Arr ℝ) (G : Nat → Arr ℝ) => ∀ d, draws[k]? = some d → ∃ W : SineWeights, W.Shapes width ∧ (∀ v < 3, e.getById v = some (W.get v)) ∧
          L.shape = [] ∧ L.get [] = W.mse width (inputs d) batch ∧ SineGrads width batch d W G) k e L G := by
    intro k l loss feeds hk e gs hst
    rw [List.getElem?_map] at hk
    cases hdk : draws[k]? with
    | none => rw [hdk] at hk; simp at hk
    | some d =>
      rw [hdk, Option.map_some, Option.some.injEq, Prod.mk.injEq, Prod.mk.injEq] at hk
      obtain ⟨rfl, rfl, rfl⟩ := hk
      obtain ⟨e', L, G, a1, a2, a3⟩ := hN fuel hf pick hpick d (List.mem_of_getElem? hdk) e gs hst
      exact ⟨e', L, G, a1, a2, fun d' hd' => by rw [hdk] at hd'; cases hd'; exact a3⟩
  obtain ⟨E, L, G, h1, h2⟩ := steps_train hsteps draws.length (by simp)
  have hget : ∀ {e : VarEnv (Arr ℝ)} {W W' : SineWeights}, (∀ v < 3, e.getById v = some (W.get v)) → (∀ v < 3, e.getById v = some (W'.get v)) → W = W' := by
    intro e W W' h h'
    have h0 := (h 0 (by decide)).symm.trans (h' 0 (by decide))
    have h1 := (h 1 (by decide)).symm.trans (h' 1 (by decide))
    have h2 := (h 2 (by decide)).symm.trans (h' 2 (by decide))
    cases W
    cases W'
    simp only [SineWeights.get, Option.some.injEq] at h0 h1 h2
    rw [h0, h1, h2]
  have hshape : ∀ m < draws.length, ∀ v ∈ idsOf ns order, (G m v).shape = (W0.get v).shape := fun m hm v hv => by
    obtain ⟨W, w1, _, _, _, w2⟩ := h2 m hm _ (List.getElem?_eq_getElem hm)
    rw [w2.shape v (hlt v hv)]
    match v with
    | 0 => exact w1.w1.trans hW.w1.symm
    | 1 => exact w1.w2.trans hW.w2.symm
    | v + 2 => exact w1.w3.trans hW.w3.symm
  have hvars : ∀ k, ∃ W : SineWeights, k ≤ draws.length → (∀ v < 3, (E k).getById v = some (W.get v)) ∧ W.Shapes width ∧
      ∀ v < 3, ∀ i, InB i (W0.get v).shape → (W.get v).get i = followed u ((W0.get v).get i) (fun m => (G m v).get i) k := by
    intro k
    by_cases hk : k ≤ draws.length
    · have hF := fun v hv => steps_followed hS (h1 k hk).2 (fun m hm v hv => hshape m (by omega) v hv) (hmem v hv)
      obtain ⟨a0, p0, q0, r0⟩ := hF 0 (by decide)
      obtain ⟨a1, p1, q1, r1⟩ := hF 1 (by decide)
      obtain ⟨a2, p2, q2, r2⟩ := hF 2 (by decide)
      refine ⟨⟨a0, a1, a2⟩, fun _ => ⟨fun v hv => ?_, ⟨q0.trans hW.w1, q1.trans hW.w2, q2.trans hW.w3⟩, fun v hv => ?_⟩⟩ <;> obtain rfl | rfl | rfl : v = 0 ∨ v = 1 ∨ v = 2 := by omega
      all_goals assumption
    · exact ⟨W0, fun h => absurd h hk⟩
  choose W hWk using hvars
  refine ⟨W, L, G, fun k hk => ?_⟩
  obtain ⟨w1, w2, w3⟩ := hWk k hk
  refine ⟨⟨E k, by rw [List.map_take]; exact (h1 k hk).1, w1⟩, w2, w3, fun d hdk => ?_⟩
  have hlt' : k < draws.length := (List.getElem?_eq_some_iff.1 hdk).1
  obtain ⟨W', a1, a2, a3, a4, a5⟩ := h2 k hlt' d hdk
  cases hget w1 a2
  refine ⟨a3, a4, fun v hv i hi => a5.deriv v hv i ?_⟩
  rw [← a5.shape v hv, hshape k hlt' v (hmem v hv)]
  exact hi

/-- **C70** violated: two layers with one weight each, the loss `(-w1 * w2)²` at `w1 = 2`, `w2 = 3`, and SGD with learning rate 1. The derivatives are 36 and 24. If the name map lists `w2` before `w1`, the
step gives `2 - 36` and `3 - 24`; if it lists `w1` before `w2`, then `w2` is updated first, the gradient of `w1` is evaluated with the new `w2`, and `w1` becomes 254. -/
theorem C70_order_violated :
    HasDerivAt (fun a : ℝ => (-a * 3) ^ 2) 36 2 ∧ HasDerivAt (fun b : ℝ => (-2 * b) ^ 2) 24 3 ∧
      lyStep 1 0 2 3 = some (36, [2 - 36, 3 - 24]) ∧ lyStep 0 1 2 3 = some (36, [254, 3 - 24]) := by
  refine ⟨?_, ?_, by rw [lyStep_good]; norm_num, by rw [lyStep_bad]; norm_num⟩
  · exact ((((hasDerivAt_id (2 : ℝ)).neg.mul_const 3).pow 2).congr_deriv (by norm_num))
  · exact ((((hasDerivAt_id (3 : ℝ)).const_mul (-2)).pow 2).congr_deriv (by norm_num))

-- Variables of a network of width 2 as the example creates them, each of the four optimizers, and two columns of three numbers; the name map lists `w1` last.
noncomputable def snW : SineWeights := ⟨ofFn [1, 2] (fun i => i.getD 1 0 + 1), ofFn [2, 2] (fun i => (i.getD 0 0 : ℝ) - i.getD 1 0), ofFn [2, 1] (fun i => (i.getD 0 0 : ℝ) + 2)⟩
noncomputable def snEnv : VarEnv (Arr ℝ) := ((((VarEnv.new : VarEnv (Arr ℝ)).register [] ['a'] snW.w1).1.register [] ['b'] snW.w2).1.register [] ['c'] snW.w3).1

example (u : UOp) : VarHist [.register [] ['a'] snW.w1, .register [] ['b'] snW.w2, .register [] ['c'] snW.w3] snEnv ∧ (∃ e1, u.create ['o'] snEnv [0, 2, 1] = .ok e1 ∧
      ∃ order, order.Perm e1.names ∧ idsOf [] order = [2, 1, 0]) ∧ (∀ v < 3, v ∈ [0, 2, 1]) ∧ snW.Shapes 2 ∧ (∀ v < 3, snEnv.getById v = some (snW.get v)) ∧
    (∀ d ∈ [ofFn [3, 1] (fun i => (i.getD 0 0 : ℝ)), ofFn [3, 1] (fun _ => (2 : ℝ))], d.shape = [3, 1]) := by
  refine ⟨VarHist.register [] ['c'] _ (VarHist.register [] ['b'] _ (VarHist.register [] ['a'] _ VarHist.new)), ?_, by decide, ⟨rfl, rfl, rfl⟩, ?_, by simp [ofFn]⟩
  · cases u <;> exact ⟨_, rfl, _, List.Perm.refl _, rfl⟩
  · intro v hv
    obtain rfl | rfl | rfl : v = 0 ∨ v = 1 ∨ v = 2 := by omega
    all_goals rfl

end Verif.Props
