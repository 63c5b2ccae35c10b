import Verif.Lemmas.CnnTrain
import Verif.Lemmas.CnnExample

/-! # C71 The training loop of the example `cnn_mnist` -/

namespace Verif.Props
open Verif Verif.Prog Verif.Nd Verif.Spec Verif.Gradient Verif.Eval Verif.Graph Verif.Hint Verif.Opt Verif.OptState

/-- **C71** (partly) The training loop of the example `cnn_mnist`, for all sizes and every optimizer of the crate: with six variables of fitting shapes and an optimizer created for them, and if the name map lists
`w1` or `b1` after `w2`, and `w1`, `w2`, `b1` or `b2` after `w3`, the loop runs through any list of mini-batches without a panic, as long as the network is differentiable at the weights reached (no rectified
number is zero, no positive maximum of a window is attained twice), given enough loop iterations inside `grad` and the evaluator, and whatever tensor `grad` processes first among those of equal rank.
Let `W k` be the weights after `k` steps. The loss that step `k` returns is the mean cross entropy of the network with the weights `W k`, the `k`-th mini-batch and the drawn arrays as factors; the gradients
used in step `k` are its partial derivatives at `W k`, and every element of `W k` results from the update formula of the optimizer with these gradients. Missing: the other orders of the name map
(see `C70_order_violated`), and weights at which the network is not differentiable. -/
theorem C71_training_partial (z : CnnSize) (u : UOp) (uns : Str) (hist : List (VarAction (Arr ℝ))) (e0 e1 : VarEnv (Arr ℝ)) (H : VarHist hist e0) (vids : List Nat) (hnew : u.create uns e0 vids = .ok e1)
    (hv : ∀ v < 6, v ∈ vids) (W0 : CnnWeights) (hW : W0.Shapes z.side z.ch1 z.ch2 z.classes) (he : ∀ v < 6, e0.getById v = some (W0.get v)) (ns : Str) (order : List (FullName × Nat))
    (hord : CnnOrder (idsOf ns order)) (batches : List CnnBatch) (hB : ∀ B ∈ batches, B.Valid z) :
    ∃ N, ∀ fuel, N ≤ fuel → ∀ pick, PicksMax pick → ∃ (W : Nat → CnnWeights) (L : Nat → Arr ℝ) (G : Nat → Nat → Arr ℝ), ∀ k, k ≤ batches.length →
      (∀ m < k, ∀ B, batches[m]? = some B → B.ClearAt z (W m)) →
      (∃ e, trainSteps ns order u uns pick fuel e1 ((batches.take k).map fun B => (cnnCalls z B.r, (cnnResult z B.r).1, named B.fed)) = some (.ok ((List.range k).map L, e)) ∧
        ∀ v < 6, e.getById v = some ((W k).get v)) ∧
      (W k).Shapes z.side z.ch1 z.ch2 z.classes ∧
      (∀ v < 6, ∀ i, InB i (W0.get v).shape → ((W k).get v).get i = followed u ((W0.get v).get i) (fun m => (G m v).get i) k) ∧
      ∀ B, batches[k]? = some B → B.ClearAt z (W k) → (L k).shape = [1] ∧ (L k).get [0] = B.loss z (W k) ∧
        ∀ v < 6, ∀ i, InB i (W0.get v).shape → HasDerivAt (fun t => B.loss z ((W k).change (fun a => nudge a i t) v)) ((G k v).get i) 0 := by
  have hmem : ∀ v < 6, v ∈ idsOf ns order := fun v hv => hord.1.mem_iff.2 (by simp; omega)
  have hlt : ∀ v ∈ idsOf ns order, v < 6 := fun v hv => by
    have := hord.1.mem_iff.1 hv
    simp at this
    omega
  obtain ⟨sv, hS⟩ := step_setup H hnew (vs := idsOf ns order) (fun v h => hv v (hlt v h)) (a0 := W0.get) (fun v h => he v (hlt v h))
  obtain ⟨N, hN⟩ := cnn_steps hW hord rfl hS batches hB
  refine ⟨N, fun fuel hf pick hpick => ?_⟩
  let Q : Nat → VarEnv (Arr ℝ) → Prop := fun k e => ∀ B, batches[k]? = some B → ∀ W : CnnWeights, (∀ v < 6, e.getById v = some (W.get v)) → B.ClearAt z W
  have hsteps : ∀ (k : Nat) (l : List Stmt) (loss : Nat) (feeds : List (Feed (Arr ℝ))), (batches.map fun B => (cnnCalls z B.r, (cnnResult z B.r).1, named B.fed))[k]? = some (l, loss, feeds) →
      ∀ e gs, StepState u e1 (idsOf ns order) sv e gs → Q k e → ∃ e' L G, trainStep l loss ns order u uns pick fuel e feeds = some (.ok (L, e')) ∧
        StepState u e1 (idsOf ns order) sv e' (fun v => gs v ++ [G v]) ∧
        (fun (k : Nat) (e : VarEnv (Arr ℝ)) (L : Arr ℝ) (G : Nat → Arr ℝ) => ∀ B, batches[k]? = some B → ∃ W : CnnWeights, W.Shapes z.side z.ch1 z.ch2 z.classes ∧ (∀ v < 6, e.getById v = some (W.get v)) ∧
          L.shape = [1] ∧ L.get [0] = B.loss z W ∧ CnnGrads z B W G) k e L G := by
    intro k l loss feeds hk e gs hst hQ
    rw [List.getElem?_map] at hk
    cases hBk : batches[k]? with
    | none => rw [hBk] at hk; simp at hk
    | some B =>
      rw [hBk, Option.map_some, Option.some.injEq, Prod.mk.injEq, Prod.mk.injEq, cnn_result] at hk
      obtain ⟨rfl, rfl, rfl⟩ := hk
      obtain ⟨e', L, G, a1, a2, a3⟩ := hN fuel hf pick hpick B (List.mem_of_getElem? hBk) e gs hst (hQ B hBk)
      exact ⟨e', L, G, a1, a2, fun B' hB' => by rw [hBk] at hB'; cases hB'; exact a3⟩
  obtain ⟨E, L, G, h1, h2⟩ := steps_while hsteps batches.length (by simp)
  have hshape : ∀ m < batches.length, (∀ n ≤ m, Q n (E n)) → ∀ v ∈ idsOf ns order, (G m v).shape = (W0.get v).shape := fun m hm hQ v hv => by
    obtain ⟨W, w1, _, _, _, w2⟩ := h2 m hm hQ _ (List.getElem?_eq_getElem hm)
    rw [w2.shape v (hlt v hv)]
    match v with
    | 0 => exact w1.w1.trans hW.w1.symm
    | 1 => exact w1.w2.trans hW.w2.symm
    | 2 => exact w1.w3.trans hW.w3.symm
    | 3 => exact w1.b1.trans hW.b1.symm
    | 4 => exact w1.b2.trans hW.b2.symm
    | v + 5 => exact w1.b3.trans hW.b3.symm
  have hvars : ∀ k, ∃ W : CnnWeights, k ≤ batches.length → (∀ m < k, Q m (E m)) → (∀ v < 6, (E k).getById v = some (W.get v)) ∧ W.Shapes z.side z.ch1 z.ch2 z.classes ∧
      ∀ v < 6, ∀ i, InB i (W0.get v).shape → (W.get v).get i = followed u ((W0.get v).get i) (fun m => (G m v).get i) k := by
    intro k
    by_cases hk : k ≤ batches.length ∧ ∀ m < k, Q m (E m)
    · have hF := fun v hv => steps_followed hS (h1 k hk.1 hk.2).2 (fun m hm v hv => hshape m (by omega) (fun n hn => hk.2 n (by omega)) v hv) (hmem v hv)
      obtain ⟨a0, p0, q0, r0⟩ := hF 0 (by decide)
      obtain ⟨a1, p1, q1, r1⟩ := hF 1 (by decide)
      obtain ⟨a2, p2, q2, r2⟩ := hF 2 (by decide)
      obtain ⟨a3, p3, q3, r3⟩ := hF 3 (by decide)
      obtain ⟨a4, p4, q4, r4⟩ := hF 4 (by decide)
      obtain ⟨a5, p5, q5, r5⟩ := hF 5 (by decide)
      refine ⟨⟨a0, a1, a2, a3, a4, a5⟩, fun _ _ => ⟨fun v hv => ?_, ⟨q0.trans hW.w1, q1.trans hW.w2, q2.trans hW.w3, q3.trans hW.b1, q4.trans hW.b2, q5.trans hW.b3⟩, fun v hv => ?_⟩⟩ <;>
        obtain rfl | rfl | rfl | rfl | rfl | rfl : v = 0 ∨ v = 1 ∨ v = 2 ∨ v = 3 ∨ v = 4 ∨ v = 5 := by omega
      all_goals assumption
    · exact ⟨W0, fun h h' => absurd ⟨h, h'⟩ hk⟩
  choose W hWk using hvars
  -- the condition on the weights is the one on the environments
  have hQ : ∀ k, k ≤ batches.length → (∀ m < k, ∀ B, batches[m]? = some B → B.ClearAt z (W m)) → ∀ m < k, Q m (E m) := by
    intro k hk hc m
    induction m using Nat.strong_induction_on with
    | _ m ih =>
      intro hm B hBm W' hW'
      obtain ⟨w1, _, _⟩ := hWk m (by omega) (fun n hn => ih n hn (by omega))
      rw [← cnnWeights_eq w1 hW']
      exact hc m hm B hBm
  refine ⟨W, L, G, fun k hk hc => ?_⟩
  obtain ⟨w1, w2, w3⟩ := hWk k hk (hQ k hk hc)
  refine ⟨⟨E k, by rw [List.map_take]; exact (h1 k hk (hQ k hk hc)).1, w1⟩, w2, w3, fun B hBk hcl => ?_⟩
  have hlt' : k < batches.length := (List.getElem?_eq_some_iff.1 hBk).1
  have hQ' : ∀ m ≤ k, Q m (E m) := fun m hm => hQ (k + 1) (by omega) (fun n hn B' hB' => by
    by_cases hnk : n = k
    · subst hnk
      rw [hBk] at hB'
      cases hB'
      exact hcl
    · exact hc n (by omega) B' hB') m (by omega)
  obtain ⟨W', a1, a2, a3, a4, a5⟩ := h2 k hlt' hQ' B hBk
  cases cnnWeights_eq w1 a2
  refine ⟨a3, a4, fun v hv i hi => a5.deriv v hv i ?_⟩
  rw [← a5.shape v hv, hshape k hlt' hQ' v (hmem v hv)]
  exact hi

-- Weights of the small network as the example registers them, each of the four optimizers, a mini-batch at which the first step is differentiable, and an order in which `b1` comes last.
noncomputable def ctBatch : CnnBatch := ⟨tinyRun, 1, tinyX, ofFn [1, 1] fun _ => 1, fun _ => 1⟩
noncomputable def ctEnv : VarEnv (Arr ℝ) :=
  (((((((VarEnv.new : VarEnv (Arr ℝ)).register [] ['a'] tinyWeights.w1).1.register [] ['b'] tinyWeights.w2).1.register [] ['c'] tinyWeights.w3).1.register [] ['d'] tinyWeights.b1).1.register [] ['e']
    tinyWeights.b2).1.register [] ['f'] tinyWeights.b3).1

example (u : UOp) : (∃ hist, VarHist hist ctEnv) ∧ (∃ e1, u.create ['o'] ctEnv [0, 2, 1, 3, 4, 5] = .ok e1) ∧ (∀ v < 6, v ∈ [0, 2, 1, 3, 4, 5]) ∧
    tinyWeights.Shapes tinySize.side tinySize.ch1 tinySize.ch2 tinySize.classes ∧ (∀ v < 6, ctEnv.getById v = some (tinyWeights.get v)) ∧
    CnnOrder (idsOf [] [(⟨[], ['e']⟩, 4), (⟨[], ['a']⟩, 0), (⟨[], ['c']⟩, 2), (⟨['o'], ['a']⟩, 6), (⟨[], ['f']⟩, 5), (⟨[], ['b']⟩, 1), (⟨[], ['d']⟩, 3)]) ∧
    (∀ B ∈ [ctBatch, ctBatch], B.Valid tinySize) ∧ ctBatch.ClearAt tinySize tinyWeights := by
  have hb : ctBatch.Valid tinySize := ⟨by simp [ctBatch, tinyRun], tiny_pictures⟩
  refine ⟨⟨_, VarHist.register [] ['f'] _ (VarHist.register [] ['e'] _ (VarHist.register [] ['d'] _ (VarHist.register [] ['c'] _ (VarHist.register [] ['b'] _ (VarHist.register [] ['a'] _ VarHist.new)))))⟩, ?_,
    by decide, tiny_shapes, ?_, ⟨by decide, .inr ⟨[4, 0, 2, 5], [], [], rfl⟩, .inr (.inl ⟨[4, 0], [5], [3], rfl⟩)⟩, by simp [hb], tiny_clear⟩
  · cases u <;> exact ⟨_, rfl⟩
  · intro v hv
    obtain rfl | rfl | rfl | rfl | rfl | rfl : v = 0 ∨ v = 1 ∨ v = 2 ∨ v = 3 ∨ v = 4 ∨ v = 5 := by omega
    all_goals rfl

end Verif.Props
