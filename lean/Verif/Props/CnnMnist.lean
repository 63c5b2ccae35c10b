import Verif.Lemmas.CnnMnistExample
import Verif.Props.MlpMnist
import Verif.Props.Mnist

/-! # Property theorems about the example `cnn_mnist`: C79 -/

namespace Verif.Props
open Verif Verif.Spec Verif.Gradient Verif.Graph Verif.Eval Verif.Nd Verif.Prog Verif.Opt Verif.OptState Verif.Mnist

/-! ## C79 The example `cnn_mnist` from the files to the test accuracy -/

/-- **C79** For all files of `n` training and `m` test images with labels below 10, all initial weights and drawn dropout masks, and everything else a run depends on (where the map of names lists `w1` or `b1` after
`w2`, and one of `w1`, `w2`, `b1`, `b2` after `w3`): there are a list `steps` of the numbers of the samples used in each of five epochs, where each epoch uses each of the first `128 * (n / 128)` training samples
exactly once, 128 in each step; and, given enough iterations of the loops inside the crate, weights `W t` after `t` steps and mean losses `loss t` of the steps, such that, as long as the network is differentiable at the weights and samples of the steps so
far, the weights follow the formula of Adam (from the initial weights and zero biases) with gradients that are the partial derivatives of the mean loss of the samples of the step at the weights before it;
and if this is so in all steps, and no score of a test image is below the least float, the program ends without a panic, leaves the last weights in the variables, prints for each epoch the mean of the losses of its steps, and prints
the fraction of the test images whose label is the class with the greatest score (the first, if there are several) of the network with all layers multiplied by 3/4 instead of dropout. -/
theorem C79_main_partial {σ : Type} (r : CnnMain σ) (f1 f2 f3 f4 : List Byte) (n m : Nat) (p1 p3 : Nat → Nat → Byte) (l2 l4 : Nat → Byte) (h1 : ImageFile f1 n p1) (h2 : LabelFile f2 n l2) (h3 : ImageFile f3 m p3)
    (h4 : LabelFile f4 m l4) (hl : ∀ i < n, (l2 i).val < 10) (hl' : ∀ i < m, (l4 i).val < 10) (hm : 0 < m) (hw1 : r.w1.shape = [32, 1, 3, 3]) (hw2 : r.w2.shape = [64, 32, 3, 3]) (hw3 : r.w3.shape = [3136, 10])
    (hsh : ∀ s l, (r.shuffle s l).Perm l) (hord0 : r.order0.Perm (cnnVars r.w1 r.w2 r.w3).names) (hord1 : CnnOrder (idsOf [] r.order1)) (hpick : PicksMax r.pick) (hbot : ∀ t, (r.draws t).bot < 0) (hbot' : r.test.bot < 0)
    (hlay : ∀ t, ∀ a : Arr ℝ, a.shape = [128, 10] → Contig [128] ((r.draws t).lay a)) (hlay' : ∀ a : Arr ℝ, a.shape = [m, 10] → Contig [m] (r.test.lay a))
    (hcopy : ∀ a : Arr ℝ, a.shape = [m, 10] → (r.test.copy a).length = 2 ∧ Contig [m, 10] (r.test.copy a)) :
    ∃ steps : List (List (List Nat)), steps.length = 5 ∧ (∀ ep ∈ steps, ep.length = n / 128 ∧ ep.flatten.Perm (List.range (n / 128 * 128)) ∧ ∀ ks ∈ ep, ks.length = 128) ∧
      ∃ N, ∀ fuel, N ≤ fuel → ∃ (W : Nat → CnnWeights) (loss : Nat → ℝ) (G : Nat → Nat → Arr ℝ) (Clr : Nat → Prop),
        (∀ t, Clr t ↔ ∀ s < t, ∀ ks, steps.flatten[s]? = some ks → (samplesBatch (r.draws s) p1 l2 ks).ClearAt cnnSize (W s)) ∧
        (∀ t ≤ steps.flatten.length, Clr t → (W t).Shapes 7 32 64 10 ∧ ∀ v < 6, ∀ i, InB i ((firstWeights r).get v).shape →
          ((W t).get v).get i = followed (.adam ⟨0.001, 1e-8, 0.9, 0.999⟩) (((firstWeights r).get v).get i) (fun s => (G s v).get i) t) ∧
        (∀ t ks, steps.flatten[t]? = some ks → Clr (t + 1) → loss t = (samplesBatch (r.draws t) p1 l2 ks).loss cnnSize (W t) ∧ ∀ v < 6, ∀ i, InB i ((firstWeights r).get v).shape →
          HasDerivAt (fun u => (samplesBatch (r.draws t) p1 l2 ks).loss cnnSize ((W t).change (fun a => nudge a i u) v)) ((G t v).get i) 0) ∧
        (Clr steps.flatten.length → ∀ W', W' = W steps.flatten.length → (∀ i < m, ∀ c < 10, r.test.bot ≤ W'.score 7 32 undrawn (picturesOf p3 (List.range m)) 64 i c) →
          ∀ predicted : Nat → Nat, (∀ i < m, W'.Predicts 7 32 undrawn (picturesOf p3 (List.range m)) 64 10 i (predicted i)) →
          ∃ e printed v, cnnMain r fuel (some f1) (some f2) (some f3) (some f4) = some (.ok (e, printed, [.ok v])) ∧ (∀ v < 6, e.getById v = some (W'.get v)) ∧
            printed = (List.range 5).map (fun k => (∑ t ∈ Finset.range (n / 128), loss (k * (n / 128) + t)) / ((n / 128 : Nat) : ℝ)) ∧
            v.shape = [] ∧ v.get [] = ((Finset.range m).filter (fun i => predicted i = (l4 i).val)).card / (m : ℝ)) := by
  obtain ⟨x, y, xt, yt, hload, hx, hy, hxt, hyt⟩ := C77_load (R := ℝ) r.short f1 f2 f3 f4 n n m m p1 p3 l2 l4 h1 h2 h3 h4
  obtain ⟨⟨e1, he1⟩, hv⟩ := cnnAdam_created hord0
  obtain ⟨hist, H⟩ := cnnVars_hist r.w1 r.w2 r.w3
  obtain ⟨es, hes, hlen, hep⟩ := C77_epochs_partial r.shuffle hsh r.seed 128 5 n 784 1 x y hx.1 hy.1
  obtain ⟨steps, hst⟩ := choose_list hep
  have hsteps : ∀ ep ∈ steps, ep.length = n / 128 ∧ ep.flatten.Perm (List.range (n / 128 * 128)) ∧ ∀ ks ∈ ep, ks.length = 128 := by
    intro ep hep'
    obtain ⟨k, hk, rfl⟩ := List.mem_iff_getElem.1 hep'
    obtain ⟨c1, c2⟩ := (List.forall₂_iff_get.1 hst).2 k hk (by rw [← hst.length_eq]; exact hk)
    have c3 : ∀ ks ∈ steps[k], ks.length = 128 := by
      intro ks hks
      obtain ⟨q, hq, rfl⟩ := List.mem_iff_getElem.1 hks
      exact ((List.forall₂_iff_get.1 c2).2 q hq (by rw [← c2.length_eq]; exact hq)).2.2.1
    refine ⟨?_, c1, c3⟩
    have h5 := c1.length_eq
    have h6 : (steps[k].flatten).length = steps[k].length * 128 := by
      rw [List.length_flatten, List.map_congr_left c3]
      simp
    rw [List.length_range] at h5
    have h5 : steps[k].flatten.length = n / 128 * 128 := h5
    omega
  have hst' : List.Forall₂ (List.Forall₂ fun k b => b.1.shape = [128, 784] ∧ b.2.shape = [128, 1] ∧ k.length = 128 ∧ (∀ r s, k[r]? = some s → SampleAt x y b r s) ∧ ∀ s ∈ k, s < n) steps es :=
    hst.imp fun ks bs ⟨c1, c2⟩ => forall₂_of_both c2 fun k b hk _ ⟨d1, d2, d3, d4⟩ => ⟨d1, d2, d3, d4, fun s hs => by
      have := List.mem_range.1 (c1.mem_iff.1 (List.mem_flatten.2 ⟨k, hk, hs⟩))
      exact lt_of_lt_of_le this (Nat.div_mul_le_self n 128)⟩
  have hF := List.rel_flatten hst'
  have hFl := hF.length_eq
  have hlen5 : steps.length = 5 := by rw [hst.length_eq, hlen]
  have htotal : steps.flatten.length = 5 * (n / 128) := by
    rw [List.length_flatten, List.map_congr_left fun ep h => (hsteps ep h).1]
    rw [List.map_const', List.sum_replicate, hlen5, smul_eq_mul]
  refine ⟨steps, hlen5, hsteps, ?_⟩
  -- the batches
  obtain ⟨Bs, hBs⟩ : ∃ Bs : List CnnBatch, Bs = (steps.flatten.zip es.flatten).mapIdx fun t kb => ⟨r.draws t, 128, kb.2.1, kb.2.2, fun k => (l2 (kb.1.getD k 0)).val⟩ := ⟨_, rfl⟩
  have hBl : Bs.length = steps.flatten.length := by rw [hBs]; simp only [List.length_mapIdx, List.length_zip]; omega
  have hB : ∀ t B, Bs[t]? = some B → ∃ ks, steps.flatten[t]? = some ks ∧ B.r = r.draws t ∧ B.n = ks.length ∧ (∀ n < ks.length, ∀ j < 784, B.x.get [n, j] = ((p1 (ks.getD n 0) j).val : ℝ) / 255) ∧
      (∀ n < ks.length, B.label n = (l2 (ks.getD n 0)).val) ∧ B.Valid cnnSize := by
    intro t B ht
    rw [hBs, List.getElem?_mapIdx, Option.map_eq_some_iff] at ht
    obtain ⟨⟨ks, b⟩, h5, rfl⟩ := ht
    rw [List.getElem?_zip_eq_some] at h5
    obtain ⟨h5, h6⟩ := h5
    obtain ⟨i5, e5⟩ := List.getElem?_eq_some_iff.1 h5
    obtain ⟨i6, e6⟩ := List.getElem?_eq_some_iff.1 h6
    have hP := (List.forall₂_iff_get.1 hF).2 t i5 i6
    simp only [List.get_eq_getElem] at hP
    rw [e5, e6] at hP
    obtain ⟨c1, c2, c3, c4, c5⟩ := hP
    have c3 : ks.length = 128 := c3
    have hget : ∀ q < 128, ks[q]? = some (ks.getD q 0) ∧ ks.getD q 0 < n := by
      intro q hq
      have e : ks[q]? = some (ks.getD q 0) := by
        rw [List.getD_eq_getElem?_getD, List.getElem?_eq_getElem (by omega)]
        rfl
      exact ⟨e, c5 _ (List.mem_of_getElem? e)⟩
    refine ⟨ks, h5, rfl, c3.symm, ?_, fun _ _ => rfl, hbot t, ?_⟩
    · intro q hq j hj
      obtain ⟨d1, d2⟩ := hget q (by omega)
      exact ((c4 q _ d1).1 j).trans (hx.2 _ d2 j hj)
    · refine ⟨by decide, by decide, by decide, by decide, by decide, Nat.zero_lt_succ 127, c1, c2, fun i hi => ?_, hlay t⟩
      obtain ⟨d1, d2⟩ := hget i hi
      exact ⟨((c4 i _ d1).2 0).trans (hy.2 _ d2), hl _ d2⟩
  have hfed : Bs.map (fun B => (cnnCalls cnnSize B.r, (cnnResult cnnSize B.r).1, named B.fed)) = es.flatten.mapIdx fun t b => (cnnCalls cnnSize (r.draws t), (cnnResult cnnSize (r.draws t)).1, cnnFeeds b) := by
    refine List.ext_getElem (by simp only [List.length_map, List.length_mapIdx]; omega) fun t h5 h6 => ?_
    subst hBs
    simp only [List.getElem_map, List.getElem_mapIdx, List.getElem_zip]
    rfl
  obtain ⟨N1, hN1⟩ := C71_training_partial cnnSize mlpAdam "my_adam".toList hist _ e1 H _ he1 hv (firstWeights r) ⟨hw1, hw2, hw3, rfl, rfl, rfl⟩ (cnnVars_get r) [] r.order1 hord1 Bs (by
    intro B hB'
    obtain ⟨t, ht⟩ := List.mem_iff_getElem?.1 hB'
    obtain ⟨_, _, _, _, _, _, h⟩ := hB t B ht
    exact h)
  have hpics : Pictures r.test.lay 7 32 64 10 m xt yt (fun i => (l4 i).val) :=
    ⟨by decide, by decide, by decide, by decide, by decide, hm, hxt.1, hyt.1, fun i hi => ⟨hyt.2 i hi, hl' i hi⟩, hlay'⟩
  obtain ⟨N2, hN2⟩ := cnnTest_within cnnSize r.test hbot' m xt yt (fun i => (l4 i).val) hpics hcopy
  refine ⟨max N1 N2, fun fuel hf => ?_⟩
  obtain ⟨W, L, G, hT⟩ := hN1 fuel (le_trans (le_max_left _ _) hf) r.pick hpick
  have hadam : mlpAdam = .adam ⟨0.001, 1e-8, 0.9, 0.999⟩ := by unfold mlpAdam; norm_num
  have hclr : ∀ t, (∀ s < t, ∀ ks, steps.flatten[s]? = some ks → (samplesBatch (r.draws s) p1 l2 ks).ClearAt cnnSize (W s)) → ∀ s < t, ∀ B, Bs[s]? = some B → B.ClearAt cnnSize (W s) := by
    intro t h s hs B hBs'
    obtain ⟨ks, k1, k2, k3, k4, k5, _⟩ := hB s B hBs'
    exact (batch_samples k2 k3 k4 k5 (W s)).2.2 (h s hs ks k1)
  have hstep : ∀ t ks, steps.flatten[t]? = some ks → (∀ s < t + 1, ∀ ks, steps.flatten[s]? = some ks → (samplesBatch (r.draws s) p1 l2 ks).ClearAt cnnSize (W s)) →
      (L t).shape = [1] ∧ (L t).get [0] = (samplesBatch (r.draws t) p1 l2 ks).loss cnnSize (W t) ∧ ∀ v < 6, ∀ i, InB i ((firstWeights r).get v).shape →
          HasDerivAt (fun u => (samplesBatch (r.draws t) p1 l2 ks).loss cnnSize ((W t).change (fun a => nudge a i u) v)) ((G t v).get i) 0 := by
    intro t ks hks hc
    have ht := (List.getElem?_eq_some_iff.1 hks).1
    have hBt : Bs[t]? = some Bs[t] := List.getElem?_eq_getElem (by omega)
    obtain ⟨ks', k1, k2, k3, k4, k5, _⟩ := hB t _ hBt
    rw [hks] at k1
    cases k1
    have hloss := fun W' => (batch_samples (W := W') k2 k3 k4 k5).1
    obtain ⟨_, _, _, q⟩ := hT t (by omega) (hclr t fun s hs => hc s (by omega))
    obtain ⟨q1, q2, q3⟩ := q _ hBt (hclr (t + 1) hc t (by omega) _ hBt)
    refine ⟨q1, q2.trans (hloss _), fun v hv i hi => ?_⟩
    have := q3 v hv i hi
    exact this.congr_of_eventuallyEq (.of_forall fun u => (hloss _).symm)
  refine ⟨W, fun t => (L t).get [0], G, fun t => ∀ s < t, ∀ ks, steps.flatten[s]? = some ks → (samplesBatch (r.draws s) p1 l2 ks).ClearAt cnnSize (W s), fun _ => Iff.rfl, ?_, ?_, ?_⟩
  · intro t ht hc
    obtain ⟨_, c1, c2, _⟩ := hT t (by omega) (hclr t hc)
    rw [hadam] at c2
    exact ⟨c1, c2⟩
  · intro t ks hks hc
    exact (hstep t ks hks hc).2
  · rintro hc W' rfl hlow predicted hpred
    have hs : ∀ i < m, ∀ k < 4 * 7 * (4 * 7), xt.get [i, k] = (picturesOf p3 (List.range m)).get [i, k] := by
      intro i hi k hk
      rw [hxt.2 i hi k hk]
      have : (List.range m).getD i 0 = i := by rw [List.getD_eq_getElem?_getD, List.getElem?_range hi]; rfl
      show _ = ((p3 ((List.range m).getD i 0) k).val : ℝ) / 255
      rw [this]
    obtain ⟨⟨e, c1, c2⟩, c3, _, _⟩ := hT steps.flatten.length (by omega) (hclr _ hc)
    rw [List.take_of_length_le (by omega), hfed] at c1
    obtain ⟨others, ho⟩ : ∃ others, e.arrays = (W steps.flatten.length).env others := by
      have a0 : e.arrays[0]? = _ := c2 0 (by decide)
      have a1 : e.arrays[1]? = _ := c2 1 (by decide)
      have a2 : e.arrays[2]? = _ := c2 2 (by decide)
      have a3 : e.arrays[3]? = _ := c2 3 (by decide)
      have a4 : e.arrays[4]? = _ := c2 4 (by decide)
      have a5 : e.arrays[5]? = _ := c2 5 (by decide)
      match ha : e.arrays with
      | a :: b :: c :: d :: f :: g :: l =>
        rw [ha] at a0 a1 a2 a3 a4 a5
        cases a0; cases a1; cases a2; cases a3; cases a4; cases a5
        exact ⟨l, rfl⟩
      | [] => rw [ha] at a0; cases a0
      | [_] => rw [ha] at a1; cases a1
      | [_, _] => rw [ha] at a2; cases a2
      | [_, _, _] => rw [ha] at a3; cases a3
      | [_, _, _, _] => rw [ha] at a4; cases a4
      | [_, _, _, _, _] => rw [ha] at a5; cases a5
    obtain ⟨g, ids, res, v, d1, d2, d3, d4, d5⟩ := hN2 fuel (le_trans (le_max_right _ _) hf) _ others predicted c3 (fun i hi c hc => by
        show r.test.bot ≤ (W steps.flatten.length).score 7 32 undrawn xt 64 i c
        rw [score_congr (hs i hi)]; exact hlow i hi c hc)
      (fun i hi => (predicts_congr (hs i hi)).2 (hpred i hi))
    have hls : ∀ t ∈ List.range steps.flatten.length, (L t).shape = [1] := by
      intro t ht
      have ht := List.mem_range.1 ht
      exact (hstep t _ (List.getElem?_eq_getElem ht) fun s hs => hc s (by omega)).1
    refine ⟨e, _, v, ?_, c2, rfl, d4, d5⟩
    rw [← ho] at d2
    simp only [cnnMain, hload, he1, hes, c1, mapM_firstElem hls, d1, d2, d3, hx.1, List.getD_cons_zero]
    rw [htotal, epochMeans_range]

-- The hypotheses hold for `cmRun` and 300 training images, and the network is differentiable in all ten steps: all scores are dropped, so the loss does not depend on the weights, which stay as they are.
example (p3 : Nat → Nat → Byte) (l2 l4 : Nat → Byte) (hl : ∀ i, (l2 i).val < 10) (hl' : ∀ i, (l4 i).val < 10) : ∃ N, ∀ fuel, N ≤ fuel →
    ∃ e printed v, cnnMain cmRun fuel (some (mlImages 300 cmPixel)) (some (mlLabels 300 l2)) (some (mlImages 3 p3)) (some (mlLabels 3 l4)) = some (.ok (e, printed, [.ok v])) := by
  have hi : ∀ n, n < 2 ^ 32 → ∀ p, ImageFile (mlImages n p) n p := by
    refine fun n hn p => ⟨hn, _, rfl, fun i hi j hj => ?_⟩
    have hlt : i * 784 + j < n * 784 := by omega
    rw [List.getElem?_map, List.getElem?_range hlt, Option.map_some]
    congr 2 <;> omega
  have hb : ∀ n, n < 2 ^ 32 → ∀ l, LabelFile (mlLabels n l) n l := by
    refine fun n hn l => ⟨hn, _, rfl, fun i hi => ?_⟩
    rw [List.getElem?_map, List.getElem?_range hi, Option.map_some]
  have hbot : (-10 ^ 30 : ℝ) < 0 := by norm_num
  obtain ⟨steps, _, _, N, hN⟩ := C79_main_partial cmRun _ _ _ _ 300 3 cmPixel p3 l2 l4 (hi _ (by decide) _) (hb _ (by decide) _) (hi _ (by decide) _) (hb _ (by decide) _) (fun i _ => hl i) (fun i _ => hl' i) (by decide)
    rfl rfl rfl (fun _ l => l.reverse_perm) (List.Perm.refl _) ⟨by decide, .inl ⟨[], [2], [5, 3, 4], rfl⟩, .inl ⟨[1], [], [5, 3, 4], rfl⟩⟩ demoPick_max (fun _ => hbot) hbot
    (fun t a ha => by simp only [cmRun, ha]; exact contig_cStrides _) (fun a ha => by simp only [cmRun, ha]; exact contig_cStrides _)
    (fun a ha => by simp only [cmRun, ha]; exact ⟨rfl, contig_cStrides _⟩)
  refine ⟨N, fun fuel hf => ?_⟩
  obtain ⟨W, loss, G, Clr, c1, c2, c3, c4⟩ := hN fuel hf
  have key : ∀ t ≤ steps.flatten.length, Clr t ∧ Unmoved (W t) := by
    intro t
    induction t using Nat.strong_induction_on with
    | _ t ih =>
      intro ht
      have hc : Clr t := (c1 t).2 fun s hs ks _ => cm_clear (ih s hs (by omega)).2 l2 ks s
      refine ⟨hc, fun v hv i hi => ?_⟩
      rw [(c2 t ht hc).2 v hv i hi]
      refine adam_still fun s hs => ?_
      have hs' : s < steps.flatten.length := by omega
      have hd := (c3 s _ (List.getElem?_eq_getElem hs') ((c1 _).2 fun q hq ks hks => (c1 t).1 hc q (by omega) ks hks)).2 v hv i hi
      have hconst := (hasDerivAt_const (0 : ℝ) ((samplesBatch (cmRun.draws s) cmPixel l2 steps.flatten[s]).loss cnnSize (W s))).congr_of_eventuallyEq
        (.of_forall fun u => cm_loss l2 steps.flatten[s] s ((W s).change (fun a => nudge a i u) v) (W s))
      exact hd.unique hconst
  obtain ⟨k1, k2⟩ := key _ (le_refl _)
  choose predicted hpred using fun i => predicts_exists (W steps.flatten.length) 7 32 undrawn (picturesOf p3 (List.range 3)) 64 10 i (by decide)
  obtain ⟨e, printed, v, h, _⟩ := c4 k1 _ rfl (fun i _ c hc => by rw [cm_score k2 hc]; exact hbot.le) predicted fun i _ => hpred i
  exact ⟨e, printed, v, h⟩

end Verif.Props
