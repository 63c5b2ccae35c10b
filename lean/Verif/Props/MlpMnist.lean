import Verif.Lemmas.MlpMnist
import Verif.Props.Mnist
import Verif.Props.TrainLoop

/-! # Property theorems about the example `mlp_mnist`: C78 -/

namespace Verif.Props
open Verif Verif.Spec Verif.Gradient Verif.Graph Verif.Eval Verif.Nd Verif.Prog Verif.Opt Verif.OptState Verif.Mnist

/-! ## C78 The example `mlp_mnist` from the files to the test accuracy -/

/-- **C78** For all files of `n` training images with labels below 10 and `m` test images with any labels, all initial weights and everything else a run depends on: there are a list `steps` of the numbers of the
samples used in each of three epochs, and weights `W t` and `b t` after `t` steps, with `W 0` the initial weights and `b 0` zero, such that each epoch uses each of the first `200 * (n / 200)` training samples exactly once, 200 in each step, the
weights follow the formula of Adam with gradients that are the partial derivatives of the mean loss of the samples of the step at the weights before it, and, given enough iterations of the loops inside the crate, and
provided that no score of a test image is below the least float, the program ends without a panic, leaves the last weights in the variables, and prints the fraction of the test images whose label is the class
with the greatest score (the first, if there are several). -/
theorem C78_main_partial {σ : Type} (r : MlpRun σ) (f1 f2 f3 f4 : List Byte) (n m : Nat) (p1 p3 : Nat → Nat → Byte) (l2 l4 : Nat → Byte) (h1 : ImageFile f1 n p1) (h2 : LabelFile f2 n l2) (h3 : ImageFile f3 m p3)
    (h4 : LabelFile f4 m l4) (hl : ∀ i < n, (l2 i).val < 10) (hm : 0 < m) (hw0 : r.w0.shape = [784, 10]) (hsh : ∀ s l, (r.shuffle s l).Perm l) (hne : r.nameW ≠ r.nameB)
    (hord : r.order.Perm (mlpVars r.nameW r.nameB r.w0).names) (hpick : PicksMax r.pick) (hlay : ∀ a : Arr ℝ, a.shape = [200, 10] → Contig [200] (r.lay a))
    (hcopy : ∀ a : Arr ℝ, a.shape = [m, 10] → (r.copy a).length = 2 ∧ Contig [m, 10] (r.copy a)) :
    ∃ N, ∀ fuel, N ≤ fuel → ∃ (steps : List (List (List Nat))) (W b Gw Gb : Nat → Arr ℝ), steps.length = 3 ∧
      (∀ ep ∈ steps, ep.length = n / 200 ∧ ep.flatten.Perm (List.range (n / 200 * 200)) ∧ ∀ ks ∈ ep, ks.length = 200) ∧
      (∀ t ≤ steps.flatten.length, (W t).shape = [784, 10] ∧ (b t).shape = [1, 10] ∧
        (∀ i < 784, ∀ j < 10, (W t).get [i, j] = followed (.adam ⟨0.001, 1e-8, 0.9, 0.999⟩) (r.w0.get [i, j]) (fun s => (Gw s).get [i, j]) t) ∧
        ∀ j < 10, (b t).get [0, j] = followed (.adam ⟨0.001, 1e-8, 0.9, 0.999⟩) 0 (fun s => (Gb s).get [0, j]) t) ∧
      (∀ t ks, steps.flatten[t]? = some ks →
        (∀ i < 784, ∀ j < 10, HasDerivAt (fun u => samplesLoss p1 l2 ks (nudge (W t) [i, j] u) (b t)) ((Gw t).get [i, j]) 0) ∧
        ∀ j < 10, HasDerivAt (fun u => samplesLoss p1 l2 ks (W t) (nudge (b t) [0, j] u)) ((Gb t).get [0, j]) 0) ∧
      ∀ W' b', W' = W steps.flatten.length → b' = b steps.flatten.length → (∀ i < m, ∀ c < 10, r.bot ≤ classScore p3 W' b' i c) → ∀ predicted : Nat → Nat, (∀ i < m, Recognized p3 W' b' i (predicted i)) →
        ∃ e v, mlpMain r fuel (some f1) (some f2) (some f3) (some f4) = some (.ok (e, [.ok v])) ∧ e.getById 0 = some W' ∧ e.getById 1 = some b' ∧
          v.shape = [] ∧ v.get [] = ((Finset.range m).filter (fun i => predicted i = (l4 i).val)).card / (m : ℝ) := by
  obtain ⟨x, y, xt, yt, hload, hx, hy, hxt, hyt⟩ := C77_load (R := ℝ) r.short f1 f2 f3 f4 n n m m p1 p3 l2 l4 h1 h2 h3 h4
  obtain ⟨⟨e1, he1⟩, hv0, hv1⟩ := mlpAdam_created hne r.w0 hord
  obtain ⟨N1, hN1⟩ := C60_training r.bot r.lay 784 10 true (by decide) mlpAdam "adam".toList [.register [] r.nameW r.w0, .register [] r.nameB (ofFn [1, 10] fun _ => 0)] (mlpVars r.nameW r.nameB r.w0) e1
    (VarHist.register [] r.nameB _ (VarHist.register [] r.nameW r.w0 VarHist.new)) _ he1 hv0 hv1 r.w0 (ofFn [1, 10] fun _ => 0) rfl rfl hw0 rfl
  obtain ⟨N2, hN2⟩ := mlpTest_values r.bot r.copy hm hcopy hxt.1 hyt.1 (label := fun i => (l4 i).val) hyt.2
  obtain ⟨es, hes, hlen, hep⟩ := C77_epochs_partial r.shuffle hsh r.seed 200 3 n 784 1 x y hx.1 hy.1
  refine ⟨max N1 N2, fun fuel hf => ?_⟩
  obtain ⟨steps, hst⟩ := choose_list hep
  have hst' : List.Forall₂ (List.Forall₂ fun k b => b.1.shape = [200, 784] ∧ b.2.shape = [200, 1] ∧ k.length = 200 ∧ (∀ r s, k[r]? = some s → SampleAt x y b r s) ∧ ∀ s ∈ k, s < n) steps es :=
    hst.imp fun ks bs ⟨c1, c2⟩ => forall₂_of_both c2 fun k b hk _ ⟨d1, d2, d3, d4⟩ => ⟨d1, d2, d3, d4, fun s hs => by
      have := List.mem_range.1 (c1.mem_iff.1 (List.mem_flatten.2 ⟨k, hk, hs⟩))
      exact lt_of_lt_of_le this (Nat.div_mul_le_self n 200)⟩
  obtain ⟨Bs, b1, b2, b3⟩ := batches_of hlay hx hy hl (List.rel_flatten hst')
  obtain ⟨W, b, Gw, Gb, hT⟩ := hN1 fuel (le_trans (le_max_left _ _) hf) r.pick hpick Bs b3
  have hadam : mlpAdam = .adam ⟨0.001, 1e-8, 0.9, 0.999⟩ := by unfold mlpAdam; norm_num
  have hBl := b2.length_eq
  refine ⟨steps, W, b, Gw, Gb, by rw [hst.length_eq, hlen], ?_, ?_, ?_, ?_⟩
  · intro ep hep'
    obtain ⟨k, hk, rfl⟩ := List.mem_iff_getElem.1 hep'
    obtain ⟨c1, c2⟩ := (List.forall₂_iff_get.1 hst).2 k hk (by rw [← hst.length_eq]; exact hk)
    have c3 : ∀ ks ∈ steps[k], ks.length = 200 := by
      intro ks hks
      obtain ⟨q, hq, rfl⟩ := List.mem_iff_getElem.1 hks
      exact ((List.forall₂_iff_get.1 c2).2 q hq (by rw [← c2.length_eq]; exact hq)).2.2.1
    refine ⟨?_, c1, c3⟩
    have h5 := c1.length_eq
    have h6 : (steps[k].flatten).length = steps[k].length * 200 := by
      rw [List.length_flatten, List.map_congr_left c3]
      simp
    rw [List.length_range] at h5
    have h5 : steps[k].flatten.length = n / 200 * 200 := h5
    omega
  · intro t ht
    obtain ⟨_, c1, c2, c3, c4, _⟩ := hT t (by omega)
    rw [hadam] at c3 c4
    exact ⟨c1, c2, c3, c4⟩
  · intro t ks hks
    obtain ⟨hlt, hk⟩ := List.getElem?_eq_some_iff.1 hks
    obtain ⟨_, _, _, _, _, c5⟩ := hT t (by omega)
    have hB : Bs[t]? = some Bs[t] := List.getElem?_eq_getElem _
    have hH : HoldsSamples p1 l2 ks Bs[t] := by
      have := (List.forall₂_iff_get.1 b2).2 t hlt (by omega)
      rw [← hk]; exact this
    obtain ⟨c6, c7⟩ := c5 _ hB
    exact ⟨fun i hi j hj => (c6 i hi j hj).congr_deriv rfl |>.congr_of_eventuallyEq (.of_forall fun u => (hH.loss _ _).symm),
      fun j hj => (c7 j hj).congr_of_eventuallyEq (.of_forall fun u => (hH.loss _ _).symm)⟩
  · rintro W' b' rfl rfl hlow predicted hpred
    obtain ⟨⟨e, c1, c2, c3⟩, c4, c5, _⟩ := hT steps.flatten.length (by omega)
    have hs : ∀ i < m, ∀ c, score 784 xt (W steps.flatten.length) (b steps.flatten.length) i c = classScore p3 (W steps.flatten.length) (b steps.flatten.length) i c := by
      intro i hi c
      unfold score classScore
      rw [Finset.sum_congr rfl fun j hj => by rw [hxt.2 i hi j (Finset.mem_range.1 hj)]]
    rw [List.take_of_length_le (by omega), b1] at c1
    have harr : ∃ others, e.arrays = W steps.flatten.length :: b steps.flatten.length :: others := by
      have c2 : e.arrays[0]? = _ := c2
      have c3 : e.arrays[1]? = _ := c3
      match ha : e.arrays with
      | [] => rw [ha] at c2; cases c2
      | [a] => rw [ha] at c3; cases c3
      | a :: a' :: l => rw [ha] at c2 c3; cases c2; cases c3; exact ⟨l, rfl⟩
    obtain ⟨others, ho⟩ := harr
    obtain ⟨g, ids, res, v, d1, d2, d3, d4, d5⟩ := hN2 fuel (le_trans (le_max_right _ _) hf) _ _ others predicted c4 c5 (fun i hi c hc => by rw [hs i hi]; exact hlow i hi c hc) (by
      intro i hi
      obtain ⟨q1, q2, q3⟩ := hpred i hi
      exact ⟨q1, fun c hc => by rw [hs i hi, hs i hi]; exact q2 c hc, fun c hc => by rw [hs i hi, hs i hi]; exact q3 c hc⟩)
    refine ⟨e, v, ?_, c2, c3, d4, d5⟩
    rw [← ho] at d2
    simp only [mlpMain, hload, he1, hes, c1, d1, d2, d3, show (28 * 28 : Nat) = 784 from rfl]

-- The hypotheses hold for 401 training images and 3 test images with any pixels and labels, and any initial weights.
noncomputable def mlRun (w0 : Arr ℝ) : MlpRun Unit :=
  ⟨-10 ^ 30, fun a => cStrides [a.shape.getD 0 0], fun a => cStrides a.shape, fun _ _ => (fun _ => 0, []), fun _ l => l.reverse, (), demoPick, ['v'], ['w'], (mlpVars ['v'] ['w'] w0).names.reverse, w0⟩

def mlImages (n : Nat) (pixel : Nat → Nat → Byte) : List Byte := bigEndian 2051 ++ bigEndian n ++ bigEndian 28 ++ bigEndian 28 ++ (List.range (n * 784)).map fun k => pixel (k / 784) (k % 784)
def mlLabels (n : Nat) (label : Nat → Byte) : List Byte := bigEndian 2049 ++ bigEndian n ++ (List.range n).map label

example (p1 p3 : Nat → Nat → Byte) (l2 l4 : Nat → Byte) (hl : ∀ i, (l2 i).val < 10) (w0 : Arr ℝ) (hw : w0.shape = [784, 10]) : ImageFile (mlImages 401 p1) 401 p1 ∧ LabelFile (mlLabels 401 l2) 401 l2 ∧
    ImageFile (mlImages 3 p3) 3 p3 ∧ LabelFile (mlLabels 3 l4) 3 l4 ∧ (∀ i < 401, (l2 i).val < 10) ∧ (mlRun w0).w0.shape = [784, 10] ∧ (∀ s l, ((mlRun w0).shuffle s l).Perm l) ∧
    (mlRun w0).nameW ≠ (mlRun w0).nameB ∧ (mlRun w0).order.Perm (mlpVars (mlRun w0).nameW (mlRun w0).nameB (mlRun w0).w0).names ∧ PicksMax (mlRun w0).pick ∧
    (∀ a : Arr ℝ, a.shape = [200, 10] → Contig [200] ((mlRun w0).lay a)) ∧ ∀ a : Arr ℝ, a.shape = [3, 10] → ((mlRun w0).copy a).length = 2 ∧ Contig [3, 10] ((mlRun w0).copy a) := by
  have hi : ∀ n, n < 2 ^ 32 → ∀ p, ImageFile (mlImages n p) n p := by
    refine fun n hn p => ⟨hn, _, rfl, fun i hi j hj => ?_⟩
    have hlt : i * 784 + j < n * 784 := by omega
    rw [List.getElem?_map, List.getElem?_range hlt, Option.map_some]
    congr 2 <;> omega
  have hb : ∀ n, n < 2 ^ 32 → ∀ l, LabelFile (mlLabels n l) n l := by
    refine fun n hn l => ⟨hn, _, rfl, fun i hi => ?_⟩
    rw [List.getElem?_map, List.getElem?_range hi, Option.map_some]
  refine ⟨hi _ (by decide) _, hb _ (by decide) _, hi _ (by decide) _, hb _ (by decide) _, fun i _ => hl i, hw, fun _ l => l.reverse_perm, by simp [mlRun], List.reverse_perm _, demoPick_max, fun a ha => ?_, fun a ha => ?_⟩
  · simp only [mlRun, ha]; exact contig_cStrides _
  · simp only [mlRun, ha]; exact ⟨rfl, contig_cStrides _⟩

end Verif.Props
