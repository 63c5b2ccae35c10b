import Verif.Lemmas.MlpMnist
import Verif.Props.CnnTrain
import Verif.Props.OptimizerState
import Verif.Spec.CnnMnist

/-! # The test of the example `cnn_mnist`, and its batches -/

namespace Verif.Prog
open Verif Verif.Nd Verif.Spec Verif.Gradient Verif.Graph Verif.Eval Verif.Mnist Verif.Hint

/-! ## The network depends only on the elements of the images -/

section congr
variable {W : CnnWeights} {side ch1 ch2 classes batch : Nat} {D : Drops} {x x' : Arr ℝ}

theorem pre1_congr {n : Nat} (h : ∀ k < 4 * side * (4 * side), x.get [n, k] = x'.get [n, k]) : W.pre1 side x n = W.pre1 side x' n := by
  funext o i j
  simp only [CnnWeights.pre1, convolved]
  congr 1
  refine Finset.sum_congr rfl fun c _ => Finset.sum_congr rfl fun a _ => Finset.sum_congr rfl fun e _ => ?_
  by_cases hc : (1 ≤ i + a ∧ i + a ≤ 4 * side) ∧ (1 ≤ j + e ∧ j + e ≤ 4 * side)
  · rw [if_pos hc, if_pos hc, h]
    obtain ⟨⟨h1, h2⟩, h3, h4⟩ := hc
    have h5 : i + a - 1 < 4 * side := by omega
    have h6 : j + e - 1 < 4 * side := by omega
    calc (i + a - 1) * (4 * side) + (j + e - 1) < (i + a - 1) * (4 * side) + 4 * side := by omega
      _ = (i + a - 1 + 1) * (4 * side) := by ring
      _ ≤ 4 * side * (4 * side) := Nat.mul_le_mul_right _ h5
  · rw [if_neg hc, if_neg hc]

theorem pre2_congr {n : Nat} (h : W.pre1 side x n = W.pre1 side x' n) : W.pre2 side ch1 D x n = W.pre2 side ch1 D x' n := by
  funext o i j
  simp only [CnnWeights.pre2, convolved, CnnWeights.layer1, pooled, rectified, h]

theorem score_congr {n : Nat} (h : ∀ k < 4 * side * (4 * side), x.get [n, k] = x'.get [n, k]) (c : Nat) : W.score side ch1 D x ch2 n c = W.score side ch1 D x' ch2 n c := by
  simp only [CnnWeights.score, CnnWeights.features, CnnWeights.layer2, pooled, rectified, pre2_congr (ch1 := ch1) (D := D) (pre1_congr (W := W) h)]

theorem cnnLoss_congr {label label' : Nat → Nat} (h : ∀ n < batch, ∀ k < 4 * side * (4 * side), x.get [n, k] = x'.get [n, k]) (hl : ∀ n < batch, label n = label' n) :
    W.loss side ch1 D x ch2 classes batch label = W.loss side ch1 D x' ch2 classes batch label' := by
  unfold CnnWeights.loss
  refine congrArg (fun s : ℝ => s / batch) (Finset.sum_congr rfl fun n hn => ?_)
  have hn := Finset.mem_range.1 hn
  simp only [score_congr (h n hn), hl n hn]

theorem clear_congr {channels size : Nat} {X X' : Images} (h : ∀ n < batch, X n = X' n) : Clear batch channels size X ↔ Clear batch channels size X' := by
  unfold Clear pooled
  refine forall₂_congr fun n hn => ?_
  rw [h n hn]

theorem predicts_congr {n c : Nat} (h : ∀ k < 4 * side * (4 * side), x.get [n, k] = x'.get [n, k]) :
    W.Predicts side ch1 D x ch2 classes n c ↔ W.Predicts side ch1 D x' ch2 classes n c := by
  unfold CnnWeights.Predicts
  simp only [score_congr h]

end congr

/-- A batch with the elements of the samples `ks` has their loss, and is differentiable at the same weights. -/
theorem batch_samples {r : CnnRun} {pixel : Nat → Nat → Byte} {label : Nat → Byte} {ks : List Nat} {B : CnnBatch} (hr : B.r = r) (hn : B.n = ks.length)
    (hx : ∀ n < ks.length, ∀ j < 784, B.x.get [n, j] = ((pixel (ks.getD n 0) j).val : ℝ) / 255) (hl : ∀ n < ks.length, B.label n = (label (ks.getD n 0)).val) (W : CnnWeights) :
    B.loss cnnSize W = (samplesBatch r pixel label ks).loss cnnSize W ∧ (B.ClearAt cnnSize W ↔ (samplesBatch r pixel label ks).ClearAt cnnSize W) := by
  obtain ⟨r', n', x', y', l'⟩ := B
  subst hr hn
  have h : ∀ n < ks.length, ∀ k < 4 * cnnSize.side * (4 * cnnSize.side), x'.get [n, k] = (picturesOf pixel ks).get [n, k] := fun n hn k hk => hx n hn k hk
  constructor
  · exact cnnLoss_congr h hl
  · exact and_congr (clear_congr fun n hn => pre1_congr (h n hn)) (clear_congr fun n hn => pre2_congr (pre1_congr (h n hn)))

/-- The graph of the test, and its value with any weights. -/
theorem cnnTest_within (z : CnnSize) (r : CnnRun) (hbot : r.bot < 0) (batch : Nat) (x y : Arr ℝ) (label : Nat → Nat) (hP : Pictures r.lay z.side z.ch1 z.ch2 z.classes batch x y label)
    (hcopy : ∀ a : Arr ℝ, a.shape = [batch, z.classes] → (r.copy a).length = 2 ∧ Contig [batch, z.classes] (r.copy a)) :
    ∃ N, ∀ fuel, N ≤ fuel → ∀ (W : CnnWeights) (others : List (Arr ℝ)) (predicted : Nat → Nat), W.Shapes z.side z.ch1 z.ch2 z.classes →
      (∀ n < batch, ∀ c < z.classes, r.bot ≤ W.score z.side z.ch1 undrawn x z.ch2 n c) → (∀ n < batch, W.Predicts z.side z.ch1 undrawn x z.ch2 z.classes n (predicted n)) →
      ∃ g ids res v, buildCalls (cnnTestCalls z r) = .ok (g, ids) ∧ eval progSem g fuel [ids.getD (cnnTestResult z r) 0] (cnnFeeds (x, y)) (W.env others) () = some (.ok res) ∧
        res.results = [.ok v] ∧ v.shape = [] ∧ v.get [] = ((Finset.range batch).filter (fun n => predicted n = label n)).card / (batch : ℝ) := by
  have hf : FedAs [("x", x), ("y", y)] "x" x := ⟨[], [("y", y)], rfl, by simp⟩
  have hf' : FedAs [("x", x), ("y", y)] "y" y := ⟨[("x", x)], [], rfl, by simp⟩
  generalize hl : cnnTestCalls z r = l
  generalize hk : cnnTestResult z r = k
  refine ⟨match buildCalls l with
    | .ok (g, _) => 2 * (1 + edgeCount g)
    | .error _ => 0, fun fuel hfuel W others predicted hW hlow hpred => ?_⟩
  obtain ⟨vals, hG, hL⟩ := cnnTest_values (others := others) hbot hP hW hf hf' hcopy hlow predicted hpred
  have hlen := cnnTest_len z r
  rw [hl, hk] at hL
  rw [hl] at hG hlen
  obtain ⟨g, ids, hbl, _⟩ := buildCalls_total hG.inScope hG.dims (by show 4 * l.length ≤ 500000; rw [hlen]; omega)
  rw [hbl] at hfuel
  have hB := built hbl hG.inScope
  obtain ⟨hi, hv⟩ := buildCalls_values hbl hG.inScope (fun c hc => stmtOk_weaken (fun _ _ => trivial) (fun _ _ _ => trivial) (hG.ok c hc).1) hG.den
  have hlt : k < l.length := by rw [← hG.len]; exact hL.lt
  obtain ⟨res, r1, r2⟩ := evaluates_within (prog_reach hB.run) (run_oldRead hB.run) (hv _ hlt) hfuel
  exact ⟨g, ids, res, _, hbl, r1, r2, hL.val_eq⟩

/-! ## The printed losses -/

theorem mapM_firstElem {L : Nat → Arr ℝ} {l : List Nat} (h : ∀ t ∈ l, (L t).shape = [1]) : (l.map L).mapM firstElem = some (l.map fun t => (L t).get [0]) := by
  induction l with
  | nil => rfl
  | cons t l ih =>
    have h1 : firstElem (L t) = some ((L t).get [0]) := by unfold firstElem; rw [h t (by simp)]
    rw [List.map_cons, List.mapM_cons, h1, ih fun s hs => h s (by simp [hs])]
    rfl

theorem epochMeans_range {c b : Nat} {f : Nat → ℝ} : epochMeans c b ((List.range (c * b)).map f) = (List.range c).map fun k => (∑ t ∈ Finset.range b, f (k * b + t)) / (b : ℝ) := by
  unfold epochMeans
  refine List.map_congr_left fun k hk => ?_
  have hk := List.mem_range.1 hk
  have hle : k * b + b ≤ c * b := by
    calc k * b + b = (k + 1) * b := by ring
      _ ≤ c * b := Nat.mul_le_mul_right _ hk
  rw [← List.map_drop, ← List.map_take, sum_list]
  have hlen : (List.take b (List.drop (k * b) (List.range (c * b)))).length = b := by
    simp only [List.length_take, List.length_drop, List.length_range]; omega
  rw [hlen]
  refine congrArg (fun s : ℝ => s / (b : ℝ)) (Finset.sum_congr rfl fun t ht => ?_)
  have ht := Finset.mem_range.1 ht
  congr 1
  rw [List.getD_eq_getElem?_getD, List.getElem?_take_of_lt ht, List.getElem?_drop, List.getElem?_range (by omega)]
  rfl

/-! ## The variables -/

theorem cnnVars_get {σ : Type} (r : CnnMain σ) : ∀ v < 6, (cnnVars r.w1 r.w2 r.w3).getById v = some ((firstWeights r).get v) := by
  intro v hv
  obtain rfl | rfl | rfl | rfl | rfl | rfl : v = 0 ∨ v = 1 ∨ v = 2 ∨ v = 3 ∨ v = 4 ∨ v = 5 := by omega
  all_goals rfl

theorem cnnVars_ids (w1 w2 w3 : Arr ℝ) : (VarEnv.currentVarIds (cnnVars w1 w2 w3).names []).Perm [0, 1, 2, 3, 4, 5] := by
  have h : VarEnv.currentVarIds (cnnVars w1 w2 w3).names [] = [5, 4, 3, 2, 1, 0] := rfl
  rw [h]; decide

/-- The optimizer can be created. -/
theorem cnnAdam_created {w1 w2 w3 : Arr ℝ} {order : List (FullName × Nat)} (ho : order.Perm (cnnVars w1 w2 w3).names) :
    (∃ e1, mlpAdam.create "my_adam".toList (cnnVars w1 w2 w3) (VarEnv.currentVarIds order []) = .ok e1) ∧ ∀ v < 6, v ∈ VarEnv.currentVarIds order [] := by
  have h1 : (VarEnv.currentVarIds order []).Perm [0, 1, 2, 3, 4, 5] := List.Perm.trans (ho.filterMap _) (cnnVars_ids w1 w2 w3)
  refine ⟨(Verif.Props.C46_creation_succeeds zerosOf oneArr "my_adam".toList (cnnVars w1 w2 w3) _ fun v hv => ?_).1, fun v hv => h1.mem_iff.2 (by simp; omega)⟩
  have hv := h1.mem_iff.1 hv
  simp only [List.mem_cons, List.not_mem_nil, or_false] at hv
  rcases hv with rfl | rfl | rfl | rfl | rfl | rfl <;> exact Option.some_ne_none _

theorem cnnVars_hist (w1 w2 w3 : Arr ℝ) : ∃ hist, VarHist hist (cnnVars w1 w2 w3) :=
  ⟨_, VarHist.register [] ['b', '3'] _ (VarHist.register [] ['b', '2'] _ (VarHist.register [] ['b', '1'] _ (VarHist.register [] ['w', '3'] _ (VarHist.register [] ['w', '2'] _
    (VarHist.register [] ['w', '1'] _ VarHist.new)))))⟩

end Verif.Prog
