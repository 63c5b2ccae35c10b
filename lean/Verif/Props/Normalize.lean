import Verif.Lemmas.CallsFormula
import Verif.Lemmas.NormalizeLoss

/-! # Property theorems about variance, normalisation and the squared error: C72 -/

namespace Verif.Props
open Verif Verif.Spec Verif.Gradient Verif.Graph Verif.Eval Verif.Nd Verif.Prog

/-! ## C72 Variance, batch normalisation and mean squared error -/

/-- **C72** `reduce_variance`, called after any program to which C61 applies: the result has the shape of the input without the axes, or with size 1 there, and at each position the variance of the elements of the
input that agree with it in the other axes. C61 applies to the longer program as well: evaluation returns these values, and `grad` differentiates them. Required is that no dimension is 0 and the axes are
different, at least one and, given as a tensor, a vector independent of the variables. -/
theorem C72_variance_partial (fs : List (String × Arr ℝ)) (env : List (Arr ℝ)) (vids : List Nat) (l : List Stmt) (val : Nat → Arr ℝ) (hl : Meant fs env vids l val) (x : Nat) (hx : x < l.length)
    (hpos : ∀ d ∈ (val x).shape, 0 < d) (ks : List Nat) (arg : AxesArg) (harg : AxesAre l vids val (val x).shape.length ks arg) (keep : Bool) :
    ∃ val', Meant fs env vids (callVariance x arg keep l).2 val' ∧ (∀ k < l.length, val' k = val k) ∧ l <+: (callVariance x arg keep l).2 ∧
      (callVariance x arg keep l).1 < (callVariance x arg keep l).2.length ∧ (val' (callVariance x arg keep l).1).shape = reducedShape ks keep (val x).shape ∧
      ∀ i, InB i (val x).shape → (val' (callVariance x arg keep l).1).get (reducedIdx ks keep i) = lineVariance ks (val x).shape (val x).get i := by
  obtain ⟨h1, h2, h3⟩ := argAxes_of harg
  exact meant_wp hl (P := fun v => v.shape = reducedShape ks keep (val x).shape ∧ ∀ i, InB i (val x).shape → v.get (reducedIdx ks keep i) = lineVariance ks (val x).shape (val x).get i)
    (callVariance_wp (has_of_meant hx ⟨rfl, fun _ _ => rfl⟩) h1 h2 h3 hpos fun _ _ _ h => h)

/-- **C72** `normalize`, called after any program to which C61 applies: every element minus the mean, divided by the square root of the variance plus `eps`, where mean and variance are those of the elements
that agree with it outside the axes. C61 applies to the longer program as well. -/
theorem C72_normalize_partial (eps : ℝ) (heps : 0 < eps) (fs : List (String × Arr ℝ)) (env : List (Arr ℝ)) (vids : List Nat) (l : List Stmt) (val : Nat → Arr ℝ) (hl : Meant fs env vids l val) (x : Nat)
    (hx : x < l.length) (hpos : ∀ d ∈ (val x).shape, 0 < d) (ks : List Nat) (arg : AxesArg) (harg : AxesAre l vids val (val x).shape.length ks arg) :
    ∃ val', Meant fs env vids (callNormalize eps x arg l).2 val' ∧ (∀ k < l.length, val' k = val k) ∧ l <+: (callNormalize eps x arg l).2 ∧
      (callNormalize eps x arg l).1 < (callNormalize eps x arg l).2.length ∧ (val' (callNormalize eps x arg l).1).shape = (val x).shape ∧
      ∀ i, InB i (val x).shape → (val' (callNormalize eps x arg l).1).get i = normalized eps ks (val x).shape (val x).get i := by
  obtain ⟨h1, h2, h3⟩ := argAxes_of harg
  exact meant_wp hl (P := IsArr (val x).shape (normalized eps ks (val x).shape (val x).get)) (callNormalize_wp heps (has_of_meant hx ⟨rfl, fun _ _ => rfl⟩) h1 h2 h3 hpos fun _ _ _ h => h)

/-- **C72** `batch_norm`, called after any program to which C61 applies, for an input with any number of axes: the input normalised along the first axis, times the scale plus the shift, which have size 1 there. C61
applies to the longer program as well. -/
theorem C72_batchNorm_partial (eps : ℝ) (heps : 0 < eps) (fs : List (String × Arr ℝ)) (env : List (Arr ℝ)) (vids : List Nat) (l : List Stmt) (val : Nat → Arr ℝ) (hl : Meant fs env vids l val)
    (x scale shift m : Nat) (s : List Nat) (hx : x < l.length) (hscale : scale < l.length) (hshift : shift < l.length) (hxs : (val x).shape = m :: s) (hss : (val scale).shape = 1 :: s)
    (hhs : (val shift).shape = 1 :: s) (hm : 0 < m) (hpos : ∀ d ∈ s, 0 < d) :
    ∃ val', Meant fs env vids (callBatchNorm eps x scale shift l).2 val' ∧ (∀ k < l.length, val' k = val k) ∧ l <+: (callBatchNorm eps x scale shift l).2 ∧
      (callBatchNorm eps x scale shift l).1 < (callBatchNorm eps x scale shift l).2.length ∧ (val' (callBatchNorm eps x scale shift l).1).shape = m :: s ∧
      ∀ i, InB i (m :: s) → (val' (callBatchNorm eps x scale shift l).1).get i =
        normalized eps [0] (m :: s) (val x).get i * (val scale).get (0 :: i.tail) + (val shift).get (0 :: i.tail) :=
  meant_wp hl (P := IsArr (m :: s) fun i => normalized eps [0] (m :: s) (val x).get i * (val scale).get (0 :: i.tail) + (val shift).get (0 :: i.tail))
    (callBatchNorm_wp heps (has_of_meant hx ⟨hxs, fun _ _ => rfl⟩) (has_of_meant hscale ⟨hss, fun _ _ => rfl⟩) (has_of_meant hshift ⟨hhs, fun _ _ => rfl⟩) hm hpos fun _ _ _ h => h)

/-- **C72** `mean_squared_error`, called after any program to which C61 applies, for two arrays of the same shape: the mean of the squared differences along the last axis. C61 applies to the longer program as
well. -/
theorem C72_squaredError_partial (fs : List (String × Arr ℝ)) (env : List (Arr ℝ)) (vids : List Nat) (l : List Stmt) (val : Nat → Arr ℝ) (hl : Meant fs env vids l val) (y t n : Nat) (s : List Nat)
    (hy : y < l.length) (ht : t < l.length) (hys : (val y).shape = s ++ [n]) (hts : (val t).shape = s ++ [n]) (hpos : ∀ d ∈ s ++ [n], 0 < d) :
    ∃ val', Meant fs env vids (callSquaredError y t l).2 val' ∧ (∀ k < l.length, val' k = val k) ∧ l <+: (callSquaredError y t l).2 ∧
      (callSquaredError y t l).1 < (callSquaredError y t l).2.length ∧ (val' (callSquaredError y t l).1).shape = s ∧
      ∀ i, InB i s → (val' (callSquaredError y t l).1).get i = (∑ j ∈ Finset.range n, ((val y).get (i ++ [j]) - (val t).get (i ++ [j])) ^ 2) / n :=
  meant_wp hl (P := IsArr s fun i => (∑ j ∈ Finset.range n, ((val y).get (i ++ [j]) - (val t).get (i ++ [j])) ^ 2) / n)
    (callSquaredError_wp (has_of_meant hy ⟨hys, fun _ _ => rfl⟩) (has_of_meant ht ⟨hts, fun _ _ => rfl⟩) hpos fun _ _ _ h => h)

/-- **C72** Gradients of `batch_norm`. For any weights, `grad` of the weighted sum of the elements of `batch_norm(x, scale, shift)` with respect to the three variables, in any order of processing tensors of equal
rank, given enough loop iterations, returns three tensors, which evaluate to its partial derivatives with respect to the elements of the variables. -/
theorem C72_gradients_partial (eps : ℝ) (heps : 0 < eps) (m : Nat) (s : List Nat) (hm : 0 < m) (hpos : ∀ d ∈ s, 0 < d) (weights x scale shift : Arr ℝ) (hw : weights.shape = m :: s)
    (h0 : x.shape = m :: s) (h1 : scale.shape = 1 :: s) (h2 : shift.shape = 1 :: s) (pick : Graph POp → List Nat → Nat) (hpick : PicksMax pick) :
    ∃ g ids, buildCalls (bnCalls eps weights) = .ok (g, ids) ∧ ids.length = (bnCalls eps weights).length ∧ ∃ N, ∀ fuel, N ≤ fuel →
      ∃ r, grad gradOps pick fuel g [ids.getD (bnResult eps weights) 0] [ids.getD 0 0, ids.getD 1 0, ids.getD 2 0] = some (.ok r) ∧
        List.Forall₂ (fun vid t => ∃ a v : Arr ℝ, [x, scale, shift][vid]? = some a ∧ v.shape = a.shape ∧
          (∃ fuel0, ∀ fuel', fuel0 ≤ fuel' → ∃ res, eval progSem r.g fuel' [t] (named []) [x, scale, shift] () = some (.ok res) ∧ res.results = [.ok v]) ∧
          ∀ i, InB i a.shape → HasDerivAt (fun u => bnFormula eps m s weights ([x, scale, shift].set vid (nudge a i u))) (v.get i) 0) [0, 1, 2] r.grads := by
  obtain ⟨vals, hG, _⟩ := bn_values heps (vids := [0, 1, 2]) hm hpos hw h0 h1 h2
  refine grads_of_formula (F := bnFormula eps m s weights) (xs := [0, 1, 2]) (vids := [0, 1, 2]) hG (fun env' he => ?_) 
    (.cons (by rw [bnCalls, bnCalls_eq]; rfl) (.cons (by rw [bnCalls, bnCalls_eq]; rfl) (.cons (by rw [bnCalls, bnCalls_eq]; rfl) .nil))) (by decide)
    (by rw [bnResult, bnCalls, bnCalls_eq]; simp) (by rw [bnCalls, bnCalls_eq]; simp) pick hpick
  obtain ⟨a, b, c, rfl⟩ : ∃ a b c, env' = [a, b, c] := List.length_eq_three.1 (by simpa using congrArg List.length he)
  simp only [List.map_cons, List.map_nil, List.cons.injEq, and_true] at he
  obtain ⟨vals', hG', hr⟩ := bn_values heps (vids := []) hm hpos hw (he.1.trans h0) (he.2.1.trans h1) (he.2.2.trans h2)
  refine ⟨_, hG'.den, ?_⟩
  rw [hr.val_eq, bn_total_scalar]

/-- **C72** Gradients of `mean_squared_error`. `grad` of the mean squared error of two variables of the same shape, in any order of processing tensors of equal rank, given enough loop iterations, returns two
tensors; the first one evaluates to `2 * (y - t) / n`, the second one to its negative. (Partial, as all of C72: arrays of different shapes, and dimensions 0, are missing.) -/
theorem C72_squaredError_gradients_partial (n : Nat) (s : List Nat) (hpos : ∀ d ∈ s ++ [n], 0 < d) (y t : Arr ℝ) (hy : y.shape = s ++ [n]) (ht : t.shape = s ++ [n])
    (pick : Graph POp → List Nat → Nat) (hpick : PicksMax pick) :
    ∃ g ids, buildCalls mseCalls = .ok (g, ids) ∧ ids.length = mseCalls.length ∧ ∃ N, ∀ fuel, N ≤ fuel →
      ∃ r gy gt, grad gradOps pick fuel g [ids.getD mseResult 0] [ids.getD 0 0, ids.getD 1 0] = some (.ok r) ∧ r.grads = [gy, gt] ∧
        (∃ v : Arr ℝ, v.shape = s ++ [n] ∧ (∃ fuel0, ∀ fuel', fuel0 ≤ fuel' → ∃ res, eval progSem r.g fuel' [gy] (named []) [y, t] () = some (.ok res) ∧ res.results = [.ok v]) ∧
          ∀ i, InB i (s ++ [n]) → v.get i = 2 * (y.get i - t.get i) / n) ∧
        (∃ v : Arr ℝ, v.shape = s ++ [n] ∧ (∃ fuel0, ∀ fuel', fuel0 ≤ fuel' → ∃ res, eval progSem r.g fuel' [gt] (named []) [y, t] () = some (.ok res) ∧ res.results = [.ok v]) ∧
          ∀ i, InB i (s ++ [n]) → v.get i = -(2 * (y.get i - t.get i) / n)) := by
  obtain ⟨vals, hG, _⟩ := mse_values (vids := [0, 1]) hpos hy ht
  obtain ⟨g, ids, hb, hl, N, hN⟩ := grads_of_formula (F := mseFormula s n) (xs := [0, 1]) (vids := [0, 1]) (y := mseResult) hG (fun env' he => by
    obtain ⟨a, b, rfl⟩ : ∃ a b, env' = [a, b] := List.length_eq_two.1 (by simpa using congrArg List.length he)
    simp only [List.map_cons, List.map_nil, List.cons.injEq, and_true] at he
    obtain ⟨vals', hG', hr⟩ := mse_values (vids := []) hpos (he.1.trans hy) (he.2.trans ht)
    refine ⟨_, hG'.den, ?_⟩
    rw [total, hr.val_eq.1]
    exact Finset.sum_congr rfl fun i hi => hr.val_eq.2 i (mem_idxs.1 hi)) (.cons rfl (.cons rfl .nil)) (by decide) (by decide) (by decide) pick hpick
  refine ⟨g, ids, hb, hl, N, fun fuel hf => ?_⟩
  obtain ⟨r, h1, h2⟩ := hN fuel hf
  generalize hgr : r.grads = gr at h2
  match gr, h2 with
  | [gy, gt], .cons ⟨a, v, e1, e2, e3, e4⟩ (.cons ⟨a', v', e1', e2', e3', e4'⟩ .nil) =>
    cases e1
    cases e1'
    refine ⟨r, gy, gt, h1, hgr, ⟨v, e2.trans hy, e3, fun i hi => ?_⟩, ⟨v', e2'.trans ht, e3', fun i hi => ?_⟩⟩
    · exact (e4 i (by rw [hy]; exact hi)).unique (mse_deriv_left hpos hi)
    · exact (e4' i (by rw [ht]; exact hi)).unique (mse_deriv_right hpos hi)

-- The hypotheses of the first three theorems hold after a program with three variables of the shapes [2, 3], [1, 3] and [1, 3], differentiated with respect to all of them, and `normalize` along the last axis, given by -1.
noncomputable def bnVal (k : Nat) : Arr ℝ := [ofFn [2, 3] (fun i => (i.getD 0 0 : ℝ) + 2 * i.getD 1 0), ofFn [1, 3] (fun _ => 2), ofFn [1, 3] (fun i => (i.getD 1 0 : ℝ))].getD k noArr

example : Meant [] [bnVal 0, bnVal 1, bnVal 2] [0, 1, 2] [.var 0, .var 1, .var 2] bnVal ∧ (∀ d ∈ (bnVal 0).shape, 0 < d) ∧
    AxesAre [.var 0, .var 1, .var 2] [0, 1, 2] bnVal (bnVal 0).shape.length [1] (.ints [-1]) ∧ (0 : ℝ) < 1e-5 ∧ (bnVal 0).shape = [2, 3] ∧ (bnVal 1).shape = [1, 3] ∧ (bnVal 2).shape = [1, 3] := by
  refine ⟨⟨?_, ?_, ?_, ?_⟩, by simp [bnVal, ofFn], ⟨.cons ⟨by simp [bnVal, ofFn], .inr (by simp [bnVal, ofFn])⟩ .nil, by simp, by simp⟩, by norm_num, rfl, rfl, rfl⟩
  · intro k s h
    match k, h with
    | 0, h => cases h; simp [Stmt.args]
    | 1, h => cases h; simp [Stmt.args]
    | 2, h => cases h; simp [Stmt.args]
  · simp [DimsOk]
  · intro k s h
    match k, h with
    | 0, h => cases h; rfl
    | 1, h => cases h; rfl
    | 2, h => cases h; rfl
  · simp [StmtOk, GradGivenFor]

-- Those of `C72_gradients_partial` and of the theorems about the squared error hold for arrays with two rows and three columns.
example : (∀ d ∈ [2] ++ [3], 0 < d) ∧ (ofFn [2, 3] (fun i => (i.getD 0 0 : ℝ))).shape = [2] ++ [3] ∧ PicksMax (demoPick (Op := POp)) := ⟨by decide, rfl, demoPick_max⟩

end Verif.Props
