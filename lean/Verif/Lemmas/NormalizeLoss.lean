import Verif.Lemmas.Normalize
import Verif.Lemmas.ProgramMean

/-! # Losses made of `batch_norm` and `mean_squared_error` -/

namespace Verif.Prog
open Verif Verif.Nd Verif.Spec

theorem bnCalls_eq (eps : ℝ) (w : Arr ℝ) : bnLoss eps w [] = (16, [.var 0, .var 1, .var 2, .const w, .const (vec [((0 : Int) : ℝ)]), .reduceMean 0 4 true, .sub 0 5, .un .square 6, .reduceMean 7 4 true,
    .scalar eps, .add 8 9, .un .invSqrt 10, .mul 6 11, .mul 12 1, .add 13 2, .mul 14 3, .sumAll 15]) := by
  simp only [bnLoss, callBatchNorm, callNormalize, callMean, AxesArg.asTensor, emit, bind, StateT.bind, pure, StateT.pure, List.length_cons, List.length_nil, List.nil_append, List.cons_append, List.map_cons, List.map_nil, Nat.zero_add, Nat.reduceAdd]

theorem bn_total_scalar (c : ℝ) : total (ofFn [] fun _ => c) = c := by simp [total, ofFn, idxs]

theorem good_start {fs : List (String × Arr ℝ)} {env : List (Arr ℝ)} {vids : List Nat} : St.Good fs env vids ⟨[], []⟩ :=
  ⟨rfl, fun k c hk => (by cases hk), fun name d hm => (by cases hm), fun k c hk => (by cases hk), fun c hc => (by cases hc)⟩

theorem wp_varArr {fs : List (String × Arr ℝ)} {env : List (Arr ℝ)} {vids : List Nat} {α : Type} {σ : St} {Q : St → α → Prop} {vid : Nat} {s : List Nat} {a : Arr ℝ} {rest : Nat → StateM (List Stmt) α}
    (h : env[vid]? = some a) (hs : a.shape = s) (hQ : ∀ (τ : St) (k : Nat), σ.Le τ → τ.Has k (IsArr s a.get) → Wp fs env vids (rest k) τ Q) :
    Wp fs env vids (emit (.var vid) >>= rest) σ Q :=
  wp_call (by simp [Stmt.args]) (v := a) h trivial trivial (by simp) fun τ k hle _ hk => hQ τ k hle (new_has hk ⟨hs, fun _ _ => rfl⟩)

theorem bn_values {eps : ℝ} (heps : 0 < eps) {m : Nat} {s : List Nat} {weights x scale shift : Arr ℝ} {vids : List Nat} (hm : 0 < m) (hpos : ∀ d ∈ s, 0 < d) (hw : weights.shape = m :: s)
    (h0 : x.shape = m :: s) (h1 : scale.shape = 1 :: s) (h2 : shift.shape = 1 :: s) :
    ∃ vals, St.Good [] [x, scale, shift] vids ⟨bnCalls eps weights, vals⟩ ∧
      St.Has ⟨bnCalls eps weights, vals⟩ (bnResult eps weights) (fun v => v = ofFn [] fun _ => bnFormula eps m s weights [x, scale, shift]) := by
  have hp : ∀ d ∈ m :: s, 0 < d := by simpa [hm] using hpos
  have hset : ∀ l : List Nat, setAt [] 1 0 l = l := fun l => setAt_of_lt (by simp) 1 l
  have hwp : Wp [] [x, scale, shift] vids (bnLoss eps weights) ⟨[], []⟩ fun τ k => τ.Has k (fun v => v = ofFn [] fun _ => bnFormula eps m s weights [x, scale, shift]) := by
    unfold bnLoss
    refine wp_varArr (a := x) rfl h0 fun σ1 k1 e1 v1 => ?_
    refine wp_varArr (a := scale) rfl h1 fun σ2 k2 e2 v2 => ?_
    refine wp_varArr (a := shift) rfl h2 fun σ3 k3 e3 v3 => ?_
    refine wp_call (by simp [Stmt.args]) (v := weights) rfl trivial trivial (by simp) fun σ4 w e4 _ v4 => ?_
    refine wp_bind (callBatchNorm_wp heps (((v1.mono e2).mono e3).mono e4) ((v2.mono e3).mono e4) (v3.mono e4) hm hpos fun σ5 y e5 v5 => ?_)
    refine wp_bind (mulKeep (ks := []) v5 (g := weights.get) (by rw [hset]; exact (new_has v4 ⟨hw, fun _ _ => rfl⟩ : σ4.Has w (IsArr (m :: s) weights.get)).mono e5) hp fun σ6 p e6 v6 => ?_)
    refine wp_last (by simp [Stmt.args, v6.lt]) (v := ofFn [] fun _ => total (σ6.val p)) rfl trivial trivial (by simp) fun τ k _ _ hk => new_has hk ?_
    congr 1
    funext _
    rw [total, v6.val_eq.1]
    refine Finset.sum_congr rfl fun i hi => ?_
    rw [v6.val_eq.2 i (mem_idxs.1 hi)]
    show _ * weights.get (setAt [] 0 0 i) = _
    rw [show setAt [] 0 0 i = i from setAt_of_lt (by simp) 0 i]
    rfl
  obtain ⟨vals, a1, _, a2⟩ := hwp good_start
  exact ⟨vals, a1, a2⟩

theorem mse_values {n : Nat} {s : List Nat} {y t : Arr ℝ} {vids : List Nat} (hpos : ∀ d ∈ s ++ [n], 0 < d) (hy : y.shape = s ++ [n]) (ht : t.shape = s ++ [n]) :
    ∃ vals, St.Good [] [y, t] vids ⟨mseCalls, vals⟩ ∧
      St.Has ⟨mseCalls, vals⟩ mseResult (IsArr s fun i => (∑ j ∈ Finset.range n, (y.get (i ++ [j]) - t.get (i ++ [j])) ^ 2) / n) := by
  have hwp : Wp [] [y, t] vids mseLoss ⟨[], []⟩ fun τ k => τ.Has k (IsArr s fun i => (∑ j ∈ Finset.range n, (y.get (i ++ [j]) - t.get (i ++ [j])) ^ 2) / n) := by
    unfold mseLoss
    refine wp_varArr (a := y) rfl hy fun σ1 k1 e1 v1 => ?_
    refine wp_varArr (a := t) rfl ht fun σ2 k2 e2 v2 => ?_
    exact callSquaredError_wp (v1.mono e2) v2 hpos fun _ _ _ h => h
  obtain ⟨vals, a1, _, a2⟩ := hwp good_start
  exact ⟨vals, a1, a2⟩

theorem sum_last {s : List Nat} {n : Nat} (f : List Nat → ℝ) : ∑ i ∈ idxs s, ∑ j ∈ Finset.range n, f (i ++ [j]) = ∑ i ∈ idxs (s ++ [n]), f i := by
  rw [sum_idxs_append]
  refine Finset.sum_congr rfl fun i _ => ?_
  rw [sum_idxs_cons]
  simp [idxs]

theorem mseFormula_eq {s : List Nat} {n : Nat} (env : List (Arr ℝ)) : mseFormula s n env = ∑ i ∈ idxs (s ++ [n]), ((env.getD 0 (vec [])).get i - (env.getD 1 (vec [])).get i) ^ 2 / n := by
  rw [mseFormula, ← sum_last]
  simp only [Finset.sum_div]

theorem sum_nudge {s i : List Nat} (hi : InB i s) (a b : List Nat → ℝ) (n : Nat) :
    HasDerivAt (fun u : ℝ => ∑ o ∈ idxs s, ((if o = i then a o + u else a o) - b o) ^ 2 / (n : ℝ)) (2 * (a i - b i) / n) 0 := by
  have h : ∀ o ∈ idxs s, HasDerivAt (fun u : ℝ => ((if o = i then a o + u else a o) - b o) ^ 2 / (n : ℝ)) (if o = i then 2 * (a o - b o) / n else 0) 0 := by
    intro o _
    by_cases h : o = i
    · simp only [h, if_true]
      refine (((((hasDerivAt_id (0 : ℝ)).const_add (a i)).sub_const (b i)).pow 2).div_const (n : ℝ)).congr_deriv ?_
      simp
    · simp only [h, if_false]
      exact hasDerivAt_const _ _
  refine (HasDerivAt.fun_sum h).congr_deriv ?_
  rw [Finset.sum_ite_eq' (idxs s) i]
  simp [mem_idxs.2 hi]

theorem mse_deriv_left {s : List Nat} {n : Nat} {y t : Arr ℝ} (_ : ∀ d ∈ s ++ [n], 0 < d) {i : List Nat} (hi : InB i (s ++ [n])) :
    HasDerivAt (fun u => mseFormula s n ([y, t].set 0 (nudge y i u))) (2 * (y.get i - t.get i) / n) 0 := by
  simp only [mseFormula_eq]
  exact sum_nudge hi y.get t.get n

theorem mse_deriv_right {s : List Nat} {n : Nat} {y t : Arr ℝ} (_ : ∀ d ∈ s ++ [n], 0 < d) {i : List Nat} (hi : InB i (s ++ [n])) :
    HasDerivAt (fun u => mseFormula s n ([y, t].set 1 (nudge t i u))) (-(2 * (y.get i - t.get i) / n)) 0 := by
  simp only [mseFormula_eq]
  have := sum_nudge hi t.get y.get n
  refine (this.congr_deriv (by ring)).congr_of_eventuallyEq (Filter.Eventually.of_forall fun u => Finset.sum_congr rfl fun o _ => ?_)
  show ((y.get o - if o = i then t.get o + u else t.get o) ^ 2 / (n : ℝ)) = _
  rw [← neg_sub, neg_sq]

end Verif.Prog
