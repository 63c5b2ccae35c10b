import Verif.Lemmas.CrossEntropy

/-!
# C38: cross-entropy losses
-/

namespace Verif.Props
open Verif.Nd Finset

/-- 2x3 logits used in the examples. -/
noncomputable def ceX : Arr ℝ := ofFn [2, 3] (fun i => (i.getD 0 0 : ℝ) * 3 - i.getD 1 0)
/-- 2x3 one-hot targets used in the examples: class `i` for row `i`. -/
noncomputable def ceT : Arr ℝ := ofFn [2, 3] (fun i => if i.getD 0 0 = i.getD 1 0 then 1 else 0)
/-- Labels used in the examples: class `2 - i` for row `i`. -/
noncomputable def ceL : Arr ℝ := ofFn [2, 1] (fun i => ((2 - i.getD 0 0 : Nat) : ℝ))
/-- Incoming gradients used in the examples. -/
noncomputable def ceG : Arr ℝ := ofFn [2, 1] (fun i => (i.getD 0 0 : ℝ) + 1)
/-- One row of logits. -/
noncomputable def ceR : Arr ℝ := ofFn [1, 3] (fun i => (i.getD 1 0 : ℝ))
/-- One row of targets. -/
noncomputable def ceRT : Arr ℝ := ofFn [1, 3] (fun i => if i.getD 1 0 = 2 then 1 else 0)

/-- The logistic function. -/
noncomputable def logistic (a : ℝ) : ℝ := 1 / (1 + Real.exp (-a))

/-- C38 (sigmoid_cross_entropy): the value is `-(t log s(x) + (1 - t) log (1 - s(x)))` for all shapes, logits and targets (the targets need not be
probabilities); different shapes panic, as documented. -/
theorem C38_sigmoid (x t : Arr ℝ) :
    (x.shape = t.shape → ∃ y, sigmoidCE x t = .ok y ∧ y.shape = x.shape ∧ ∀ o, InB o x.shape →
      y.get o = -(t.get o * Real.log (logistic (x.get o)) + (1 - t.get o) * Real.log (1 - logistic (x.get o)))) ∧
    (x.shape ≠ t.shape → sigmoidCE x t = .error .panic) := by
  refine ⟨fun h => ?_, fun h => by rw [sigmoidCE, if_neg h]⟩
  obtain ⟨y, hy, hs, hv⟩ := sigmoidCE_spec x t h
  refine ⟨y, hy, hs, fun o ho => ?_⟩
  rw [hv o ho]
  generalize x.get o = a
  generalize t.get o = u
  have h1 : Real.log (logistic a) = a - Real.log (1 + Real.exp a) := by
    have : logistic a = Real.exp a / (1 + Real.exp a) := by
      rw [logistic, Real.exp_neg, div_eq_div_iff (by positivity) (by positivity)]
      field_simp
      ring
    rw [this, Real.log_div (Real.exp_pos _).ne' (by positivity), Real.log_exp]
  have h2 : Real.log (1 - logistic a) = -Real.log (1 + Real.exp a) := by
    have : 1 - logistic a = (1 + Real.exp a)⁻¹ := by
      rw [logistic, Real.exp_neg]
      field_simp
      ring
    rw [this, Real.log_inv]
  rw [h1, h2]; ring

example : ceX.shape = ceT.shape := rfl

/-- C38 (sigmoid_cross_entropy): the gradient reported for the logits is the gradient. Missing from the full statement: the shapes `[0]` and `[1]`, for which
evaluating it panics (`C38_sigmoid_shape_violated`). -/
theorem C38_sigmoid_gradient_partial (x t gy : Arr ℝ) (ht : t.shape = x.shape) (hg : gy.shape = x.shape) (h0 : x.shape ≠ [0]) (h1 : x.shape ≠ [1]) :
    ∃ g, sigmoidCEGradX x t gy = .ok g ∧ IsGradient (fun x => sigmoidCE x t) x gy g := by
  obtain ⟨g, hgg, hgs, hgv⟩ := sigmoidCEGradX_spec ht hg h0 h1
  refine ⟨g, hgg, isGradient_pointwise (fun o a => Real.log (1 + Real.exp a) - t.get o * a)
    (fun o => Real.exp (x.get o) / (1 + Real.exp (x.get o)) - t.get o) (fun x' hx' => ?_) hg hgs hgv (fun o b _ => ?_)⟩
  · obtain ⟨y, hy, hs, hv⟩ := sigmoidCE_spec x' t (by rw [hx', ht])
    exact ⟨y, hy, by rw [hs, hx', hg], fun o ho => hv o (by rw [hx']; exact ho)⟩
  · have := (hasDerivAt_softplus (x.get o) b).sub ((hasDerivAt_line (x.get o) b).const_mul (t.get o))
    exact this.congr_deriv (by ring)

example : ceT.shape = ceX.shape ∧ (map (· + 1) ceX).shape = ceX.shape ∧ ceX.shape ≠ [0] ∧ ceX.shape ≠ [1] := ⟨rfl, rfl, by decide, by decide⟩

/-- C38 is violated for vectors of length one: evaluating the gradient reported for the logits of sigmoid_cross_entropy panics. -/
theorem C38_sigmoid_shape_violated (x t gy : Arr ℝ) (hx : x.shape = [1]) : sigmoidCEGradX x t gy = .error .panic := by
  have ha : addOp (ofFn [] (fun _ => (1 : ℝ))) (map Real.exp x) = .ok (map (fun a => a + 1) (map Real.exp x)) := by
    have : isScalarShape (map Real.exp x).shape = false := by
      rw [← Bool.not_eq_true, isScalarShape_iff]
      show ¬(x.shape = [] ∨ x.shape = [0])
      rw [hx]; decide
    simp only [addOp, binForward, this]
    rfl
  have hd : divOp (map Real.exp x) (map (fun a => a + 1) (map Real.exp x)) = .error .panic := divOp_one_panics _ _ hx hx
  simp only [sigmoidCEGradX, ha, hd, bind, Except.bind]

example : (ofFn [1] (fun _ => (2 : ℝ))).shape = [1] := rfl

/-- C38 is violated by the gradient that sigmoid_cross_entropy reports for the targets: it is `-gy * t`, which is the gradient only if `gy * (t - x)` is zero
everywhere. -/
theorem C38_sigmoid_target_gradient_violated (x t gy : Arr ℝ) (ht : t.shape = x.shape) (hg : gy.shape = x.shape) :
    ∃ g, sigmoidCEGradT t gy = .ok g ∧
      (IsGradient (fun t => sigmoidCE x t) t gy g ↔ ∀ o, InB o x.shape → gy.get o * (t.get o - x.get o) = 0) := by
  obtain ⟨p, hp, hps, hpv⟩ := mulOp_same (x0 := gy) (x1 := t) (by rw [hg, ht])
  rw [hg] at hps hpv
  have htrue : IsGradient (fun t => sigmoidCE x t) t gy (ofFn x.shape fun o => -x.get o * gy.get o) := by
    refine isGradient_pointwise (fun o u => Real.log (1 + Real.exp (x.get o)) - u * x.get o) (fun o => -x.get o) (fun t' ht' => ?_)
      (by rw [hg, ht]) ht.symm (fun o _ => rfl) (fun o b _ => ?_)
    · obtain ⟨y, hy, hs, hv⟩ := sigmoidCE_spec x t' (by rw [ht', ht])
      exact ⟨y, hy, by rw [hs, hg], fun o ho => hv o (by rw [← ht]; exact ho)⟩
    · have := ((hasDerivAt_line (t.get o) b).mul_const (x.get o)).const_sub (Real.log (1 + Real.exp (x.get o)))
      exact this.congr_deriv (by ring)
  refine ⟨negOp p, by simp only [sigmoidCEGradT, hp, bind, Except.bind], fun h o ho => ?_, fun h => htrue.congr ⟨hps, fun o ho => ?_⟩⟩
  · have := (h.unique htrue).2 o (by show InB o p.shape; rw [hps]; exact ho)
    have h' : -p.get o = -x.get o * gy.get o := this
    rw [hpv o ho] at h'
    linarith
  · have ho : InB o x.shape := by rw [← hps]; exact ho
    show -p.get o = -x.get o * gy.get o
    rw [hpv o ho]
    linarith [h o ho]

example : ceT.shape = ceX.shape ∧ (map (· + 1) ceX).shape = ceX.shape ∧ ∃ o, InB o ceX.shape ∧ (map (· + 1) ceX).get o * (ceT.get o - ceX.get o) ≠ 0 := by
  refine ⟨rfl, rfl, [0, 0], by decide, ?_⟩
  simp [ceX, ceT, Nd.map, ofFn]

/-- C38 (sparse_softmax_cross_entropy): for logits of shape `[b, c]` and integer labels below `c` given as `[b]` or `[b, 1]`, the value has shape `[b, 1]` and
is minus the logarithm of the softmax probability of the label. -/
theorem C38_sparse (bot : ℝ) (st : List Int) (x t : Arr ℝ) (b c : Nat) (l : Nat → Nat) (hx : x.shape = [b, c]) (hst : Contig [b] st)
    (ht : t.shape = [b] ∨ t.shape = [b, 1]) (hl : ∀ i < b, t.get (if t.shape = [b] then [i] else [i, 0]) = l i ∧ l i < c) :
    ∃ y logx, sparseCE bot st x t = .ok (y, logx) ∧ y.shape = [b, 1] ∧
      ∀ i < b, y.get [i, 0] = -Real.log (Real.exp (x.get [i, l i]) / ∑ k ∈ range c, Real.exp (x.get [i, k])) := by
  obtain ⟨y, logx, hy, _, hs, hv⟩ := sparseCE_spec bot st x t l hx hst ht hl
  refine ⟨y, logx, hy, hs, fun i hi => ?_⟩
  have hpos : 0 < ∑ k ∈ range c, Real.exp (x.get [i, k]) :=
    sum_pos (fun _ _ => Real.exp_pos _) ⟨0, by have := (hl i hi).2; simp; omega⟩
  rw [hv i hi, Real.log_div (Real.exp_pos _).ne' hpos.ne', Real.log_exp]

theorem ceL_labels : ∀ i < 2, ceL.get (if ceL.shape = [2] then [i] else [i, 0]) = ((fun i => 2 - i) i : Nat) ∧ (fun i => 2 - i) i < 3 := by
  intro i hi
  refine ⟨?_, by show 2 - i < 3; omega⟩
  rw [if_neg (by show ([2, 1] : List Nat) ≠ [2]; decide)]
  rfl

example : ceX.shape = [2, 3] ∧ Contig [2] [1] ∧ (ceL.shape = [2] ∨ ceL.shape = [2, 1]) ∧
    ∀ i < 2, ceL.get (if ceL.shape = [2] then [i] else [i, 0]) = ((fun i => 2 - i) i : Nat) ∧ (fun i => 2 - i) i < 3 :=
  ⟨rfl, .inl (by decide), .inr rfl, ceL_labels⟩

/-- C38 (sparse_softmax_cross_entropy): the gradient reported for the logits is the gradient. -/
theorem C38_sparse_gradient (bot : ℝ) (st : List Int) (x t gy : Arr ℝ) (b c : Nat) (l : Nat → Nat) (hx : x.shape = [b, c]) (hst : Contig [b] st)
    (ht : t.shape = [b] ∨ t.shape = [b, 1]) (hl : ∀ i < b, t.get (if t.shape = [b] then [i] else [i, 0]) = l i ∧ l i < c) (hg : gy.shape = [b, 1]) :
    ∃ y logx g, sparseCE bot st x t = .ok (y, logx) ∧ sparseCEGradX logx t gy = .ok g ∧
      IsGradient (fun x => (sparseCE bot st x t).map Prod.fst) x gy g := by
  obtain ⟨y, logx, hy, hlx, _, _⟩ := sparseCE_spec bot st x t l hx hst ht hl
  obtain ⟨logx', hlx', hls, hlv⟩ := logSoftmax_rows bot st x hx hst
  rw [hlx] at hlx'
  obtain rfl : logx = logx' := Except.ok.inj hlx'
  obtain ⟨g, hgg, hgs, hgv⟩ := sparseCEGradX_spec (gy := gy) l hls ht hl hg
  refine ⟨y, logx, g, hy, hgg, by rw [hgs, hx], fun d hd => ?_⟩
  choose Y L hY using fun t' : ℝ => sparseCE_spec bot st (along x d t') t l hx hst ht hl
  refine ⟨Y, fun t' => ⟨by simp only [(hY t').1]; rfl, by rw [(hY t').2.2.1, hg]⟩, ?_⟩
  rw [hg, hx, sum_idxs_two b c]
  have hder := HasDerivAt.fun_sum (u := range b) (x := (0 : ℝ))
    (A := fun i t' => gy.get [i, 0] * -(x.get [i, l i] + t' * d.get [i, l i] - Real.log (∑ k ∈ range c, Real.exp (x.get [i, k] + t' * d.get [i, k]))))
    (fun i hi => (((hasDerivAt_line (x.get [i, l i]) (d.get [i, l i])).sub (hasDerivAt_rowLogSum (c := c)
      (by have := (hl i (mem_range.1 hi)).2; omega) (fun k => x.get [i, k]) (fun k => d.get [i, k]))).neg).const_mul (gy.get [i, 0]))
  refine (hder.congr_of_eventuallyEq (.of_forall fun t' => ?_)).congr_deriv (sum_congr rfl fun i hi => ?_)
  · simp only [sum_idxs_two, sum_range_one]
    exact sum_congr rfl fun i hi => by rw [(hY t').2.2.2 i (mem_range.1 hi)]; rfl
  · have hi := mem_range.1 hi
    have hli := (hl i hi).2
    have hpos : 0 < ∑ k ∈ range c, Real.exp (x.get [i, k]) := sum_pos (fun _ _ => Real.exp_pos _) ⟨0, by simp; omega⟩
    have e : ∀ j ∈ range c, g.get [i, j] * d.get [i, j] = gy.get [i, 0] * (Real.exp (x.get [i, j]) / (∑ k ∈ range c, Real.exp (x.get [i, k])) * d.get [i, j]) -
        if l i = j then gy.get [i, 0] * d.get [i, j] else 0 := fun j hj => by
      rw [hgv i hi j (mem_range.1 hj), hlv i hi j (mem_range.1 hj), Real.exp_sub, Real.exp_log hpos]
      split <;> ring
    rw [sum_congr rfl e, sum_sub_distrib, ← mul_sum, sum_ite_eq, if_pos (mem_range.2 hli)]
    ring

example : ceX.shape = [2, 3] ∧ Contig [2] [1] ∧ (ceL.shape = [2] ∨ ceL.shape = [2, 1]) ∧
    (∀ i < 2, ceL.get (if ceL.shape = [2] then [i] else [i, 0]) = ((fun i => 2 - i) i : Nat) ∧ (fun i => 2 - i) i < 3) ∧ ceG.shape = [2, 1] :=
  ⟨rfl, .inl (by decide), .inr rfl, ceL_labels, rfl⟩

/-- C38 (sparse_softmax_cross_entropy): a label that is -1 or less, or (truncated) not below the number of classes, panics. -/
theorem C38_sparse_bad_label (bot : ℝ) (st : List Int) (x t : Arr ℝ) (b c i : Nat) (hx : x.shape = [b, c]) (hst : Contig [b] st)
    (ht : t.shape = [b] ∨ t.shape = [b, 1]) (hi : i < b)
    (hl : t.get (if t.shape = [b] then [i] else [i, 0]) ≤ -1 ∨ (c : ℝ) ≤ t.get (if t.shape = [b] then [i] else [i, 0])) :
    sparseCE bot st x t = .error .panic := by
  obtain ⟨logx, hlx, hls, _⟩ := logSoftmax_rows bot st x hx hst
  have : labels (toList t) c b = .error .panic := labels_bad _ _ hi fun r hr l hrl => by
    rw [toList_column ht hi] at hr
    generalize t.get (if t.shape = [b] then [i] else [i, 0]) = a at hl hr
    obtain rfl := Option.some.inj hr
    unfold toUsize at hrl
    split at hrl
    · rename_i h
      rcases hl with hl | hl
      · exact absurd hl (not_le.2 h)
      · obtain rfl := Option.some.inj hrl
        exact Nat.le_floor hl
    · simp at hrl
  rcases ht with ht | ht <;> simp only [sparseCE, hlx, hls, ht, this, bind, Except.bind]

example : ceX.shape = [2, 3] ∧ Contig [2] [1] ∧ (ofFn [2] (fun _ => (3 : ℝ))).shape = [2] ∧ 1 < 2 ∧ ((3 : Nat) : ℝ) ≤ (ofFn [2] (fun _ => (3 : ℝ))).get [1] :=
  ⟨rfl, .inl (by decide), rfl, by decide, by simp [ofFn]⟩

/-- C38 (sparse_softmax_cross_entropy): labels of any other shape than one or two dimensions with the second of length one are reported as an error. -/
theorem C38_sparse_bad_shape (bot : ℝ) (st : List Int) (x t : Arr ℝ) (b c : Nat) (hx : x.shape = [b, c]) (hst : Contig [b] st)
    (ht : t.shape.length ≠ 1 ∧ ∀ n, t.shape ≠ [n, 1]) : sparseCE bot st x t = .error .opError := by
  obtain ⟨logx, hlx, hls, _⟩ := logSoftmax_rows bot st x hx hst
  have hcase : (∀ n, t.shape ≠ [n]) := fun n h => ht.1 (by rw [h]; rfl)
  simp only [sparseCE, hlx, hls, bind, Except.bind]
  split
  · rename_i h; exact absurd h (hcase _)
  · rename_i h; exact absurd h (ht.2 _)
  · rfl

example : ceX.shape = [2, 3] ∧ Contig [2] [1] ∧ ceT.shape.length ≠ 1 ∧ ∀ n, ceT.shape ≠ [n, 1] :=
  ⟨rfl, .inl (by decide), by decide, fun n h => by simp [ceT, ofFn] at h⟩

/-- C38 (sparse_softmax_cross_entropy): more labels than rows are accepted. The result is that of the first `b` labels, the others are not looked at (they need not even be labels). -/
theorem C38_sparse_extra_labels (bot : ℝ) (st : List Int) (x t : Arr ℝ) (b c m : Nat) (l : Nat → Nat) (hx : x.shape = [b, c]) (hst : Contig [b] st) (hm : b ≤ m)
    (ht : t.shape = [m] ∨ t.shape = [m, 1]) (hl : ∀ i < b, t.get (if t.shape = [m] then [i] else [i, 0]) = l i ∧ l i < c) :
    ∃ y logx, sparseCE bot st x t = .ok (y, logx) ∧ y.shape = [b, 1] ∧
      ∀ i < b, y.get [i, 0] = -Real.log (Real.exp (x.get [i, l i]) / ∑ k ∈ range c, Real.exp (x.get [i, k])) := by
  obtain ⟨y, logx, hy, hs, hv⟩ := C38_sparse bot st x (ofFn [b] (fun i => (l (i.getD 0 0) : ℝ))) b c l hx hst (.inl rfl)
    (fun i hi => ⟨by show (ofFn [b] _).get (if [b] = [b] then _ else _) = _; rw [if_pos rfl]; rfl, (hl i hi).2⟩)
  refine ⟨y, logx, ?_, hs, hv⟩
  have e1 : labels (toList t) c b = .ok ((List.range b).map l) :=
    labels_ok _ _ _ _ fun i hi => ⟨by rw [toList_column ht (by omega), (hl i hi).1], (hl i hi).2⟩
  have e2 : labels (toList (ofFn [b] (fun i => (l (i.getD 0 0) : ℝ)))) c b = .ok ((List.range b).map l) :=
    labels_ok _ _ _ _ fun i hi => ⟨by rw [toList_column (b := b) (.inl rfl) hi]; show some ((ofFn [b] _).get (if [b] = [b] then _ else _)) = _; rw [if_pos rfl]; rfl, (hl i hi).2⟩
  obtain ⟨logx', hlx, hls, _⟩ := logSoftmax_rows bot st x hx hst
  have e3 : (ofFn [b] (fun i => (l (i.getD 0 0) : ℝ))).shape = [b] := rfl
  rw [← hy]
  rcases ht with ht | ht <;> simp only [sparseCE, hlx, hls, ht, e1, e2, e3, bind, Except.bind]

example : ceX.shape = [2, 3] ∧ Contig [2] [1] ∧ (ofFn [4] (fun i => (i.getD 0 0 : ℝ))).shape = [4] ∧
    ∀ i < 2, (ofFn [4] (fun i => (i.getD 0 0 : ℝ))).get [i] = ((i : Nat) : ℝ) ∧ i < 3 :=
  ⟨rfl, .inl (by decide), rfl, fun i hi => ⟨rfl, by omega⟩⟩

/-- C38 (sparse_softmax_cross_entropy): fewer labels than rows panic. -/
theorem C38_sparse_few_labels (bot : ℝ) (st : List Int) (x t : Arr ℝ) (b c m : Nat) (hx : x.shape = [b, c]) (hst : Contig [b] st) (hm : m < b)
    (ht : t.shape = [m] ∨ t.shape = [m, 1]) : sparseCE bot st x t = .error .panic := by
  obtain ⟨logx, hlx, hls, _⟩ := logSoftmax_rows bot st x hx hst
  have : labels (toList t) c b = .error .panic := labels_bad _ _ hm fun r hr => by
    rw [List.getElem?_eq_none (by rw [size_column ht])] at hr
    cases hr
  rcases ht with ht | ht <;> simp only [sparseCE, hlx, hls, ht, this, bind, Except.bind]

example : ceX.shape = [2, 3] ∧ Contig [2] [1] ∧ 1 < 2 ∧ (ofFn [1, 1] (fun _ => (0 : ℝ))).shape = [1, 1] := ⟨rfl, .inl (by decide), by decide, rfl⟩

/-- C38 is violated by the gradient that sparse_softmax_cross_entropy reports for its labels: it has the shape of the logits, not that of the labels. -/
theorem C38_sparse_label_gradient_violated (logx gy t : Arr ℝ) (b c : Nat) (hl : logx.shape = [b, c]) (hg : gy.shape = [b, 1])
    (ht : t.shape = [b] ∨ t.shape = [b, 1]) (hc : c ≠ 1) :
    ∃ g, sparseCEGradT logx gy = .ok g ∧ g.shape ≠ t.shape := by
  obtain ⟨p, hp, hps, _⟩ := mulOp_same (x0 := Nd.map Real.exp logx) (x1 := logx) rfl
  have hps : p.shape = [b, c] := hps.trans hl
  obtain ⟨s, hs, hss, _⟩ := reduceSum_line p (axis := 1) (k := 1) ⟨by rw [hps]; simp, .inl rfl⟩ (by rw [hps]; simp)
  obtain ⟨xg, hxg, hxgs, _⟩ := mulOp_set (x0 := Nd.map Real.exp logx) (x1 := gy) (k := 1) (by show gy.shape = logx.shape.set 1 1; rw [hg, hl]; rfl)
    (by show logx.shape ≠ _; rw [hl]; simp)
  have hxgs : xg.shape = [b, c] := hxgs.trans hl
  obtain ⟨d, hd, hdb⟩ := subOp_spec (x0 := s) (x1 := logx) (t := [b, c]) (by
    rw [hss, hps, hl]; exact commonShape_comm (commonShape_left (broadcastsTo_set _ 1)))
  obtain ⟨g, hgg, hgs, _⟩ := mulOp_same (x0 := xg) (x1 := d) (by rw [hxgs, hdb.1])
  refine ⟨g, by simp only [sparseCEGradT, hp, hs, hxg, hd, hgg, bind, Except.bind], ?_⟩
  rw [hgs, hxgs]
  rcases ht with ht | ht <;> rw [ht] <;> simp [hc]

example : (ofFn [2, 3] (fun _ => (0 : ℝ))).shape = [2, 3] ∧ ceG.shape = [2, 1] ∧ ceL.shape = [2, 1] ∧ (3 : Nat) ≠ 1 := ⟨rfl, rfl, rfl, by decide⟩

/-- C38 (softmax_cross_entropy): for logits and targets of shape `[b, c]` the value is minus the sum of the targets times the logarithms of the softmax
probabilities. Missing from the full statement: the documented shape `[b, 1]`; the result has shape `[b]` (`C38_softmax_shape_violated`). -/
theorem C38_softmax_partial (bot : ℝ) (st : List Int) (x t : Arr ℝ) (b c : Nat) (hx : x.shape = [b, c]) (ht : t.shape = [b, c]) (hst : Contig [b] st) :
    ∃ y logx, softmaxCE bot st x t = .ok (y, logx) ∧ y.shape = [b] ∧
      ∀ i < b, y.get [i] = -∑ j ∈ range c, t.get [i, j] * Real.log (Real.exp (x.get [i, j]) / ∑ k ∈ range c, Real.exp (x.get [i, k])) := by
  obtain ⟨y, logx, hy, _, hs, hv⟩ := softmaxCE_spec bot st x t hx ht hst
  refine ⟨y, logx, hy, hs, fun i hi => ?_⟩
  rw [hv i hi]
  congr 1
  refine sum_congr rfl fun j hj => ?_
  have hpos : 0 < ∑ k ∈ range c, Real.exp (x.get [i, k]) := sum_pos (fun _ _ => Real.exp_pos _) ⟨j, hj⟩
  rw [Real.log_div (Real.exp_pos _).ne' hpos.ne', Real.log_exp]

example : ceX.shape = [2, 3] ∧ ceT.shape = [2, 3] ∧ Contig [2] [1] := ⟨rfl, rfl, .inl (by decide)⟩

/-- C38 is violated by the shape of softmax_cross_entropy: it is documented to be `[b, 1]` but is `[b]`. -/
theorem C38_softmax_shape_violated (bot : ℝ) (st : List Int) (x t : Arr ℝ) (b c : Nat) (hx : x.shape = [b, c]) (ht : t.shape = [b, c]) (hst : Contig [b] st) :
    ∃ y logx, softmaxCE bot st x t = .ok (y, logx) ∧ y.shape ≠ [b, 1] := by
  obtain ⟨y, logx, hy, _, hs, _⟩ := softmaxCE_spec bot st x t hx ht hst
  exact ⟨y, logx, hy, by rw [hs]; simp⟩

example : ceX.shape = [2, 3] ∧ ceT.shape = [2, 3] ∧ Contig [2] [1] := ⟨rfl, rfl, .inl (by decide)⟩

/-- C38 (softmax_cross_entropy): the gradient reported for the logits is the gradient if there is one row, or if the array is square and all incoming
gradients are equal. Missing from the full statement: every other case; see `C38_softmax_gradient_panic_violated` and `C38_softmax_gradient_violated`. -/
theorem C38_softmax_gradient_partial (bot : ℝ) (st : List Int) (x t gy : Arr ℝ) (b c : Nat) (hx : x.shape = [b, c]) (ht : t.shape = [b, c])
    (hst : Contig [b] st) (hg : gy.shape = [b]) (h1 : ∀ i < b, ∑ j ∈ range c, t.get [i, j] = 1)
    (hb : b = 1 ∨ 0 < b ∧ b = c ∧ ∀ i < b, ∀ j < b, gy.get [i] = gy.get [j]) :
    ∃ y logx g, softmaxCE bot st x t = .ok (y, logx) ∧ softmaxCEGradX logx t gy = .ok g ∧
      IsGradient (fun x => (softmaxCE bot st x t).map Prod.fst) x gy g := by
  obtain ⟨y, logx, hy, hlx, _, _⟩ := softmaxCE_spec bot st x t hx ht hst
  obtain ⟨logx', hlx', hls, hlv⟩ := logSoftmax_rows bot st x hx hst
  rw [hlx] at hlx'
  obtain rfl : logx = logx' := Except.ok.inj hlx'
  obtain ⟨s, hs, hss, hsv⟩ := subOp_same (x0 := Nd.map Real.exp logx) (x1 := t) (by show t.shape = logx.shape; rw [ht, hls])
  have hss : s.shape = [b, c] := hss.trans hls
  have hb0 : b ≠ 0 := by omega
  obtain ⟨g, hgg, hgb⟩ := mulOp_bcast (x0 := s) (x1 := gy) (t := [b, c]) (by
    rw [hss, hg]
    refine commonShape_left ⟨by simp, fun k hk hk' => ?_⟩
    have : k = 0 := by simpa using hk
    subst this
    rcases hb with hb | hb
    · exact .inr hb
    · exact .inl hb.2.1) (by rw [hss]; simp) (by rw [hg]; simpa using hb0)
  refine ⟨y, logx, g, hy, by simp only [softmaxCEGradX, hs, hgg, bind, Except.bind],
    (softmaxCE_true_gradient bot st x t gy b c hx ht hst hg h1).congr ⟨hgb.1, fun o ho => ?_⟩⟩
  rw [hgb.1] at ho
  match o, ho with
  | [i, j], ho =>
    obtain ⟨hi, hj⟩ : i < b ∧ j < c := by simpa [InB] using ho
    have hpos : 0 < ∑ k ∈ range c, Real.exp (x.get [i, k]) := sum_pos (fun _ _ => Real.exp_pos _) ⟨j, mem_range.2 hj⟩
    rw [hgb.2 _ ho, hss, bIdx_self ho, hsv _ (by show InB _ logx.shape; rw [hls]; exact ho)]
    have hgy : gy.get (bIdx gy.shape [i, j]) = gy.get [i] := by
      rw [hg]
      show gy.get [if b = 1 then 0 else j] = _
      split
      · rename_i h; rw [show i = 0 by omega]
      · rename_i h
        rcases hb with hb | hb
        · exact absurd hb h
        · exact hb.2.2 j (by omega) i hi
    rw [hgy]
    show (Real.exp (logx.get [i, j]) - t.get [i, j]) * gy.get [i] = _
    rw [hlv i hi j hj, Real.exp_sub, Real.exp_log hpos]
    rfl

example : ceR.shape = [1, 3] ∧ ceRT.shape = [1, 3] ∧ Contig [1] [1] ∧ (ofFn [1] (fun _ => (2 : ℝ))).shape = [1] ∧
    ∀ i < 1, ∑ j ∈ range 3, ceRT.get [i, j] = 1 :=
  ⟨rfl, rfl, .inl (by decide), rfl, fun i hi => by simp [ceRT, ofFn]⟩

/-- C38 is violated by the gradient of softmax_cross_entropy for the logits: whenever the number of rows differs from the number of classes (both at least two)
evaluating it panics, because the incoming gradient has shape `[b]`. -/
theorem C38_softmax_gradient_panic_violated (logx t gy : Arr ℝ) (b c : Nat) (hl : logx.shape = [b, c]) (ht : t.shape = [b, c]) (hg : gy.shape = [b])
    (hb : 1 < b) (hc : 1 < c) (hbc : b ≠ c) : softmaxCEGradX logx t gy = .error .panic := by
  obtain ⟨s, hs, hss, _⟩ := subOp_same (x0 := Nd.map Real.exp logx) (x1 := t) (by show t.shape = logx.shape; rw [ht, hl])
  have hss : s.shape = [b, c] := hss.trans hl
  have hm : mulOp s gy = .error .panic := by
    have e1 : isScalarShape s.shape = false := by rw [← Bool.not_eq_true, isScalarShape_iff, hss]; simp
    have e2 : isScalarShape gy.shape = false := by rw [← Bool.not_eq_true, isScalarShape_iff, hg]; simp; omega
    simp only [mulOp, binForward, e1, e2]
    refine zipOp_none ?_
    rintro ⟨u, hu⟩
    rw [hss, hg, commonShape_iff] at hu
    simp [coBroadcast, coRev, hbc.symm, show b ≠ 1 by omega, show c ≠ 1 by omega] at hu
  simp only [softmaxCEGradX, hs, hm, bind, Except.bind]

example : (ofFn [2, 3] (fun _ => (0 : ℝ))).shape = [2, 3] ∧ ceT.shape = [2, 3] ∧ (ofFn [2] (fun _ => (2 : ℝ))).shape = [2] ∧ 1 < 2 ∧ 1 < 3 ∧ 2 ≠ 3 :=
  ⟨rfl, rfl, rfl, by decide, by decide, by decide⟩

/-- C38 is violated by the gradient of softmax_cross_entropy for the logits when the array is square: for zero 2x2 logits, the targets `[[1, 0], [0, 1]]` and the
incoming gradient `[1, 0]` the incoming gradient is applied to the columns. -/
theorem C38_softmax_gradient_violated (bot : ℝ) (st : List Int) (hst : Contig [2] st) :
    ∃ x t gy y logx g : Arr ℝ, x.shape = [2, 2] ∧ t.shape = [2, 2] ∧ gy.shape = [2] ∧ (∀ i < 2, ∑ j ∈ range 2, t.get [i, j] = 1) ∧
      softmaxCE bot st x t = .ok (y, logx) ∧ softmaxCEGradX logx t gy = .ok g ∧ ¬ IsGradient (fun x => (softmaxCE bot st x t).map Prod.fst) x gy g := by
  let x : Arr ℝ := ofFn [2, 2] fun _ => 0
  let t : Arr ℝ := ofFn [2, 2] fun o => if o.getD 0 0 = o.getD 1 0 then 1 else 0
  let gy : Arr ℝ := ofFn [2] fun o => if o.getD 0 0 = 0 then 1 else 0
  have h1 : ∀ i < 2, ∑ j ∈ range 2, t.get [i, j] = 1 := by
    intro i hi
    interval_cases i <;> simp [t, ofFn]
  obtain ⟨y, logx, hy, hlx, _, _⟩ := softmaxCE_spec bot st x t (b := 2) (c := 2) rfl rfl hst
  obtain ⟨logx', hlx', hls, hlv⟩ := logSoftmax_rows bot st x (b := 2) (c := 2) rfl hst
  rw [hlx] at hlx'
  obtain rfl : logx = logx' := Except.ok.inj hlx'
  obtain ⟨s, hs, hss, hsv⟩ := subOp_same (x0 := Nd.map Real.exp logx) (x1 := t) (by show t.shape = logx.shape; rw [hls]; rfl)
  have hss : s.shape = [2, 2] := hss.trans hls
  obtain ⟨g, hgg, hgb⟩ := mulOp_bcast (x0 := s) (x1 := gy) (t := [2, 2]) (by rw [hss]; exact commonShape_iff.2 rfl) (by rw [hss]; simp) (by decide)
  refine ⟨x, t, gy, y, logx, g, rfl, rfl, rfl, h1, hy, by simp only [softmaxCEGradX, hs, hgg, bind, Except.bind], fun hG => ?_⟩
  have := (hG.unique (softmaxCE_true_gradient bot st x t gy 2 2 rfl rfl hst rfl h1)).2 [0, 1] (by rw [hgb.1]; decide)
  have hin : InB [0, 1] [2, 2] := by decide
  rw [hgb.2 _ hin, hss, bIdx_self hin] at this
  have e0 : gy.get (bIdx gy.shape [0, 1]) = 0 := by
    show gy.get [1] = 0
    simp [gy, ofFn]
  rw [e0] at this
  simp [x, t, gy, ofFn] at this

example : Contig [2] [1] := .inl (by decide)

/-- C38 is violated by the gradient that softmax_cross_entropy reports for the targets: for the logits `[[0, 0]]` and the target `[[1, 0]]` it is zero, but the loss
depends on the targets. -/
theorem C38_softmax_target_gradient_violated (bot : ℝ) (st : List Int) (hst : Contig [1] st) :
    ∃ x t gy y logx g : Arr ℝ, x.shape = [1, 2] ∧ t.shape = [1, 2] ∧ gy.shape = [1] ∧
      softmaxCE bot st x t = .ok (y, logx) ∧ softmaxCEGradT y logx gy = .ok g ∧ ¬ IsGradient (fun t => (softmaxCE bot st x t).map Prod.fst) t gy g := by
  let x : Arr ℝ := ofFn [1, 2] fun _ => 0
  let t : Arr ℝ := ofFn [1, 2] fun o => if o.getD 1 0 = 0 then 1 else 0
  let gy : Arr ℝ := ofFn [1] fun _ => 1
  obtain ⟨y, logx, hy, hlx, hys, _⟩ := softmaxCE_spec bot st x t (b := 1) (c := 2) rfl rfl hst
  obtain ⟨logx', hlx', hls, hlv⟩ := logSoftmax_rows bot st x (b := 1) (c := 2) rfl hst
  rw [hlx] at hlx'
  obtain rfl : logx = logx' := Except.ok.inj hlx'
  have hlog : ∀ j < 2, logx.get [0, j] = -Real.log 2 := fun j hj => by
    rw [hlv 0 (by decide) j hj]; simp [x, ofFn]
  obtain ⟨p, hp, hps, hpv⟩ := mulOp_same (x0 := Nd.map Real.exp logx) (x1 := logx) rfl
  have hps : p.shape = [1, 2] := hps.trans hls
  obtain ⟨s, hs, hss, hsv⟩ := reduceSum_line p (axis := -1) (k := 1) ⟨by rw [hps]; decide, .inr (by rw [hps]; decide)⟩ (by rw [hps]; decide)
  rw [hps] at hss hsv
  obtain ⟨d, hd, hdb⟩ := subOp_spec (x0 := s) (x1 := logx) (t := [1, 2]) (by rw [hss, hls]; exact commonShape_comm (commonShape_left (broadcastsTo_set _ 1)))
  obtain ⟨m, hm, hmb⟩ := mulOp_bcast (x0 := gy) (x1 := d) (t := [1, 2]) (by rw [hdb.1]; exact commonShape_iff.2 rfl) (by decide) (by rw [hdb.1]; decide)
  obtain ⟨g, hgg, hgb⟩ := mulOp_bcast (x0 := m) (x1 := y) (t := [1, 2]) (by rw [hmb.1, hys]; exact commonShape_iff.2 rfl) (by rw [hmb.1]; decide) (by rw [hys]; decide)
  refine ⟨x, t, gy, y, logx, g, rfl, rfl, rfl, hy, by simp only [softmaxCEGradT, hp, hs, hd, hm, hgg, bind, Except.bind], fun hG => ?_⟩
  have hin : InB [0, 0] [1, 2] := by decide
  have hs0 : s.get [0, 0] = -Real.log 2 := by
    have := hsv [0, 0] hin
    rw [show ([0, 0] : List Nat).set 1 0 = [0, 0] from rfl] at this
    have hp' : ∀ j < 2, p.get [0, j] = 1 / 2 * -Real.log 2 := fun j hj => by
      rw [hpv _ (by show InB _ logx.shape; rw [hls]; interval_cases j <;> decide)]
      show Real.exp (logx.get [0, j]) * _ = _
      rw [hlog j hj, Real.exp_neg, Real.exp_log (by norm_num)]; norm_num
    rw [this]
    show ∑ j ∈ range 2, p.get [0, j] = _
    rw [sum_range_succ, sum_range_one, hp' 0 (by decide), hp' 1 (by decide)]; ring
  have hd0 : d.get [0, 0] = 0 := by
    rw [hdb.2 _ hin, hss, hls]
    show s.get [0, 0] - logx.get [0, 0] = 0
    rw [hs0, hlog 0 (by decide), sub_self]
  have hg0 : g.get [0, 0] = 0 := by
    rw [hgb.2 _ hin, hmb.1, bIdx_self hin, hmb.2 _ hin, hdb.1, bIdx_self hin, hd0]; simp
  -- the derivative with respect to the first target is `log 2`
  let e : Arr ℝ := ofFn [1, 2] fun o => if o.getD 1 0 = 0 then 1 else 0
  obtain ⟨Y, hY, hder⟩ := hG.2 e rfl
  have hYv : (fun r => ∑ i ∈ idxs gy.shape, gy.get i * (Y r).get i) = fun r => Real.log 2 + r * Real.log 2 := by
    funext r
    obtain ⟨y', l', hy', _, _, hv'⟩ := softmaxCE_spec bot st x (along t e r) (b := 1) (c := 2) rfl rfl hst
    have : Y r = y' := by
      have h := (hY r).1
      simp only [hy'] at h
      exact (Except.ok.inj h).symm
    show ∑ i ∈ idxs [1], gy.get i * (Y r).get i = _
    rw [sum_idxs_one, sum_range_one, this, hv' 0 (by decide)]
    simp [along, t, e, x, gy, ofFn, sum_range_succ]
    ring
  rw [hYv] at hder
  have h := hder.unique (hasDerivAt_line _ _)
  have hsum : ∑ o ∈ idxs t.shape, g.get o * e.get o = g.get [0, 0] := by
    show ∑ o ∈ idxs [1, 2], g.get o * e.get o = _
    rw [sum_idxs_two, sum_range_one, sum_range_succ, sum_range_one]
    simp [e, ofFn]
  rw [hsum, hg0] at h
  exact absurd h (Real.log_pos (by norm_num)).ne

example : Contig [1] [1] := .inl (by decide)

end Verif.Props
