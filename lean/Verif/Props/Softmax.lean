import Verif.Lemmas.Softmax

/-!
# C37: softmax, log_softmax and logsumexp
-/

namespace Verif.Props
open Verif.Nd Finset

/-- A 2x3 array used in the examples. -/
noncomputable def smX : Arr ℝ := ofFn [2, 3] (fun i => (i.getD 0 0 : ℝ) * 3 + i.getD 1 0)
/-- An incoming gradient of the same shape. -/
noncomputable def smG : Arr ℝ := ofFn [2, 3] (fun i => (i.getD 0 0 : ℝ) - i.getD 1 0)
/-- An incoming gradient for the reduced last axis. -/
noncomputable def smK : Arr ℝ := ofFn [2, 1] (fun i => (i.getD 0 0 : ℝ) + 1)
/-- An incoming gradient for the removed first axis. -/
noncomputable def smF : Arr ℝ := ofFn [3] (fun i => (i.getD 0 0 : ℝ) + 1)

theorem smX_axis : AxisIs smX.shape.length (-1) 1 ∧ Contig (smX.shape.eraseIdx 1) [1] := ⟨⟨by decide, .inr rfl⟩, .inl (by decide)⟩

/-- C37 (softmax): for every shape, memory layout and axis (negative ones count from the back), softmax is the exponential divided by the sum of the
exponentials along the axis; the values are positive and sum to one along the axis. `bot` is the smallest float, `st` the layout ndarray chooses for the sums. -/
theorem C37_softmax (bot : ℝ) (st : List Int) (x : Arr ℝ) (axis : Int) (k : Nat) (ha : AxisIs x.shape.length axis k)
    (hst : Contig (x.shape.eraseIdx k) st) :
    ∃ y, softmaxImpl bot st x axis = .ok y ∧ y.shape = x.shape ∧
      ∀ o, InB o x.shape → y.get o = Real.exp (x.get o) / lineSum k x.shape (fun p => Real.exp (x.get p)) o ∧
        0 < y.get o ∧ lineSum k x.shape y.get o = 1 := by
  obtain ⟨y, hy, hs, hv⟩ := softmaxImpl_spec bot st x axis ha hst
  refine ⟨y, hy, hs, fun o ho => ?_⟩
  have hL := exp_line_pos (o := o) x.get (getD_pos ho ha.1)
  refine ⟨hv o ho, by rw [hv o ho]; exact div_pos (Real.exp_pos _) hL, ?_⟩
  rw [lineSum_congr hv ho ha.1]
  have : ∀ j, lineSum k x.shape (fun p => Real.exp (x.get p)) (o.set k j) = lineSum k x.shape (fun p => Real.exp (x.get p)) o :=
    fun j => lineSum_set _ _ _ _ _
  have hdiv : lineSum k x.shape (fun p => Real.exp (x.get p) / lineSum k x.shape (fun p => Real.exp (x.get p)) p) o =
      lineSum k x.shape (fun p => Real.exp (x.get p)) o / lineSum k x.shape (fun p => Real.exp (x.get p)) o := by
    simp only [lineSum] at this ⊢
    simp only [this, sum_div]
  rw [hdiv, div_self hL.ne']

example : AxisIs smX.shape.length (-1) 1 ∧ Contig (smX.shape.eraseIdx 1) [1] := smX_axis

/-- C37 (softmax): adding numbers that do not change along the axis does not change the result. -/
theorem C37_shift_invariant (bot : ℝ) (st : List Int) (x x' : Arr ℝ) (axis : Int) (k : Nat) (ha : AxisIs x.shape.length axis k)
    (hst : Contig (x.shape.eraseIdx k) st) (hs : x'.shape = x.shape) (c : List Nat → ℝ) (hc : ∀ o j, c (o.set k j) = c o)
    (hx : ∀ o, InB o x.shape → x'.get o = x.get o + c o) :
    ∃ y y', softmaxImpl bot st x axis = .ok y ∧ softmaxImpl bot st x' axis = .ok y' ∧ Same y y' := by
  obtain ⟨y, hy, hys, hv⟩ := softmaxImpl_spec bot st x axis ha hst
  obtain ⟨y', hy', hys', hv'⟩ := softmaxImpl_spec bot st x' axis (by rw [hs]; exact ha) (by rw [hs]; exact hst)
  refine ⟨y, y', hy, hy', by rw [hys, hys', hs], fun o ho => ?_⟩
  rw [hys] at ho
  rw [hv o ho, hv' o (by rw [hs]; exact ho), hs]
  have h1 : ∀ p, InB p x.shape → Real.exp (x'.get p) = Real.exp (x.get p) * Real.exp (c p) := fun p hp => by rw [hx p hp, Real.exp_add]
  have h2 : lineSum k x.shape (fun p => Real.exp (x'.get p)) o = lineSum k x.shape (fun p => Real.exp (x.get p)) o * Real.exp (c o) := by
    rw [lineSum_congr h1 ho ha.1]
    simp only [lineSum, hc, sum_mul]
  rw [h1 o ho, h2, mul_div_mul_right _ _ (Real.exp_pos _).ne']

example : AxisIs smX.shape.length (-1) 1 ∧ Contig (smX.shape.eraseIdx 1) [1] ∧
    (∀ (o : List Nat) (j : Nat), (fun o : List Nat => (o.getD 0 0 : ℝ)) (o.set 1 j) = (fun o : List Nat => (o.getD 0 0 : ℝ)) o) := by
  refine ⟨smX_axis.1, smX_axis.2, fun o j => ?_⟩
  cases o with
  | nil => rfl
  | cons a o => rfl

/-- C37 (softmax, logsumexp): the numbers that are exponentiated are at most zero, and one of them along every line is zero, as long as no input is below
`T::min_value()`: neither overflow nor a zero sum is possible. -/
theorem C37_no_overflow (bot : ℝ) (x : Arr ℝ) (k : Nat) (hk : k < x.shape.length) (hb : ∀ o, InB o x.shape → bot ≤ x.get o) :
    ∃ tmp m, shiftByMax bot x k (x.shape.set k 1) = .ok (tmp, m) ∧ tmp.shape = x.shape ∧
      ∀ o, InB o x.shape → tmp.get o ≤ 0 ∧ ∃ j < x.shape.getD k 0, tmp.get (o.set k j) = 0 := by
  obtain ⟨tmp, m, h, hs, _, hv, _⟩ := shiftByMax_keep bot x hk
  refine ⟨tmp, m, h, hs, fun o ho => ?_⟩
  have hd : x.shape.getD k 0 = x.shape[k] := by simp [List.getD, hk]
  have hko : k < o.length := by rw [inB_length ho]; exact hk
  have hok : o[k] < x.shape.getD k 0 := by rw [hd]; exact (inB_iff.1 ho).2 k hko hk
  obtain ⟨h1, h2, h3⟩ := lineMax_spec bot k x.shape x.get o
  constructor
  · rw [hv o ho]
    have := h1 _ hok
    rw [List.set_getElem_self] at this
    linarith
  · have hin : ∀ j < x.shape.getD k 0, InB (o.set k j) x.shape := fun j hj => inB_set ho hk (by rw [← hd]; exact hj)
    rcases h3 with h3 | ⟨j, hj, h3⟩
    · refine ⟨o[k], hok, ?_⟩
      rw [hv _ (hin _ hok), lineMax_set, h3]
      have h4 := h1 _ hok
      have h5 := hb _ (hin _ hok)
      rw [h3] at h4
      linarith
    · refine ⟨j, hj, ?_⟩
      rw [hv _ (hin j hj), lineMax_set, h3, sub_self]

example : 1 < smX.shape.length ∧ ∀ o, InB o smX.shape → (-1 : ℝ) ≤ smX.get o := by
  refine ⟨by decide, fun o _ => ?_⟩
  show (-1 : ℝ) ≤ (o.getD 0 0 : ℝ) * 3 + o.getD 1 0
  have : (0 : ℝ) ≤ (o.getD 0 0 : ℝ) * 3 + o.getD 1 0 := by positivity
  linarith

/-- C37 (softmax): the reported gradient is the gradient, for every shape and axis. -/
theorem C37_softmax_gradient (bot : ℝ) (st : List Int) (x gy : Arr ℝ) (axis : Int) (k : Nat) (ha : AxisIs x.shape.length axis k)
    (hst : Contig (x.shape.eraseIdx k) st) (hs : gy.shape = x.shape) :
    ∃ y g, softmaxImpl bot st x axis = .ok y ∧ softmaxGrad y gy axis = .ok g ∧ IsGradient (fun x => softmaxImpl bot st x axis) x gy g := by
  obtain ⟨y, hy, hys, hyv⟩ := softmaxImpl_spec bot st x axis ha hst
  obtain ⟨g, hg, hgs, hgv⟩ := softmaxGrad_spec (y := y) (gy := gy) (axis := axis) (k := k) (by rw [hys]; exact ha) (by rw [hs, hys])
  rw [hys] at hgs hgv
  refine ⟨y, g, hy, hg, hgs, fun d hd => ?_⟩
  choose Y hY using fun t => softmaxImpl_spec bot st (along x d t) axis (k := k) ha hst
  refine ⟨Y, fun t => ⟨(hY t).1, (hY t).2.1.trans hs.symm⟩, ?_⟩
  rw [hs]
  have hder := HasDerivAt.fun_sum (u := idxs x.shape) (A := fun o t => gy.get o * (Real.exp (x.get o + t * d.get o) /
      lineSum k x.shape (fun p => Real.exp (x.get p + t * d.get p)) o)) (x := (0 : ℝ))
    (fun o ho => (hasDerivAt_softmax x.get d.get (mem_idxs.1 ho) ha.1).const_mul (gy.get o))
  refine (hder.congr_of_eventuallyEq (.of_forall fun t => sum_congr rfl fun o ho => ?_)).congr_deriv ?_
  · rw [(hY t).2.2 o (mem_idxs.1 ho)]; rfl
  · have hl : ∀ o ∈ idxs x.shape, gy.get o * (Real.exp (x.get o) / lineSum k x.shape (fun p => Real.exp (x.get p)) o *
        (d.get o - lineSum k x.shape (fun p => Real.exp (x.get p) / lineSum k x.shape (fun p => Real.exp (x.get p)) p * d.get p) o)) =
        gy.get o * y.get o * d.get o - (y.get o * gy.get o) * lineSum k x.shape (fun p => y.get p * d.get p) o := fun o ho => by
      have ho := mem_idxs.1 ho
      rw [← hyv o ho, ← lineSum_congr (f := fun p => y.get p * d.get p) (fun p hp => by rw [hyv p hp]) ho ha.1]
      ring
    rw [sum_congr rfl hl, sum_sub_distrib, line_swap ha.1 (fun o => y.get o * gy.get o) (fun o => y.get o * d.get o), ← sum_sub_distrib]
    refine sum_congr rfl fun o ho => ?_
    rw [hgv o (mem_idxs.1 ho)]
    ring

example : AxisIs smX.shape.length (-1) 1 ∧ Contig (smX.shape.eraseIdx 1) [1] ∧ smG.shape = smX.shape := ⟨smX_axis.1, smX_axis.2, rfl⟩

/-- C37 (reduce_logsumexp with `keep_dim`): the logarithm of the sum of the exponentials along the axis, for every shape, layout and axis. -/
theorem C37_logsumexp_keep (bot : ℝ) (st : List Int) (x : Arr ℝ) (axis : Int) (k : Nat) (ha : AxisIs x.shape.length axis k)
    (hst : Contig (x.shape.eraseIdx k) st) :
    ∃ y, logsumexp bot st x axis true = .ok y ∧ y.shape = x.shape.set k 1 ∧
      ∀ o, InB o x.shape → y.get (o.set k 0) = Real.log (lineSum k x.shape (fun p => Real.exp (x.get p)) o) :=
  logsumexp_keep bot st x axis ha hst

example : AxisIs smX.shape.length (-1) 1 ∧ Contig (smX.shape.eraseIdx 1) [1] := smX_axis

/-- C37 (reduce_logsumexp with `keep_dim`): the reported gradient is the gradient. -/
theorem C37_logsumexp_keep_gradient (bot : ℝ) (st : List Int) (x gy : Arr ℝ) (axis : Int) (k : Nat) (ha : AxisIs x.shape.length axis k)
    (hst : Contig (x.shape.eraseIdx k) st) (hn : 0 < x.shape.getD k 0) (hs : gy.shape = x.shape.set k 1) :
    ∃ g, logsumexpGrad bot st x gy axis = .ok g ∧ IsGradient (fun x => logsumexp bot st x axis true) x gy g := by
  have hk := ha.1
  have hd : x.shape.getD k 0 = x.shape[k] := by simp [List.getD, hk]
  have hne : x.shape ≠ [0] := fun h => by
    rw [h] at hk hn
    have : k = 0 := by simpa using hk
    subst this; simp at hn
  obtain ⟨y, hy, hys, hyv⟩ := softmaxImpl_spec bot st x axis ha hst
  obtain ⟨g, hg, hgs, hgv⟩ := mulOp_set (x0 := y) (x1 := gy) (k := k) (by rw [hs, hys]) (by rw [hys]; exact hne)
  rw [hys] at hgs hgv
  refine ⟨g, by simp only [logsumexpGrad, hy, hg, bind, Except.bind], hgs, fun d hdd => ?_⟩
  choose Y hY using fun t => logsumexp_keep bot st (along x d t) axis (k := k) ha hst
  refine ⟨Y, fun t => ⟨(hY t).1, (hY t).2.1.trans hs.symm⟩, ?_⟩
  rw [hs]
  have hin : ∀ i ∈ idxs (x.shape.set k 1), InB i x.shape ∧ i.set k 0 = i := fun i hi => by
    have hi := mem_idxs.1 hi
    have hl := inB_length hi
    rw [List.length_set] at hl
    have h0 : i[k]'(by rw [hl]; exact hk) = 0 := by
      have := (inB_iff.1 hi).2 k (by rw [hl]; exact hk) (by simpa using hk)
      simpa using this
    refine ⟨inB_iff.2 ⟨hl, fun j hj hj' => ?_⟩, ?_⟩
    · by_cases e : k = j
      · subst e; rw [h0, ← hd]; exact hn
      · have := (inB_iff.1 hi).2 j hj (by simpa using hj')
        rwa [List.getElem_set_ne e] at this
    · conv_lhs => rw [← h0]
      exact List.set_getElem_self _
  have hder := HasDerivAt.fun_sum (u := idxs (x.shape.set k 1)) (A := fun i t => gy.get i *
      Real.log (lineSum k x.shape (fun p => Real.exp (x.get p + t * d.get p)) i)) (x := (0 : ℝ))
    (fun i hi => (hasDerivAt_logSumExp x.get d.get (hin i hi).1 hk).const_mul (gy.get i))
  refine (hder.congr_of_eventuallyEq (.of_forall fun t => sum_congr rfl fun i hi => ?_)).congr_deriv ?_
  · have := (hY t).2.2 i (hin i hi).1
    rw [(hin i hi).2] at this
    rw [this]; rfl
  · have e : ∀ o ∈ idxs x.shape, g.get o * d.get o = gy.get (o.set k 0) * (y.get o * d.get o) := fun o ho => by
      rw [hgv o (mem_idxs.1 ho)]; ring
    rw [sum_congr rfl e, pullback_adjoint (fun o => o.set k 0) (t := x.shape.set k 1) (fun o ho => inB_set_one ho k) gy.get (fun o => y.get o * d.get o)]
    refine sum_congr rfl fun i hi => ?_
    have hi' := hin i hi
    have := line_fibre hk hi'.1 (fun o => y.get o * d.get o)
    rw [hi'.2] at this
    rw [this, lineSum_congr (g := fun p => y.get p * d.get p) (fun p hp => by rw [hyv p hp]) hi'.1 hk]

example : AxisIs smX.shape.length (-1) 1 ∧ Contig (smX.shape.eraseIdx 1) [1] ∧ 0 < smX.shape.getD 1 0 ∧ smK.shape = smX.shape.set 1 1 :=
  ⟨smX_axis.1, smX_axis.2, by decide, rfl⟩

/-- C37 (log_softmax): the logarithm of softmax, for every shape, layout and axis. -/
theorem C37_log_softmax (bot : ℝ) (st : List Int) (x : Arr ℝ) (axis : Int) (k : Nat) (ha : AxisIs x.shape.length axis k)
    (hst : Contig (x.shape.eraseIdx k) st) :
    ∃ y, logSoftmax bot st x axis = .ok y ∧ y.shape = x.shape ∧
      ∀ o, InB o x.shape → y.get o = Real.log (Real.exp (x.get o) / lineSum k x.shape (fun p => Real.exp (x.get p)) o) :=
  logSoftmax_spec bot st x axis ha hst

example : AxisIs smX.shape.length (-1) 1 ∧ Contig (smX.shape.eraseIdx 1) [1] := smX_axis

/-- C37 (log_softmax): the reported gradient is the gradient when the axis is axis 1. Missing from the full statement: all other axes, for which it is wrong or
panics, see `C37_log_softmax_gradient_violated`. -/
theorem C37_log_softmax_gradient_partial (bot : ℝ) (st : List Int) (x gy : Arr ℝ) (axis : Int) (ha : AxisIs x.shape.length axis 1)
    (hst : Contig (x.shape.eraseIdx 1) st) (hs : gy.shape = x.shape) :
    ∃ y g, logSoftmax bot st x axis = .ok y ∧ logSoftmaxGrad y gy = .ok g ∧ IsGradient (fun x => logSoftmax bot st x axis) x gy g := by
  have hk := ha.1
  have hne : x.shape ≠ [0] := fun h => by rw [h] at hk; simp at hk
  obtain ⟨y, hy, hys, hyv⟩ := logSoftmax_spec bot st x axis ha hst
  obtain ⟨r, hr, hrs, hrv⟩ := reduceSum_line gy (axis := 1) (k := 1) ⟨by rw [hs]; exact hk, .inl rfl⟩ (by rw [hs]; exact hne)
  rw [hs] at hrs hrv
  obtain ⟨m, hm, hms, hmv⟩ := mulOp_set (x0 := map Real.exp y) (x1 := r) (k := 1) (by show r.shape = y.shape.set 1 1; rw [hrs, hys]) (by show y.shape ≠ _; rw [hys]; exact hne)
  rw [show (map Real.exp y).shape = x.shape from hys] at hms hmv
  obtain ⟨g, hg, hgs, hgv⟩ := subOp_same (x0 := gy) (x1 := m) (by rw [hms, hs])
  rw [hs] at hgs hgv
  refine ⟨y, g, hy, by simp only [logSoftmaxGrad, hr, hm, hg, bind, Except.bind], hgs, fun d hdd => ?_⟩
  choose Y hY using fun t => logSoftmax_spec bot st (along x d t) axis (k := 1) ha hst
  refine ⟨Y, fun t => ⟨(hY t).1, (hY t).2.1.trans hs.symm⟩, ?_⟩
  rw [hs]
  have hlin : ∀ o, HasDerivAt (fun t : ℝ => x.get o + t * d.get o) (d.get o) 0 := fun o => by
    simpa using ((hasDerivAt_id (0 : ℝ)).mul_const (d.get o)).const_add (x.get o)
  have hder := HasDerivAt.fun_sum (u := idxs x.shape) (A := fun o t => gy.get o * (x.get o + t * d.get o -
      Real.log (lineSum 1 x.shape (fun p => Real.exp (x.get p + t * d.get p)) o))) (x := (0 : ℝ))
    (fun o ho => ((hlin o).sub (hasDerivAt_logSumExp x.get d.get (mem_idxs.1 ho) hk)).const_mul (gy.get o))
  refine (hder.congr_of_eventuallyEq (.of_forall fun t => sum_congr rfl fun o ho => ?_)).congr_deriv ?_
  · have ho := mem_idxs.1 ho
    rw [(hY t).2.2 o ho]
    show gy.get o * Real.log (Real.exp (x.get o + t * d.get o) / lineSum 1 x.shape (fun p => Real.exp (x.get p + t * d.get p)) o) = _
    rw [Real.log_div (Real.exp_pos _).ne' (exp_line_pos _ (getD_pos ho hk)).ne', Real.log_exp]
  · have hS : ∀ p, InB p x.shape → Real.exp (y.get p) = Real.exp (x.get p) / lineSum 1 x.shape (fun p => Real.exp (x.get p)) p := fun p hp => by
      rw [hyv p hp, Real.exp_log (div_pos (Real.exp_pos _) (exp_line_pos _ (getD_pos hp hk)))]
    have hl : ∀ o ∈ idxs x.shape, gy.get o * (d.get o - lineSum 1 x.shape (fun p => Real.exp (x.get p) / lineSum 1 x.shape (fun p => Real.exp (x.get p)) p * d.get p) o) =
        gy.get o * d.get o - gy.get o * lineSum 1 x.shape (fun p => Real.exp (y.get p) * d.get p) o := fun o ho => by
      rw [lineSum_congr (f := fun p => Real.exp (y.get p) * d.get p) (fun p hp => by rw [hS p hp]) (mem_idxs.1 ho) hk]; ring
    rw [sum_congr rfl hl, sum_sub_distrib, line_swap hk gy.get (fun o => Real.exp (y.get o) * d.get o), ← sum_sub_distrib]
    refine sum_congr rfl fun o ho => ?_
    have ho := mem_idxs.1 ho
    rw [hgv o ho, hmv o ho, hrv o ho]
    show _ = (gy.get o - Real.exp (y.get o) * _) * _
    ring

example : AxisIs smX.shape.length (-1) 1 ∧ Contig (smX.shape.eraseIdx 1) [1] ∧ smG.shape = smX.shape := ⟨smX_axis.1, smX_axis.2, rfl⟩

/-- C37: axes out of range panic. -/
theorem C37_out_of_range (bot : ℝ) (st : List Int) (x : Arr ℝ) (axis : Int) (keep : Bool) (ha : ∀ k, ¬ AxisIs x.shape.length axis k) :
    softmaxImpl bot st x axis = .error .panic ∧ logsumexp bot st x axis keep = .error .panic ∧ logSoftmax bot st x axis = .error .panic := by
  have h : logsumexp bot st x axis keep = .error .panic ∧ logsumexp bot st x axis true = .error .panic := by
    constructor <;> (rw [logsumexp, axisOf_none ha]; rfl)
  refine ⟨by rw [softmaxImpl, axisOf_none ha]; rfl, h.1, by rw [logSoftmax, h.2]; rfl⟩

example : ∀ k, ¬ AxisIs smX.shape.length 2 k := by
  rintro k ⟨h1, h2⟩
  have : smX.shape.length = 2 := rfl
  omega

/-- C37 (reduce_logsumexp without `keep_dim`): correct when the axis is the first one. Missing from the full statement: all other axes, for which the result is
wrong or a panic, see `C37_logsumexp_axis_violated`. -/
theorem C37_logsumexp_drop_partial (bot : ℝ) (st : List Int) (x : Arr ℝ) (axis : Int) (ha : AxisIs x.shape.length axis 0)
    (hst : Contig (x.shape.eraseIdx 0) st) :
    ∃ y, logsumexp bot st x axis false = .ok y ∧ y.shape = x.shape.eraseIdx 0 ∧
      ∀ o, InB o x.shape → y.get (o.eraseIdx 0) = Real.log (lineSum 0 x.shape (fun p => Real.exp (x.get p)) o) :=
  logsumexp_drop bot st x axis ha hst

example : AxisIs smX.shape.length 0 0 ∧ Contig (smX.shape.eraseIdx 0) [1] := ⟨⟨by decide, .inl rfl⟩, .inl (by decide)⟩

/-- C37 (reduce_logsumexp without `keep_dim`): the reported gradient is the gradient when the axis is the first one (for other axes already the value is wrong, see
`C37_logsumexp_axis_violated`). Excluded: arrays of shape `[n, 0]`, for which the product with a gradient of shape `[0]` panics (C24). -/
theorem C37_logsumexp_drop_gradient_partial (bot : ℝ) (st : List Int) (x gy : Arr ℝ) (axis : Int) (ha : AxisIs x.shape.length axis 0)
    (hst : Contig (x.shape.eraseIdx 0) st) (hn : 0 < x.shape.getD 0 0) (hs : gy.shape = x.shape.eraseIdx 0) (hne : gy.shape ≠ [0]) :
    ∃ g, logsumexpGrad bot st x gy axis = .ok g ∧ IsGradient (fun x => logsumexp bot st x axis false) x gy g := by
  have hk := ha.1
  have hx0 : x.shape ≠ [0] := fun h => by rw [h] at hn; simp at hn
  obtain ⟨y, hy, hys, hyv⟩ := softmaxImpl_spec bot st x axis ha hst
  obtain ⟨g, hg, hgb⟩ := binForward_spec (f := (· * ·)) (x0 := y) (x1 := gy) (t := x.shape) (fun a b => mul_comm a b)
    (by rw [hs, hys]; exact commonShape_left (broadcastsTo_erase_zero _)) (fun e => absurd (hys.symm.trans e) hx0) (fun e => absurd e hne)
  have hgv : ∀ o, InB o x.shape → g.get o = y.get o * gy.get (o.eraseIdx 0) := fun o ho => by
    rw [hgb.2 o ho, hs, bIdx_erase_zero ho, hys, bIdx_self ho]
  refine ⟨g, by simp only [logsumexpGrad, hy, bind, Except.bind]; exact hg, hgb.1, fun d hdd => ?_⟩
  choose Y hY using fun t => logsumexp_drop bot st (along x d t) axis ha hst
  refine ⟨Y, fun t => ⟨(hY t).1, (hY t).2.1.trans hs.symm⟩, ?_⟩
  obtain ⟨n, t, hxs⟩ : ∃ n t, x.shape = n :: t := by
    cases h : x.shape with
    | nil => rw [h] at hk; simp at hk
    | cons n t => exact ⟨n, t, rfl⟩
  have hn' : 0 < n := by rw [hxs] at hn; simpa using hn
  have het : x.shape.eraseIdx 0 = t := by rw [hxs]; rfl
  rw [hs, het]
  have hin : ∀ i ∈ idxs t, InB (0 :: i) x.shape := fun i hi => by rw [hxs]; exact .cons hn' (mem_idxs.1 hi)
  have hder := HasDerivAt.fun_sum (u := idxs t) (A := fun i t' => gy.get i *
      Real.log (lineSum 0 x.shape (fun p => Real.exp (x.get p + t' * d.get p)) (0 :: i))) (x := (0 : ℝ))
    (fun i hi => (hasDerivAt_logSumExp x.get d.get (hin i hi) hk).const_mul (gy.get i))
  refine (hder.congr_of_eventuallyEq (.of_forall fun t' => sum_congr rfl fun i hi => ?_)).congr_deriv ?_
  · have := (hY t').2.2 (0 :: i) (hin i hi)
    rw [List.eraseIdx_cons_zero] at this
    rw [this]; rfl
  · have e : ∀ o ∈ idxs x.shape, g.get o * d.get o = gy.get (o.eraseIdx 0) * (y.get o * d.get o) := fun o ho => by
      rw [hgv o (mem_idxs.1 ho)]; ring
    rw [sum_congr rfl e, pullback_adjoint (fun o => o.eraseIdx 0) (t := t) (fun o ho => by rw [← het]; exact inB_eraseIdx 0 ho) gy.get (fun o => y.get o * d.get o)]
    refine sum_congr rfl fun i hi => ?_
    have hfil : (idxs x.shape).filter (fun o => o.eraseIdx 0 = i) = (idxs x.shape).filter (fun o => o.set 0 0 = (0 :: i).set 0 0) := by
      refine filter_congr fun o ho => ?_
      cases o with
      | nil => have := inB_length (mem_idxs.1 ho); rw [hxs] at this; simp at this
      | cons a o => simp
    rw [hfil, line_fibre hk (hin i hi) (fun o => y.get o * d.get o), lineSum_congr (g := fun p => y.get p * d.get p) (fun p hp => by rw [hyv p hp]) (hin i hi) hk]

example : AxisIs smX.shape.length 0 0 ∧ Contig (smX.shape.eraseIdx 0) [1] ∧ 0 < smX.shape.getD 0 0 ∧ (ofFn (smX.shape.eraseIdx 0) (fun _ => (1 : ℝ))).shape ≠ [0] :=
  ⟨⟨by decide, .inl rfl⟩, .inl (by decide), by decide, by decide⟩

/-- C37 is violated by reduce_logsumexp without `keep_dim` for axes other than the first: for the array `[[0, 0], [1, 1]]` and axis 1 the first element of the
result is `log (1 + exp (-1))`, not `log 2`; for every array of shape `[2, 3]` it panics. -/
theorem C37_logsumexp_axis_violated (bot : ℝ) (hbot : bot ≤ 0) (st : List Int) (hst : Contig [2] st) :
    (∃ x y : Arr ℝ, AxisIs x.shape.length 1 1 ∧ InB [0, 0] x.shape ∧ logsumexp bot st x 1 false = .ok y ∧
      y.get ([0, 0].eraseIdx 1) ≠ Real.log (lineSum 1 x.shape (fun p => Real.exp (x.get p)) [0, 0])) ∧
    ∀ x : Arr ℝ, x.shape = [2, 3] → logsumexp bot st x 1 false = .error .panic := by
  constructor
  · obtain ⟨y, hy, _, hv⟩ := logsumexp_square bot st hst (ofFn [2, 2] (fun i => (i.getD 0 0 : ℝ))) rfl
    refine ⟨_, y, ⟨by decide, .inl rfl⟩, by decide, hy, ?_⟩
    have e1 : y.get [0] = Real.log (1 + Real.exp (-1)) := by
      rw [hv]; simp [ofFn, hbot, hbot.trans zero_le_one]
    have e2 : lineSum 1 [2, 2] (fun p => Real.exp ((ofFn [2, 2] (fun i : List Nat => (i.getD 0 0 : ℝ))).get p)) [0, 0] = 2 := by
      simp [lineSum, ofFn]
    show y.get [0] ≠ Real.log (lineSum 1 [2, 2] _ [0, 0])
    rw [e1, e2]
    have h1 : Real.exp (-1) < 1 := by simp
    exact (Real.log_lt_log (by positivity) (by linarith)).ne
  · intro x hx
    have hk : 1 < x.shape.length := by rw [hx]; decide
    obtain ⟨r, hr, hs, hrst, _⟩ := foldAxis_ok x hk bot max
    have he : x.shape.eraseIdx 1 = [2] := by rw [hx]; rfl
    rw [he] at hs
    obtain ⟨m, hm, hms, _⟩ := intoShape_same (a := r) (by rw [hrst]; exact contig_cStrides _) (s := [2]) hs.symm
    have hz : zipOp (· - ·) x m = .error .panic := zipOp_none (by
      rintro ⟨t, h⟩
      rw [hx, hms, commonShape_iff] at h
      simp [coBroadcast, coRev] at h)
    have ha : axisOf x.shape.length 1 = .ok 1 := axisOf_spec ⟨hk, .inl rfl⟩
    simp only [logsumexp, ha, shiftByMax, hr, he, hm, hz, unwrap, bind, Except.bind, Bool.false_eq_true, if_false]

example : (-1 : ℝ) ≤ 0 ∧ Contig [2] [1] := ⟨by norm_num, .inl (by decide)⟩

/-- C37 is violated by the gradient of log_softmax for axes other than 1: for the zero 2x2 array, axis 0 and the incoming gradient that is one at `[0, 0]` and
zero elsewhere the reported gradient is not the gradient; for vectors (axis 0) evaluating the gradient panics. -/
theorem C37_log_softmax_gradient_violated (bot : ℝ) (st : List Int) (hst : Contig [2] st) :
    (∃ x gy y g : Arr ℝ, AxisIs x.shape.length 0 0 ∧ gy.shape = x.shape ∧ logSoftmax bot st x 0 = .ok y ∧ logSoftmaxGrad y gy = .ok g ∧
      ¬ IsGradient (fun x => logSoftmax bot st x 0) x gy g) ∧
    ∀ (n : Nat) (y gy : Arr ℝ), 0 < n → gy.shape = [n] → logSoftmaxGrad y gy = .error .panic := by
  constructor
  · let x : Arr ℝ := ofFn [2, 2] fun _ => 0
    let gy : Arr ℝ := ofFn [2, 2] fun i => if i = [0, 0] then 1 else 0
    have hx : AxisIs x.shape.length 0 0 := ⟨by decide, .inl rfl⟩
    obtain ⟨y, hy, hys, hyv⟩ := logSoftmax_spec bot st x 0 hx hst
    obtain ⟨r, hr, hrs, hrv⟩ := reduceSum_line gy (axis := 1) (k := 1) ⟨by decide, .inl rfl⟩ (by decide)
    obtain ⟨m, hm, hms, hmv⟩ := mulOp_set (x0 := Nd.map Real.exp y) (x1 := r) (k := 1) (by show r.shape = y.shape.set 1 1; rw [hrs, hys]; rfl)
      (by show y.shape ≠ _; rw [hys]; decide)
    rw [show (Nd.map Real.exp y).shape = x.shape from hys] at hms hmv
    obtain ⟨g, hg, hgs, hgv⟩ := subOp_same (x0 := gy) (x1 := m) (by rw [hms]; rfl)
    refine ⟨x, gy, y, g, hx, rfl, hy, by simp only [logSoftmaxGrad, hr, hm, hg, bind, Except.bind], fun hG => ?_⟩
    let d : Arr ℝ := ofFn [2, 2] fun i => if i = [0, 1] then 1 else 0
    obtain ⟨Y, hY, hder⟩ := hG.2 d rfl
    have hidx : idxs [2, 2] = {[0, 0], [0, 1], [1, 0], [1, 1]} := by decide
    -- the derivative in direction `d` is zero
    have hconst : (fun t => ∑ i ∈ idxs gy.shape, gy.get i * (Y t).get i) = fun _ => Real.log (1 / 2) := by
      funext t
      obtain ⟨y', hy', hys', hyv'⟩ := logSoftmax_spec bot st (along x d t) 0 hx hst
      have : Y t = y' := by exact (Except.ok.inj (hy'.symm.trans (hY t).1)).symm
      show ∑ i ∈ idxs [2, 2], gy.get i * (Y t).get i = _
      rw [hidx, this]
      have hv0 := hyv' [0, 0] (show InB [0, 0] [2, 2] by decide)
      have : (along x d t).get [0, 0] = 0 := by simp [along, x, d, ofFn]
      have hl : lineSum 0 (along x d t).shape (fun p => Real.exp ((along x d t).get p)) [0, 0] = 2 := by
        show lineSum 0 [2, 2] _ _ = _
        simp [lineSum, along, x, d, ofFn]
      rw [this, hl] at hv0
      simp [gy, ofFn, hv0]
    rw [hconst] at hder
    have h0 := hder.unique (hasDerivAt_const _ _)
    -- but the inner product of the reported gradient with `d` is not
    have hg01 : g.get [0, 1] = -(1 / 2) := by
      have hin : InB [0, 1] x.shape := by decide
      have e := hyv [0, 1] hin
      have hl : lineSum 0 x.shape (fun p => Real.exp (x.get p)) [0, 1] = 2 := by
        show lineSum 0 [2, 2] _ _ = _
        simp [lineSum, x, ofFn]
      have hx0 : x.get [0, 1] = 0 := rfl
      rw [hl, hx0, Real.exp_zero] at e
      have hr01 := hrv [0, 1] (by decide)
      have hlg : lineSum 1 gy.shape gy.get [0, 1] = 1 := by
        show lineSum 1 [2, 2] _ _ = _
        simp [lineSum, gy, ofFn]
      rw [hlg] at hr01
      rw [hgv _ (by decide), hmv _ hin, hr01]
      show (if [0, 1] = [0, 0] then (1 : ℝ) else 0) - Real.exp (y.get [0, 1]) * 1 = _
      rw [e, Real.exp_log (by norm_num)]
      simp
    have hsum : ∑ o ∈ idxs x.shape, g.get o * d.get o = g.get [0, 1] := by
      show ∑ o ∈ idxs [2, 2], g.get o * d.get o = _
      rw [hidx]; simp [d, ofFn]
    rw [hsum, hg01] at h0
    norm_num at h0
  · intro n y gy hn hs
    have : reduceSum gy [1] true = .error .panic := by
      have hns : isScalarShape gy.shape = false := by
        rw [← Bool.not_eq_true, isScalarShape_iff, hs]; simp; omega
      have hsort : (sortAxes [1]).reverse = [1] := by simp [sortAxes]
      simp [reduceSum, normAxes, reduceForward, bind, Except.bind, hsort, reduceAxes, foldAxis, hs, hs ▸ hns]
    rw [logSoftmaxGrad, this]; rfl

example : Contig [2] [1] := .inl (by decide)

end Verif.Props
