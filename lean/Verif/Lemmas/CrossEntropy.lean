import Verif.Model.CrossEntropy
import Verif.Lemmas.Elementwise
import Verif.Lemmas.Gather
import Verif.Lemmas.Softmax

/-!
# Lemmas about the cross-entropy losses
-/

namespace Verif.Nd
open Finset

theorem sum_idxs_cons {R : Type} [AddCommMonoid R] (n : Nat) (s : List Nat) (f : List Nat → R) :
    ∑ o ∈ idxs (n :: s), f o = ∑ i ∈ range n, ∑ p ∈ idxs s, f (i :: p) := by
  rw [idxs, sum_image (by intro a _ b _ h; simpa [Prod.ext_iff] using h), sum_product]

theorem sum_idxs_one {R : Type} [AddCommMonoid R] (n : Nat) (f : List Nat → R) : ∑ o ∈ idxs [n], f o = ∑ i ∈ range n, f [i] := by
  simp [idxs]

theorem sum_idxs_two {R : Type} [AddCommMonoid R] (n m : Nat) (f : List Nat → R) :
    ∑ o ∈ idxs [n, m], f o = ∑ i ∈ range n, ∑ j ∈ range m, f [i, j] := by
  rw [sum_idxs_cons]
  exact sum_congr rfl fun i _ => sum_idxs_one m _

/-- Gradients are unique. -/
theorem IsGradient.unique {F : Arr ℝ → Res (Arr ℝ)} {x gy g g' : Arr ℝ} (h : IsGradient F x gy g) (h' : IsGradient F x gy g') : Same g g' := by
  refine ⟨h.1.trans h'.1.symm, fun o ho => ?_⟩
  rw [h.1] at ho
  let d : Arr ℝ := ofFn x.shape fun i => if i = o then 1 else 0
  obtain ⟨Y, hY, hder⟩ := h.2 d rfl
  obtain ⟨Y', hY', hder'⟩ := h'.2 d rfl
  have hYY : Y = Y' := funext fun t => Except.ok.inj ((hY t).1.symm.trans (hY' t).1)
  rw [← hYY] at hder'
  have := hder.unique hder'
  simpa [d, ofFn, mem_idxs.2 ho] using this

/-- A gradient is determined by its shape and elements. -/
theorem IsGradient.congr {F : Arr ℝ → Res (Arr ℝ)} {x gy g g' : Arr ℝ} (h : IsGradient F x gy g) (hs : Same g' g) : IsGradient F x gy g' := by
  refine ⟨hs.1.trans h.1, fun d hd => ?_⟩
  obtain ⟨Y, hY, hder⟩ := h.2 d hd
  refine ⟨Y, hY, hder.congr_deriv (sum_congr rfl fun o ho => ?_)⟩
  rw [hs.2 o (by rw [hs.1, h.1]; exact mem_idxs.1 ho)]

theorem hasDerivAt_line (a b : ℝ) : HasDerivAt (fun t : ℝ => a + t * b) b 0 := by
  simpa using ((hasDerivAt_id (0 : ℝ)).mul_const b).const_add a

theorem softplus_stable (a : ℝ) : Real.log (Real.exp (-|a|) + 1) + max 0 a = Real.log (1 + Real.exp a) := by
  rcases le_total 0 a with h | h
  · rw [abs_of_nonneg h, max_eq_right h]
    conv_lhs => rw [← Real.log_exp a]
    rw [Real.log_exp, show Real.log (Real.exp (-a) + 1) + a = Real.log (Real.exp (-a) + 1) + Real.log (Real.exp a) by rw [Real.log_exp],
      ← Real.log_mul (by positivity) (Real.exp_pos _).ne', add_mul, ← Real.exp_add]
    simp
  · rw [abs_of_nonpos h, max_eq_left h, neg_neg, add_zero, add_comm]

theorem sigmoidCE_spec (x t : Arr ℝ) (h : x.shape = t.shape) :
    ∃ y, sigmoidCE x t = .ok y ∧ y.shape = x.shape ∧ ∀ o, InB o x.shape → y.get o = Real.log (1 + Real.exp (x.get o)) - t.get o * x.get o := by
  obtain ⟨p, hp, hb⟩ := zipOp_spec (f := (· * ·)) (x0 := t) (x1 := x) (t := x.shape) (by rw [h]; exact commonShape_left (broadcastsTo_self _))
  obtain ⟨y, hy, hys, _, hyv⟩ := assignOp_spec (· - ·) (a := map (fun a => Real.log (Real.exp (-|a|) + 1) + max 0 a) x) (b := p)
    (by show BroadcastsTo p.shape x.shape; rw [hb.1]; exact broadcastsTo_self _)
  refine ⟨y, by simp only [sigmoidCE, if_pos h, hp, hy, bind, Except.bind], hys, fun o ho => ?_⟩
  rw [hyv, hb.1, bIdx_self ho, hb.2 o ho, ← h, bIdx_self ho]
  show Real.log (Real.exp (-|x.get o|) + 1) + max 0 (x.get o) - _ = _
  rw [softplus_stable]

theorem sigmoidCEGradX_spec {x t gy : Arr ℝ} (ht : t.shape = x.shape) (hg : gy.shape = x.shape) (h0 : x.shape ≠ [0]) (h1 : x.shape ≠ [1]) :
    ∃ g, sigmoidCEGradX x t gy = .ok g ∧ g.shape = x.shape ∧
      ∀ o, InB o x.shape → g.get o = (Real.exp (x.get o) / (1 + Real.exp (x.get o)) - t.get o) * gy.get o := by
  obtain ⟨g, hgv, hs, hr⟩ := eval_rep x.shape rfl ht hg
    (.mul (.sub (.div (.app .exp .x) (.add (.const 1) (.app .exp .x))) .y) .gy) (by simp [EExp.Ok, h0, h1])
  have heq : sigmoidCEGradX x t gy = .ok g := by
    rw [← hgv]
    simp only [sigmoidCEGradX, EExp.eval, bind_assoc]
    rfl
  refine ⟨g, heq, hs, fun o ho => ?_⟩
  have := hr o ho
  rw [hs] at this
  simp only [EExp.full, shp, Bool.or_true, if_true] at this
  rw [bIdx_self ho] at this
  exact this

theorem hasDerivAt_softplus (a b : ℝ) :
    HasDerivAt (fun t : ℝ => Real.log (1 + Real.exp (a + t * b))) (Real.exp a / (1 + Real.exp a) * b) 0 := by
  have h : HasDerivAt (fun t : ℝ => 1 + Real.exp (a + t * b)) (Real.exp a * b) 0 := (hasDerivAt_exp_along a b).const_add 1
  have := h.log (by positivity)
  refine this.congr_deriv ?_
  simp; ring

/-- The gradient of an elementwise function of real arrays. -/
theorem isGradient_pointwise {F : Arr ℝ → Res (Arr ℝ)} {x gy g : Arr ℝ} (f : List Nat → ℝ → ℝ) (f' : List Nat → ℝ)
    (hF : ∀ x', x'.shape = x.shape → ∃ y, F x' = .ok y ∧ y.shape = gy.shape ∧ ∀ o, InB o x.shape → y.get o = f o (x'.get o))
    (hs : gy.shape = x.shape) (hg : g.shape = x.shape) (hv : ∀ o, InB o x.shape → g.get o = f' o * gy.get o)
    (hd : ∀ o b, InB o x.shape → HasDerivAt (fun t : ℝ => f o (x.get o + t * b)) (f' o * b) 0) : IsGradient F x gy g := by
  refine ⟨hg, fun d _ => ?_⟩
  choose Y hY using fun t : ℝ => hF (along x d t) rfl
  refine ⟨Y, fun t => ⟨(hY t).1, (hY t).2.1⟩, ?_⟩
  rw [hs]
  have hder := HasDerivAt.fun_sum (u := idxs x.shape) (A := fun o t => gy.get o * f o (x.get o + t * d.get o)) (x := (0 : ℝ))
    (fun o ho => (hd o (d.get o) (mem_idxs.1 ho)).const_mul (gy.get o))
  refine (hder.congr_of_eventuallyEq (.of_forall fun t => sum_congr rfl fun o ho => ?_)).congr_deriv (sum_congr rfl fun o ho => ?_)
  · rw [(hY t).2.2 o (mem_idxs.1 ho)]; rfl
  · rw [hv o (mem_idxs.1 ho)]; ring

theorem toUsize_natCast (n : Nat) : toUsize (n : ℝ) = some n := by
  have : (-1 : ℝ) < n := lt_of_lt_of_le (by norm_num) (Nat.cast_nonneg n)
  simp [toUsize, this]

theorem labels_ok (ts : List ℝ) (c : Nat) (l : Nat → Nat) (n : Nat) (h : ∀ i < n, ts[i]? = some (l i : ℝ) ∧ l i < c) :
    labels ts c n = .ok ((List.range n).map l) := by
  induction n with
  | zero => rfl
  | succ n ih =>
    have hn := h n (by omega)
    simp only [labels, ih fun i hi => h i (by omega), hn.1, unwrap, toUsize_natCast, bind, Except.bind, if_pos hn.2, List.range_succ, List.map_append]
    rfl

theorem labels_bad (ts : List ℝ) (c : Nat) {n i : Nat} (hi : i < n) (h : ∀ r, ts[i]? = some r → ∀ l, toUsize r = some l → c ≤ l) :
    labels ts c n = .error .panic := by
  induction n with
  | zero => omega
  | succ n ih =>
    have hall : ∀ n, (∃ ls, labels ts c n = .ok ls) ∨ labels ts c n = .error .panic := by
      intro n
      induction n with
      | zero => exact .inl ⟨_, rfl⟩
      | succ n ih =>
        rcases ih with ⟨ls, h⟩ | h
        · simp only [labels, h, bind, Except.bind]
          cases ts[n]? with
          | none => exact .inr rfl
          | some r =>
            simp only [unwrap]
            cases toUsize r with
            | none => exact .inr rfl
            | some l =>
              simp only
              split
              · exact .inl ⟨_, rfl⟩
              · exact .inr rfl
        · exact .inr (by simp only [labels, h, bind, Except.bind])
    by_cases e : i < n
    · simp only [labels, ih e, bind, Except.bind]
    · have : i = n := by omega
      subst this
      rcases hall i with ⟨ls, h1⟩ | h1
      · simp only [labels, h1, bind, Except.bind]
        cases hr : ts[i]? with
        | none => rfl
        | some r =>
          simp only [unwrap]
          cases hl : toUsize r with
          | none => rfl
          | some l =>
            simp only
            rw [if_neg (by have := h r hr l hl; omega)]
      · simp only [labels, h1, bind, Except.bind]

/-- The values of an array of shape `[b]` or `[b, 1]`. -/
theorem toList_column {t : Arr ℝ} {b : Nat} (ht : t.shape = [b] ∨ t.shape = [b, 1]) {i : Nat} (hi : i < b) :
    (toList t)[i]? = some (t.get (if t.shape = [b] then [i] else [i, 0])) := by
  rcases ht with h | h
  · have := toList_getElem (a := t) (i := [i]) (by rw [h]; exact .cons hi .nil)
    rw [h] at this
    simpa [flat, size, h] using this
  · have := toList_getElem (a := t) (i := [i, 0]) (by rw [h]; exact .cons hi (.cons (by decide) .nil))
    rw [h] at this
    simpa [flat, size, h] using this

theorem size_column {t : Arr ℝ} {b : Nat} (ht : t.shape = [b] ∨ t.shape = [b, 1]) : (toList t).length = b := by
  rw [toList_length]
  rcases ht with h | h <;> simp [h, size]

theorem logSoftmax_rows (bot : ℝ) (st : List Int) (x : Arr ℝ) {b c : Nat} (hx : x.shape = [b, c]) (hst : Contig [b] st) :
    ∃ y, logSoftmax bot st x 1 = .ok y ∧ y.shape = [b, c] ∧
      ∀ i < b, ∀ j < c, y.get [i, j] = x.get [i, j] - Real.log (∑ k ∈ range c, Real.exp (x.get [i, k])) := by
  have ha : AxisIs x.shape.length 1 1 := ⟨by rw [hx]; simp, .inl rfl⟩
  obtain ⟨y, hy, hs, hv⟩ := logSoftmax_spec bot st x 1 ha (by rw [hx]; exact hst)
  rw [hx] at hs hv
  refine ⟨y, hy, hs, fun i hi j hj => ?_⟩
  have hin : InB [i, j] [b, c] := .cons hi (.cons hj .nil)
  rw [hv _ hin]
  have hl : lineSum 1 [b, c] (fun p => Real.exp (x.get p)) [i, j] = ∑ k ∈ range c, Real.exp (x.get [i, k]) := by simp [lineSum]
  have hp := exp_line_pos (o := [i, j]) x.get (getD_pos hin (k := 1) (by simp))
  rw [Real.log_div (Real.exp_pos _).ne' hp.ne', Real.log_exp, hl]

theorem hasDerivAt_rowLogSum {c : Nat} (hc : 0 < c) (x d : Nat → ℝ) :
    HasDerivAt (fun t : ℝ => Real.log (∑ k ∈ range c, Real.exp (x k + t * d k)))
      (∑ j ∈ range c, Real.exp (x j) / (∑ k ∈ range c, Real.exp (x k)) * d j) 0 := by
  have hpos : 0 < ∑ k ∈ range c, Real.exp (x k) := sum_pos (fun _ _ => Real.exp_pos _) ⟨0, by simpa using hc⟩
  have h := HasDerivAt.fun_sum (u := range c) (x := (0 : ℝ)) (fun k _ => hasDerivAt_exp_along (x k) (d k))
  have := h.log (by simpa using hpos.ne')
  refine this.congr_deriv ?_
  simp only [zero_mul, add_zero]
  rw [sum_div]
  exact sum_congr rfl fun j _ => by ring

theorem sparseCE_spec (bot : ℝ) (st : List Int) (x t : Arr ℝ) {b c : Nat} (l : Nat → Nat) (hx : x.shape = [b, c]) (hst : Contig [b] st)
    (ht : t.shape = [b] ∨ t.shape = [b, 1]) (hl : ∀ i < b, t.get (if t.shape = [b] then [i] else [i, 0]) = l i ∧ l i < c) :
    ∃ y logx, sparseCE bot st x t = .ok (y, logx) ∧ logSoftmax bot st x 1 = .ok logx ∧ y.shape = [b, 1] ∧
      ∀ i < b, y.get [i, 0] = -(x.get [i, l i] - Real.log (∑ k ∈ range c, Real.exp (x.get [i, k]))) := by
  obtain ⟨logx, hlx, hls, hlv⟩ := logSoftmax_rows bot st x hx hst
  have hlab : labels (toList t) c b = .ok ((List.range b).map l) :=
    labels_ok _ _ _ _ fun i hi => ⟨by rw [toList_column ht hi, (hl i hi).1], (hl i hi).2⟩
  let r : Arr ℝ := ofFn [b] (fun i => -logx.get [i.getD 0 0, ((List.range b).map l).getD (i.getD 0 0) 0])
  obtain ⟨r', hr, hrs, hrv⟩ := intoShape_sq (a := r) (s := [b, 1]) (contig_cStrides _) (by simp [size, r, ofFn])
  refine ⟨r', logx, ?_, hlx, hrs, fun i hi => ?_⟩
  · rcases ht with ht | ht <;>
    · simp only [sparseCE, hlx, hls, ht, hlab, bind, Except.bind]
      have hr' : unwrap (intoShape r [b, 1]) = .ok r' := by rw [hr]; rfl
      simp only [r] at hr'
      rw [hr']
  · have hsq : Sq [b, 1] [i, 0] [b] [i] := (Sq.nil.skip).keep b i
    rw [hrv _ _ hsq (.cons hi .nil)]
    show -logx.get [i, ((List.range b).map l).getD i 0] = _
    have : ((List.range b).map l).getD i 0 = l i := by simp [List.getD, hi]
    rw [this, hlv i hi _ (hl i hi).2]

theorem sparseCEGradX_spec {logx t gy : Arr ℝ} {b c : Nat} (l : Nat → Nat) (hx : logx.shape = [b, c])
    (ht : t.shape = [b] ∨ t.shape = [b, 1]) (hl : ∀ i < b, t.get (if t.shape = [b] then [i] else [i, 0]) = l i ∧ l i < c) (hg : gy.shape = [b, 1]) :
    ∃ g, sparseCEGradX logx t gy = .ok g ∧ g.shape = [b, c] ∧
      ∀ i < b, ∀ j < c, g.get [i, j] = (Real.exp (logx.get [i, j]) - if l i = j then 1 else 0) * gy.get [i, 0] := by
  have hlab : labels (toList t) c (min b (toList t).length) = .ok ((List.range b).map l) := by
    rw [size_column ht, min_self]
    exact labels_ok _ _ _ _ fun i hi => ⟨by rw [toList_column ht hi, (hl i hi).1], (hl i hi).2⟩
  let e : Arr ℝ := ⟨[b, c], (map Real.exp logx).strides, fun i => Real.exp (logx.get i) - if ((List.range b).map l)[i.getD 0 0]? = some (i.getD 1 0) then 1 else 0⟩
  have hset : gy.shape = e.shape.set 1 1 := hg
  obtain ⟨g, hgg, hgs, _, hgv⟩ := assignOp_spec (· * ·) (a := e) (b := gy) (by rw [hset]; exact broadcastsTo_set _ _)
  refine ⟨g, ?_, hgs, fun i hi j hj => ?_⟩
  · simp only [sparseCEGradX, hx, hlab, bind, Except.bind]
    exact hgg
  · have hin : InB [i, j] e.shape := .cons hi (.cons hj .nil)
    rw [hgv, hset, bIdx_set 1 hin]
    show (Real.exp (logx.get [i, j]) - if ((List.range b).map l)[i]? = some j then 1 else 0) * gy.get [i, 0] = _
    simp [hi]

theorem softmaxCE_spec (bot : ℝ) (st : List Int) (x t : Arr ℝ) {b c : Nat} (hx : x.shape = [b, c]) (ht : t.shape = [b, c]) (hst : Contig [b] st) :
    ∃ y logx, softmaxCE bot st x t = .ok (y, logx) ∧ logSoftmax bot st x 1 = .ok logx ∧ y.shape = [b] ∧
      ∀ i < b, y.get [i] = -∑ j ∈ range c, t.get [i, j] * (x.get [i, j] - Real.log (∑ k ∈ range c, Real.exp (x.get [i, k]))) := by
  obtain ⟨logx, hlx, hls, hlv⟩ := logSoftmax_rows bot st x hx hst
  obtain ⟨p, hp, hb⟩ := zipOp_spec (f := (· * ·)) (x0 := t) (x1 := logx) (t := [b, c]) (by rw [ht, hls]; exact commonShape_left (broadcastsTo_self _))
  obtain ⟨s, hs, hss, _, hsv⟩ := sumAxis_ok st p (k := 1) (by rw [hb.1]; simp)
  rw [hb.1] at hss hsv
  refine ⟨map (fun e => e * -1) s, logx, ?_, hlx, hss, fun i hi => ?_⟩
  · simp only [softmaxCE, hlx, hls, ht, hp, hs, bind, Except.bind, List.length_cons, List.length_nil]
    rfl
  · have := hsv [i, 0] rfl
    rw [show ([i, 0] : List Nat).eraseIdx 1 = [i] from rfl] at this
    show s.get [i] * -1 = _
    rw [this, mul_neg_one]
    congr 1
    show ∑ j ∈ range c, p.get [i, j] = _
    refine sum_congr rfl fun j hj => ?_
    have hj := mem_range.1 hj
    have hin : InB [i, j] [b, c] := .cons hi (.cons hj .nil)
    rw [hb.2 _ hin, ht, hls, bIdx_self hin, hlv i hi j hj]

/-- The gradient of softmax_cross_entropy with respect to the logits. -/
theorem softmaxCE_true_gradient (bot : ℝ) (st : List Int) (x t gy : Arr ℝ) (b c : Nat) (hx : x.shape = [b, c]) (ht : t.shape = [b, c]) (hst : Contig [b] st)
    (hg : gy.shape = [b]) (h1 : ∀ i < b, ∑ j ∈ range c, t.get [i, j] = 1) :
    IsGradient (fun x => (softmaxCE bot st x t).map Prod.fst) x gy
      (ofFn [b, c] fun o => (Real.exp (x.get o) / (∑ k ∈ range c, Real.exp (x.get [o.getD 0 0, k])) - t.get o) * gy.get [o.getD 0 0]) := by
  refine ⟨hx.symm, fun d hd => ?_⟩
  choose Y L hY using fun t' : ℝ => softmaxCE_spec bot st (along x d t') t hx ht hst
  refine ⟨Y, fun t' => ⟨by simp only [(hY t').1]; rfl, by rw [(hY t').2.2.1, hg]⟩, ?_⟩
  rw [hg, hx, sum_idxs_two b c]
  have hc : ∀ i < b, 0 < c := fun i hi => by
    by_contra h
    have := h1 i hi
    rw [show c = 0 by omega] at this
    simp at this
  have hder := HasDerivAt.fun_sum (u := range b) (x := (0 : ℝ))
    (A := fun i t' => gy.get [i] * -∑ j ∈ range c, t.get [i, j] * (x.get [i, j] + t' * d.get [i, j] -
      Real.log (∑ k ∈ range c, Real.exp (x.get [i, k] + t' * d.get [i, k]))))
    (fun i hi => ((HasDerivAt.fun_sum (u := range c) fun j hj => ((hasDerivAt_line (x.get [i, j]) (d.get [i, j])).sub
      (hasDerivAt_rowLogSum (hc i (mem_range.1 hi)) (fun k => x.get [i, k]) (fun k => d.get [i, k]))).const_mul (t.get [i, j])).neg).const_mul (gy.get [i]))
  refine (hder.congr_of_eventuallyEq (.of_forall fun t' => ?_)).congr_deriv (sum_congr rfl fun i hi => ?_)
  · simp only [sum_idxs_one]
    exact sum_congr rfl fun i hi => by rw [(hY t').2.2.2 i (mem_range.1 hi)]; rfl
  · have hi := mem_range.1 hi
    have e1 : ∑ j ∈ range c, t.get [i, j] * (d.get [i, j] - ∑ k ∈ range c, Real.exp (x.get [i, k]) / (∑ k ∈ range c, Real.exp (x.get [i, k])) * d.get [i, k]) =
        ∑ j ∈ range c, t.get [i, j] * d.get [i, j] - ∑ k ∈ range c, Real.exp (x.get [i, k]) / (∑ k ∈ range c, Real.exp (x.get [i, k])) * d.get [i, k] := by
      simp only [mul_sub, sum_sub_distrib]
      rw [← sum_mul, h1 i hi, one_mul]
    rw [e1, neg_sub, ← sum_sub_distrib, mul_sum]
    refine sum_congr rfl fun j _ => ?_
    simp only [ofFn, List.getD_cons_zero]
    ring

end Verif.Nd
