import Mathlib.Algebra.Field.Rat
import Mathlib.Algebra.Order.Ring.Unbundled.Rat
import Mathlib.Tactic.FieldSimp
import Mathlib.Tactic.Linarith
import Verif.Lemmas.Compare
import Verif.Lemmas.ReduceRel

/-!
# C26, C27, C48, C49: reductions and their gradients
-/

namespace Verif.Props
open Verif.Nd Finset

/-- A 2x2 array used in the examples, in column-major layout. -/
def exR : Arr ℚ := ⟨[2, 2], [1, 2], fun i => (i.getD 0 0 : ℚ) * 2 + i.getD 1 0 + 1⟩
/-- The same array over the integers. -/
def exZ : Arr ℤ := ⟨[2, 2], [1, 2], fun i => (i.getD 0 0 : ℤ) * 2 + i.getD 1 0 + 1⟩
/-- A vector of shape [2] used in the examples. -/
def exGy : Arr ℚ := ofFn [2] (fun i => (i.getD 0 0 : ℚ) + 5)

/-- The axes and shape hypotheses of C26 hold for the axis `-2` (the first) of `exR`. -/
theorem exR_axes : List.Forall₂ (AxisIs exR.shape.length) [-2] [0] ∧ [0].Nodup ∧ exR.shape ≠ [0] :=
  ⟨.cons ⟨by decide, .inr (by decide)⟩ .nil, by decide, by decide⟩

/-- C26 (sum). Full statement: without the hypothesis that `x` is not an empty vector, see `C26_violated`. -/
theorem C26_sum_partial {R : Type} [AddCommMonoid R] (x : Arr R) (axes : List Int) (ks : List Nat) (keep : Bool)
    (ha : List.Forall₂ (AxisIs x.shape.length) axes ks) (hnd : ks.Nodup) (hx : x.shape ≠ [0]) :
    ∃ y, reduceSum x axes keep = .ok y ∧ y.shape = reducedShape ks keep x.shape ∧
      ∀ idx, InB idx y.shape → y.get idx = ∑ o ∈ fibre ks keep x.shape idx, x.get o := by
  obtain ⟨y, hy, hs, hF⟩ := reduceForward_spec x ks keep hx hnd (axes_lt ha)
  exact ⟨y, by rw [reduceSum, normAxes_spec ha]; exact hy, hs, hF.sum⟩

example : List.Forall₂ (AxisIs exR.shape.length) [-2] [0] ∧ [0].Nodup ∧ exR.shape ≠ [0] := exR_axes

/-- C26 (product), as `C26_sum_partial`. -/
theorem C26_prod_partial {R : Type} [CommMonoid R] (x : Arr R) (axes : List Int) (ks : List Nat) (keep : Bool)
    (ha : List.Forall₂ (AxisIs x.shape.length) axes ks) (hnd : ks.Nodup) (hx : x.shape ≠ [0]) :
    ∃ y, reduceProd x axes keep = .ok y ∧ y.shape = reducedShape ks keep x.shape ∧
      ∀ idx, InB idx y.shape → y.get idx = ∏ o ∈ fibre ks keep x.shape idx, x.get o := by
  obtain ⟨y, hy, hs, _, hF⟩ := reduceForward_prod x ks keep hx hnd (axes_lt ha)
  exact ⟨y, by rw [reduceProd, normAxes_spec ha]; exact hy, hs, hF⟩

example : List.Forall₂ (AxisIs exR.shape.length) [-2] [0] ∧ [0].Nodup ∧ exR.shape ≠ [0] := exR_axes

/-- C26 (minimum): the least of the reduced elements, when there is one. `top` is `T::max_value()`; the elements must not exceed it
(no infinities and NaNs). -/
theorem C26_min_partial {R : Type} [LinearOrder R] (top : R) (x : Arr R) (axes : List Int) (ks : List Nat) (keep : Bool)
    (ha : List.Forall₂ (AxisIs x.shape.length) axes ks) (hnd : ks.Nodup) (hx : x.shape ≠ [0]) (htop : ∀ o, InB o x.shape → x.get o ≤ top) :
    ∃ y, reduceMin top x axes keep = .ok y ∧ y.shape = reducedShape ks keep x.shape ∧
      ∀ idx, InB idx y.shape → (fibre ks keep x.shape idx).Nonempty → IsLeast {v | ∃ o ∈ fibre ks keep x.shape idx, v = x.get o} (y.get idx) := by
  obtain ⟨y, hy, hs, hF⟩ := reduceForward_min top x ks keep htop hx hnd (axes_lt ha)
  refine ⟨y, by rw [reduceMin, normAxes_spec ha]; exact hy, hs, fun idx hi hne => ?_⟩
  obtain ⟨h1, h2⟩ := hF idx hi
  refine ⟨h2 hne, ?_⟩
  rintro v ⟨o, ho, rfl⟩
  exact h1 o ho

example : List.Forall₂ (AxisIs exZ.shape.length) [-2] [0] ∧ [0].Nodup ∧ exZ.shape ≠ [0] ∧ (∀ o ∈ idxs exZ.shape, exZ.get o ≤ 100) ∧
    (fibre [0] false exZ.shape [1]).Nonempty :=
  ⟨exR_axes.1, exR_axes.2.1, exR_axes.2.2, by decide, ⟨[0, 1], by decide⟩⟩

/-- C26 (maximum), as `C26_min_partial`; `bot` is `T::min_value()`. -/
theorem C26_max_partial {R : Type} [LinearOrder R] (bot : R) (x : Arr R) (axes : List Int) (ks : List Nat) (keep : Bool)
    (ha : List.Forall₂ (AxisIs x.shape.length) axes ks) (hnd : ks.Nodup) (hx : x.shape ≠ [0]) (hbot : ∀ o, InB o x.shape → bot ≤ x.get o) :
    ∃ y, reduceMax bot x axes keep = .ok y ∧ y.shape = reducedShape ks keep x.shape ∧
      ∀ idx, InB idx y.shape → (fibre ks keep x.shape idx).Nonempty → IsGreatest {v | ∃ o ∈ fibre ks keep x.shape idx, v = x.get o} (y.get idx) := by
  obtain ⟨y, hy, hs, hF⟩ := reduceForward_max bot x ks keep hbot hx hnd (axes_lt ha)
  refine ⟨y, by rw [reduceMax, normAxes_spec ha]; exact hy, hs, fun idx hi hne => ?_⟩
  obtain ⟨h1, h2⟩ := hF idx hi
  refine ⟨h2 hne, ?_⟩
  rintro v ⟨o, ho, rfl⟩
  exact h1 o ho

example : List.Forall₂ (AxisIs exZ.shape.length) [-2] [0] ∧ [0].Nodup ∧ exZ.shape ≠ [0] ∧ (∀ o ∈ idxs exZ.shape, -100 ≤ exZ.get o) ∧
    (fibre [0] false exZ.shape [1]).Nonempty :=
  ⟨exR_axes.1, exR_axes.2.1, exR_axes.2.2, by decide, ⟨[0, 1], by decide⟩⟩

/-- C26 (mean): the sum divided by the number of reduced elements. -/
theorem C26_mean_partial {R : Type} [Field R] (x : Arr R) (axes : List Int) (ks : List Nat) (keep : Bool)
    (ha : List.Forall₂ (AxisIs x.shape.length) axes ks) (hnd : ks.Nodup) (hx : x.shape ≠ [0]) :
    ∃ y, reduceMean x axes keep = .ok y ∧ y.shape = reducedShape ks keep x.shape ∧
      ∀ idx, InB idx y.shape → y.get idx = (∑ o ∈ fibre ks keep x.shape idx, x.get o) / (fibre ks keep x.shape idx).card := by
  obtain ⟨y, hy, hs, hF⟩ := reduceMean_spec x axes ks keep ha hx hnd
  refine ⟨y, hy, hs, fun idx hi => ?_⟩
  rw [hF idx hi, fibre, card_fiber ks keep x.shape idx (by rw [← hs]; exact hi), mul_one_div]

example : List.Forall₂ (AxisIs exR.shape.length) [-2] [0] ∧ [0].Nodup ∧ exR.shape ≠ [0] := exR_axes

/-- C26 is violated for an empty vector: `reduce_sum` of an array of shape `[0]` over its only axis returns the array itself
(of shape `[0]`), not a scalar, because shape `[0]` is treated as a scalar. -/
theorem C26_violated : ∃ (x y : Arr ℚ), x.shape = [0] ∧ reduceSum x [0] false = .ok y ∧ y.shape ≠ reducedShape [0] false x.shape :=
  ⟨ofFn [0] (fun _ => 0), ofFn [0] (fun _ => 0), rfl, rfl, by decide⟩

/-- C27 (sum): the reported gradient is the adjoint of the reduction and every element receives the gradient of the output element to
which it was reduced. Missing with respect to the full statement: incoming gradients without `keep_dims` that are neither row-major nor
column-major contiguous (`C27_layout_violated`), and empty vectors. -/
theorem C27_sum_partial {R : Type} [CommSemiring R] (x gy : Arr R) (axes : List Int) (ks : List Nat) (keep : Bool)
    (ha : List.Forall₂ (AxisIs x.shape.length) axes ks) (hnd : ks.Nodup) (hx : x.shape ≠ [0])
    (hg : gy.shape = reducedShape ks keep x.shape) (hc : keep = true ∨ ks = [] ∨ Contig gy.shape gy.strides) :
    ∃ g, reduceSumGrad x gy axes keep = .ok g ∧ g.shape = x.shape ∧
      (∀ o, InB o x.shape → g.get o = gy.get (reducedIdx ks keep o)) ∧
      ∀ d : Arr R, d.shape = x.shape → ∃ y, reduceSum d axes keep = .ok y ∧ y.shape = gy.shape ∧
        ∑ o ∈ idxs x.shape, g.get o * d.get o = ∑ i ∈ idxs gy.shape, gy.get i * y.get i := by
  obtain ⟨g, hgg, hgs, hge⟩ := reduceGradCommon_any ha hnd hx hg hc
  refine ⟨g, hgg, hgs, hge, fun d hd => ?_⟩
  obtain ⟨y, hy, hys, hye⟩ := C26_sum_partial d axes ks keep (by rw [hd]; exact ha) hnd (by rw [hd]; exact hx)
  have hsh : y.shape = gy.shape := by rw [hys, hd, hg]
  refine ⟨y, hy, hsh, ?_⟩
  rw [Finset.sum_congr rfl (fun o ho => by rw [hge o (by simpa using ho)]),
    pullback_adjoint (reducedIdx ks keep) (t := gy.shape) (fun o ho => by rw [hg]; exact inB_reduced ks keep ho) gy.get d.get]
  refine Finset.sum_congr rfl fun i hi => ?_
  rw [hye i (by rw [hsh]; simpa using hi), fibre, hd]

example : List.Forall₂ (AxisIs exR.shape.length) [-2] [0] ∧ [0].Nodup ∧ exR.shape ≠ [0] ∧
    exGy.shape = reducedShape [0] false exR.shape ∧ Contig exGy.shape exGy.strides :=
  ⟨exR_axes.1, exR_axes.2.1, exR_axes.2.2, by decide, .inl (isStandard_cStrides _)⟩

/-- C27 (mean): every element receives the gradient of its output element divided by the number of reduced elements. Missing: as for the
sum, and the empty list of axes (`C27_mean_noaxes_violated`). -/
theorem C27_mean_partial {R : Type} [Field R] (x gy : Arr R) (axes : List Int) (ks : List Nat) (keep : Bool)
    (ha : List.Forall₂ (AxisIs x.shape.length) axes ks) (hnd : ks.Nodup) (hne : ks ≠ []) (hx : x.shape ≠ [0])
    (hg : gy.shape = reducedShape ks keep x.shape) (hc : keep = true ∨ Contig gy.shape gy.strides) :
    ∃ g, reduceMeanGrad x gy axes keep = .ok g ∧ g.shape = x.shape ∧
      (∀ o, InB o x.shape → g.get o = gy.get (reducedIdx ks keep o) / (fibre ks keep x.shape (reducedIdx ks keep o)).card) ∧
      ∀ d : Arr R, d.shape = x.shape → ∃ y, reduceMean d axes keep = .ok y ∧ y.shape = gy.shape ∧
        ∑ o ∈ idxs x.shape, g.get o * d.get o = ∑ i ∈ idxs gy.shape, gy.get i * y.get i := by
  obtain ⟨g, hgg, hgs, hge⟩ := reduceMeanGrad_spec ha hnd hne hx hg hc
  refine ⟨g, hgg, hgs, fun o ho => ?_, fun d hd => ?_⟩
  · rw [hge o ho, fibre, card_fiber ks keep x.shape _ (inB_reduced ks keep ho), mul_one_div]
  obtain ⟨y, hy, hys, hye⟩ := reduceMean_spec d axes ks keep (by rw [hd]; exact ha) (by rw [hd]; exact hx) hnd
  have hsh : y.shape = gy.shape := by rw [hys, hd, hg]
  refine ⟨y, hy, hsh, ?_⟩
  rw [Finset.sum_congr rfl (fun o ho => by rw [hge o (by simpa using ho)]),
    pullback_adjoint (reducedIdx ks keep) (t := gy.shape) (fun o ho => by rw [hg]; exact inB_reduced ks keep ho)
      (fun i => gy.get i * (1 / (sizeAt ks 0 x.shape : R))) d.get]
  refine Finset.sum_congr rfl fun i hi => ?_
  rw [hye i (by rw [hsh]; simpa using hi), hd]
  ring

example : List.Forall₂ (AxisIs exR.shape.length) [-2] [0] ∧ [0].Nodup ∧ ([0] : List Nat) ≠ [] ∧ exR.shape ≠ [0] ∧
    exGy.shape = reducedShape [0] false exR.shape ∧ Contig exGy.shape exGy.strides :=
  ⟨exR_axes.1, exR_axes.2.1, by decide, exR_axes.2.2, by decide, .inl (isStandard_cStrides _)⟩

/-- C27 (sum of all elements): the forward value is the sum over all positions, and the gradient is its adjoint, for every shape. -/
theorem C27_sum_all {R : Type} [CommSemiring R] (x gy : Arr R) :
    (sumAll x).shape = [] ∧ (sumAll x).get [] = ∑ o ∈ idxs x.shape, x.get o ∧ (sumAllGrad x.shape gy).shape = x.shape ∧
      ∀ d : Arr R, d.shape = x.shape →
        ∑ o ∈ idxs x.shape, (sumAllGrad x.shape gy).get o * d.get o = gy.get [] * (sumAll d).get [] := by
  refine ⟨rfl, sum_toList x, rfl, fun d hd => ?_⟩
  have : (sumAll d).get [] = ∑ o ∈ idxs d.shape, d.get o := sum_toList d
  rw [this, hd, Finset.mul_sum]
  rfl

example : exR.shape = (ofFn [2, 2] (fun _ => (1 : ℚ))).shape := rfl

/-- A gradient of shape [2,2,2] whose first two dimensions are swapped in memory, as produced by `transpose` with permutation [1,0,2]. -/
def exSwapped : Arr ℚ := ⟨[2, 2, 2], [2, 4, 1], fun _ => 1⟩

/-- C27 is violated for incoming gradients in other layouts: summing an array of shape [2,2,2,1] over the last axis and back-propagating
a gradient with swapped dimensions panics (`into_shape` is called on a non-contiguous view). -/
theorem C27_layout_violated :
    ∃ (x gy : Arr ℚ), gy.shape = reducedShape [3] false x.shape ∧ (∃ y, reduceSum x [3] false = .ok y ∧ y.shape = gy.shape) ∧
      reduceSumGrad x gy [3] false = .error .panic := by
  refine ⟨ofFn [2, 2, 2, 1] (fun _ => 1), exSwapped, by decide, ?_, ?_⟩
  · obtain ⟨y, hy, hs, _⟩ := C26_sum_partial (ofFn [2, 2, 2, 1] (fun _ => (1 : ℚ))) [3] [3] false
      (.cons ⟨by decide, .inl rfl⟩ .nil) (by decide) (by decide)
    exact ⟨y, hy, by rw [hs]; decide⟩
  · have h : intoShape exSwapped [2, 2, 2, 1] = none := intoShape_not_contig (by decide)
    unfold reduceSumGrad reduceGradCommon
    rw [if_neg (by decide), if_pos (by decide)]
    have hk : normAxes (ofFn [2, 2, 2, 1] (fun _ => (1 : ℚ))).shape.length [3] = .ok [3] := rfl
    have hs : sortAxes [3] = [3] := by simp [sortAxes]
    have hi : insertOnes exSwapped.shape [3] = .ok [2, 2, 2, 1] := rfl
    simp only [hk, hs, hi, h, bind, Except.bind, unwrap]

/-- C27 is violated for the mean over no axes: the forward op returns its input, the gradient panics. -/
theorem C27_mean_noaxes_violated :
    ∃ (x gy : Arr ℚ), reduceMean x [] false = .ok x ∧ gy.shape = x.shape ∧ reduceMeanGrad x gy [] false = .error .panic := by
  refine ⟨ofFn [2] (fun _ => 1), ofFn [2] (fun _ => 1), rfl, rfl, rfl⟩

/-- C48 is violated: the gradient that back-propagation through the gradient of `reduce_sum`/`reduce_mean` (op `ReduceGradCommon`) assigns to the
incoming gradient has the wrong shape for *every* input and every non-empty list of axes: dimensions are kept where
the incoming gradient has none and removed where it has them. -/
theorem C48_violated {R : Type} [AddCommMonoid R] (ggx : Arr R) (axes : List Int) (ks : List Nat) (keep : Bool)
    (ha : List.Forall₂ (AxisIs ggx.shape.length) axes ks) (hnd : ks.Nodup) (hx : ggx.shape ≠ [0]) (hne : ks ≠ []) :
    ∃ r, reduceGradCommonGrad ggx axes (!keep) = .ok r ∧ r.shape ≠ reducedShape ks keep ggx.shape := by
  obtain ⟨r, hr, hs, _⟩ := C26_sum_partial ggx axes ks (!keep) ha hnd hx
  refine ⟨r, hr, fun he => ?_⟩
  obtain ⟨k, hk⟩ := List.exists_mem_of_ne_nil ks hne
  have hlt : (dropAt ks 0 ggx.shape).length < ggx.shape.length := dropAt_length_lt hk (axes_lt ha k hk)
  have hl := congrArg List.length (hs.symm.trans he)
  cases keep <;> simp [reducedShape, setAt_length] at hl <;> omega

example : List.Forall₂ (AxisIs exR.shape.length) [-2] [0] ∧ [0].Nodup ∧ exR.shape ≠ [0] ∧ ([0] : List Nat) ≠ [] :=
  ⟨exR_axes.1, exR_axes.2.1, exR_axes.2.2, by decide⟩

/-- What remains of C48: apart from the shape, the elements are the right sums (those of the reduction with the other `keep_dims`), and
without axes the gradient is right. -/
theorem C48_partial {R : Type} [AddCommMonoid R] (ggx : Arr R) (axes : List Int) (ks : List Nat) (keep : Bool)
    (ha : List.Forall₂ (AxisIs ggx.shape.length) axes ks) (hnd : ks.Nodup) (hx : ggx.shape ≠ [0]) :
    ∃ r, reduceGradCommonGrad ggx axes (!keep) = .ok r ∧ (ks = [] → r.shape = reducedShape ks keep ggx.shape) ∧
      ∀ idx, InB idx r.shape → r.get idx = ∑ o ∈ fibre ks (!keep) ggx.shape idx, ggx.get o := by
  obtain ⟨r, hr, hs, hg⟩ := C26_sum_partial ggx axes ks (!keep) ha hnd hx
  refine ⟨r, hr, fun he => ?_, hg⟩
  rw [hs, he]
  cases keep <;> simp [reducedShape, dropAt_of_lt, setAt_of_lt]

example : List.Forall₂ (AxisIs exR.shape.length) [-2] [0] ∧ [0].Nodup ∧ exR.shape ≠ [0] := exR_axes

/-- C49 (product): where no element is zero, every element receives the incoming gradient times the product of the other elements
reduced to the same output. Missing: zero elements (`C49_prod_violated`) and the shapes `[0]` and `[1]`
(for `[1]` the division panics, see C24). -/
theorem C49_prod_partial {R : Type} [Field R] (x gy : Arr R) (axes : List Int) (ks : List Nat) (keep : Bool)
    (ha : List.Forall₂ (AxisIs x.shape.length) axes ks) (hnd : ks.Nodup) (hx : x.shape ≠ [0]) (hx1 : x.shape ≠ [1])
    (hg : gy.shape = reducedShape ks keep x.shape) (hz : ∀ o, InB o x.shape → x.get o ≠ 0) :
    ∃ y g, reduceProd x axes keep = .ok y ∧ reduceProdGrad x y gy axes keep = .ok g ∧ g.shape = x.shape ∧
      ∀ o, InB o x.shape → g.get o = gy.get (reducedIdx ks keep o) * ∏ o' ∈ (fibre ks keep x.shape (reducedIdx ks keep o)).erase o, x.get o' := by
  obtain ⟨y, hy, hys, hye⟩ := C26_prod_partial x axes ks keep ha hnd hx
  obtain ⟨g, hgg, hgs, hge⟩ := reduceProdGrad_spec ha hnd hx hx1 hys hg
  refine ⟨y, g, hy, hgg, hgs, fun o ho => ?_⟩
  rw [hge o ho, hye _ (by rw [hys]; exact inB_reduced ks keep ho),
    ← Finset.mul_prod_erase _ _ (show o ∈ fibre ks keep x.shape (reducedIdx ks keep o) by simp [fibre, ho])]
  field_simp [hz o ho]

example : List.Forall₂ (AxisIs exR.shape.length) [-2] [0] ∧ [0].Nodup ∧ exR.shape ≠ [0] ∧ exR.shape ≠ [1] ∧
    exGy.shape = reducedShape [0] false exR.shape ∧ (∀ o, InB o exR.shape → exR.get o ≠ 0) :=
  ⟨exR_axes.1, exR_axes.2.1, exR_axes.2.2, by decide, by decide, fun o _ => by
    simp only [exR]
    have h1 : (0 : ℚ) ≤ (o.getD 0 0 : ℚ) := Nat.cast_nonneg _
    have h2 : (0 : ℚ) ≤ (o.getD 1 0 : ℚ) := Nat.cast_nonneg _
    intro h; linarith⟩

/-- A vector `[0, 2]`. -/
def exZero : Arr ℚ := ofFn [2] (fun i => 2 * (i.getD 0 0 : ℚ))

/-- C49 is violated at a zero element: the product of `[0, 2]` has derivative 2 with respect to the first element, the
reported gradient is `0 / 0` (0 in a field of the model, NaN in floating point). -/
theorem C49_prod_violated :
    ∃ (y gy g : Arr ℚ), reduceProd exZero [0] false = .ok y ∧ gy.get [] = 1 ∧ reduceProdGrad exZero y gy [0] false = .ok g ∧
      g.get [0] ≠ gy.get [] * ∏ o' ∈ (fibre [0] false exZero.shape []).erase [0], exZero.get o' := by
  have ha : List.Forall₂ (AxisIs exZero.shape.length) [0] [0] := .cons ⟨by decide, .inl rfl⟩ .nil
  obtain ⟨y, hy, hys, hye⟩ := C26_prod_partial exZero [0] [0] false ha (by decide) (by decide)
  obtain ⟨g, hgg, hgs, hge⟩ := reduceProdGrad_spec (x := exZero) (y := y) (gy := ofFn [] (fun _ => 1)) ha (by decide) (by decide) (by decide) hys (by decide)
  refine ⟨y, _, g, hy, rfl, hgg, ?_⟩
  have hf : (fibre [0] false exZero.shape []).erase [0] = {[1]} := by decide
  rw [hge [0] (by decide), hf]
  simp [exZero, ofFn]

/-- C49 (minimum): elements that are minimal among those reduced to the same output receive the incoming gradient, all others 0.
Missing: as in `C27_sum_partial`. -/
theorem C49_min_partial {R : Type} [CommSemiring R] [LinearOrder R] (top : R)
    (x gy : Arr R) (axes : List Int) (ks : List Nat) (keep : Bool)
    (ha : List.Forall₂ (AxisIs x.shape.length) axes ks) (hnd : ks.Nodup) (hx : x.shape ≠ [0]) (htop : ∀ o, InB o x.shape → x.get o ≤ top)
    (hg : gy.shape = reducedShape ks keep x.shape) (hc : keep = true ∨ ks = [] ∨ Contig gy.shape gy.strides) :
    ∃ y g, reduceMin top x axes keep = .ok y ∧ reduceMinMaxGrad x y gy axes keep = .ok g ∧ g.shape = x.shape ∧
      ∀ o, InB o x.shape →
        ((∀ o' ∈ fibre ks keep x.shape (reducedIdx ks keep o), x.get o ≤ x.get o') → g.get o = gy.get (reducedIdx ks keep o)) ∧
        ((∃ o' ∈ fibre ks keep x.shape (reducedIdx ks keep o), x.get o' < x.get o) → g.get o = 0) := by
  obtain ⟨y, hy, hys, hye⟩ := C26_min_partial top x axes ks keep ha hnd hx htop
  have hcy : keep = true ∨ ks = [] ∨ Contig y.shape y.strides := by
    by_cases hk : keep = true
    · exact .inl hk
    · by_cases hn : ks = []
      · exact .inr (.inl hn)
      · have hk' : keep = false := by simpa using hk
        subst hk'
        rw [reduceMin, normAxes_spec ha] at hy
        exact .inr (.inr (reduceForward_standard _ _ _ _ _ hn (not_scalar_of_axis ha hn hx) hy))
  obtain ⟨g, hgg, hgs, hge⟩ := reduceMinMaxGrad_spec ha hnd hx hys hg hcy hc
  refine ⟨y, g, hy, hgg, hgs, fun o ho => ?_⟩
  have hmem : o ∈ fibre ks keep x.shape (reducedIdx ks keep o) := by simp [fibre, ho]
  obtain ⟨⟨om, hom, heq⟩, hlow⟩ := hye _ (by rw [hys]; exact inB_reduced ks keep ho) ⟨o, hmem⟩
  have hle : y.get (reducedIdx ks keep o) ≤ x.get o := hlow ⟨o, hmem, rfl⟩
  refine ⟨fun h => ?_, fun ⟨o', ho', hlt⟩ => ?_⟩
  · rw [hge o ho, if_pos (le_antisymm (by rw [heq]; exact h om hom) hle)]
  · rw [hge o ho, if_neg]
    intro he
    have := hlow ⟨o', ho', rfl⟩
    rw [← he] at this
    exact absurd hlt (not_lt.2 this)

example : (∀ o ∈ idxs exZ.shape, exZ.get o ≤ 100) ∧ List.Forall₂ (AxisIs exZ.shape.length) [-2] [0] ∧ exZ.shape ≠ [0] ∧
    exGy.shape = reducedShape [0] false exZ.shape ∧ Contig exGy.shape exGy.strides :=
  ⟨by decide, exR_axes.1, exR_axes.2.2, by decide, .inl (isStandard_cStrides _)⟩

/-- C49 (maximum), as `C49_min_partial`. -/
theorem C49_max_partial {R : Type} [CommSemiring R] [LinearOrder R] (bot : R)
    (x gy : Arr R) (axes : List Int) (ks : List Nat) (keep : Bool)
    (ha : List.Forall₂ (AxisIs x.shape.length) axes ks) (hnd : ks.Nodup) (hx : x.shape ≠ [0]) (hbot : ∀ o, InB o x.shape → bot ≤ x.get o)
    (hg : gy.shape = reducedShape ks keep x.shape) (hc : keep = true ∨ ks = [] ∨ Contig gy.shape gy.strides) :
    ∃ y g, reduceMax bot x axes keep = .ok y ∧ reduceMinMaxGrad x y gy axes keep = .ok g ∧ g.shape = x.shape ∧
      ∀ o, InB o x.shape →
        ((∀ o' ∈ fibre ks keep x.shape (reducedIdx ks keep o), x.get o' ≤ x.get o) → g.get o = gy.get (reducedIdx ks keep o)) ∧
        ((∃ o' ∈ fibre ks keep x.shape (reducedIdx ks keep o), x.get o < x.get o') → g.get o = 0) := by
  obtain ⟨y, hy, hys, hye⟩ := C26_max_partial bot x axes ks keep ha hnd hx hbot
  have hcy : keep = true ∨ ks = [] ∨ Contig y.shape y.strides := by
    by_cases hk : keep = true
    · exact .inl hk
    · by_cases hn : ks = []
      · exact .inr (.inl hn)
      · have hk' : keep = false := by simpa using hk
        subst hk'
        rw [reduceMax, normAxes_spec ha] at hy
        exact .inr (.inr (reduceForward_standard _ _ _ _ _ hn (not_scalar_of_axis ha hn hx) hy))
  obtain ⟨g, hgg, hgs, hge⟩ := reduceMinMaxGrad_spec ha hnd hx hys hg hcy hc
  refine ⟨y, g, hy, hgg, hgs, fun o ho => ?_⟩
  have hmem : o ∈ fibre ks keep x.shape (reducedIdx ks keep o) := by simp [fibre, ho]
  obtain ⟨⟨om, hom, heq⟩, hup⟩ := hye _ (by rw [hys]; exact inB_reduced ks keep ho) ⟨o, hmem⟩
  have hle : x.get o ≤ y.get (reducedIdx ks keep o) := hup ⟨o, hmem, rfl⟩
  refine ⟨fun h => ?_, fun ⟨o', ho', hlt⟩ => ?_⟩
  · rw [hge o ho, if_pos (le_antisymm hle (by rw [heq]; exact h om hom))]
  · rw [hge o ho, if_neg]
    intro he
    have := hup ⟨o', ho', rfl⟩
    rw [← he] at this
    exact absurd hlt (not_lt.2 this)

example : (∀ o ∈ idxs exZ.shape, -100 ≤ exZ.get o) ∧ List.Forall₂ (AxisIs exZ.shape.length) [-2] [0] ∧ exZ.shape ≠ [0] ∧
    exGy.shape = reducedShape [0] false exZ.shape ∧ Contig exGy.shape exGy.strides :=
  ⟨by decide, exR_axes.1, exR_axes.2.2, by decide, .inl (isStandard_cStrides _)⟩

end Verif.Props
