import Mathlib.Algebra.Field.Rat
import Verif.Lemmas.BinaryGrad

/-!
# C24, C25: broadcasting arithmetic and its gradients
-/

namespace Verif.Props
open Verif.Nd Finset

/-- A 2x2 array of rationals used in the examples. -/
def exA : Arr ℚ := ofFn [2, 2] (fun i => (i.getD 0 0 : ℚ) * 2 + i.getD 1 0 + 1)
/-- A 1x2 array of rationals used in the examples. -/
def exB : Arr ℚ := ofFn [1, 2] (fun i => (i.getD 1 0 : ℚ) + 10)
/-- An array of shape [1]. -/
def exOne : Arr ℚ := ofFn [1] (fun _ => 2)
/-- An array of shape [2]. -/
def exTwo : Arr ℚ := ofFn [2] (fun i => (i.getD 0 0 : ℚ) + 3)

/-- C24 (sum): for operands with a common broadcast shape the result has that shape and every element is the sum of the
elements read there. Full statement: no condition on `[0]`-shaped operands, see `C24_empty_violated`. -/
theorem C24_add_partial {R : Type} [AddCommMagma R] (x0 x1 : Arr R) (t : List Nat)
    (h : CommonShape x0.shape x1.shape t)
    (h0 : x0.shape = [0] → x1.shape = [] ∨ x1.shape = [0]) (h1 : x1.shape = [0] → x0.shape = [] ∨ x0.shape = [0]) :
    ∃ y, addOp x0 x1 = .ok y ∧ Elementwise (· + ·) x0 x1 t y := by
  obtain ⟨y, hy, hb⟩ := binForward_spec (f := (· + ·)) (fun a b => add_comm a b) h
    (fun e => isScalarShape_iff.2 (h0 e)) (fun e => isScalarShape_iff.2 (h1 e))
  exact ⟨y, hy, hb.elementwise⟩

example : CommonShape exA.shape exB.shape [2, 2] ∧ (exA.shape = [0] → exB.shape = [] ∨ exB.shape = [0]) :=
  ⟨commonShape_iff.2 (by decide), by decide⟩

/-- C24 (product), as `C24_add_partial`. -/
theorem C24_mul_partial {R : Type} [CommMagma R] (x0 x1 : Arr R) (t : List Nat)
    (h : CommonShape x0.shape x1.shape t)
    (h0 : x0.shape = [0] → x1.shape = [] ∨ x1.shape = [0]) (h1 : x1.shape = [0] → x0.shape = [] ∨ x0.shape = [0]) :
    ∃ y, mulOp x0 x1 = .ok y ∧ Elementwise (· * ·) x0 x1 t y := by
  obtain ⟨y, hy, hb⟩ := binForward_spec (f := (· * ·)) (fun a b => mul_comm a b) h
    (fun e => isScalarShape_iff.2 (h0 e)) (fun e => isScalarShape_iff.2 (h1 e))
  exact ⟨y, hy, hb.elementwise⟩

example : CommonShape exB.shape exA.shape [2, 2] ∧ (exB.shape = [0] → exA.shape = [] ∨ exA.shape = [0]) :=
  ⟨commonShape_iff.2 (by decide), by decide⟩

/-- C24 (difference), for every pair of broadcast-compatible shapes. -/
theorem C24_sub {R : Type} [Sub R] (x0 x1 : Arr R) (t : List Nat) (h : CommonShape x0.shape x1.shape t) :
    ∃ y, subOp x0 x1 = .ok y ∧ Elementwise (· - ·) x0 x1 t y := by
  obtain ⟨y, hy, hb⟩ := subOp_spec h
  exact ⟨y, hy, hb.elementwise⟩

example : CommonShape exB.shape exA.shape [2, 2] := commonShape_iff.2 (by decide)

/-- C24 (quotient). Missing with respect to the full statement: divisors of shape `[1]` (see `C24_div_violated`) and dividends of shape `[0]`. -/
theorem C24_div_partial {R : Type} [Field R] (x0 x1 : Arr R) (t : List Nat) (h : CommonShape x0.shape x1.shape t)
    (h0 : x0.shape ≠ [0]) (h1 : x0.shape = [] ∨ x1.shape ≠ [1]) :
    ∃ y, divOp x0 x1 = .ok y ∧ Elementwise (· / ·) x0 x1 t y := by
  obtain ⟨y, hy, hb⟩ := divOp_spec h h0 (fun hne => h1.resolve_left hne)
  exact ⟨y, hy, hb.elementwise⟩

example : CommonShape exB.shape exA.shape [2, 2] ∧ exB.shape ≠ [0] ∧ (exB.shape = [] ∨ exA.shape ≠ [1]) :=
  ⟨commonShape_iff.2 (by decide), by decide, by decide⟩

/-- C24 is violated for quotients: dividing any array that is not a scalar by an array of shape `[1]` panics, although the shapes are
compatible (`DivOp` indexes the rank-1 divisor with the empty index); `exTwo / exOne` is a concrete case with a common shape. -/
theorem C24_div_violated :
    (∀ (R : Type) [Field R] (x0 x1 : Arr R), x0.shape ≠ [] → x1.shape = [1] → divOp x0 x1 = .error .panic) ∧
    CommonShape exTwo.shape exOne.shape [2] ∧ divOp exTwo exOne = .error .panic := by
  have key : ∀ (R : Type) [Field R] (x0 x1 : Arr R), x0.shape ≠ [] → x1.shape = [1] → divOp x0 x1 = .error .panic := by
    intro R _ x0 x1 h0 h1
    unfold divOp
    split
    · rename_i hc
      have : x0.shape = [0] := by simpa [h0] using hc
      simp [scalarElem, this, bind, Except.bind]
    · simp [h1, scalarElem, bind, Except.bind]
  exact ⟨key, commonShape_iff.2 (by decide), key ℚ _ _ (by decide) rfl⟩

/-- C24 is violated for empty operands of shape `[0]`, which `+` and `*` take for scalars: combined with any array that is not a scalar they panic. -/
theorem C24_empty_violated :
    (∀ (R : Type) [Add R] (x0 x1 : Arr R), x0.shape = [0] → x1.shape ≠ [] → x1.shape ≠ [0] → addOp x0 x1 = .error .panic) ∧
    CommonShape [0] [1] [0] := by
  refine ⟨?_, commonShape_iff.2 (by decide)⟩
  intro R _ x0 x1 h0 h1 h2
  have e0 : isScalarShape x0.shape = true := isScalarShape_iff.2 (.inr h0)
  have e1 : isScalarShape x1.shape = false := by
    rw [← Bool.not_eq_true, isScalarShape_iff]; simp [h1, h2]
  unfold addOp binForward
  simp only [e0, e1]
  simp [h0, scalarElem, bind, Except.bind]

/-- Operands without a common broadcast shape make every one of the four ops panic (they are not reported as errors). -/
theorem C24_incompatible {R : Type} [Field R] (x0 x1 : Arr R) (h : ¬ ∃ t, CommonShape x0.shape x1.shape t) :
    addOp x0 x1 = .error .panic ∧ subOp x0 x1 = .error .panic ∧ mulOp x0 x1 = .error .panic ∧
    divOp x0 x1 = .error .panic := by
  have n0 : x0.shape ≠ [] := by
    intro e; exact h ⟨x1.shape, by rw [e]; exact commonShape_comm (commonShape_left (broadcastsTo_nil _))⟩
  have n1 : x1.shape ≠ [] := by
    intro e; exact h ⟨x0.shape, by rw [e]; exact commonShape_left (broadcastsTo_nil _)⟩
  have hb : ∀ f : R → R → R, binForward f x0 x1 = .error .panic := by
    intro f
    unfold binForward
    simp only
    split
    · simp [scalarElem, n0, bind, Except.bind]
    · split
      · simp [scalarElem, n1, bind, Except.bind]
      · exact zipOp_none h
  refine ⟨hb _, ?_, hb _, ?_⟩
  · unfold subOp
    split
    · simp [scalarElem, n0, bind, Except.bind]
    · exact zipOp_none h
  · unfold divOp
    split
    · simp [scalarElem, n0, bind, Except.bind]
    · split
      · simp [scalarElem, n1, bind, Except.bind]
      · exact zipOp_none h

example : ¬ ∃ t, CommonShape exTwo.shape [3] t := by
  rintro ⟨t, ht⟩; rw [commonShape_iff] at ht; revert ht
  have : coBroadcast exTwo.shape [3] = none := by decide
  simp [this]

/-- C24 (inferred shape tensor): for two arrays of the same rank, or with a scalar, without empty dimensions, the shape computed by
`InferBinOpShape` is the common broadcast shape. Missing: empty dimensions, see `C24_inferred_shape_violated`. -/
theorem C24_inferred_shape_partial (a b t : List Nat) (h : CommonShape a b t) (hr : a = [] ∨ b = [] ∨ a.length = b.length)
    (hpos : ∀ n ∈ t, 0 < n) : inferBinOpShape a b = .ok t := inferBinOpShape_spec h hr hpos

example : CommonShape [2, 1] [1, 3] [2, 3] ∧ ([2, 1] = [] ∨ [1, 3] = [] ∨ [2, 1].length = [1, 3].length) ∧ ∀ n ∈ [2, 3], 0 < n :=
  ⟨commonShape_iff.2 (by decide), by decide, by decide⟩

/-- C24 is violated for the inferred shape with an empty dimension: the common shape of `[1, 2]` and `[0, 2]` is `[0, 2]`, `InferBinOpShape` gives `[1, 2]`. -/
theorem C24_inferred_shape_violated :
    CommonShape [1, 2] [0, 2] [0, 2] ∧ inferBinOpShape [1, 2] [0, 2] = .ok [1, 2] :=
  ⟨commonShape_iff.2 (by decide), by decide⟩

/-! ## C25 -/

/-- C25 (sum): the gradients have the shapes of the operands, and pairing the incoming gradient with the change of the sum caused by
any changes `d0`, `d1` of the operands gives the pairing of the gradients with these changes. `r0`, `r1` give the position read.
Full statement: every pair of broadcast-compatible shapes; missing are operands of lower rank that are not
scalars (`C25_violated`) and empty dimensions. -/
theorem C25_add_partial {R : Type} [CommRing R] (x0 x1 gy : Arr R) (t : List Nat)
    (h : CommonShape x0.shape x1.shape t) (hg : gy.shape = t) (hpos : ∀ n ∈ t, 0 < n)
    (hr0 : ScalarOrRank x0.shape t) (hr1 : ScalarOrRank x1.shape t) (r0 r1 : List Nat → List Nat)
    (hr0' : ∀ idx, InB idx t → ReadsAt x0.shape idx (r0 idx)) (hr1' : ∀ idx, InB idx t → ReadsAt x1.shape idx (r1 idx)) :
    ∃ g0 g1, addGrad x0 x1 gy = .ok (g0, g1) ∧ g0.shape = x0.shape ∧ g1.shape = x1.shape ∧
      ∀ d0 d1 : List Nat → R,
        ∑ idx ∈ idxs t, gy.get idx * (d0 (r0 idx) + d1 (r1 idx)) =
          ∑ o ∈ idxs x0.shape, g0.get o * d0 o + ∑ o ∈ idxs x1.shape, g1.get o * d1 o := by
  obtain ⟨g0, g1, e, s0, s1, f0, f1⟩ := addGrad_spec h hg hpos hr0 hr1
  refine ⟨g0, g1, e, s0, s1, fun d0 d1 => ?_⟩
  rw [← s0, ← s1, f0.adjoint, f1.adjoint, hg, ← Finset.sum_add_distrib]
  refine Finset.sum_congr rfl fun idx hi => ?_
  rw [← readsAt_unique (hr0' idx (mem_idxs.1 hi)), ← readsAt_unique (hr1' idx (mem_idxs.1 hi))]
  ring

/-- C25 (difference), as `C25_add_partial`. -/
theorem C25_sub_partial {R : Type} [CommRing R] (x0 x1 gy : Arr R) (t : List Nat)
    (h : CommonShape x0.shape x1.shape t) (hg : gy.shape = t) (hpos : ∀ n ∈ t, 0 < n)
    (hr0 : ScalarOrRank x0.shape t) (hr1 : ScalarOrRank x1.shape t) (r0 r1 : List Nat → List Nat)
    (hr0' : ∀ idx, InB idx t → ReadsAt x0.shape idx (r0 idx)) (hr1' : ∀ idx, InB idx t → ReadsAt x1.shape idx (r1 idx)) :
    ∃ g0 g1, subGrad x0 x1 gy = .ok (g0, g1) ∧ g0.shape = x0.shape ∧ g1.shape = x1.shape ∧
      ∀ d0 d1 : List Nat → R,
        ∑ idx ∈ idxs t, gy.get idx * (d0 (r0 idx) - d1 (r1 idx)) =
          ∑ o ∈ idxs x0.shape, g0.get o * d0 o + ∑ o ∈ idxs x1.shape, g1.get o * d1 o := by
  obtain ⟨g0, g1, e, s0, s1, f0, f1⟩ := addGrad_spec h hg hpos hr0 hr1
  have e' : subGrad x0 x1 gy = .ok (g0, negOp g1) := by
    unfold addGrad at e
    unfold subGrad
    cases h0 : maybeReduce gy x0.shape with
    | error f => simp [h0, bind, Except.bind] at e
    | ok a =>
      cases h1 : maybeReduce gy x1.shape with
      | error f => simp [h0, h1, bind, Except.bind] at e
      | ok b =>
        simp only [h0, h1, bind, Except.bind, Except.ok.injEq, Prod.mk.injEq] at e ⊢
        rw [e.1, e.2]; exact ⟨rfl, rfl⟩
  refine ⟨g0, negOp g1, e', s0, s1, fun d0 d1 => ?_⟩
  have : ∑ o ∈ idxs x1.shape, (negOp g1).get o * d1 o = ∑ o ∈ idxs g1.shape, g1.get o * (-d1 o) := by
    rw [s1]; refine Finset.sum_congr rfl fun o _ => ?_
    change -g1.get o * d1 o = _
    ring
  rw [this, ← s0, f0.adjoint, f1.adjoint, hg, ← Finset.sum_add_distrib]
  refine Finset.sum_congr rfl fun idx hi => ?_
  rw [← readsAt_unique (hr0' idx (mem_idxs.1 hi)), ← readsAt_unique (hr1' idx (mem_idxs.1 hi))]
  ring

/-- C25 (product): the change of the product is `d0 * x1 + x0 * d1`. -/
theorem C25_mul_partial {R : Type} [CommRing R] (x0 x1 gy : Arr R) (t : List Nat)
    (h : CommonShape x0.shape x1.shape t) (hg : gy.shape = t) (hpos : ∀ n ∈ t, 0 < n)
    (hr0 : ScalarOrRank x0.shape t) (hr1 : ScalarOrRank x1.shape t) (r0 r1 : List Nat → List Nat)
    (hr0' : ∀ idx, InB idx t → ReadsAt x0.shape idx (r0 idx)) (hr1' : ∀ idx, InB idx t → ReadsAt x1.shape idx (r1 idx)) :
    ∃ g0 g1, mulGrad x0 x1 gy = .ok (g0, g1) ∧ g0.shape = x0.shape ∧ g1.shape = x1.shape ∧
      ∀ d0 d1 : List Nat → R,
        ∑ idx ∈ idxs t, gy.get idx * (d0 (r0 idx) * x1.get (r1 idx) + x0.get (r0 idx) * d1 (r1 idx)) =
          ∑ o ∈ idxs x0.shape, g0.get o * d0 o + ∑ o ∈ idxs x1.shape, g1.get o * d1 o := by
  obtain ⟨g0, g1, a0, a1, e, s0, s1, b0, b1, f0, f1⟩ := mulGrad_spec h hg hpos hr0 hr1
  refine ⟨g0, g1, e, s0, s1, fun d0 d1 => ?_⟩
  rw [← s0, ← s1, f0.adjoint, f1.adjoint, b0.1, b1.1, ← Finset.sum_add_distrib]
  refine Finset.sum_congr rfl fun idx hi => ?_
  have hi' := mem_idxs.1 hi
  rw [b0.2 idx hi', b1.2 idx hi', hg, bIdx_self hi',
    ← readsAt_unique (hr0' idx hi'), ← readsAt_unique (hr1' idx hi')]
  ring

/-- C25 (quotient): the change of the quotient is `d0 / x1 - x0 * d1 / (x1 * x1)`. Additionally missing: divisors of shape `[1]`. -/
theorem C25_div_partial {R : Type} [Field R] (x0 x1 gy : Arr R) (t : List Nat)
    (h : CommonShape x0.shape x1.shape t) (hg : gy.shape = t) (hpos : ∀ n ∈ t, 0 < n)
    (hr0 : ScalarOrRank x0.shape t) (hr1 : ScalarOrRank x1.shape t) (h1 : x1.shape ≠ [1]) (r0 r1 : List Nat → List Nat)
    (hr0' : ∀ idx, InB idx t → ReadsAt x0.shape idx (r0 idx)) (hr1' : ∀ idx, InB idx t → ReadsAt x1.shape idx (r1 idx)) :
    ∃ g0 g1, divGrad x0 x1 gy = .ok (g0, g1) ∧ g0.shape = x0.shape ∧ g1.shape = x1.shape ∧
      ∀ d0 d1 : List Nat → R,
        ∑ idx ∈ idxs t, gy.get idx * (d0 (r0 idx) / x1.get (r1 idx)
            - x0.get (r0 idx) * d1 (r1 idx) / (x1.get (r1 idx) * x1.get (r1 idx))) =
          ∑ o ∈ idxs x0.shape, g0.get o * d0 o + ∑ o ∈ idxs x1.shape, g1.get o * d1 o := by
  obtain ⟨g0, g1, a0, a1, e, s0, s1, t0, b0, t1, b1, f0, f1⟩ := divGrad_spec h hg hpos hr0 hr1 h1
  refine ⟨g0, g1, e, s0, s1, fun d0 d1 => ?_⟩
  rw [← s0, ← s1, f0.adjoint, f1.adjoint, t0, t1, ← Finset.sum_add_distrib]
  refine Finset.sum_congr rfl fun idx hi => ?_
  have hi' := mem_idxs.1 hi
  rw [b0 idx hi', b1 idx hi', ← readsAt_unique (hr0' idx hi'), ← readsAt_unique (hr1' idx hi')]
  ring

/-- The hypotheses of the C25 theorems hold for a 2x2 and a 1x2 array. -/
example : CommonShape exA.shape exB.shape [2, 2] ∧ exA.shape = [2, 2] ∧ (∀ n ∈ [2, 2], 0 < n) ∧ ScalarOrRank exA.shape [2, 2] ∧
    ScalarOrRank exB.shape [2, 2] ∧ exB.shape ≠ [1] ∧
    (∀ idx, InB idx [2, 2] → ReadsAt exB.shape idx ([0, idx.getD 1 0])) := by
  refine ⟨commonShape_iff.2 (by decide), rfl, by decide, .inr rfl, .inr rfl, by decide, fun idx hi => ?_⟩
  obtain ⟨i, j, rfl⟩ : ∃ i j, idx = [i, j] := by
    have := inB_length hi
    match idx, this with
    | [i, j], _ => exact ⟨i, j, rfl⟩
  simp at hi
  have : [0, [i, j].getD 1 0] = bIdx exB.shape [i, j] := by simp [bIdx, exB, ofFn]
  rw [this]
  exact readsAt_bIdx (t := [2, 2]) (commonShape_iff.2 (by decide : coBroadcast exA.shape exB.shape = some [2, 2])).2.1 (by simpa using hi)

/-- C25 is violated when the operands have different ranks: the sum of arrays of shapes `[2]` and `[3, 2]` is computed (by broadcasting), the gradient panics. -/
theorem C25_violated (x0 x1 gy : Arr ℚ) (h0 : x0.shape = [2]) (h1 : x1.shape = [3, 2]) (hg : gy.shape = [3, 2]) :
    (∃ y, addOp x0 x1 = .ok y ∧ Elementwise (· + ·) x0 x1 [3, 2] y) ∧ addGrad x0 x1 gy = .error .panic := by
  refine ⟨C24_add_partial x0 x1 [3, 2] ?_ (by simp [h0]) (by simp [h1]), ?_⟩
  · rw [h0, h1]; exact commonShape_iff.2 (by decide)
  · simp [addGrad, maybeReduce, h0, hg, isScalarShape, reduceLoop, bind, Except.bind]

example : exTwo.shape = [2] ∧ (ofFn [3, 2] (fun _ => (1 : ℚ))).shape = [3, 2] := ⟨rfl, rfl⟩

/-- The second-order op: the gradient op of `MaybeReduceSum`, `MaybeBroadcast`, reads the incoming gradient at the position to which
an element was summed. -/
theorem C25_broadcast {R : Type} (x : Arr R) (t : List Nat) (hb : BroadcastsTo x.shape t) (h0 : x.shape = [0] → t = [0]) :
    ∃ y, maybeBroadcast x t = .ok y ∧ y.shape = t ∧
      ∀ idx o, InB idx t → ReadsAt x.shape idx o → y.get idx = x.get o := by
  obtain ⟨y, hy, hs, hg⟩ := maybeBroadcast_spec hb h0
  exact ⟨y, hy, hs, fun idx o hi ho => by rw [hg idx hi, readsAt_unique ho]⟩

example : BroadcastsTo exB.shape [2, 2] ∧ (exB.shape = [0] → [2, 2] = [0]) :=
  ⟨(commonShape_iff.2 (by decide : coBroadcast exA.shape exB.shape = some [2, 2])).2.1, by decide⟩

end Verif.Props
