import Verif.Props.BinaryOps
import Verif.Props.Reductions

/-!
# C24, C49: exactly which operands the arithmetic ops accept, and the gradient of the product at all zeros
-/

namespace Verif.Props
open Verif.Nd Finset

/-- C24: exactly the operands of the hypotheses of `C24_add_partial`, `C24_mul_partial`, `C24_sub` and `C24_div_partial` are accepted; all others panic (none is reported as an error). -/
theorem C24_accepts_iff_partial {R : Type} [Field R] (x0 x1 : Arr R) :
    (addOp x0 x1 = .error .panic ↔
      ¬ ((∃ t, CommonShape x0.shape x1.shape t) ∧ (x0.shape = [0] → x1.shape = [] ∨ x1.shape = [0]) ∧ (x1.shape = [0] → x0.shape = [] ∨ x0.shape = [0]))) ∧
    (mulOp x0 x1 = .error .panic ↔
      ¬ ((∃ t, CommonShape x0.shape x1.shape t) ∧ (x0.shape = [0] → x1.shape = [] ∨ x1.shape = [0]) ∧ (x1.shape = [0] → x0.shape = [] ∨ x0.shape = [0]))) ∧
    (subOp x0 x1 = .error .panic ↔ ¬ ∃ t, CommonShape x0.shape x1.shape t) ∧
    (divOp x0 x1 = .error .panic ↔ ¬ ((∃ t, CommonShape x0.shape x1.shape t) ∧ x0.shape ≠ [0] ∧ (x0.shape = [] ∨ x1.shape ≠ [1]))) := by
  have hbin : ∀ f : R → R → R, ¬ ((x0.shape = [0] → x1.shape = [] ∨ x1.shape = [0]) ∧ (x1.shape = [0] → x0.shape = [] ∨ x0.shape = [0])) →
      binForward f x0 x1 = .error .panic := by
    intro f hn
    rw [not_and_or] at hn
    rcases hn with hn | hn
    · obtain ⟨h0, h1⟩ := Classical.not_imp.1 hn
      have e0 : isScalarShape x0.shape = true := isScalarShape_iff.2 (.inr h0)
      have e1 : isScalarShape x1.shape = false := by rw [← Bool.not_eq_true, isScalarShape_iff]; exact h1
      unfold binForward
      simp only [e0, e1]
      simp [h0, scalarElem, bind, Except.bind]
    · obtain ⟨h0, h1⟩ := Classical.not_imp.1 hn
      have e0 : isScalarShape x1.shape = true := isScalarShape_iff.2 (.inr h0)
      have e1 : isScalarShape x0.shape = false := by rw [← Bool.not_eq_true, isScalarShape_iff]; exact h1
      unfold binForward
      simp only [e0, e1]
      simp [h0, scalarElem, bind, Except.bind]
  refine ⟨⟨fun h ⟨⟨t, ht⟩, h0, h1⟩ => ?_, fun h => ?_⟩, ⟨fun h ⟨⟨t, ht⟩, h0, h1⟩ => ?_, fun h => ?_⟩, ⟨fun h ⟨t, ht⟩ => ?_, fun h => ?_⟩,
    ⟨fun h ⟨⟨t, ht⟩, h0, h1⟩ => ?_, fun h => ?_⟩⟩
  · obtain ⟨y, hy, _⟩ := C24_add_partial x0 x1 t ht h0 h1
    rw [hy] at h; cases h
  · rw [not_and_or] at h
    exact h.elim (fun h => (C24_incompatible x0 x1 h).1) (hbin _)
  · obtain ⟨y, hy, _⟩ := C24_mul_partial x0 x1 t ht h0 h1
    rw [hy] at h; cases h
  · rw [not_and_or] at h
    exact h.elim (fun h => (C24_incompatible x0 x1 h).2.2.1) (hbin _)
  · obtain ⟨y, hy, _⟩ := C24_sub x0 x1 t ht
    rw [hy] at h; cases h
  · exact (C24_incompatible x0 x1 h).2.1
  · obtain ⟨y, hy, _⟩ := C24_div_partial x0 x1 t ht h0 h1
    rw [hy] at h; cases h
  · rw [not_and_or, not_and_or, not_or, not_not, not_not] at h
    rcases h with h | h | ⟨h0, h1⟩
    · exact (C24_incompatible x0 x1 h).2.2.2
    · unfold divOp
      simp [h, scalarElem, bind, Except.bind]
    · exact C24_div_violated.1 R x0 x1 h0 h1

-- Both sides occur: `exA + exB` is accepted, and `exTwo / exOne` panics.
example : (∃ y, addOp exA exB = .ok y) ∧ divOp exTwo exOne = .error .panic :=
  ⟨⟨_, (C24_add_partial exA exB [2, 2] (commonShape_iff.2 (by decide)) (by decide) (by decide)).choose_spec.1⟩, C24_div_violated.2.2⟩

/-- C49 is violated at every element that is the only zero among those multiplied with it, whatever the shape and axes: the true derivative is not zero there, but the reported gradient is the quotient of
zero by zero (0 in a field of the model, NaN in floating point). -/
theorem C49_all_zeros_violated {R : Type} [Field R] (x gy : Arr R) (axes : List Int) (ks : List Nat) (keep : Bool)
    (ha : List.Forall₂ (AxisIs x.shape.length) axes ks) (hnd : ks.Nodup) (hx : x.shape ≠ [0]) (hx1 : x.shape ≠ [1])
    (hg : gy.shape = reducedShape ks keep x.shape) (o : List Nat) (ho : InB o x.shape) (hz : x.get o = 0)
    (hne : ∀ o' ∈ (fibre ks keep x.shape (reducedIdx ks keep o)).erase o, x.get o' ≠ 0) (hgy : gy.get (reducedIdx ks keep o) ≠ 0) :
    ∃ y g, reduceProd x axes keep = .ok y ∧ reduceProdGrad x y gy axes keep = .ok g ∧ y.get (reducedIdx ks keep o) = 0 ∧
      g.get o = 0 / 0 ∧
      g.get o ≠ gy.get (reducedIdx ks keep o) * ∏ o' ∈ (fibre ks keep x.shape (reducedIdx ks keep o)).erase o, x.get o' := by
  obtain ⟨y, hy, hys, hye⟩ := C26_prod_partial x axes ks keep ha hnd hx
  obtain ⟨g, hgg, hgs, hge⟩ := reduceProdGrad_spec ha hnd hx hx1 hys hg
  have hy0 : y.get (reducedIdx ks keep o) = 0 := by
    rw [hye _ (by rw [hys]; exact inB_reduced ks keep ho),
      ← Finset.mul_prod_erase _ _ (show o ∈ fibre ks keep x.shape (reducedIdx ks keep o) by simp [fibre, ho]), hz, zero_mul]
  have hg0 : g.get o = 0 / 0 := by rw [hge o ho, hy0, hz]; simp
  refine ⟨y, g, hy, hgg, hy0, hg0, ?_⟩
  rw [hg0, div_zero]
  exact (mul_ne_zero hgy (Finset.prod_ne_zero_iff.2 hne)).symm

example : InB [0] exZero.shape ∧ exZero.get [0] = 0 ∧ ∀ o' ∈ (fibre [0] false exZero.shape (reducedIdx [0] false [0])).erase [0], exZero.get o' ≠ 0 := by
  have hf : (fibre [0] false exZero.shape (reducedIdx [0] false [0])).erase [0] = {[1]} := by decide
  refine ⟨by decide, by simp [exZero, ofFn], fun o' ho' => ?_⟩
  rw [hf, Finset.mem_singleton] at ho'
  subst ho'
  simp [exZero, ofFn]

end Verif.Props
