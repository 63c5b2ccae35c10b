import Mathlib.Algebra.BigOperators.Ring.Finset
import Verif.Lemmas.MaybeReduce
import Verif.Lemmas.BinaryGrad

/-!
# C25: gradients of operands of lower rank
-/

namespace Verif.Props
open Verif.Nd Finset

/-- The incoming gradient of the example: the number of the first index. -/
def brG : Arr ℤ := ofFn [2, 2, 1] fun i => i.getD 0 0

/-- C25 is violated for operands of lower rank also without a panic: the sum of arrays of shapes `[2, 1]` and `[2, 2, 1]` is elementwise, and gradients of the right shapes are
reported, but the gradient of the first operand is summed over the wrong axis (`MaybeReduceSum` aligns the shapes at the first instead of the last dimension). A change of the first
operand by 1 at position `[0, 0]` changes the weighted sum of the result by 1; the reported gradient says that it does not change. -/
theorem C25_wrong_axis_violated (x0 x1 : Arr ℤ) (h0 : x0.shape = [2, 1]) (h1 : x1.shape = [2, 2, 1]) :
    ∃ g0 g1, addGrad x0 x1 brG = .ok (g0, g1) ∧ g0.shape = [2, 1] ∧ g1.shape = [2, 2, 1] ∧
      (∀ idx, InB idx [2, 2, 1] → ReadsAt x0.shape idx idx.tail) ∧
      ∑ idx ∈ idxs [2, 2, 1], brG.get idx * (if idx.tail = [0, 0] then 1 else 0) = 1 ∧ ∑ o ∈ idxs [2, 1], g0.get o * (if o = [0, 0] then 1 else 0) = 0 := by
  obtain ⟨g, hg, hs, e0, e1⟩ : ∃ g, maybeReduce brG [2, 1] = .ok g ∧ g.shape = [2, 1] ∧ g.get [0, 0] = 0 ∧ g.get [1, 0] = 2 := ⟨_, rfl, rfl, rfl, rfl⟩
  have h2 : maybeReduce brG [2, 2, 1] = .ok brG := rfl
  refine ⟨g, brG, ?_, hs, rfl, fun idx hi => ?_, by decide, ?_⟩
  · simp only [addGrad, h0, h1, hg, h2, bind, Except.bind]
  · have : ∀ idx ∈ idxs [2, 2, 1], idx.tail = bIdx [2, 1] idx := by decide
    rw [h0, this idx (mem_idxs.2 hi)]
    exact readsAt_bIdx (commonShape_iff.2 (show coBroadcast [2, 1] [2, 2, 1] = some [2, 2, 1] by decide)).1 hi
  · rw [show idxs [2, 1] = {[0, 0], [1, 0]} by decide, Finset.sum_pair (by decide), e0]
    simp

-- The sum of such arrays is computed.
example : ∃ x0 x1 y : Arr ℤ, x0.shape = [2, 1] ∧ x1.shape = [2, 2, 1] ∧ addOp x0 x1 = .ok y ∧ Elementwise (· + ·) x0 x1 [2, 2, 1] y := by
  obtain ⟨y, hy, h⟩ := binForward_spec (f := (· + ·)) (x0 := ofFn [2, 1] fun _ => (1 : ℤ)) (x1 := brG) (t := [2, 2, 1]) (fun a b => add_comm a b)
    (commonShape_iff.2 (by decide)) (fun h => by cases h) (fun h => by cases h)
  exact ⟨_, _, y, rfl, rfl, hy, h.elementwise⟩

end Verif.Props
