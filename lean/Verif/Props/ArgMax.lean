import Mathlib.Algebra.Order.Ring.Int
import Verif.Lemmas.ArgMax

/-!
# C28: argmax and argmin
-/

namespace Verif.Props
open Verif.Nd

/-- A 2x3 array with ties used in the examples. -/
def amX : Arr ℤ := ofFn [2, 3] (fun i => ((i.getD 0 0 + i.getD 1 0) % 2 : Nat))

/-- C28 for `argmax`: at every remaining index the result is the first position of the greatest element along the axis. Full statement: every axis
of arrays of every rank; the code is right for arrays of rank at most 2, and for axis 0 of arrays of any rank if the copy
of `x` is row-major (`st` are the strides of `x.to_owned()`, which of rank at most 2 is row- or column-major). See the violations below. -/
theorem C28_argmax_partial {R : Type} [CommSemiring R] [LinearOrder R] (bot : R) (x : Arr R) (st : List Int) (a : Int) (k n : Nat) (keep : Bool)
    (ha : AxisIs x.shape.length a k) (hn : x.shape[k]? = some n) (hn0 : 0 < n) (hl : st.length = x.shape.length)
    (hc : (k = 0 ∧ isStandard x.shape st = true) ∨ (x.shape.length ≤ 2 ∧ Contig x.shape st))
    (hbot : ∀ o, InB o x.shape → bot ≤ x.get o) :
    ∃ y, argMax bot x st a keep = .ok y ∧ y.shape = (if keep then x.shape.set k 1 else x.shape.eraseIdx k) ∧
      ∀ idx, InB idx (x.shape.eraseIdx k) → ∃ j, j < n ∧
        y.get (if keep then idx.insertIdx k 0 else idx) = (j : R) ∧
        (∀ j', j' < n → x.get (idx.insertIdx k j') ≤ x.get (idx.insertIdx k j)) ∧
        (∀ j', j' < j → x.get (idx.insertIdx k j') < x.get (idx.insertIdx k j)) := by
  have : argMax bot x st a keep = argx max bot x st k keep := by
    obtain ⟨hk, rfl | rfl⟩ := ha
    · simp [argMax]
    · unfold argMax
      rw [if_pos (by omega), if_neg (by omega)]
      congr 1
      omega
  rw [this]
  exact argx_max_spec bot x st k n keep hn hn0 hl hc hbot

example : AxisIs amX.shape.length (-1) 1 ∧ amX.shape[1]? = some 3 ∧ amX.strides.length = amX.shape.length ∧
    (amX.shape.length ≤ 2 ∧ Contig amX.shape amX.strides) ∧ (∀ o ∈ idxs amX.shape, -100 ≤ amX.get o) :=
  ⟨⟨by decide, .inr (by decide)⟩, rfl, rfl, ⟨by decide, .inl (isStandard_cStrides _)⟩, by decide⟩

/-- C28 for `argmin`, as `C28_argmax_partial`. -/
theorem C28_argmin_partial {R : Type} [CommSemiring R] [LinearOrder R] (top : R) (x : Arr R) (st : List Int) (a : Int) (k n : Nat) (keep : Bool)
    (ha : AxisIs x.shape.length a k) (hn : x.shape[k]? = some n) (hn0 : 0 < n) (hl : st.length = x.shape.length)
    (hc : (k = 0 ∧ isStandard x.shape st = true) ∨ (x.shape.length ≤ 2 ∧ Contig x.shape st))
    (htop : ∀ o, InB o x.shape → x.get o ≤ top) :
    ∃ y, argMin top x st a keep = .ok y ∧ y.shape = (if keep then x.shape.set k 1 else x.shape.eraseIdx k) ∧
      ∀ idx, InB idx (x.shape.eraseIdx k) → ∃ j, j < n ∧
        y.get (if keep then idx.insertIdx k 0 else idx) = (j : R) ∧
        (∀ j', j' < n → x.get (idx.insertIdx k j) ≤ x.get (idx.insertIdx k j')) ∧
        (∀ j', j' < j → x.get (idx.insertIdx k j) < x.get (idx.insertIdx k j')) := by
  have : argMin top x st a keep = argx min top x st k keep := by
    obtain ⟨hk, rfl | rfl⟩ := ha
    · simp [argMin]
    · unfold argMin
      rw [if_pos (by omega), if_neg (by omega)]
      congr 1
      omega
  rw [this]
  exact argx_min_spec top x st k n keep hn hn0 hl hc htop

example : AxisIs amX.shape.length 0 0 ∧ amX.shape[0]? = some 2 ∧ (fStrides amX.shape).length = amX.shape.length ∧
    (amX.shape.length ≤ 2 ∧ Contig amX.shape (fStrides amX.shape)) ∧ (∀ o ∈ idxs amX.shape, amX.get o ≤ 100) :=
  ⟨⟨by decide, .inl rfl⟩, rfl, rfl, ⟨by decide, .inr (by decide)⟩, by decide⟩

/-- An array of shape [1,2,2] with the values [[[0, 1], [0, 1]]]. -/
def amW : Arr ℤ := ofFn [1, 2, 2] (fun i => (i.getD 2 0 : ℤ))

/-- C28 is violated: in `[[[0, 1], [0, 1]]]` the maximum along the last axis is at position 1 for both rows; the code returns `[[0, 1]]`, because
`roll_axis` does not move the axis to the front (and no error is raised). -/
theorem C28_wrong_violated : ∃ y, argMax (-100) amW amW.strides 2 false = .ok y ∧ y.shape = [1, 2] ∧ y.get [0, 0] = 0 ∧
    amW.get [0, 0, 0] < amW.get [0, 0, 1] :=
  ⟨_, rfl, rfl, by decide, by decide⟩

/-- An array of shape [2,2,2]. -/
def amP : Arr ℤ := ofFn [2, 2, 2] (fun i => (i.getD 2 0 : ℤ))

/-- C28 is violated: `argmax` along axis 1 of a row-major array of shape [2,2,2] panics (`into_shape` on a non-contiguous array). -/
theorem C28_panic_violated : argMax (-100) amP amP.strides 1 false = .error .panic := rfl

/-- C28 is violated for axis 0 of a column-major array of rank 3: `x[i,j,k] = i * j` has its first maximum along axis 0 at 0 for `j = 0` and
at 1 for `j = 1`; the code returns the transposed table. -/
theorem C28_layout_violated : ∃ y, argMax (-100) (⟨[2, 2, 2], fStrides [2, 2, 2], fun i => (i.getD 0 0 * i.getD 1 0 : ℤ)⟩ : Arr ℤ)
    (fStrides [2, 2, 2]) 0 false = .ok y ∧ y.get [0, 1] = 1 :=
  ⟨_, rfl, by decide⟩

end Verif.Props
