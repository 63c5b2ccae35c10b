import Mathlib.Algebra.BigOperators.Group.Finset.Basic
import Verif.Model.MatMul
import Verif.Spec.NdArray

/-!
# Specification of (batched) matrix products
-/

namespace Verif.Nd
open Finset
variable {R : Type}

/-- Entry `(i, j)` of the matrix with batch index `bi`, transposed if `t`. -/
def entry (a : Arr R) (t : Bool) (bi : List Nat) (i j : Nat) : R := a.get (bi ++ if t then [j, i] else [i, j])

/-- Shape of a batch of `r × c` matrices stored transposed if `t`. -/
def matShape (batch : List Nat) (t : Bool) (r c : Nat) : List Nat := batch ++ if t then [c, r] else [r, c]

/-- `y` holds the products of the `m × k` matrices in `a` with the `k × n` matrices in `b`, which are stored transposed according to the flags. -/
def IsProduct [AddCommMonoid R] [Mul R] (batch : List Nat) (m k n : Nat) (ta tb : Bool) (a b y : Arr R) : Prop :=
  y.shape = batch ++ [m, n] ∧ ∀ bi, InB bi batch → ∀ i < m, ∀ j < n, entry y false bi i j = ∑ p ∈ range k, entry a ta bi i p * entry b tb bi p j

/-- The inner product of two arrays of shape `s`. -/
def inner' [AddCommMonoid R] [Mul R] (s : List Nat) (a b : Arr R) : R := ∑ o ∈ idxs s, a.get o * b.get o

/-- The batch axes are laid out in row-major order without gaps (each matrix takes `size` elements), and within a matrix neighbouring rows
and columns are at most `size` elements apart. -/
def BatchRowMajor (batch : List Nat) (r c : Nat) (strides : List Int) : Prop :=
  ∃ rs cs : Int, strides = (cStrides batch).map (· * ((r * c : Nat) : Int)) ++ [rs, cs] ∧ rs ≤ ((r * c : Nat) : Int) ∧ cs ≤ ((r * c : Nat) : Int)

end Verif.Nd
