import Mathlib.Analysis.Calculus.Deriv.Basic
import Mathlib.Analysis.Calculus.Deriv.Mul
import Mathlib.Algebra.BigOperators.Group.Finset.Basic
import Verif.Spec.NdArray

/-!
# Specification of gradients of real functions of arrays
-/

namespace Verif.Nd
open Finset

/-- The array `x + t d`, with the memory layout of `x`. -/
noncomputable def along (x d : Arr ℝ) (t : ℝ) : Arr ℝ := ⟨x.shape, x.strides, fun i => x.get i + t * d.get i⟩

/-- `g` is the gradient at `x` of `sum gy * F`: it has the shape of `x` and its inner product with every direction `d` is the derivative of
`sum gy * F(x + t d)` at `t = 0`. `F` must return arrays of the shape of `gy` all along the line. -/
def IsGradient (F : Arr ℝ → Res (Arr ℝ)) (x gy g : Arr ℝ) : Prop :=
  g.shape = x.shape ∧ ∀ d : Arr ℝ, d.shape = x.shape →
    ∃ Y : ℝ → Arr ℝ, (∀ t, F (along x d t) = .ok (Y t) ∧ (Y t).shape = gy.shape) ∧
      HasDerivAt (fun t => ∑ i ∈ idxs gy.shape, gy.get i * (Y t).get i) (∑ o ∈ idxs x.shape, g.get o * d.get o) 0

/-- The sum of `f` over the positions that differ from `o` at most along axis `k` of an array of shape `s`. -/
def lineSum {R : Type} [AddCommMonoid R] (k : Nat) (s : List Nat) (f : List Nat → R) (o : List Nat) : R :=
  ∑ j ∈ range (s.getD k 0), f (o.set k j)

end Verif.Nd
