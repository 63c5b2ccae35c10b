import Mathlib.Analysis.SpecialFunctions.Log.Basic
import Verif.Spec.Layout

/-!
# Specification of a linear classifier
-/

namespace Verif.Spec
open Verif Verif.Nd

/-- The score of class `k` for example `i`: `(x w + b)_{ik}`. -/
noncomputable def score (d : Nat) (x w b : Arr ℝ) (i k : Nat) : ℝ := ∑ j ∈ Finset.range d, x.get [i, j] * w.get [j, k] + b.get [0, k]

/-- The mean over the examples of `- log (exp s_{i l_i} / ∑_k exp s_{ik})`, where `l` are the labels. -/
noncomputable def meanLoss (n d c : Nat) (x w b : Arr ℝ) (l : Nat → Nat) : ℝ :=
  (∑ i ∈ Finset.range n, -Real.log (Real.exp (score d x w b i (l i)) / ∑ k ∈ Finset.range c, Real.exp (score d x w b i k))) / n

/-- What is assumed of the data: `n` examples with `d` features in `x`, and their labels `l i`, numbers less than the number `c` of classes, in `y`: a vector
or a column. The layout `lay a` of the row sums of an array `a` is one that `into_shape` accepts. -/
structure Dataset (lay : Arr ℝ → List Int) (d : Nat) (column : Bool) (n c : Nat) (x y : Arr ℝ) (l : Nat → Nat) : Prop where
  n_pos : 0 < n
  c_pos : 0 < c
  d_pos : 0 < d
  x_shape : x.shape = [n, d]
  y_shape : y.shape = if column then [n, 1] else [n]
  label : ∀ i < n, y.get (if column then [i, 0] else [i]) = l i ∧ l i < c
  layout : ∀ a : Arr ℝ, a.shape = [n, c] → Contig [n] (lay a)

end Verif.Spec
