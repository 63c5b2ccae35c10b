import Mathlib.Analysis.SpecialFunctions.Sqrt
import Verif.Model.Program
import Verif.Spec.Optimizers

/-!
# What training should do
-/

namespace Verif.Spec
open Verif Verif.Nd Verif.Prog

/-- The value of an element of a parameter after `k` steps of the optimizer, from `p0`, with the gradients `g 0, g 1, ..`. -/
noncomputable def followed : UOp → ℝ → (Nat → ℝ) → Nat → ℝ
  | .sgd alpha, p0, g => sgdParam alpha p0 g
  | .momentum lr mu, p0, g => momentumParam lr mu p0 g
  | .adagrad lr, p0, g => adagradParam Real.sqrt lr p0 g
  | .adam c, p0, g => adamParam Real.sqrt c.alpha c.eps c.b1 c.b2 p0 g

/-- A mini-batch: the data, the labels and how they are fed. -/
structure Batch where
  n : Nat
  x : Arr ℝ
  y : Arr ℝ
  l : Nat → Nat
  feeds : List (Feed (Arr ℝ))

end Verif.Spec
