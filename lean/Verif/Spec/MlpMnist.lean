import Mathlib.Analysis.SpecialFunctions.Log.Basic
import Verif.Spec.Mnist

/-! Independent specification for C78: the scores, the loss and the predictions of a linear classifier of images. -/

namespace Verif.Mnist
open Verif Verif.Nd

/-- The score of class `c` for image `i`. -/
noncomputable def classScore (pixel : Nat → Nat → Byte) (W b : Arr ℝ) (i c : Nat) : ℝ := ∑ j ∈ Finset.range 784, ((pixel i j).val : ℝ) / 255 * W.get [j, c] + b.get [0, c]

/-- The mean of `- log (exp s_{i l_i} / ∑_c exp s_{ic})` over the images `ks`, where `l` are the labels. -/
noncomputable def samplesLoss (pixel : Nat → Nat → Byte) (label : Nat → Byte) (ks : List Nat) (W b : Arr ℝ) : ℝ :=
  (ks.map fun i => -Real.log (Real.exp (classScore pixel W b i (label i).val) / ∑ c ∈ Finset.range 10, Real.exp (classScore pixel W b i c))).sum / ks.length

/-- `c` is the first class with the greatest score. -/
def Recognized (pixel : Nat → Nat → Byte) (W b : Arr ℝ) (i c : Nat) : Prop :=
  c < 10 ∧ (∀ c' < 10, classScore pixel W b i c' ≤ classScore pixel W b i c) ∧ ∀ c' < c, classScore pixel W b i c' < classScore pixel W b i c

end Verif.Mnist
