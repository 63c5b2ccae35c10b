import Mathlib.Analysis.SpecialFunctions.Trigonometric.Basic
import Verif.Model.NdArray

/-!
# Specification of the network of the example `sine`

The equations of the network, for real numbers.
-/

namespace Verif.Spec
open Verif Verif.Nd

/-- The weights: `w1` has one row, `w3` one column. -/
structure SineWeights where
  w1 : Arr ℝ
  w2 : Arr ℝ
  w3 : Arr ℝ

namespace SineWeights
variable (W : SineWeights) (width : Nat) (x : Nat → ℝ)

/-- The two hidden layers and the output for the `n`-th input. -/
noncomputable def hidden1 (n j : Nat) : ℝ := Real.tanh (x n * W.w1.get [0, j])
noncomputable def hidden2 (n j : Nat) : ℝ := Real.tanh (∑ i ∈ Finset.range width, W.hidden1 x n i * W.w2.get [i, j])
noncomputable def output (n : Nat) : ℝ := ∑ j ∈ Finset.range width, W.hidden2 width x n j * W.w3.get [j, 0]

/-- The mean of the squared differences to the sine, of `batch` inputs. -/
noncomputable def mse (batch : Nat) : ℝ := (∑ n ∈ Finset.range batch, (W.output width x n - Real.sin (x n)) ^ 2) / batch

/-- The shapes of the weights. -/
structure Shapes : Prop where
  w1 : W.w1.shape = [1, width]
  w2 : W.w2.shape = [width, width]
  w3 : W.w3.shape = [width, 1]

/-- The weights as numbered variables, and a change of one of them. -/
def get (W : SineWeights) : Nat → Arr ℝ
  | 0 => W.w1
  | 1 => W.w2
  | _ => W.w3

def change (f : Arr ℝ → Arr ℝ) (W : SineWeights) : Nat → SineWeights
  | 0 => { W with w1 := f W.w1 }
  | 1 => { W with w2 := f W.w2 }
  | _ => { W with w3 := f W.w3 }

end SineWeights

/-- The inputs: numbers of the column that is drawn, times ten. -/
def inputs (draw : Arr ℝ) : Nat → ℝ := fun n => draw.get [n, 0] * 10

end Verif.Spec
