import Verif.Model.CnnMnist
import Verif.Spec.Cnn
import Verif.Spec.Mnist

/-! Independent specification for C79: batches of samples for a convolutional network. -/

namespace Verif.Mnist
open Verif Verif.Nd Verif.Prog Verif.Spec

/-- The images `ks` as rows, with pixels between 0 and 1. -/
noncomputable def picturesOf (pixel : Nat → Nat → Byte) (ks : List Nat) : Arr ℝ := ofFn [ks.length, 784] fun i => ((pixel (ks.getD (i.getD 0 0) 0) (i.getD 1 0)).val : ℝ) / 255

/-- The samples `ks` with their labels as a batch; `r` is what the ops draw. -/
noncomputable def samplesBatch (r : CnnRun) (pixel : Nat → Nat → Byte) (label : Nat → Byte) (ks : List Nat) : CnnBatch :=
  ⟨r, ks.length, picturesOf pixel ks, ofFn [ks.length, 1] fun i => ((label (ks.getD (i.getD 0 0) 0)).val : ℝ), fun k => (label (ks.getD k 0)).val⟩

/-- The weights at the start: those drawn, and biases zero. -/
noncomputable def firstWeights {σ : Type} (r : CnnMain σ) : CnnWeights :=
  ⟨r.w1, r.w2, r.w3, ofFn [1, 32, 28, 28] fun _ => 0, ofFn [1, 64, 14, 14] fun _ => 0, ofFn [1, 10] fun _ => 0⟩

end Verif.Mnist
