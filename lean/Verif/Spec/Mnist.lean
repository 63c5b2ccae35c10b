import Verif.Model.Mnist

/-! Independent specification for C77: the IDX file format, and samples in batches. -/

namespace Verif.Mnist
open Verif Verif.Nd

/-- A number below 2^32 as four bytes, the most significant first. -/
def bigEndian (n : Nat) : List Byte :=
  [⟨n / 2 ^ 24 % 256, Nat.mod_lt _ (by decide)⟩, ⟨n / 2 ^ 16 % 256, Nat.mod_lt _ (by decide)⟩, ⟨n / 2 ^ 8 % 256, Nat.mod_lt _ (by decide)⟩, ⟨n % 256, Nat.mod_lt _ (by decide)⟩]

/-- The file holds `n` images of 28 x 28 pixels: a header, then the rows of the images one after the other. -/
def ImageFile (file : List Byte) (n : Nat) (pixel : Nat → Nat → Byte) : Prop :=
  n < 2 ^ 32 ∧ ∃ body, file = bigEndian 2051 ++ bigEndian n ++ bigEndian 28 ++ bigEndian 28 ++ body ∧ ∀ i < n, ∀ j < 784, body[i * 784 + j]? = some (pixel i j)

/-- The file holds `n` labels. -/
def LabelFile (file : List Byte) (n : Nat) (label : Nat → Byte) : Prop :=
  n < 2 ^ 32 ∧ ∃ body, file = bigEndian 2049 ++ bigEndian n ++ body ∧ ∀ i < n, body[i]? = some (label i)

/-- The array holds the images, pixels between 0 and 1, one image per row. -/
def IsImages {R : Type} [Field R] (a : Arr R) (n : Nat) (pixel : Nat → Nat → Byte) : Prop :=
  a.shape = [n, 784] ∧ ∀ i < n, ∀ j < 784, a.get [i, j] = ((pixel i j).val : R) / 255

/-- The array holds the labels in a column. -/
def IsLabels {R : Type} [Field R] (a : Arr R) (n : Nat) (label : Nat → Byte) : Prop :=
  a.shape = [n, 1] ∧ ∀ i < n, a.get [i, 0] = ((label i).val : R)

/-- Row `r` of the batch is sample `k`, with its label. -/
def SampleAt {R : Type} (x y : Arr R) (batch : Arr R × Arr R) (r k : Nat) : Prop :=
  (∀ j, batch.1.get [r, j] = x.get [k, j]) ∧ ∀ j, batch.2.get [r, j] = y.get [k, j]

end Verif.Mnist
