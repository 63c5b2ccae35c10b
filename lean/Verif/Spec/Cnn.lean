import Mathlib.Analysis.SpecialFunctions.Log.Basic
import Verif.Model.Cnn
import Verif.Spec.Layout
import Verif.Spec.GradHelper

/-!
# Specification of a convolutional network

The equations of the network, for real numbers.
-/

namespace Verif.Spec
open Verif Verif.Nd Verif.Prog

/-- A number for each image, channel, row and column. -/
abbrev Images := Nat → Nat → Nat → Nat → ℝ

/-- `filters * x + bias`, with filters of three rows and columns, centred; outside of the images, of `size` rows and columns and `channels` channels, there are zeros. -/
noncomputable def convolved (size channels : Nat) (x : Images) (filters bias : Arr ℝ) : Images := fun n o i j =>
  (∑ c ∈ Finset.range channels, ∑ a ∈ Finset.range 3, ∑ e ∈ Finset.range 3,
    filters.get [o, c, a, e] * (if (1 ≤ i + a ∧ i + a ≤ size) ∧ (1 ≤ j + e ∧ j + e ≤ size) then x n c (i + a - 1) (j + e - 1) else 0)) + bias.get [0, o, i, j]

/-- The greatest of four neighbours. -/
noncomputable def pooled (x : Images) : Images := fun n o i j =>
  max (max (x n o (2 * i) (2 * j)) (x n o (2 * i) (2 * j + 1))) (max (x n o (2 * i + 1) (2 * j)) (x n o (2 * i + 1) (2 * j + 1)))

/-- `max(x, 0)`. -/
noncomputable def rectified (x : Images) : Images := fun n o i j => max (x n o i j) 0

/-- The weights of the network. -/
structure CnnWeights where
  w1 : Arr ℝ
  w2 : Arr ℝ
  w3 : Arr ℝ
  b1 : Arr ℝ
  b2 : Arr ℝ
  b3 : Arr ℝ

/-- The numbers by which the results of the two convolutional layers and the scores are multiplied (`dropout`). -/
structure Drops where
  d1 : Images
  d2 : Images
  d3 : Nat → Nat → ℝ

/-- In training, the results of the layers are multiplied with the arrays that the `dropout` ops draw. -/
def drawn (z : CnnSize) (r : CnnRun) (batch : Nat) : Drops where
  d1 n o i j := r.mask1 [batch, z.ch1, 2 * z.side, 2 * z.side] [n, o, i, j]
  d2 n o i j := r.mask2 [batch, z.ch2, z.side, z.side] [n, o, i, j]
  d3 n c := r.mask3 [batch, z.classes] [n, c]

/-- In the test, all results are multiplied with 3/4. -/
noncomputable def undrawn : Drops where
  d1 _ _ _ _ := 3 / 4
  d2 _ _ _ _ := 3 / 4
  d3 _ _ := 3 / 4

namespace CnnWeights
variable (W : CnnWeights) (side ch1 : Nat) (D : Drops) (x : Arr ℝ)

/-- The first layer before rectification; the rows of `x` are the images of `4 * side` rows and columns, row by row. -/
noncomputable def pre1 : Images := convolved (4 * side) 1 (fun n _ i j => x.get [n, i * (4 * side) + j]) W.w1 W.b1

/-- The first layer. -/
noncomputable def layer1 : Images := fun n o i j => D.d1 n o i j * pooled (rectified (W.pre1 side x)) n o i j

/-- The second layer before rectification. -/
noncomputable def pre2 : Images := convolved (2 * side) ch1 (W.layer1 side D x) W.w2 W.b2

/-- The second layer. -/
noncomputable def layer2 : Images := fun n o i j => D.d2 n o i j * pooled (rectified (W.pre2 side ch1 D x)) n o i j

/-- The second layer as a vector for each image: channel by channel, row by row. -/
noncomputable def features (n k : Nat) : ℝ := W.layer2 side ch1 D x n (k / (side * side)) (k % (side * side) / side) (k % (side * side) % side)

/-- The score of class `c` for image `n`. -/
noncomputable def score (ch2 n c : Nat) : ℝ :=
  D.d3 n c * (∑ k ∈ Finset.range (ch2 * (side * side)), W.features side ch1 D x n k * W.w3.get [k, c] + W.b3.get [0, c])

/-- The mean over `batch` images of `- log (exp s_l / ∑_c exp s_c)`, where `l` is the label of the image. -/
noncomputable def loss (ch2 classes batch : Nat) (label : Nat → Nat) : ℝ :=
  (∑ n ∈ Finset.range batch, -Real.log (Real.exp (W.score side ch1 D x ch2 n (label n)) / ∑ c ∈ Finset.range classes, Real.exp (W.score side ch1 D x ch2 n c))) / batch

/-- The class with the greatest score of image `n`; of several, the first. -/
def Predicts (ch2 classes n c : Nat) : Prop :=
  c < classes ∧ (∀ c' < classes, W.score side ch1 D x ch2 n c' ≤ W.score side ch1 D x ch2 n c) ∧ ∀ c' < c, W.score side ch1 D x ch2 n c' < W.score side ch1 D x ch2 n c

/-- The arrays of the variables: the weights, and after them those that the optimizer uses. -/
def env (rest : List (Arr ℝ)) : List (Arr ℝ) := W.w1 :: W.w2 :: W.w3 :: W.b1 :: W.b2 :: W.b3 :: rest

/-- The weight that is variable `vid`. -/
def get : Nat → Arr ℝ
  | 0 => W.w1
  | 1 => W.w2
  | 2 => W.w3
  | 3 => W.b1
  | 4 => W.b2
  | _ => W.b3

/-- The weights with the one changed that is variable `vid`. -/
def change (f : Arr ℝ → Arr ℝ) : Nat → CnnWeights
  | 0 => { W with w1 := f W.w1 }
  | 1 => { W with w2 := f W.w2 }
  | 2 => { W with w3 := f W.w3 }
  | 3 => { W with b1 := f W.b1 }
  | 4 => { W with b2 := f W.b2 }
  | 5 => { W with b3 := f W.b3 }
  | _ => W

/-- The shapes of the weights. -/
structure Shapes (ch2 classes : Nat) : Prop where
  w1 : W.w1.shape = [ch1, 1, 3, 3]
  w2 : W.w2.shape = [ch2, ch1, 3, 3]
  w3 : W.w3.shape = [ch2 * (side * side), classes]
  b1 : W.b1.shape = [1, ch1, 4 * side, 4 * side]
  b2 : W.b2.shape = [1, ch2, 2 * side, 2 * side]
  b3 : W.b3.shape = [1, classes]

end CnnWeights

/-- At these values, rectification and then taking the greatest of four neighbours is differentiable: no number is zero, and if the greatest of four neighbours is positive, only one of them is it.
(For negative numbers the result stays zero.) -/
def Clear (batch channels size : Nat) (x : Images) : Prop :=
  ∀ n < batch, ∀ o < channels, ∀ i < size, ∀ j < size, x n o i j ≠ 0 ∧ (0 < x n o i j → x n o i j = pooled x n o (i / 2) (j / 2) →
    ∀ i' < size, ∀ j' < size, i' / 2 = i / 2 → j' / 2 = j / 2 → x n o i' j' = x n o i j → i' = i ∧ j' = j)

/-- What is assumed of the data: `batch` images of `4 * side` rows and columns, with labels less than the number of classes. The layout `lay a` of the row sums of an array `a` is one that
`into_shape` accepts. -/
structure Pictures (lay : Arr ℝ → List Int) (side ch1 ch2 classes batch : Nat) (x y : Arr ℝ) (label : Nat → Nat) : Prop where
  side_pos : 0 < side
  side_lt : 4 * side + 2 < 2 ^ 31
  ch1_pos : 0 < ch1
  ch2_pos : 0 < ch2
  classes_pos : 0 < classes
  batch_pos : 0 < batch
  x_shape : x.shape = [batch, 4 * side * (4 * side)]
  y_shape : y.shape = [batch, 1]
  label_is : ∀ n < batch, y.get [n, 0] = label n ∧ label n < classes
  layout : ∀ a : Arr ℝ, a.shape = [batch, classes] → Contig [batch] (lay a)

/-- A mini-batch, with what the ops draw in its step. -/
structure CnnBatch where
  r : CnnRun
  n : Nat
  x : Arr ℝ
  y : Arr ℝ
  label : Nat → Nat

/-- What is fed (examples/cnn_mnist.rs:109-110). -/
def CnnBatch.fed (B : CnnBatch) : List (String × Arr ℝ) := [("x", B.x), ("y", B.y)]

/-- The mean loss of a mini-batch, and what is assumed of it. -/
noncomputable def CnnBatch.loss (z : CnnSize) (B : CnnBatch) (W : CnnWeights) : ℝ := W.loss z.side z.ch1 (drawn z B.r B.n) B.x z.ch2 z.classes B.n B.label

def CnnBatch.Valid (z : CnnSize) (B : CnnBatch) : Prop := B.r.bot < 0 ∧ Pictures B.r.lay z.side z.ch1 z.ch2 z.classes B.n B.x B.y B.label

/-- At the weights `W` both layers are differentiable. -/
def CnnBatch.ClearAt (z : CnnSize) (B : CnnBatch) (W : CnnWeights) : Prop :=
  Clear B.n z.ch1 (4 * z.side) (W.pre1 z.side B.x) ∧ Clear B.n z.ch2 (2 * z.side) (W.pre2 z.side z.ch1 (drawn z B.r B.n) B.x)

/-- The orders of the variables in which `w1` or `b1` comes after `w2`, and `w1`, `w2`, `b1` or `b2` after `w3`. -/
def CnnOrder (vs : List Nat) : Prop := vs.Perm [0, 1, 2, 3, 4, 5] ∧ (ListedAfter vs 1 0 ∨ ListedAfter vs 1 3) ∧
  (ListedAfter vs 2 0 ∨ ListedAfter vs 2 1 ∨ ListedAfter vs 2 3 ∨ ListedAfter vs 2 4)

end Verif.Spec
