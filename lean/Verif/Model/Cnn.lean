import Verif.Model.Lstm

/-!
# The convolutional network of the example `cnn_mnist`

The functions of the example, as calls of a program (`emit` of Model/Lstm). The sizes are parameters: images of `4 * side` rows and columns (`side` is 7 in the example), `ch1` and `ch2` channels
(32 and 64), `classes` (10).
-/

namespace Verif.Prog
open Verif Verif.Nd

/-- The sizes of the network (examples/cnn_mnist.rs:43-51, 71-78). -/
structure CnnSize where
  side : Nat
  ch1 : Nat
  ch2 : Nat
  classes : Nat

/-- What the ops depend on besides their inputs: `bot` is the least float, `lay` the layout that ndarray gives to row sums, `copy` the one of a copy, and `mask1`, `mask2`, `mask3` the arrays that the three
`dropout` ops draw (by shape; one evaluation). -/
structure CnnRun where
  bot : ℝ
  lay : Arr ℝ → List Int
  copy : Arr ℝ → List Int
  mask1 : List Nat → List Nat → ℝ
  mask2 : List Nat → List Nat → ℝ
  mask3 : List Nat → List Nat → ℝ

/-- `conv_pool` (examples/cnn_mnist.rs:36-41). -/
noncomputable def convPool (bot : ℝ) (mask : List Nat → List Nat → ℝ) (train : Bool) (x w b : Nat) : StateM (List Stmt) Nat := do
  let c ← emit (.conv2d 1 1 1 x w)
  let y1 ← emit (.add c b)
  let y2 ← emit (.un .relu y1)
  let y3 ← emit (.maxPool bot 2 0 2 y2)
  emit (.dropout train (1 / 4) mask y3)

/-- `compute_logits` (examples/cnn_mnist.rs:43-51). The variables have the numbers that the environment gives them (lines 71-78): `w1`, `w2`, `w3`, `b1`, `b2`, `b3`. Returns the logits and the
tensors of the variables in this order. -/
noncomputable def cnnLogits (z : CnnSize) (r : CnnRun) (train : Bool) : StateM (List Stmt) (Nat × List Nat) := do
  let x0 ← emit (.placeholder "x" [-1, (4 * z.side * (4 * z.side) : Nat)])
  let d ← emit (.const (vec [-1, 1, (4 * z.side : Nat), (4 * z.side : Nat)]))
  let x ← emit (.reshape x0 d)
  let w1 ← emit (.var 0)
  let b1 ← emit (.var 3)
  let z1 ← convPool r.bot r.mask1 train x w1 b1
  let w2 ← emit (.var 1)
  let b2 ← emit (.var 4)
  let z2 ← convPool r.bot r.mask2 train z1 w2 b2
  let d' ← emit (.const (vec [-1, (z.ch2 * (z.side * z.side) : Nat)]))
  let z3 ← emit (.reshape z2 d')
  let w3 ← emit (.var 2)
  let m ← emit (.matmul z3 w3)
  let b3 ← emit (.var 5)
  let z4 ← emit (.add m b3)
  let logits ← emit (.dropout train (1 / 4) r.mask3 z4)
  pure (logits, [w1, w2, w3, b1, b2, b3])

/-- The training loss (examples/cnn_mnist.rs:97-100); returns the loss and the tensors of the variables. -/
noncomputable def cnnLoss (z : CnnSize) (r : CnnRun) : StateM (List Stmt) (Nat × List Nat) := do
  let (logits, vars) ← cnnLogits z r true
  let y ← emit (.placeholder "y" [-1, 1])
  let loss ← emit (.sparseCE r.bot r.lay logits y)
  let axes ← emit (.const (vec [0]))
  let mean ← emit (.reduceMean loss axes false)
  pure (mean, vars)

/-- The test accuracy (examples/cnn_mnist.rs:127-133). -/
noncomputable def cnnAccuracy (z : CnnSize) (r : CnnRun) : StateM (List Stmt) Nat := do
  let (logits, _) ← cnnLogits z r false
  let predictions ← emit (.argMax r.bot r.copy logits (-1) true)
  let y ← emit (.placeholder "y" [-1, 1])
  let eq ← emit (.cmp .eq predictions y)
  let axes ← emit (.const (vec [0, 1]))
  emit (.reduceMean eq axes false)

/-- The calls of the training loss and of the test accuracy, and the tensors that they return. -/
noncomputable def cnnCalls (z : CnnSize) (r : CnnRun) : List Stmt := (cnnLoss z r []).2
noncomputable def cnnResult (z : CnnSize) (r : CnnRun) : Nat × List Nat := (cnnLoss z r []).1
noncomputable def cnnTestCalls (z : CnnSize) (r : CnnRun) : List Stmt := (cnnAccuracy z r []).2
noncomputable def cnnTestResult (z : CnnSize) (r : CnnRun) : Nat := (cnnAccuracy z r []).1

end Verif.Prog
