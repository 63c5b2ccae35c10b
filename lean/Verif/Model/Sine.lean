import Verif.Model.Lstm

/-!
# The network of the example `sine`

The calls of the example (`emit` of Model/Lstm). The width of the network and the size of a batch are those of the arrays in the variables and of the drawn array.
-/

namespace Verif.Prog
open Verif Verif.Nd

/-- `mean_all` (src/tensor_ops/mod.rs:1173-1178). -/
noncomputable def meanAll (x : Nat) : StateM (List Stmt) Nat := do
  let s ← emit (.sumAll x)
  let n ← emit (.sizeOf x)
  emit (.div s n)

/-- The loss (examples/sine.rs:25-32); the variables `w1`, `w2`, `w3` have the numbers 0, 1, 2 (lines 14-16). `draw` is the array that `standard_uniform` draws: the tensor is evaluated once in a run, so that one
array stands for all its uses. -/
noncomputable def sineLoss (draw : Arr ℝ) : StateM (List Stmt) Nat := do
  let u ← emit (.const draw)
  let ten ← emit (.scalar 10)
  let x ← emit (.mul u ten)
  let t ← emit (.un .sin x)
  let w1 ← emit (.var 0)
  let a1 ← emit (.matmul x w1)
  let h1 ← emit (.un .tanh a1)
  let w2 ← emit (.var 1)
  let a2 ← emit (.matmul h1 w2)
  let h2 ← emit (.un .tanh a2)
  let w3 ← emit (.var 2)
  let y ← emit (.matmul h2 w3)
  let e ← emit (.sub y t)
  let q ← emit (.un .square e)
  meanAll q

/-- The calls of the loss, and the number of the call that returns it. -/
noncomputable def sineCalls (draw : Arr ℝ) : List Stmt := (sineLoss draw []).2
noncomputable def sineResult (draw : Arr ℝ) : Nat := (sineLoss draw []).1

end Verif.Prog
