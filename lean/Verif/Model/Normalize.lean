import Verif.Model.Lstm

/-!
# Functions of `tensor_ops` that are made of other functions: variance, normalisation, squared error

As calls of a program (`emit` of Model/Lstm). Tensors are given by the numbers of the calls that returned them.
-/

namespace Verif.Prog
open Verif Verif.Nd

/-- An argument `&impl AsTensor` (src/tensor.rs:913-950): a tensor, or an array of integers; the arrays are constants of rank 1. -/
inductive AxesArg where
  | tensor (k : Nat)
  | ints (l : List Int)

/-- `as_tensor` (src/tensor.rs:919-940). -/
noncomputable def AxesArg.asTensor : AxesArg → StateM (List Stmt) Nat
  | .tensor k => pure k
  | .ints l => emit (.const (vec (l.map fun n : Int => (n : ℝ))))

/-- `reduce_mean` (src/tensor_ops/mod.rs:1220-1236), which makes a tensor of its axes. -/
noncomputable def callMean (x : Nat) (axes : AxesArg) (keep : Bool) : StateM (List Stmt) Nat := do
  let k ← axes.asTensor
  emit (.reduceMean x k keep)

/-- `reduce_variance` (src/tensor_ops/mod.rs:1291-1302). -/
noncomputable def callVariance (x : Nat) (axes : AxesArg) (keep : Bool) : StateM (List Stmt) Nat := do
  let mean ← callMean x axes true
  let d ← emit (.sub x mean)
  let q ← emit (.un .square d)
  callMean q axes keep

/-- `normalize` (src/tensor_ops/mod.rs:2325-2338); `eps` is `1e-5` as a float. -/
noncomputable def callNormalize (eps : ℝ) (x : Nat) (axes : AxesArg) : StateM (List Stmt) Nat := do
  let k ← axes.asTensor
  let mean ← callMean x (.tensor k) true
  let centered ← emit (.sub x mean)
  let q ← emit (.un .square centered)
  let variance ← callMean q (.tensor k) true
  let em5 ← emit (.scalar eps)
  let v ← emit (.add variance em5)
  let r ← emit (.un .invSqrt v)
  emit (.mul centered r)

/-- `batch_norm` (src/tensor_ops/mod.rs:2362-2369). -/
noncomputable def callBatchNorm (eps : ℝ) (x scale shift : Nat) : StateM (List Stmt) Nat := do
  let n ← callNormalize eps x (.ints [0])
  let m ← emit (.mul n scale)
  emit (.add m shift)

/-- `mean_squared_error` (src/tensor_ops/mod.rs:1845-1851). -/
noncomputable def callSquaredError (y t : Nat) : StateM (List Stmt) Nat := do
  let d ← emit (.sub y t)
  let q ← emit (.un .square d)
  callMean q (.ints [-1]) false

end Verif.Prog
