import Mathlib.Analysis.SpecialFunctions.Log.Basic
import Verif.Model.Reductions

/-!
# Model of softmax, logsumexp and log_softmax

`src/tensor_ops/activation_ops.rs`, `src/tensor_ops/math_ops.rs`, `src/tensor_ops/xent_ops.rs`, without the `mkl`/`blas` features. Floating point numbers are
real numbers; `bot` stands for `T::min_value()`.
-/

namespace Verif.Nd

/-- The axis computed at src/tensor_ops/activation_ops.rs:62-66 and src/tensor_ops/math_ops.rs:541-545; a value out of range (also a negative one, which wraps
around in the cast) panics where the shape is indexed with it (lines 69 and 549-551). -/
def axisOf (ndim : Nat) (axis : Int) : Res Nat :=
  let k : Int := if axis < 0 then ndim + axis else axis
  if 0 ≤ k ∧ k < ndim then .ok k.toNat else .error .panic

/-- `a.sum_axis(Axis(k))` (src/tensor_ops/activation_ops.rs:90, src/tensor_ops/math_ops.rs:577, src/tensor_ops/xent_ops.rs:172). ndarray chooses the memory
layout of the result; it is the parameter `st`. -/
def sumAxis {R : Type} [Zero R] [Add R] (st : List Int) (a : Arr R) (k : Nat) : Res (Arr R) := do
  let r ← foldAxis a k 0 (· + ·)
  .ok ⟨r.shape, st, r.get⟩

/-- `a op= &b`: `b` is broadcast to the shape of `a` (ndarray `zip_mut_with`, panics if impossible). -/
def assignOp {R : Type} (f : R → R → R) (a b : Arr R) : Res (Arr R) := do
  let b' ← unwrap (broadcast b a.shape)
  .ok ⟨a.shape, a.strides, fun i => f (a.get i) (b'.get i)⟩

/-- The maximum along axis `k` in the shape `reduced`, and `x` minus it (src/tensor_ops/activation_ops.rs:73-80, src/tensor_ops/math_ops.rs:558-565). -/
noncomputable def shiftByMax (bot : ℝ) (x : Arr ℝ) (k : Nat) (reduced : List Nat) : Res (Arr ℝ × Arr ℝ) := do
  let m ← foldAxis x k bot max
  let m' ← unwrap (intoShape m reduced)
  let tmp ← zipOp (· - ·) x m'
  .ok (tmp, m')

/-- Models `softmax_impl` (src/tensor_ops/activation_ops.rs:61-96). -/
noncomputable def softmaxImpl (bot : ℝ) (st : List Int) (x : Arr ℝ) (axis : Int) : Res (Arr ℝ) := do
  let k ← axisOf x.shape.length axis
  let reduced := x.shape.set k 1
  let (tmp, _) ← shiftByMax bot x k reduced
  let e := map Real.exp tmp
  let s ← sumAxis st e k
  let s' ← unwrap (intoShape s reduced)
  assignOp (· / ·) e s'

/-- Models the gradient tensor of `Softmax` (src/tensor_ops/activation_ops.rs:105-110); `y` is the output. -/
noncomputable def softmaxGrad (y gy : Arr ℝ) (axis : Int) : Res (Arr ℝ) := do
  let p ← mulOp y gy
  let s ← reduceSum p [axis] true
  let d ← subOp gy s
  mulOp d y

/-- Models `logsumexp_forward` (src/tensor_ops/math_ops.rs:540-593). -/
noncomputable def logsumexp (bot : ℝ) (st : List Int) (x : Arr ℝ) (axis : Int) (keep : Bool) : Res (Arr ℝ) := do
  let k ← axisOf x.shape.length axis
  let reduced := if keep then x.shape.set k 1 else x.shape.eraseIdx k
  let (tmp, m) ← shiftByMax bot x k reduced
  let s ← sumAxis st (map Real.exp tmp) k
  let s' ← unwrap (intoShape s reduced)
  assignOp (· + ·) (map Real.log s') m

/-- Models the gradient tensor of `LogSumExp` (src/tensor_ops/math_ops.rs:602-608). -/
noncomputable def logsumexpGrad (bot : ℝ) (st : List Int) (x gy : Arr ℝ) (axis : Int) : Res (Arr ℝ) := do
  let y ← softmaxImpl bot st x axis
  mulOp y gy

/-- Models `LogSoftmax::compute` (src/tensor_ops/xent_ops.rs:18-22). -/
noncomputable def logSoftmax (bot : ℝ) (st : List Int) (x : Arr ℝ) (axis : Int) : Res (Arr ℝ) := do
  let l ← logsumexp bot st x axis true
  zipOp (· - ·) x l

/-- Models the gradient tensor of `LogSoftmax` (src/tensor_ops/xent_ops.rs:24-30), which sums over axis 1 whatever the axis; `y` is the output. -/
noncomputable def logSoftmaxGrad (y gy : Arr ℝ) : Res (Arr ℝ) := do
  let s ← reduceSum gy [1] true
  let m ← mulOp (map Real.exp y) s
  subOp gy m

end Verif.Nd
