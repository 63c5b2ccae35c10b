import Verif.Model.Reductions

/-!
# Model of the comparison ops, and of the gradients of the product, minimum and maximum reductions

`src/tensor_ops/math_ops.rs` (macro `impl_cmp_op`) and `src/tensor_ops/reduction_ops.rs`.
-/

namespace Verif.Nd
variable {R : Type}

/-- `compute` of the macro `impl_cmp_op` (src/tensor_ops/math_ops.rs:86-184) for the elementwise function `f` (`equal_fn`, ..., lines 53-83). -/
def cmpOp (f : R → R → R) (x0 x1 : Arr R) : Res (Arr R) :=
  let s0 := isScalarShape x0.shape
  let s1 := isScalarShape x1.shape
  if s0 && s1 then do
    let e ← scalarElem x1
    .ok (map (fun a => f a e) x0)
  else if s0 && !s1 then do
    let e ← scalarElem x0
    .ok (map (fun a => f e a) x1)
  else if !s0 && s1 then do
    let e ← scalarElem x1
    .ok (map (fun a => f a e) x0)
  else if x0.shape.length ≠ x1.shape.length then .error .panic
  else if size x0.shape < size x1.shape then do
    let b ← unwrap (broadcast x0 x1.shape)
    .ok (ofFn x1.shape (fun idx => f (b.get idx) (x1.get idx)))
  else if size x0.shape > size x1.shape then .error .panic
  else if x0.shape = x1.shape then .ok (ofFn x0.shape (fun idx => f (x0.get idx) (x1.get idx)))
  else .error .panic

/-- `equal_fn` (src/tensor_ops/math_ops.rs:52-55). -/
def equalFn [DecidableEq R] [Zero R] [One R] (a b : R) : R := if a = b then 1 else 0

/-- Gradients of `Maximum`/`Minimum` (`min_max_grad`, src/tensor_ops/math_ops.rs:197-209); `y` is the output. -/
def maximumGrad [DecidableEq R] [Zero R] [One R] [Mul R] (x0 x1 y gy : Arr R) : Res (Arr R × Arr R) := do
  let a ← cmpOp equalFn x0 y
  let b ← cmpOp equalFn x1 y
  let g0 ← mulOp a gy
  let g1 ← mulOp b gy
  .ok (g0, g1)

/-- Gradient reported by `ReduceProd::grad` (src/tensor_ops/reduction_ops.rs:256-273); `y` is the output. -/
def reduceProdGrad [One R] [Mul R] [Div R] (x y gy : Arr R) (axes : List Int) (keep : Bool) : Res (Arr R) := do
  let p ← mulOp gy y
  let tmp ← reduceGradCommon p x.shape axes (!keep)
  divOp tmp x

/-- Gradient reported by `ReduceMin::grad` and `ReduceMax::grad` (`min_max_grad`, src/tensor_ops/reduction_ops.rs:332-364); `y` is the output. -/
def reduceMinMaxGrad [DecidableEq R] [Zero R] [One R] [Mul R] (x y gy : Arr R) (axes : List Int) (keep : Bool) : Res (Arr R) := do
  let y' ← reduceGradCommon y x.shape axes (!keep)
  let gy' ← reduceGradCommon gy x.shape axes (!keep)
  let eq ← cmpOp equalFn x y'
  mulOp eq gy'

end Verif.Nd
