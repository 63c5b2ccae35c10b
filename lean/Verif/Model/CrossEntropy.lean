import Verif.Model.Elementwise
import Verif.Model.Softmax

/-!
# Model of the cross-entropy losses

`src/tensor_ops/xent_ops.rs`. Floating point numbers are real numbers. The gradient functions take the *evaluated* inputs; the ops of a gradient are
composed as functions.
-/

namespace Verif.Nd

/-- Models `SigmoidCrossEntropy::compute` (src/tensor_ops/xent_ops.rs:34-46). -/
noncomputable def sigmoidCE (x t : Arr ℝ) : Res (Arr ℝ) :=
  if x.shape = t.shape then do
    let tmp := map (fun a => Real.log (Real.exp (-|a|) + 1) + max 0 a) x
    let p ← zipOp (· * ·) t x
    assignOp (· - ·) tmp p
  else .error .panic

/-- The first tensor given to `append_input_grad` by `SigmoidCrossEntropy::grad` (src/tensor_ops/xent_ops.rs:53-56). -/
noncomputable def sigmoidCEGradX (x t gy : Arr ℝ) : Res (Arr ℝ) := do
  let e := map Real.exp x
  let s ← addOp (ofFn [] (fun _ => 1)) e
  let q ← divOp e s
  let d ← subOp q t
  mulOp d gy

/-- The second tensor given to `append_input_grad` by `SigmoidCrossEntropy::grad` (src/tensor_ops/xent_ops.rs:57). -/
noncomputable def sigmoidCEGradT (t gy : Arr ℝ) : Res (Arr ℝ) := do
  let p ← mulOp gy t
  .ok (negOp p)

/-- `to_usize` of a float (`num_traits::ToPrimitive`, used at src/tensor_ops/xent_ops.rs:102, 145): truncation towards zero, `None` from -1 downwards.
Values above `usize::MAX` (`None` in the code) and NaN are not modelled. -/
noncomputable def toUsize (r : ℝ) : Option Nat := if -1 < r then some ⌊r⌋₊ else none

/-- The labels of the first `n` rows (src/tensor_ops/xent_ops.rs:99-103, 144-145): panics if there are fewer than `n` values, if one is negative, or if one
is not below the number of classes `c` (lines 98, 105, 145). -/
noncomputable def labels (ts : List ℝ) (c : Nat) : Nat → Res (List Nat)
  | 0 => .ok []
  | n + 1 => do
    let ls ← labels ts c n
    let r ← unwrap ts[n]?
    let l ← unwrap (toUsize r)
    if l < c then .ok (ls ++ [l]) else .error .panic

/-- Models `SparseSoftmaxCrossEntropy::compute` (src/tensor_ops/xent_ops.rs:64-113): the two outputs. `map_axis` visits the rows in order. -/
noncomputable def sparseCE (bot : ℝ) (st : List Int) (x t : Arr ℝ) : Res (Arr ℝ × Arr ℝ) := do
  let logx ← logSoftmax bot st x 1
  match logx.shape, t.shape with
  | [b, c], [_] | [b, c], [_, 1] => do
    let ls ← labels (toList t) c b
    let r := ofFn [b] (fun i => -logx.get [i.getD 0 0, ls.getD (i.getD 0 0) 0])
    let r' ← unwrap (intoShape r [b, 1])
    .ok (r', logx)
  | _, _ => .error .opError

/-- Models `SparseSoftmaxCrossEntropyGrad::compute` (src/tensor_ops/xent_ops.rs:140-152) for a first input of rank 2; other ranks (which the
forward op rejects) panic. -/
noncomputable def sparseCEGradX (logx t gy : Arr ℝ) : Res (Arr ℝ) :=
  match logx.shape with
  | [b, c] => do
    let ls ← labels (toList t) c (min b (toList t).length)
    let e := map Real.exp logx
    let x := ⟨[b, c], e.strides, fun i => e.get i - if ls[i.getD 0 0]? = some (i.getD 1 0) then 1 else 0⟩
    assignOp (· * ·) x gy
  | _ => .error .panic

/-- The tensor for the labels given to `append_input_grad` by `SparseSoftmaxCrossEntropy::grad` (src/tensor_ops/xent_ops.rs:128-132). -/
noncomputable def sparseCEGradT (logx gy : Arr ℝ) : Res (Arr ℝ) := do
  let x := map Real.exp logx
  let p ← mulOp x logx
  let sum ← reduceSum p [1] true
  let xg ← mulOp x gy
  let d ← subOp sum logx
  mulOp xg d

/-- Models `SoftmaxCrossEntropy::compute` (src/tensor_ops/xent_ops.rs:161-177): the two outputs. -/
noncomputable def softmaxCE (bot : ℝ) (st : List Int) (x t : Arr ℝ) : Res (Arr ℝ × Arr ℝ) := do
  let logx ← logSoftmax bot st x 1
  if logx.shape.length ≠ 2 then .error .panic
  else if t.shape.length ≠ 2 then .error .panic
  else do
    let p ← zipOp (· * ·) t logx
    let s ← sumAxis st p 1
    .ok (map (fun e => e * -1) s, logx)

/-- The first tensor given to `append_input_grad` by `SoftmaxCrossEntropy::grad` (src/tensor_ops/xent_ops.rs:181-191). -/
noncomputable def softmaxCEGradX (logx t gy : Arr ℝ) : Res (Arr ℝ) := do
  let d ← subOp (map Real.exp logx) t
  mulOp d gy

/-- The second tensor given to `append_input_grad` by `SoftmaxCrossEntropy::grad` (src/tensor_ops/xent_ops.rs:194-197); `y` is the first output. -/
noncomputable def softmaxCEGradT (y logx gy : Arr ℝ) : Res (Arr ℝ) := do
  let p ← mulOp (map Real.exp logx) logx
  let sum ← reduceSum p [-1] true
  let d ← subOp sum logx
  let m ← mulOp gy d
  mulOp m y

end Verif.Nd
