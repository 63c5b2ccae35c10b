import Verif.Model.BinaryOps

/-!
# Model of the reduction ops

`src/tensor_ops/reduction_ops.rs`. Axes are integers (the code stores them as floats); the `sparse_axes` flag is never set to true by
the constructors of `src/tensor_ops/mod.rs` and is not modelled. The summation order of `ArrayBase::sum` is irrelevant in exact arithmetic.
-/

namespace Verif.Nd
variable {R : Type}

/-- Models `normalize_negative_axes` (src/ndarray_ext.rs:64-78): `to_usize` of a negative value is `None`, hence a panic. -/
def normAxes (ndim : Nat) : List Int → Res (List Nat)
  | [] => .ok []
  | a :: as => do
    let k ← if a < 0 then (if (ndim : Int) + a < 0 then .error .panic else .ok ((ndim : Int) + a).toNat) else .ok a.toNat
    let ks ← normAxes ndim as
    .ok (k :: ks)

/-- `Vec::sort` of axes (src/tensor_ops/reduction_ops.rs:74, 484). -/
def sortAxes (ks : List Nat) : List Nat := ks.mergeSort (fun a b => decide (a ≤ b))

/-- The loop of `impl_reduce_forward` (src/tensor_ops/reduction_ops.rs:76-97) over the axes in descending order. -/
def reduceAxes (f : R → R → R) (init : R) (keep : Bool) (x : Arr R) : List Nat → Option (Arr R) → Res (Option (Arr R))
  | [], folded => .ok folded
  | k :: ks, folded => do
    let ret ← foldAxis (folded.getD x) k init f
    if keep then do
      let e ← expandDims ret k
      reduceAxes f init keep x ks (some e)
    else reduceAxes f init keep x ks (some ret)

/-- Models `compute_reduce_*` (macro `impl_reduce_forward`, src/tensor_ops/reduction_ops.rs:54-103). -/
def reduceForward (f : R → R → R) (init : R) (x : Arr R) (axes : List Nat) (keep : Bool) : Res (Arr R) :=
  if isScalarShape x.shape then .ok x
  else if axes.isEmpty then .ok x
  else do
    let folded ← reduceAxes f init keep x (sortAxes axes).reverse none
    .ok (folded.getD x)

/-- Models `ReduceSum::compute` (src/tensor_ops/reduction_ops.rs:161-170). -/
def reduceSum [Zero R] [Add R] (x : Arr R) (axes : List Int) (keep : Bool) : Res (Arr R) := do
  let ks ← normAxes x.shape.length axes
  reduceForward (· + ·) 0 x ks keep

/-- Models `ReduceProd::compute` (src/tensor_ops/reduction_ops.rs:241-254). -/
def reduceProd [One R] [Mul R] (x : Arr R) (axes : List Int) (keep : Bool) : Res (Arr R) := do
  let ks ← normAxes x.shape.length axes
  reduceForward (· * ·) 1 x ks keep

/-- Models `ReduceMin::compute` (src/tensor_ops/reduction_ops.rs:276-289); `top` is `T::max_value()`. -/
def reduceMin [Min R] (top : R) (x : Arr R) (axes : List Int) (keep : Bool) : Res (Arr R) := do
  let ks ← normAxes x.shape.length axes
  reduceForward min top x ks keep

/-- Models `ReduceMax::compute` (src/tensor_ops/reduction_ops.rs:304-317); `bot` is `T::min_value()`. -/
def reduceMax [Max R] (bot : R) (x : Arr R) (axes : List Int) (keep : Bool) : Res (Arr R) := do
  let ks ← normAxes x.shape.length axes
  reduceForward max bot x ks keep

/-- The product of the reduced sizes (src/tensor_ops/reduction_ops.rs:197-200); an axis out of range panics. The product is exact here
(the code computes it in `f32`). -/
def reductionLen (shape : List Nat) : List Nat → Res Nat
  | [] => .ok 1
  | k :: ks => do
    let n ← unwrap shape[k]?
    let m ← reductionLen shape ks
    .ok (n * m)

/-- Models `ReduceMean::compute` (src/tensor_ops/reduction_ops.rs:187-215). -/
def reduceMean [Zero R] [Add R] [Mul R] [Div R] [One R] [NatCast R] (x : Arr R) (axes : List Int) (keep : Bool) : Res (Arr R) := do
  let ks ← normAxes x.shape.length axes
  if ks.isEmpty then .ok x
  else do
    let len ← reductionLen x.shape ks
    let sum ← reduceForward (· + ·) 0 x ks keep
    if isScalarShape x.shape then .ok sum
    else .ok (map (fun e => e * (1 / (len : R))) sum)

/-- The insertions of `ReduceGradCommon::compute` (src/tensor_ops/reduction_ops.rs:485-487); `Vec::insert` panics past the end. -/
def insertOnes : List Nat → List Nat → Res (List Nat)
  | s, [] => .ok s
  | s, k :: ks => if k ≤ s.length then insertOnes (s.insertIdx k 1) ks else .error .panic

/-- Models `ReduceGradCommon::compute` (src/tensor_ops/reduction_ops.rs:459-496); `target` is the evaluated shape of the reduced tensor,
`makeDims` is `should_make_broadcast_dims`. -/
def reduceGradCommon (gy : Arr R) (target : List Nat) (axes : List Int) (makeDims : Bool) : Res (Arr R) :=
  if gy.shape = target then .ok gy
  else if makeDims || isScalarShape gy.shape then do
    let ks ← normAxes target.length axes
    let s ← insertOnes gy.shape (sortAxes ks)
    let a ← unwrap (intoShape gy s)
    let b ← unwrap (broadcast a target)
    .ok (toOwned b)
  else do
    let b ← unwrap (broadcast gy target)
    .ok (toOwned b)

/-- Gradient reported by `ReduceSum::grad` (src/tensor_ops/reduction_ops.rs:172-184). -/
def reduceSumGrad (x gy : Arr R) (axes : List Int) (keep : Bool) : Res (Arr R) := reduceGradCommon gy x.shape axes (!keep)

/-- The sizes of the reduced axes, `gather_common(shape(x), axes, 0)` (src/tensor_ops/reduction_ops.rs:232), as an array of shape `[axes.len()]`.
`Gather` with negative indices counted from the back; an index out of range panics (src/tensor_ops/array_ops.rs:353-384), and so do no indices
(`select`, src/ndarray_ext.rs:164). -/
def reductionSizes [NatCast R] [Zero R] (shape : List Nat) (axes : List Int) : Res (Arr R) := do
  let ks ← normAxes shape.length axes
  if !ks.isEmpty && ks.all (fun k => decide (k < shape.length)) then
    .ok (ofFn [ks.length] (fun idx => ((shape.getD (ks.getD (idx.getD 0 0) 0) 0 : Nat) : R)))
  else .error .panic

/-- Gradient reported by `ReduceMean::grad` (src/tensor_ops/reduction_ops.rs:217-238). -/
def reduceMeanGrad [Zero R] [Mul R] [Div R] [One R] [NatCast R] (x gy : Arr R) (axes : List Int) (keep : Bool) : Res (Arr R) := do
  let b ← reduceGradCommon gy x.shape axes (!keep)
  let sizes ← reductionSizes x.shape axes
  let len ← reduceProd sizes [0] false
  divOp b len

/-- Models `ReduceSumToScalar::compute` (src/tensor_ops/reduction_ops.rs:123-128). -/
def sumAll [Zero R] [Add R] (x : Arr R) : Arr R := ofFn [] (fun _ => (toList x).foldl (· + ·) 0)

/-- Models `ReduceSumToScalarGrad::compute` (src/tensor_ops/reduction_ops.rs:141-150): the first element of `gy` (a scalar) everywhere. -/
def sumAllGrad (shape : List Nat) (gy : Arr R) : Arr R := ofFn shape (fun _ => gy.get [])

/-- The gradient that `ReduceGradCommon::grad` reports for its first input (src/tensor_ops/reduction_ops.rs:498-511): `ReduceSum` with
`keep_dims` set to `should_make_broadcast_dims`. -/
def reduceGradCommonGrad [Zero R] [Add R] (ggx : Arr R) (axes : List Int) (makeDims : Bool) : Res (Arr R) :=
  reduceSum ggx axes makeDims

end Verif.Nd
