import Verif.Model.ArrayOps
import Verif.Model.MatMul
import Verif.Model.Reductions

/-!
# Model of tensordot
-/

namespace Verif.Nd
variable {R : Type}

/-- An array as row-major memory. The result of `matMul` depends on the elements only, not on the memory layout (`C39_matmul`). -/
def toView (a : Arr R) : View R := ⟨a.shape, cStrides a.shape, fun o => a.get (unflat a.shape o.toNat)⟩

/-- `matmul` of two arrays whose layout does not matter (src/tensor_ops/mod.rs:1872-1885). -/
def matMulArr [Zero R] [Add R] [Mul R] (a b : Arr R) : Res (Arr R) := matMul false false (toView a) (toView b)

/-- The axes that are not contracted, in order (src/tensor_ops/dot_ops.rs:728-730). -/
def freeAxes (ndim : Nat) (axes : List Nat) : List Nat := (List.range ndim).filter (fun i => !axes.contains i)

/-- Models `tensordot_preprocess` (src/tensor_ops/dot_ops.rs:723-766): the permutation, the new shape and the free dimensions. `shape[i]` panics for
an axis out of range. The float representation of the numbers is not modelled. -/
def tensordotPre (shape axes : List Nat) (flip : Bool) : Res (List Nat × List Nat × List Nat) :=
  if axes.all (fun k => decide (k < shape.length)) then
    let free := freeAxes shape.length axes
    let freeDims := free.map (fun k => shape.getD k 0)
    let prodFree := size freeDims
    let prodAxes := size (axes.map (fun k => shape.getD k 0))
    .ok (if flip then (axes ++ free, [prodAxes, prodFree], freeDims) else (free ++ axes, [prodFree, prodAxes], freeDims))
  else .error .panic

/-- A shape as the values of a tensor. -/
def shapeInts (s : List Nat) : List Int := s.map (fun (n : Nat) => (n : Int))

/-- What `tensordot` (src/tensor_ops/mod.rs:1914-1956) and `TensordotPreprocess::compute` (src/tensor_ops/dot_ops.rs:769-792) evaluate: the permuted and
reshaped operands, the permutations and the final shape. -/
def tensordotParts (a b : Arr R) (aAxes bAxes : List Int) : Res ((List Nat × Arr R × Arr R) × (List Nat × Arr R × Arr R) × List Nat) := do
  let axes0 ← normAxes a.shape.length aAxes
  let axes1 ← normAxes b.shape.length bAxes
  let p0 ← tensordotPre a.shape axes0 false
  let p1 ← tensordotPre b.shape axes1 true
  let ta ← transpose a p0.1 false
  let ra ← reshape ta (shapeInts p0.2.1)
  let tb ← transpose b p1.1 false
  let rb ← reshape tb (shapeInts p1.2.1)
  .ok ((p0.1, ta, ra), (p1.1, tb, rb), p0.2.2 ++ p1.2.2)

/-- Models `tensordot` (src/tensor_ops/mod.rs:1914-1956). -/
def tensordot [Zero R] [Add R] [Mul R] (a b : Arr R) (aAxes bAxes : List Int) : Res (Arr R) := do
  let p ← tensordotParts a b aAxes bAxes
  let mm ← matMulArr p.1.2.2 p.2.1.2.2
  reshape mm (shapeInts p.2.2)

/-- The gradients of `tensordot`: the gradients of the ops it is made of, one after the other (`Reshape::grad`, `MatMul::grad`, `Reshape::grad`,
`Transpose::grad`); `TensordotPreprocess::grad` reports none (src/tensor_ops/dot_ops.rs:794-799). -/
def tensordotGrad [Zero R] [Add R] [Mul R] (a b : Arr R) (aAxes bAxes : List Int) (gy : Arr R) : Res (Arr R × Arr R) := do
  let p ← tensordotParts a b aAxes bAxes
  let mm ← matMulArr p.1.2.2 p.2.1.2.2
  let gm ← reshapeGrad mm gy
  let gra ← matMulGradA (toView gm) (toView p.2.1.2.2)
  let grb ← matMulGradB (toView p.1.2.2) (toView gm)
  let gta ← reshapeGrad p.1.2.1 gra
  let gtb ← reshapeGrad p.2.1.2.1 grb
  let ga ← transposeGrad gta p.1.1 false
  let gb ← transposeGrad gtb p.2.1.1 false
  .ok (ga, gb)

end Verif.Nd
