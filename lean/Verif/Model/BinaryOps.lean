import Verif.Model.NdArray

/-!
# Model of the broadcasting arithmetic ops

`src/tensor_ops/binary_ops.rs` without the `mkl` feature, and `InferBinOpShape` of `src/tensor_ops/array_ops.rs`.
Element types are abstract. The gradient functions take the *evaluated* inputs; the ops of a gradient
(`gy * x1`, `maybe_reduce`, ...) are composed as functions, and `shape(x)` is taken to be the shape of `x` (see C43).
-/

namespace Verif.Nd
variable {R : Type}

/-- Models `add_forward`/`mul_forward` (macro `impl_bin_op_forward`, src/tensor_ops/binary_ops.rs:304-347) for operator `f`. The two branches of
the tensor-tensor case (lines 327-340) are the same expression without `mkl`. -/
def binForward (f : R → R → R) (x0 x1 : Arr R) : Res (Arr R) :=
  let s0 := isScalarShape x0.shape
  let s1 := isScalarShape x1.shape
  if s0 && !s1 then do
    let e ← scalarElem x0
    .ok (map (fun a => f a e) x1)
  else if s1 && !s0 then do
    let e ← scalarElem x1
    .ok (map (fun a => f a e) x0)
  else zipOp f x0 x1

/-- Models `AddOp::compute` (src/tensor_ops/binary_ops.rs:147-152). -/
def addOp [Add R] (x0 x1 : Arr R) : Res (Arr R) := binForward (· + ·) x0 x1

/-- Models `MulOp::compute` (src/tensor_ops/binary_ops.rs:209-216). -/
def mulOp [Mul R] (x0 x1 : Arr R) : Res (Arr R) := binForward (· * ·) x0 x1

/-- Models `SubOp::compute` (src/tensor_ops/binary_ops.rs:168-193). -/
def subOp [Sub R] (x0 x1 : Arr R) : Res (Arr R) :=
  if x0.shape.length = 0 then do
    let e ← scalarElem x0
    .ok (map (fun a => e - a) x1)
  else zipOp (· - ·) x0 x1

/-- Models `DivOp::compute` (src/tensor_ops/binary_ops.rs:239-271). -/
def divOp [Div R] [Mul R] [One R] (x0 x1 : Arr R) : Res (Arr R) :=
  if x0.shape.length = 0 || x0.shape == [0] then do
    let e ← scalarElem x0
    .ok (map (fun a => e / a) x1)
  else if x1.shape.length = 0 || x1.shape == [1] then do
    let e ← scalarElem x1
    let rhs := 1 / e
    .ok (map (fun a => a * rhs) x0)
  else zipOp (· / ·) x0 x1

/-- The loop of `MaybeReduceSum::compute` (src/tensor_ops/binary_ops.rs:69-86) over the zipped target and actual dimensions. -/
def reduceLoop [Zero R] [Add R] (gy : Arr R) : Nat → List (Nat × Nat) → Option (Arr R) → Res (Option (Arr R))
  | _, [], folded => .ok folded
  | i, (o, g) :: rest, folded =>
    if o = 1 ∧ 1 < g then do
      let r ← foldAxis (folded.getD gy) i 0 (· + ·)
      let r' ← expandDims r i
      reduceLoop gy (i + 1) rest (some r')
    else if o ≠ g then .error .panic
    else reduceLoop gy (i + 1) rest folded

/-- Models `MaybeReduceSum::compute` (src/tensor_ops/binary_ops.rs:39-94); `target` is the evaluated second input. -/
def maybeReduce [Zero R] [Add R] (gy : Arr R) (target : List Nat) : Res (Arr R) :=
  if target = gy.shape then .ok gy
  else
    let orig := if isScalarShape target then List.replicate gy.shape.length 1 else target
    if orig = gy.shape then unwrap (intoShape gy target)
    else do
      let folded ← reduceLoop gy 0 (orig.zip gy.shape) none
      let ret ← unwrap folded
      unwrap (intoShape ret target)

/-- Models `MaybeBroadcast::compute` (src/tensor_ops/binary_ops.rs:108-138). -/
def maybeBroadcast (x : Arr R) (target : List Nat) : Res (Arr R) :=
  if x.shape = target then .ok x
  else do
    let input ← if isScalarShape x.shape then unwrap (intoShape x (List.replicate target.length 1)) else .ok x
    match broadcast input target with
    | some r => .ok (toOwned r)
    | none => .error .opError

/-- Models the elementwise op `neg` (`NegOp`, src/tensor_ops/math_ops.rs:296-306). -/
def negOp [Neg R] (x : Arr R) : Arr R := map (fun a => -a) x

/-- Gradients reported by `AddOp::grad` (src/tensor_ops/binary_ops.rs:154-165). -/
def addGrad [Zero R] [Add R] (x0 x1 gy : Arr R) : Res (Arr R × Arr R) := do
  let g0 ← maybeReduce gy x0.shape
  let g1 ← maybeReduce gy x1.shape
  .ok (g0, g1)

/-- Gradients reported by `SubOp::grad` (src/tensor_ops/binary_ops.rs:195-206). -/
def subGrad [Zero R] [Add R] [Neg R] (x0 x1 gy : Arr R) : Res (Arr R × Arr R) := do
  let g0 ← maybeReduce gy x0.shape
  let g1 ← maybeReduce gy x1.shape
  .ok (g0, negOp g1)

/-- Gradients reported by `MulOp::grad` (src/tensor_ops/binary_ops.rs:218-236). -/
def mulGrad [Zero R] [Add R] [Mul R] (x0 x1 gy : Arr R) : Res (Arr R × Arr R) := do
  let g0 ← mulOp gy x1
  let g1 ← mulOp gy x0
  let r0 ← maybeReduce g0 x0.shape
  let r1 ← maybeReduce g1 x1.shape
  .ok (r0, r1)

/-- Gradients reported by `DivOp::grad` (src/tensor_ops/binary_ops.rs:273-289). `powf(-2)` is `1 / (a * a)` (exact arithmetic). -/
def divGrad [Zero R] [Add R] [Mul R] [Div R] [One R] [Neg R] (x0 x1 gy : Arr R) : Res (Arr R × Arr R) := do
  let g0 ← divOp gy x1
  let t ← mulOp (negOp x0) (map (fun a => 1 / (a * a)) x1)
  let g1 ← mulOp t gy
  let r0 ← maybeReduce g0 x0.shape
  let r1 ← maybeReduce g1 x1.shape
  .ok (r0, r1)

/-- Models `InferBinOpShape::compute` (src/tensor_ops/array_ops.rs:107-136): the shape tensor given to the result of a binary op. -/
def inferBinOpShape (a b : List Nat) : Res (List Nat) :=
  if !isScalarShape a && !isScalarShape b then
    if a.length ≠ b.length then .error .opError
    else .ok (List.zipWith max a b)
  else if !isScalarShape a then .ok a
  else .ok b

end Verif.Nd
