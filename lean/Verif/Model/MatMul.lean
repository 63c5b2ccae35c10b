import Verif.Model.NdArray

/-!
# Model of the matrix products

`src/tensor_ops/dot_ops.rs` without the `blas` feature. These ops hand pointers and strides to the `matrixmultiply` crate, so arrays are modelled here
with their memory. The element types `f32` and `f64` (the only ones for which the kernels are called, lines 420-421 and 518-519) are replaced by an abstract
type; overflow of `m * n` (line 582) is not modelled.
-/

namespace Verif.Nd
variable {R : Type}

/-- An array in memory: `mem k` is the element stored `k` elements after `as_ptr()`. -/
structure View (R : Type) where
  shape : List Nat
  strides : List Int
  mem : Int → R

/-- Offset of an index with the given strides (ndarray). -/
def viewOffset : List Nat → List Int → Int
  | i :: is, s :: ss => i * s + viewOffset is ss
  | _, _ => 0

/-- The array a view shows. -/
def View.arr (v : View R) : Arr R := ⟨v.shape, v.strides, fun i => v.mem (viewOffset i v.strides)⟩

/-- Exchanges the last two entries of a list. -/
def swapLast {α : Type} (l : List α) : List α := l.take (l.length - 2) ++ (l.drop (l.length - 2)).reverse

/-- `swap_axes` of the last two axes (src/tensor_ops/dot_ops.rs:575, 578, 652, 656). -/
def View.swapLast (v : View R) : View R := ⟨Nd.swapLast v.shape, Nd.swapLast v.strides, v.mem⟩

/-- Element `(i, j)` of the product that `matrixmultiply::sgemm`/`dgemm` (not part of /repo) writes for `alpha = 1`, `beta = 0` when called with the
pointers `a`, `b` and their row and column strides (src/tensor_ops/dot_ops.rs:396-419, 497-515). -/
def gemm [Zero R] [Add R] [Mul R] (k : Nat) (a : Int → R) (rsa csa : Int) (b : Int → R) (rsb csb : Int) (i j : Nat) : R :=
  (List.range k).foldl (fun acc (p : Nat) => acc + a (i * rsa + p * csa) * b (p * rsb + j * csb)) 0

/-- Models `MatMul::compute` (src/tensor_ops/dot_ops.rs:565-606) with `mat_mul_impl_slow` (lines 383-422). -/
def matMul [Zero R] [Add R] [Mul R] (ta tb : Bool) (a b : View R) : Res (Arr R) :=
  let a := if ta then a.swapLast else a
  let b := if tb then b.swapLast else b
  match a.shape, a.strides, b.shape, b.strides with
  | [m, k], [rsa, csa], [k2, n], [rsb, csb] =>
    if k ≠ k2 then .error .opError
    else
      let columnMajor := rsa == 1 && rsb == 1
      .ok ⟨[m, n], if columnMajor then fStrides [m, n] else cStrides [m, n],
        fun i => gemm k a.mem rsa csa b.mem rsb csb (i.getD 0 0) (i.getD 1 0)⟩
  | _, _, _, _ => .error .panic

/-- The tensors given to `append_input_grad` by `MatMul::grad` (src/tensor_ops/dot_ops.rs:608-628), whatever the flags of the op: first input. -/
def matMulGradA [Zero R] [Add R] [Mul R] (gy b : View R) : Res (Arr R) := matMul false true gy b
/-- Second input (src/tensor_ops/dot_ops.rs:618-624). -/
def matMulGradB [Zero R] [Add R] [Mul R] (a gy : View R) : Res (Arr R) := matMul true false a gy

/-- Models `batch_mat_mul_requires_copy` (src/tensor_ops/dot_ops.rs:524-531); `min().unwrap()` panics for rank 2. -/
def requiresCopy (st : List Int) : Res Bool := do
  let minStr ← unwrap (st.take (st.length - 2)).min?
  let rowStr := st.getD (st.length - 2) 0
  let colStr := st.getD (st.length - 1) 0
  .ok (decide (minStr < rowStr) || decide (minStr < colStr))

/-- Models `batch_mat_mul_impl_slow` (src/tensor_ops/dot_ops.rs:427-521) writing into a row-major array of shape `ret`. If a copy is made, the strides are those
of the copy (`deep_copy` is row-major, src/ndarray_ext.rs:107-111) but the pointers are those of the original arrays (lines 475-476 use `lhs`/`rhs`, not
`lhs_`/`rhs_`). Every batch starts one batch size after the previous one (lines 490-492). The batches are independent (`par_iter`). Empty matrices are not
modelled (the code calls `step_by(0)`): the model panics. -/
def bmmSlow [Zero R] [Add R] [Mul R] (lhs rhs : View R) (ret : List Nat) : Res (Arr R) := do
  let rank := lhs.strides.length
  let c0 ← requiresCopy lhs.strides
  let st0 := if c0 then cStrides lhs.shape else lhs.strides
  let c1 ← requiresCopy rhs.strides
  let st1 := if c1 then cStrides rhs.shape else rhs.strides
  let k := lhs.shape.getD (rank - 1) 0
  let batch := lhs.shape.take (rank - 2)
  let num := size batch
  if num = 0 then .error .panic
  else
    let bs0 := size lhs.shape / num
    let bs1 := size rhs.shape / num
    let bsc := size ret / num
    if bs0 = 0 ∨ bs1 = 0 ∨ bsc = 0 then .error .panic
    else .ok (ofFn ret (fun idx =>
      let t := flat batch (idx.take (rank - 2))
      gemm k (fun o => lhs.mem ((t * bs0 : Nat) + o)) (st0.getD (rank - 2) 0) (st0.getD (rank - 1) 0)
        (fun o => rhs.mem ((t * bs1 : Nat) + o)) (st1.getD (rank - 2) 0) (st1.getD (rank - 1) 0)
        (idx.getD (rank - 2) 0) (idx.getD (rank - 1) 0)))

/-- Models `BatchMatMul::compute` (src/tensor_ops/dot_ops.rs:632-696). -/
def batchMatMul [Zero R] [Add R] [Mul R] (ta tb : Bool) (x0 x1 : View R) : Res (Arr R) :=
  if x0.shape.length < 2 then .error .opError
  else if x1.shape.length < 2 then .error .opError
  else
    let x0 := if ta then x0.swapLast else x0
    let x1 := if tb then x1.swapLast else x1
    let rank := x0.shape.length
    if rank ≠ x1.shape.length ∨ x0.shape.take (rank - 2) ≠ x1.shape.take (rank - 2) then .error .opError
    else bmmSlow x0 x1 (x0.shape.take (rank - 2) ++ [x0.shape.getD (rank - 2) 0, x1.shape.getD (rank - 1) 0])

/-- The tensors given to `append_input_grad` by `BatchMatMul::grad` (src/tensor_ops/dot_ops.rs:697-717), whatever the flags of the op: first input. -/
def batchMatMulGradA [Zero R] [Add R] [Mul R] (gy b : View R) : Res (Arr R) := batchMatMul false true gy b
/-- Second input (src/tensor_ops/dot_ops.rs:708-714). -/
def batchMatMulGradB [Zero R] [Add R] [Mul R] (a gy : View R) : Res (Arr R) := batchMatMul true false a gy

end Verif.Nd
