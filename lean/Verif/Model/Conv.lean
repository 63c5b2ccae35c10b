import Verif.Model.MatMul
import Verif.Model.MaxPool

/-!
# Model of the convolutions

`src/tensor_ops/conv_ops/mod.rs`, `conv2d.rs` and `conv2d_transpose.rs` without the `blas` feature, for `f32`/`f64` (an abstract type here). The kernels work on
memory: an array that is row-major in memory (or copied so, `as_slice`/`deep_copy`) is read here as the function from positions to elements. The ops pass the same
padding, stride and dilation for both axes, so there is one of each here (`im2col` uses `ph` also for the columns, line 98, which therefore does not matter).
Overflow of `i32` (sizes from 2^31 on) is not modelled except for the comparisons as `u32`. Batches are independent (`par_iter`). `step_by(0)`, which
occurs with empty images or filters, is taken as a panic (rayon is not part of /repo).
-/

namespace Verif.Nd
variable {R : Type}

/-- `(off as u32) < (n as u32)` for two `i32` (src/tensor_ops/conv_ops/mod.rs:101, 105, 205, 209). -/
def u32Lt (off n : Int) : Bool := decide (off % 2 ^ 32 < n % 2 ^ 32)

/-- Output size along an axis (src/tensor_ops/conv_ops/conv2d.rs:391-392 in `usize`, 132-133 in `i32`). A filter that is larger than the padded
image underflows: a panic in debug builds; not modelled in release builds (panics here). -/
def convOut (n k pad stride dil : Nat) : Res Nat :=
  if k = 0 ∨ stride = 0 ∨ n + 2 * pad < dil * (k - 1) + 1 then .error .panic else .ok ((n + 2 * pad - (dil * (k - 1) + 1)) / stride + 1)

/-- Models `im2col` (src/tensor_ops/conv_ops/mod.rs:73-124): the values in the order in which they are written (`ret_ptr` is advanced after each row,
line 116). `x k` is the element `k` places after `x_ptr`. -/
def im2col [Zero R] (x : Nat → R) (xch xh xw kh kw pad stride dil yh yw : Nat) : List R :=
  (List.range xch).flatMap fun (c : Nat) => (List.range kh).flatMap fun (a : Nat) => (List.range kw).flatMap fun (e : Nat) =>
    (List.range yh).flatMap fun (i : Nat) =>
      let yo : Int := (a * dil : Int) - pad + i * stride
      if u32Lt yo xh then
        (List.range yw).map fun (j : Nat) =>
          let xo : Int := (e * dil : Int) - pad + j * stride
          if u32Lt xo xw then x ((c * (xh * xw) : Int) + (yo * xw + xo)).toNat else 0
      else List.replicate yw 0

/-- Models `Conv2D::compute` (src/tensor_ops/conv_ops/conv2d.rs:532-554) with `conv2d_extract_params` (lines 349-404), `conv2d_impl` (407-487)
and `slow_im2col_gemm_fused_kernel` (115-211): the result and the columns (whose declared shape has `kw` before `kh`, line 484, although `im2col` writes them
the other way round). -/
def conv2d [Zero R] [Add R] [Mul R] (x w : Arr R) (pad stride dil : Nat) : Res (Arr R × Arr R) :=
  match x.shape, w.shape with
  | [batch, xch, xh, xw], [ych, xch', kh, kw] =>
    if xch ≠ xch' then .error .opError
    else do
      let yh ← convOut xh kh pad stride dil
      let yw ← convOut xw kw pad stride dil
      if ych * yh * yw = 0 ∨ xch * kw * kh * yh * yw = 0 ∨ xch * (xh * xw) = 0 then .error .panic
      else
        let cols := fun (b : Nat) => im2col (fun k => x.get (unflat x.shape (b * (xch * (xh * xw)) + k))) xch xh xw kh kw pad stride dil yh yw
        .ok (ofFn [batch, ych, yh, yw] (fun idx =>
            gemm (xch * kh * kw) (fun o => w.get (unflat w.shape o.toNat)) ((xch * kh * kw : Nat) : Int) 1
              (fun o => (cols (idx.getD 0 0)).getD o.toNat 0) ((yh * yw : Nat) : Int) 1 (idx.getD 1 0) (idx.getD 2 0 * yw + idx.getD 3 0)),
          ofFn [batch, xch, kw, kh, yh, yw] (fun idx =>
            (cols (idx.getD 0 0)).getD (flat [xch, kw, kh, yh, yw] (idx.drop 1)) 0))
  | _, _ => .error .opError

/-- Models `Conv2DWithCols::compute` (src/tensor_ops/conv_ops/conv2d.rs:590-597) with `conv2d_with_cols_impl` (489-529) and `slow_col_x_filter_kernel`
(277-334). Reads outside of the columns (shapes that do not fit) are not modelled (panic here). -/
def conv2dWithCols [Zero R] [Add R] [Mul R] (cols w : Arr R) : Res (Arr R) :=
  match cols.shape, w.shape with
  | [batch, c1, c2, c3, yh, yw], [ych, xch, kh, kw] =>
    if !isStandard cols.shape cols.strides then .error .panic
    else if ych * yh * yw = 0 ∨ xch * kw * kh * yh * yw = 0 ∨ c1 * c2 * c3 ≠ xch * kw * kh then .error .panic
    else .ok (ofFn [batch, ych, yh, yw] (fun idx =>
      gemm (xch * kh * kw) (fun o => w.get (unflat w.shape o.toNat)) ((xch * kh * kw : Nat) : Int) 1
        (fun o => cols.get (unflat cols.shape (idx.getD 0 0 * (xch * kw * kh * yh * yw) + o.toNat))) ((yh * yw : Nat) : Int) 1 (idx.getD 1 0) (idx.getD 2 0 * yw + idx.getD 3 0)))
  | _, _ => .error .panic

/-- Models `Conv2DFilterGrad::compute` (src/tensor_ops/conv_ops/conv2d.rs:737-744) with `conv2d_filter_grad_impl` (631-734). `.ok none` stands for
the use of memory that was never written (no batches: lines 657, 730-733) or does not belong to the array (shapes that do not fit). The columns,
whose layout the code does not check (line 646), are taken as row-major. -/
def convFilterGrad [Zero R] [Add R] [Mul R] (cols gy w : Arr R) : Res (Option (Arr R)) :=
  match cols.shape, gy.shape, w.shape with
  | [_, c1, c2, c3, c4, c5], [batch, ych, yh, yw], [ych', xch, kh, kw] =>
    if batch = 0 ∨ ych ≠ ych' ∨ c1 * c2 * c3 * c4 * c5 ≠ kh * kw * xch * (yh * yw) then .ok none
    else .ok (some (ofFn w.shape (fun idx =>
      (List.range batch).foldl (fun (acc : R) (i : Nat) =>
        let g := gemm (yh * yw) (fun o => gy.get (unflat gy.shape (i * (ych * yh * yw) + o.toNat))) ((yh * yw : Nat) : Int) 1
          (fun o => cols.get (unflat cols.shape (i * (c1 * c2 * c3 * c4 * c5) + o.toNat))) 1 ((yh * yw : Nat) : Int)
          (idx.getD 0 0) (flat [xch, kh, kw] (idx.drop 1))
        if i = 0 then g else acc + g) 0)))
  | _, _, _ => .error .panic

/-- Output size of the transposed convolution along an axis (src/tensor_ops/conv_ops/conv2d_transpose.rs:55-56); the underflow of `yh - 1` or
`kh - 1` is a panic in debug builds; not modelled in release builds (panics here). -/
def convIn (debug : Bool) (m k pad stride dil : Nat) : Res Nat :=
  if m = 0 ∨ k = 0 then .error .panic
  else do
    let d ← uSub debug (stride * (m - 1)) (2 * pad)
    uAdd debug d (dil * (k - 1) + 1)

/-- The additions made by `col2im` (src/tensor_ops/conv_ops/mod.rs:178-223), in order: position in the image and value. `x_ptr` is advanced
after each row (line 215). -/
def col2imPairs (cols : Nat → R) (xch xh xw kh kw pad stride dil yh yw : Nat) : List (Nat × R) :=
  (List.range xch).flatMap fun (c : Nat) => (List.range kh).flatMap fun (a : Nat) => (List.range kw).flatMap fun (e : Nat) =>
    (List.range yh).flatMap fun (i : Nat) =>
      let yo : Int := (a * dil : Int) - pad + i * stride
      if u32Lt yo xh then
        (List.range yw).flatMap fun (j : Nat) =>
          let xo : Int := (e * dil : Int) - pad + j * stride
          if u32Lt xo xw then [(((c * (xh * xw) : Int) + (yo * xw + xo)).toNat, cols ((((c * kh + a) * kw + e) * yh + i) * yw + j))] else []
      else []

/-- Models `Conv2DTranspose::compute` (src/tensor_ops/conv_ops/conv2d_transpose.rs:250-272) with `conv2d_transpose_extract_params` (29-87) and
`conv2d_transpose_impl` (89-247); `.ok none` stands for a write outside of the memory of the batch (`poolScatter` is the loop `ret[p] += v`). The number of rows and
columns is computed again from the image size in `col2im` (lines 193-194 of mod.rs). Image sizes from 2^31 on are not modelled (panic here). -/
def conv2dTranspose [Zero R] [Add R] [Mul R] (debug : Bool) (gy w : Arr R) (pad stride dil : Nat) : Res (Option (Arr R)) :=
  match gy.shape, w.shape with
  | [batch, ych, yh, yw], [ych', xch, kh, kw] => do
    let xh ← convIn debug yh kh pad stride dil
    let xw ← convIn debug yw kw pad stride dil
    if ych ≠ ych' then .error .opError
    else if batch = 0 ∨ ych * yh * yw = 0 ∨ xch * kh * kw * yh * yw = 0 ∨ xch * (xh * xw) = 0 then .error .panic
    else if 2 ^ 31 ≤ xh ∨ 2 ^ 31 ≤ xw then .error .panic
    else do
      let yh' ← convOut xh kh pad stride dil
      let yw' ← convOut xw kw pad stride dil
      let ret := fun (b : Nat) =>
        poolScatter (xch * (xh * xw)) (col2imPairs (fun k => gemm ych (fun o => w.get (unflat w.shape o.toNat)) 1 ((kh * kw * xch : Nat) : Int)
          (fun o => gy.get (unflat gy.shape (b * (ych * yh * yw) + o.toNat))) ((yh * yw : Nat) : Int) 1 (k / (yh * yw)) (k % (yh * yw)))
          xch xh xw kh kw pad stride dil yh' yw') (fun _ => 0)
      if ∀ b ∈ List.range batch, (ret b).isSome then
        .ok (some (ofFn [batch, xch, xh, xw] (fun idx => ((ret (idx.getD 0 0)).getD (fun _ => 0)) (flat [xch, xh, xw] (idx.drop 1)))))
      else .ok none
  | s, t => if s.length < 4 ∨ t.length < 4 then .error .panic else .error .opError

/-- The tensor given for the first input by `Conv2D::grad` (src/tensor_ops/conv_ops/conv2d.rs:562-569). -/
def convGradX [Zero R] [Add R] [Mul R] (debug : Bool) (gy w : Arr R) (pad stride dil : Nat) : Res (Option (Arr R)) := conv2dTranspose debug gy w pad stride dil

/-- The tensor given for the second input by `Conv2D::grad` (src/tensor_ops/conv_ops/conv2d.rs:571-582). -/
def convGradW [Zero R] [Add R] [Mul R] (x gy w : Arr R) (pad stride dil : Nat) : Res (Option (Arr R)) := do
  let (_, cols) ← conv2d x w pad stride dil
  convFilterGrad cols gy w

/-- The tensor given for the first input by `Conv2DTranspose::grad` (src/tensor_ops/conv_ops/conv2d_transpose.rs:279-286): output 0 of `Conv2D`. -/
def transposeGradX [Zero R] [Add R] [Mul R] (gy w : Arr R) (pad stride dil : Nat) : Res (Arr R) := do
  let (y, _) ← conv2d gy w pad stride dil
  .ok y

/-- Models `Conv2DTransposeFilterGrad::compute` (src/tensor_ops/conv_ops/conv2d_transpose.rs:434-451) with `conv2d_transpose_filter_grad_impl` (303-431) and
`im2col_batch` (src/tensor_ops/conv_ops/mod.rs:126-176), the tensor given for the second input by `Conv2DTranspose::grad` (lines 288-296). `x` and `gy` are read
from memory without looking at their strides (lines 327-328). The columns of a batch start at `i * yh * yh * ...` (line 324 has `yh * yh` for `yh * yw`).
`.ok none` stands for the use of memory that was never written (no batches) or that lies behind the columns or `x`. -/
def transposeFilterGrad [Zero R] [Add R] [Mul R] (gy x : View R) (w : Arr R) (pad stride dil : Nat) : Res (Option (Arr R)) :=
  match gy.shape, x.shape, w.shape with
  | [batch', xch, xh, xw], [batch, ych, x2, x3], [w0, w1, kh, kw] => do
    let yh ← convOut xh kh pad stride dil
    let yw ← convOut xw kw pad stride dil
    if xch * (xh * xw) = 0 ∨ xch * kw * kh * yh * yw = 0 ∨ batch ≠ batch' then .error .panic
    else if batch = 0 ∨ w0 * w1 * kh * kw ≠ ych * (kh * kw * xch) ∨ x2 * x3 ≠ yh * yw then .ok none
    else
      let sizeCols := yh * yh * kh * kw * xch
      let colsB := fun (b : Nat) => im2col (fun k => gy.mem ((b * (xch * (xh * xw)) + k : Nat) : Int)) xch xh xw kh kw pad stride dil yh yw
      let cols : List R := (List.range batch).flatMap colsB
      if ∃ i ∈ List.range batch, cols.length ≤ i * sizeCols then .error .panic
      else if ∃ i ∈ List.range batch, cols.length < i * sizeCols + kh * kw * xch * (yh * yw) then .ok none
      else .ok (some (ofFn w.shape (fun idx =>
        (List.range batch).foldl (fun (acc : R) (i : Nat) =>
          let g := gemm (yh * yw) (fun o => x.mem (((i * (ych * x2 * x3) : Nat) : Int) + o)) ((yh * yw : Nat) : Int) 1
            (fun o => cols.getD (i * sizeCols + o.toNat) 0) 1 ((yh * yw : Nat) : Int) (flat w.shape idx / (kh * kw * xch)) (flat w.shape idx % (kh * kw * xch))
          if i = 0 then g else acc + g) 0)))
  | _, _, _ => .error .panic

end Verif.Nd
