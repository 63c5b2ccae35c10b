import Mathlib.Algebra.Field.Defs
import Verif.Model.NdArray

/-!
# Model of the data loading and the mini-batches of the MNIST examples

Covers `examples/mnist_data.rs` and the loops over epochs and batches of `examples/mlp_mnist.rs` and `examples/cnn_mnist.rs`. Pixels are divided in a field instead of `f32`.
-/

namespace Verif.Mnist
open Verif Verif.Nd

/-- `u8`. -/
abbrev Byte := Fin 256

/-- What `read_exact` leaves when it fails because the file ends too early: the bytes in the buffer of the given size and the rest of the file. The documentation of `std` calls
the content of the buffer unspecified, so this is an arbitrary function. -/
abbrev Short := List Byte → (n : Nat) → (Fin n → Byte) × List Byte

/-- `let _ = reader.read_exact(buf)` for a buffer of `n` bytes (examples/mnist_data.rs:48, 62, 70): the buffer and the rest of the file. The error is dropped. Other IO errors are not modelled. -/
def readExact (short : Short) (n : Nat) (file : List Byte) : List Byte × List Byte :=
  if n ≤ file.length then (file.take n, file.drop n) else (List.ofFn (short file n).1, (short file n).2)

/-- Models `read_be_u32` (examples/mnist_data.rs:68-72). -/
def readU32 (short : Short) (file : List Byte) : Nat × List Byte :=
  ((readExact short 4 file).1.foldl (fun acc b => acc * 256 + b.val) 0, (readExact short 4 file).2)

/-- Models `load_images` (examples/mnist_data.rs:35-51); `none` is a file that cannot be opened. Lines 39, 46: panics if the magic number or the size of the images is another one. -/
def loadImages {R : Type} [Field R] (short : Short) (file : Option (List Byte)) : Res (List R × Nat) := do
  let f ← unwrap file
  let magic := readU32 short f
  if magic.1 ≠ 2051 then .error .panic
  else
    let num := readU32 short magic.2
    let rows := readU32 short num.2
    let cols := readU32 short rows.2
    if rows.1 = 28 ∧ cols.1 = 28 then
      .ok ((readExact short (num.1 * rows.1 * cols.1) cols.2).1.map (fun b => (b.val : R) / 255), num.1)
    else .error .panic

/-- Models `load_labels` (examples/mnist_data.rs:53-65). -/
def loadLabels {R : Type} [Field R] (short : Short) (file : Option (List Byte)) : Res (List R × Nat) := do
  let f ← unwrap file
  let magic := readU32 short f
  if magic.1 ≠ 2049 then .error .panic
  else
    let num := readU32 short magic.2
    .ok ((readExact short num.1 num.2).1.map (fun b => (b.val : R)), num.1)

/-- `NdArray::from_shape_vec(shape, v).unwrap()` (examples/mnist_data.rs:27-31): row-major; panics if the number of elements is another one. -/
def fromShapeVec {R : Type} [Zero R] (shape : List Nat) (v : List R) : Res (Arr R) :=
  if v.length = size shape then .ok (ofFn shape (fun i => v.getD (flat shape i) 0)) else .error .panic

/-- Models `load` (examples/mnist_data.rs:15-33): images and labels for training, then for the test. -/
def load {R : Type} [Field R] (short : Short) (trainX trainY testX testY : Option (List Byte)) : Res ((Arr R × Arr R) × (Arr R × Arr R)) := do
  let a ← loadImages short trainX
  let b ← loadLabels short trainY
  let c ← loadImages short testX
  let d ← loadLabels short testY
  let xTrain ← fromShapeVec [a.2, 28 * 28] a.1
  let yTrain ← fromShapeVec [b.2, 1] b.1
  let xTest ← fromShapeVec [c.2, 28 * 28] c.1
  let yTest ← fromShapeVec [d.2, 1] d.1
  .ok ((xTrain, yTrain), (xTest, yTest))

/-- `a.slice(s![lo..lo + len, ..])` (examples/mlp_mnist.rs:71-72, examples/cnn_mnist.rs:93-94) for an array of rank 2; panics if the range exceeds the rows. -/
def rows {R : Type} (a : Arr R) (lo len : Nat) : Res (Arr R) :=
  match a.shape with
  | [n, c] => if lo + len ≤ n then .ok ⟨[len, c], a.strides, fun i => a.get ((lo + i.getD 0 0) :: i.drop 1)⟩ else .error .panic
  | _ => .error .panic

/-- Models `get_permutation` (examples/mlp_mnist.rs:44-48, examples/cnn_mnist.rs:53-57): `shuffle` is `SliceRandom::shuffle` with a generator in the given state. `get_default_rng()`
(src/ndarray_ext.rs:251-253) returns a new generator in the state `seed` in each call. -/
def getPermutation {σ : Type} (shuffle : σ → List Nat → List Nat) (seed : σ) (size : Nat) : List Nat := shuffle seed (List.range size)

/-- The batches of one epoch, in order (examples/mlp_mnist.rs:62-72, examples/cnn_mnist.rs:63-66, 91-94); `x.shape()[0]` panics for rank 0. -/
def epoch {R σ : Type} (shuffle : σ → List Nat → List Nat) (seed : σ) (batchSize : Nat) (x y : Arr R) : Res (List (Arr R × Arr R)) := do
  let n ← unwrap x.shape[0]?
  (getPermutation shuffle seed (n / batchSize)).mapM fun i => do
    let xb ← rows x (i * batchSize) batchSize
    let yb ← rows y (i * batchSize) batchSize
    .ok (xb, yb)

/-- The batches of all epochs (examples/mlp_mnist.rs:66-68, examples/cnn_mnist.rs:88-91). -/
def epochs {R σ : Type} (shuffle : σ → List Nat → List Nat) (seed : σ) (batchSize count : Nat) (x y : Arr R) : Res (List (List (Arr R × Arr R))) :=
  (List.range count).mapM fun _ => epoch shuffle seed batchSize x y

end Verif.Mnist
