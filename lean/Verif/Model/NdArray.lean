/-!
# Arrays and the primitives of the `ndarray` crate used by the ops

`/repo` computes on `ndarray::Array<T, IxDyn>` (aliases in src/ndarray_ext.rs:10-23). The crate itself
(ndarray 0.16.1, Cargo.toml:18) is not part of `/repo`; the definitions of this file state the documented behaviour of the
functions that the modelled ops call, and belong to the trusted base. An array has a shape, an index function and
strides. Strides do not influence the elements; they are kept because `into_shape` looks at
them: it fails, or reads the elements in column-major order, depending on the strides of its argument. Theorems quantify over all strides
of the inputs. Out-of-bounds values of the index function carry no meaning and are never compared.
Element types are arbitrary; overflow of `usize`/`isize` and allocation failure are not modelled.
-/

namespace Verif.Nd

/-- What a computation of an op can do instead of producing an array: panic, or return an `op::OpError` (src/op.rs:65-73). -/
inductive Fail where
  | panic
  | opError
deriving DecidableEq, Repr

/-- Result of a step of an op. -/
abbrev Res (α : Type) := Except Fail α

/-- `unwrap`/`expect` of an `Option` or of a `Result`. -/
def unwrap {α : Type} : Option α → Res α
  | some a => .ok a
  | none => .error .panic

/-- Models `NdArray`/`NdArrayView` (src/ndarray_ext.rs:10-23): ownership is not modelled here. -/
structure Arr (R : Type) where
  shape : List Nat
  strides : List Int
  get : List Nat → R

/-- Number of elements of an array of the given shape (`ArrayBase::len`). -/
def size : List Nat → Nat
  | [] => 1
  | n :: s => n * size s

/-- Row-major strides (`Dimension::default_strides`). -/
def cStrides : List Nat → List Int
  | [] => []
  | _ :: s => (size s : Int) :: cStrides s

/-- Column-major strides (`Dimension::fortran_strides`). -/
def fStrides (s : List Nat) : List Int := (cStrides s.reverse).reverse

/-- Row-major position of an index. -/
def flat : List Nat → List Nat → Nat
  | _ :: s, i :: is => i * size s + flat s is
  | _, _ => 0

/-- Index at a row-major position. -/
def unflat : List Nat → Nat → List Nat
  | [], _ => []
  | _ :: s, k => (k / size s) :: unflat s (k % size s)

/-- A freshly allocated row-major array. -/
def ofFn {R : Type} (s : List Nat) (f : List Nat → R) : Arr R := ⟨s, cStrides s, f⟩

/-- The loop of `is_layout_c` over the reversed dimensions and strides; dimensions of length 1 are not looked at. -/
def layoutLoop : List Nat → List Int → Int → Bool
  | d :: ds, s :: ss, c => if d = 1 then layoutLoop ds ss c else decide (s = c) && layoutLoop ds ss (c * d)
  | _, _, _ => true

/-- `ArrayBase::is_standard_layout`: row-major contiguous (used at src/tensor_ops/array_ops.rs:200 and inside `into_shape`). -/
def isStandard (shape : List Nat) (strides : List Int) : Bool :=
  shape.any (· == 0) || layoutLoop shape.reverse strides.reverse 1

/-- `ArrayBase::into_shape` (deprecated in 0.16): `none` is the `Err` result. The number of elements must agree; a row-major array
is reinterpreted in row-major order, a column-major array of rank at least 2 in column-major order, every other array is rejected
(used at src/tensor_ops/array_ops.rs:201, 290, 331, 381, 423, 874, src/tensor_ops/reduction_ops.rs:402, 489,
src/tensor_ops/binary_ops.rs:64, 90, 123, src/ndarray_ext.rs:37, ...). -/
def intoShape {R : Type} (a : Arr R) (s : List Nat) : Option (Arr R) :=
  if size s = size a.shape then
    if isStandard a.shape a.strides then
      some ⟨s, cStrides s, fun idx => a.get (unflat a.shape (flat s idx))⟩
    else if a.shape.length > 1 && isStandard a.shape.reverse a.strides.reverse then
      some ⟨s, fStrides s, fun idx => a.get (unflat a.shape.reverse (flat s.reverse idx.reverse)).reverse⟩
    else none
  else none

/-- The elements of an array in row-major logical order (`ArrayBase::iter`). -/
def toList {R : Type} (a : Arr R) : List R :=
  (List.range (size a.shape)).map (fun k => a.get (unflat a.shape k))

/-- Insertion of a dimension and its stride into a list sorted by the magnitude of the strides; equal ones keep their order. -/
def insertStride (p : Nat × Int) : List (Nat × Int) → List (Nat × Int)
  | [] => [p]
  | q :: r => if p.2.natAbs ≤ q.2.natAbs then p :: q :: r else q :: insertStride p r

/-- The loop of `Dimension::is_contiguous` over the dimensions, the fastest varying one first; dimensions of length 1 are not looked at. -/
def denseLoop : List (Nat × Int) → Nat → Bool
  | [], _ => true
  | (d, s) :: r, c => (d == 1 || s.natAbs == c) && denseLoop r (c * d)

/-- `Dimension::is_contiguous`: the elements fill a block of memory without gaps, in any order of the axes (`as_slice_memory_order`, which `map` uses). -/
def isDense (shape : List Nat) (strides : List Int) : Bool :=
  strides.length == shape.length &&
    (strides == cStrides shape ||
      (match strides with
        | [s] => s.natAbs == 1
        | _ => denseLoop ((shape.zip strides).foldr insertStride []) 1))

/-- `ArrayBase::map`/`mapv` (used by the elementwise ops and for scalar operands, for example src/tensor_ops/binary_ops.rs:177, src/tensor_ops/math_ops.rs): the strides
are kept if the elements fill a block of memory without gaps, otherwise the result is row-major. -/
def map {R S : Type} (f : R → S) (a : Arr R) : Arr S :=
  ⟨a.shape, if isDense a.shape a.strides then a.strides else cStrides a.shape, fun idx => f (a.get idx)⟩

/-- `ArrayBase::to_owned` (used at src/tensor_ops/binary_ops.rs:129, src/tensor_ops/reduction_ops.rs:490, 493): a copy with the layout that `map` gives. -/
def toOwned {R : Type} (a : Arr R) : Arr R := map id a

/-- `x[IxDyn(&[])]` (src/tensor_ops/binary_ops.rs:176, 249, 253, 317, 320): panics unless the array has rank 0. -/
def scalarElem {R : Type} (a : Arr R) : Res R :=
  if a.shape = [] then .ok (a.get []) else .error .panic

/-- `co_broadcast` on reversed shapes. -/
def coRev : List Nat → List Nat → Option (List Nat)
  | [], t => some t
  | s, [] => some s
  | a :: s, b :: t =>
    if a = b then (coRev s t).map (a :: ·)
    else if a = 1 then (coRev s t).map (b :: ·)
    else if b = 1 then (coRev s t).map (a :: ·)
    else none

/-- Common shape of two operands of an arithmetic operator (`co_broadcast`): right-aligned, sizes must be equal or 1. -/
def coBroadcast (s t : List Nat) : Option (List Nat) := (coRev s.reverse t.reverse).map List.reverse

/-- Position in an array of shape `s` read through a broadcast at position `idx`: right-aligned, 0 in dimensions of size 1. -/
def bIdx (s idx : List Nat) : List Nat :=
  (List.zipWith (fun n i => if n = 1 then 0 else i) s.reverse idx.reverse).reverse

/-- Shape test of `ArrayBase::broadcast` on reversed shapes. -/
def bcastOk : List Nat → List Nat → Bool
  | [], _ => true
  | _ :: _, [] => false
  | a :: s, b :: t => (a == b || a == 1) && bcastOk s t

/-- `ArrayBase::broadcast` (used at src/tensor_ops/binary_ops.rs:128, src/tensor_ops/reduction_ops.rs:490, 500): a
view with stride 0 in the broadcast dimensions. -/
def broadcast {R : Type} (a : Arr R) (t : List Nat) : Option (Arr R) :=
  if bcastOk a.shape.reverse t.reverse then
    let str := (List.zipWith (fun (p : Nat × Int) n => if p.1 = n then p.2 else 0)
        (a.shape.zip a.strides).reverse t.reverse).reverse
    some ⟨t, List.replicate (t.length - str.length) 0 ++ str, fun idx => a.get (bIdx a.shape idx)⟩
  else none

/-- `Layout` of an operand of `Zip`, as far as it decides the order of the result: compatible with row-major order, compatible with column-major order, and the
tendency (positive towards row-major). -/
structure ZipLayout where
  c : Bool
  f : Bool
  tendency : Int

/-- `array_layout` of ndarray: row-major, column-major, both (at most one dimension longer than 1), or only the preference given by the axis with stride 1. -/
def zipLayout (shape : List Nat) (strides : List Int) : ZipLayout :=
  if isStandard shape strides then
    if (shape.filter (1 < ·)).length ≤ 1 then ⟨true, true, 0⟩ else ⟨true, false, 2⟩
  else if 1 < shape.length && isStandard shape.reverse strides.reverse then ⟨false, true, -2⟩
  else if 1 < shape.length then
    if decide (1 < shape.headD 0) && strides.headD 0 == 1 then ⟨false, false, -1⟩
    else if decide (1 < shape.getLastD 0) && strides.getLastD 0 == 1 then ⟨false, false, 1⟩
    else ⟨false, false, 0⟩
  else ⟨false, false, 0⟩

/-- `Zip::prefer_f`: whether the result for two operands is column-major. -/
def prefersF (l r : ZipLayout) : Bool := !(l.c && r.c) && (l.f && r.f || decide (l.tendency + r.tendency < 0))

/-- The strides of the result of `Zip::map_collect` on two operands that are broadcast to the shape `s`. -/
def zipStrides {R S : Type} (a : Arr R) (b : Arr S) (s : List Nat) : List Int :=
  match broadcast a s, broadcast b s with
  | some a', some b' => if prefersF (zipLayout s a'.strides) (zipLayout s b'.strides) then fStrides s else cStrides s
  | _, _ => cStrides s

/-- `&a op &b` (used at src/tensor_ops/binary_ops.rs:187, 190, 265, 268, 326, 335, 340): broadcasts both operands to the common shape, panics if there is none. The
result is row- or column-major, whichever fits the operands better. -/
def zipOp {R : Type} (f : R → R → R) (a b : Arr R) : Res (Arr R) :=
  match coBroadcast a.shape b.shape with
  | some s => .ok ⟨s, zipStrides a b s, fun idx => f (a.get (bIdx a.shape idx)) (b.get (bIdx b.shape idx))⟩
  | none => .error .panic

/-- `a op &b` for an owned array `a` (used at src/tensor_ops/activation_ops.rs:217): as `&a op &b`, but the result is written into the memory of `a` if it has its shape. -/
def ownedOp {R : Type} (f : R → R → R) (a b : Arr R) : Res (Arr R) := do
  let r ← zipOp f a b
  .ok (if r.shape = a.shape then ⟨r.shape, a.strides, r.get⟩ else r)

/-- `ArrayBase::fold_axis` (used at src/tensor_ops/binary_ops.rs:77, src/tensor_ops/reduction_ops.rs:78): panics if the axis is out of range; folds
every lane from front to back; the result is a new row-major array. -/
def foldAxis {R : Type} (a : Arr R) (k : Nat) (init : R) (f : R → R → R) : Res (Arr R) :=
  match a.shape[k]? with
  | some n => .ok (ofFn (a.shape.eraseIdx k)
      (fun idx => (List.range n).foldl (fun acc j => f acc (a.get (idx.insertIdx k j))) init))
  | none => .error .panic

/-- Models `ndarray_ext::expand_dims` (src/ndarray_ext.rs:33-38): `Vec::insert` panics when `axis > len`. -/
def expandDims {R : Type} (a : Arr R) (axis : Nat) : Res (Arr R) :=
  if axis ≤ a.shape.length then unwrap (intoShape a (a.shape.insertIdx axis 1)) else .error .panic

/-- Models `ndarray_ext::is_scalar_shape` (src/ndarray_ext.rs:119-122). -/
def isScalarShape (s : List Nat) : Bool := s == [] || s == [0]

end Verif.Nd
