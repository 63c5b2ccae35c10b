import Verif.Model.Reductions

/-!
# Model of the ops that rearrange elements

`src/tensor_ops/array_ops.rs` and `Transpose` of `src/tensor_ops/math_ops.rs`. Shapes, axes and indices are stored by the
code as floats and converted with `to_usize`/`to_isize`; here they are integers. Whether an output is a view or a copy is not modelled here.
-/

namespace Verif.Nd
variable {R : Type}

/-! ## Reshape -/

/-- Product of the entries of the shape tensor (src/tensor_ops/array_ops.rs:193). -/
def iprod : List Int → Int
  | [] => 1
  | d :: ds => d * iprod ds

/-- One dimension of the target shape (src/tensor_ops/array_ops.rs:187-196): `to_usize` of a negative number is `None` (panic), division by
zero panics. -/
def targetDim (len : Nat) (prod : Int) (d : Int) : Res Nat :=
  if d ≠ -1 then (if d < 0 then .error .panic else .ok d.toNat)
  else if -prod < 0 then .error .panic
  else if -prod = 0 then .error .panic
  else .ok (len / (-prod).toNat)

/-- `ndarray_ext::deep_copy` (src/ndarray_ext.rs:106-111): a row-major copy. -/
def deepCopy (a : Arr R) : Arr R := ofFn a.shape a.get

/-- The `Result` of `into_shape`, with `Err` turned into an `OpError`. -/
def orOpError {α : Type} : Option α → Res α
  | some a => .ok a
  | none => .error .opError

/-- Models `Reshape::compute` (src/tensor_ops/array_ops.rs:184-226). -/
def reshape (x : Arr R) (shape : List Int) : Res (Arr R) := do
  let target ← shape.mapM (targetDim (size x.shape) (iprod shape))
  if isStandard x.shape x.strides then
    match intoShape x target with
    | some a => .ok a
    | none => orOpError (intoShape (deepCopy x) target)
  else orOpError (intoShape (deepCopy x) target)

/-- Models `flatten` (src/tensor_ops/mod.rs:1344-1355): `Reshape` with the scalar -1 as shape tensor. -/
def flatten (x : Arr R) : Res (Arr R) := reshape x [-1]

/-- Models `Reshape::grad` (src/tensor_ops/array_ops.rs:228-237): `Reshape` of the output gradient to the evaluated shape of `x`. -/
def reshapeGrad (x gy : Arr R) : Res (Arr R) := reshape gy (x.shape.map (fun (n : Nat) => (n : Int)))

/-! ## Transpose -/

/-- The loop filling `dims` (src/tensor_ops/math_ops.rs:439-447). The code writes through `get_unchecked_mut` into a vector of length 0 with
capacity `perm.len()`: formally undefined behaviour, in practice a write into the reserved memory. The writes are modelled as writes into a zero-filled list;
a write out of range is modelled as a panic (in the code: undefined behaviour). -/
def transposeDims (invert : Bool) : Nat → List Nat → List Nat → Res (List Nat)
  | _, [], dims => .ok dims
  | i, d :: ds, dims =>
    if invert then
      if d < dims.length then transposeDims invert (i + 1) ds (dims.set d i) else .error .panic
    else transposeDims invert (i + 1) ds (dims.set i d)

/-- `ArrayBase::permuted_axes` (used at src/tensor_ops/math_ops.rs:449): panics unless every axis occurs exactly once; a view. -/
def permutedAxes (x : Arr R) (dims : List Nat) : Res (Arr R) :=
  if dims.length = x.shape.length ∧ ∀ k ∈ List.range x.shape.length, k ∈ dims then
    .ok ⟨dims.map (fun k => x.shape.getD k 0), dims.map (fun k => x.strides.getD k 0),
      fun idx => x.get ((List.range x.shape.length).map (fun k => idx.getD (dims.idxOf k) 0))⟩
  else .error .panic

/-- Models `Transpose::compute` (src/tensor_ops/math_ops.rs:427-454) for a `perm` without negative entries. -/
def transpose (x : Arr R) (perm : List Nat) (invert : Bool) : Res (Arr R) :=
  if x.shape.length ≠ perm.length then .error .opError
  else do
    let dims ← transposeDims invert 0 perm (List.replicate perm.length 0)
    permutedAxes x dims

/-- `Transpose::compute` in builds with debug assertions of Rust 1.79 and later, where `get_unchecked_mut` checks its index against the length of the
slice, here that of an empty vector (src/tensor_ops/math_ops.rs:439-446): the first write aborts the process (modelled as a panic). -/
def transposeUbChecks (x : Arr R) (perm : List Nat) (invert : Bool) : Res (Arr R) :=
  if x.shape.length ≠ perm.length then .error .opError
  else if perm.isEmpty then transpose x perm invert else .error .panic

/-- Models `Transpose::grad` (src/tensor_ops/math_ops.rs:456-466). -/
def transposeGrad (gy : Arr R) (perm : List Nat) (invert : Bool) : Res (Arr R) := transpose gy perm (!invert)

/-! ## Slices -/

/-- A `SliceInfoElem::Slice` with step 1. -/
structure SliceElem where
  start : Int
  stop : Option Int

/-- `abs_index` of `ndarray`: a negative index counts from the back; the conversion to `usize` wraps (`none`) if it is still negative. -/
def absIndex (n : Nat) (i : Int) : Option Nat :=
  if i < 0 then (if (n : Int) + i < 0 then none else some ((n : Int) + i).toNat) else some i.toNat

/-- `do_slice` of `ndarray` on one axis of length `n`: first position and length. The end is raised to the start if it is smaller; both must
be at most `n`, otherwise it panics. -/
def sliceBounds (n : Nat) (e : SliceElem) : Res (Nat × Nat) :=
  match absIndex n e.start, absIndex n (e.stop.getD n) with
  | some s, some t => if s ≤ n ∧ max s t ≤ n then .ok (s, max s t - s) else .error .panic
  | _, _ => .error .panic

/-- `ArrayBase::slice`/`slice_collapse`/`slice_move` with one element per axis (panics if the number of elements differs from the rank): the
first positions and the lengths. -/
def sliceRegion : List Nat → List SliceElem → Res (List Nat × List Nat)
  | [], [] => .ok ([], [])
  | n :: s, e :: es => do
    let b ← sliceBounds n e
    let r ← sliceRegion s es
    .ok (b.1 :: r.1, b.2 :: r.2)
  | _, _ => .error .panic

/-- Models `Slice::compute` (src/tensor_ops/array_ops.rs:781-786); also the slicing of `Split` and `ConcatGrad`. The result is a view. -/
def sliceArr (x : Arr R) (es : List SliceElem) : Res (Arr R) := do
  let r ← sliceRegion x.shape es
  .ok ⟨r.2, x.strides, fun idx => x.get (List.zipWith (· + ·) r.1 idx)⟩

/-- The position belongs to the region with the given first positions and lengths. -/
def inRegion : List Nat → List Nat → List Nat → Bool
  | s :: ss, m :: ms, i :: is => decide (s ≤ i) && decide (i < s + m) && inRegion ss ms is
  | _, _, _ => true

/-- `zeros(shape)`, then `slice_mut(es).zip_mut_with(gy, |a, g| *a = g)`: models `SliceGrad::compute` (src/tensor_ops/array_ops.rs:804-817) and
the same code in `SplitGrad::compute`. `zip_mut_with` broadcasts `gy` to the region and panics if that is impossible. -/
def sliceGrad [Zero R] (shape : List Nat) (es : List SliceElem) (gy : Arr R) : Res (Arr R) := do
  let r ← sliceRegion shape es
  let g ← unwrap (broadcast gy r.2)
  .ok (ofFn shape (fun o => if inRegion r.1 r.2 o then g.get (List.zipWith (· - ·) o r.1) else 0))

/-- The bounds computed by `tensor_ops::slice` (src/tensor_ops/mod.rs:2180-2192). -/
def sliceElem (s e : Int) : SliceElem := ⟨s, if e = -1 then none else some (if e < -1 then e + 1 else e)⟩

/-- Models `tensor_ops::slice` (src/tensor_ops/mod.rs:2171-2197) followed by `Slice::compute`; different lengths panic. -/
def slice (x : Arr R) (starts ends : List Int) : Res (Arr R) :=
  if starts.length = ends.length then sliceArr x (List.zipWith sliceElem starts ends) else .error .panic

/-- Models the gradient of `slice`, `Slice::grad` (src/tensor_ops/array_ops.rs:788-800) followed by `SliceGrad::compute`. -/
def sliceGradOp [Zero R] (shape : List Nat) (starts ends : List Int) (gy : Arr R) : Res (Arr R) :=
  sliceGrad shape (List.zipWith sliceElem starts ends) gy

/-! ## Concat and Split -/

/-- `normalize_negative_axis` (src/ndarray_ext.rs:58-64) and the same code in `Concat` (src/tensor_ops/array_ops.rs:583-587): `none` is an axis that
wrapped around to a huge number. -/
def normAxis (ndim : Nat) (a : Int) : Option Nat := absIndex ndim a

/-- The elements of the concatenation: position `j` along the axis belongs to the first part that is long enough. -/
def pickPart (k : Nat) (dflt : R) : List (Arr R) → Nat → List Nat → R
  | [], _, _ => dflt
  | a :: as, j, o => if j < a.shape.getD k 0 then a.get (o.set k j) else pickPart k dflt as (j - a.shape.getD k 0) o

/-- `ndarray::concatenate` (used at src/tensor_ops/array_ops.rs:589, 684): `none` is an `Err`. `st` are the strides of the result (the crate
puts the concatenated axis outermost in memory); the theorems hold for all of them. Arrays of different rank are counted as incompatible. -/
def concatenate (st : List Int) (k : Nat) (xs : List (Arr R)) : Option (Arr R) :=
  match xs with
  | [] => none
  | a :: _ =>
    if k < a.shape.length ∧ ∀ b ∈ xs, b.shape.length = a.shape.length ∧ b.shape.eraseIdx k = a.shape.eraseIdx k then
      some ⟨a.shape.set k ((xs.map (fun b => b.shape.getD k 0)).sum), st, fun o => pickPart k (a.get o) xs (o.getD k 0) o⟩
    else none

/-- Models `Concat::compute` (src/tensor_ops/array_ops.rs:577-596); an empty list is excluded by `tensor_ops::concat` (src/tensor_ops/mod.rs:2219). -/
def concat (st : List Int) (xs : List (Arr R)) (axis : Int) : Res (Arr R) :=
  match xs with
  | [] => .error .panic
  | a :: _ =>
    match normAxis a.shape.length axis with
    | some k => orOpError (concatenate st k xs)
    | none => .error .opError

/-- Full slices except on axis `k` (src/tensor_ops/array_ops.rs:638-655, 760-777). -/
def axisSlices (ndim k : Nat) (e : SliceElem) : List SliceElem :=
  (List.range ndim).map (fun i => if i = k then e else ⟨0, none⟩)

/-- The start of the region in `ConcatGrad::compute` (src/tensor_ops/array_ops.rs:633-636): the sum over the inputs `1, ..., index - 1`, that is over
the parts `0, ..., index - 2`. -/
def concatStart (k : Nat) (xs : List (Arr R)) (index : Nat) : Nat := ((xs.take (index - 1)).map (fun b => b.shape.getD k 0)).sum

/-- Models `ConcatGrad::compute` (src/tensor_ops/array_ops.rs:623-670): the gradient for part `index`. -/
def concatGrad (gy : Arr R) (xs : List (Arr R)) (axis : Int) (index : Nat) : Res (Arr R) :=
  match normAxis gy.shape.length axis, xs[index]? with
  | some k, some x =>
    match x.shape[k]? with
    | some n => sliceArr gy (axisSlices gy.shape.length k ⟨concatStart k xs index, some n⟩)
    | none => .error .panic
  | _, _ => .error .panic

/-- Models `Split::compute` (src/tensor_ops/array_ops.rs:699-707). -/
def splitPart (x : Arr R) (start stop : Nat) (axis : Int) : Res (Arr R) :=
  match normAxis x.shape.length axis with
  | some k => if k < x.shape.length then sliceArr x (axisSlices x.shape.length k ⟨start, some stop⟩) else .error .panic
  | none => .error .panic

/-- Models `SplitGrad::compute` (src/tensor_ops/array_ops.rs:727-745). -/
def splitGrad [Zero R] (shape : List Nat) (start stop : Nat) (axis : Int) (gy : Arr R) : Res (Arr R) :=
  match normAxis shape.length axis with
  | some k => if k < shape.length then sliceGrad shape (axisSlices shape.length k ⟨start, some stop⟩) gy else .error .panic
  | none => .error .panic

/-- Models part `i` of `tensor_ops::split` (src/tensor_ops/mod.rs:2113-2138): the bounds are partial sums of `sizes`. -/
def split (x : Arr R) (sizes : List Nat) (axis : Int) (i : Nat) : Res (Arr R) :=
  splitPart x (sizes.take i).sum ((sizes.take i).sum + sizes.getD i 0) axis

/-- Models the gradient of part `i` of a split (src/tensor_ops/array_ops.rs:709-723). -/
def splitGradOp [Zero R] (shape : List Nat) (sizes : List Nat) (axis : Int) (i : Nat) (gy : Arr R) : Res (Arr R) :=
  splitGrad shape (sizes.take i).sum ((sizes.take i).sum + sizes.getD i 0) axis gy

/-! ## Tile -/

/-- Models `Tile::compute` (src/tensor_ops/array_ops.rs:680-691). -/
def tile (st : List Int) (x : Arr R) (axis : Int) (num : Nat) : Res (Arr R) :=
  match normAxis x.shape.length axis with
  | some k => orOpError (concatenate st k (List.replicate num x))
  | none => .error .opError

/-- Models `Tile::grad` (src/tensor_ops/array_ops.rs:693-695). -/
def tileGrad [Zero R] [Add R] (gy : Arr R) (axis : Int) : Res (Arr R) := reduceSum gy [axis] true

/-! ## Gather -/

/-- Position in memory of an element, relative to the first one. -/
def offset : List Int → List Nat → Int
  | s :: ss, i :: is => s * i + offset ss is
  | _, _ => 0

/-- The elements in memory order (`map(..).into_raw_vec()`, src/tensor_ops/array_ops.rs:376-378): `map` keeps the strides if the elements
fill a memory block without gaps, otherwise it makes a row-major array. -/
def memList (a : Arr R) : List R :=
  let all := (List.range (size a.shape)).map (unflat a.shape)
  match (List.range (size a.shape)).mapM (fun (p : Nat) => all.find? (fun o => offset a.strides o == (p : Int))) with
  | some l => l.map a.get
  | none => toList a

/-- The flat indices of `Gather::compute` (src/tensor_ops/array_ops.rs:373-379). -/
def flatIndices (normalize : Bool) (n : Nat) (indices : Arr Int) : Res (List Nat) :=
  if normalize then normAxes n (toList indices)
  else (memList indices).mapM (fun i => if i < 0 then .error .panic else .ok i.toNat)

/-- Models `ndarray_ext::select` (src/ndarray_ext.rs:158-166) with the local `concatenate` (src/ndarray_ext.rs:172-214): the result is row-major; no
indices or an index out of range panic. -/
def select (param : Arr R) (k : Nat) (indices : List Nat) : Res (Arr R) :=
  match param.shape[k]? with
  | none => .error .panic
  | some n =>
    if indices ≠ [] ∧ ∀ i ∈ indices, i < n then
      .ok (ofFn (param.shape.set k indices.length) (fun o => param.get (o.set k (indices.getD (o.getD k 0) 0))))
    else .error .panic

/-- Models `Gather::compute` (src/tensor_ops/array_ops.rs:354-384). -/
def gather (normalize : Bool) (param : Arr R) (indices : Arr Int) (axis : Int) : Res (Arr R) :=
  match normAxis param.shape.length axis with
  | none => .error .panic
  | some k =>
    match param.shape[k]? with
    | none => .error .panic
    | some n => do
      let flat ← flatIndices normalize n indices
      let sel ← select param k flat
      unwrap (intoShape sel (param.shape.take k ++ indices.shape ++ param.shape.drop (k + 1)))

/-- Where `GatherGrad` adds the gradient of index `i` (src/tensor_ops/array_ops.rs:436-461): `slice_mut` with bounds `i..i+1`, then
`index_axis_move(axis, 0)`, which panics on an empty region. -/
def gatherPos (n : Nat) (i : Int) : Res Nat := do
  let b ← sliceBounds n ⟨i, some (i + 1)⟩
  if b.2 = 0 then .error .panic else .ok b.1

/-- The loop of `GatherGrad::compute` (src/tensor_ops/array_ops.rs:434-466) over the positions, `j` is the number of the next one. -/
def gatherAdd [Add R] (k : Nat) (gy : Arr R) : List Nat → Nat → (List Nat → R) → (List Nat → R)
  | [], _, g => g
  | p :: ps, j, g => gatherAdd k gy ps (j + 1) (fun o => if o.getD k 0 = p then g o + gy.get (o.set k j) else g o)

/-- Models `GatherGrad::compute` (src/tensor_ops/array_ops.rs:402-469): a negative axis makes the slicing of the shape panic. -/
def gatherGrad [Zero R] [Add R] (pshape : List Nat) (indices : Arr Int) (axis : Int) (gy : Arr R) : Res (Arr R) :=
  if axis < 0 then .error .panic
  else
    match pshape[axis.toNat]? with
    | none => .error .panic
    | some n => do
      let k := axis.toNat
      let g3 ← unwrap (intoShape gy (pshape.take k ++ size indices.shape :: pshape.drop (k + 1)))
      let ps ← (toList indices).mapM (gatherPos n)
      .ok (ofFn pshape (gatherAdd k g3 ps 0 (fun _ => 0)))

/-! ## Squeeze and ExpandDims -/

/-- `Vec::sort` of signed axes (src/tensor_ops/array_ops.rs:834, 864). -/
def sortInts (l : List Int) : List Int := l.mergeSort (fun a b => decide (a ≤ b))

/-- `index_axis_move(Axis(axis), 0)`. -/
def indexAxis0 (x : Arr R) (k : Nat) : Arr R := ⟨x.shape.eraseIdx k, x.strides.eraseIdx k, fun idx => x.get (idx.insertIdx k 0)⟩

/-- The loop of `Squeeze::compute` (src/tensor_ops/array_ops.rs:835-845). Subtraction below zero and an axis out of range panic. -/
def squeezeLoop : Nat → List Int → Arr R → Res (Arr R)
  | _, [], x => .ok x
  | adjust, i :: is, x =>
    match absIndex x.shape.length i with
    | none => .error .panic
    | some a =>
      if a < adjust then .error .panic
      else if x.shape[a - adjust]? = some 1 then squeezeLoop (adjust + 1) is (indexAxis0 x (a - adjust))
      else .error .panic

/-- Models `Squeeze::compute` (src/tensor_ops/array_ops.rs:827-848). -/
def squeeze (x : Arr R) (axes : List Int) : Res (Arr R) := squeezeLoop 0 (sortInts axes) x

/-- The loop of `ExpandDims::compute` (src/tensor_ops/array_ops.rs:866-873): negative axes are relative to the rank `ndim` of the input;
`Vec::insert` panics past the end. -/
def expandShape (ndim : Nat) : List Int → List Nat → Res (List Nat)
  | [], s => .ok s
  | i :: is, s =>
    match absIndex ndim i with
    | none => .error .panic
    | some a => if a ≤ s.length then expandShape ndim is (s.insertIdx a 1) else .error .panic

/-- Models `ExpandDims::compute` (src/tensor_ops/array_ops.rs:857-877). -/
def expandDimsOp (x : Arr R) (axes : List Int) : Res (Arr R) := do
  let s ← expandShape x.shape.length (sortInts axes) x.shape
  unwrap (intoShape x s)

/-! ## Element access -/

/-- Models `IndexOp::compute` (src/tensor_ops/array_ops.rs:282-301). -/
def accessElem (x : Arr R) (i : Int) : Res (Arr R) := do
  let f ← unwrap (intoShape x [size x.shape])
  match absIndex (size x.shape) i with
  | some k => if k < size x.shape then .ok (ofFn [] (fun _ => f.get [k])) else .error .opError
  | none => .error .opError

/-- Models `IndexOpGrad::compute` (src/tensor_ops/array_ops.rs:318-345). -/
def accessElemGrad [Zero R] (shape : List Nat) (i : Int) (gy : Arr R) : Res (Arr R) :=
  match absIndex (size shape) i with
  | some k =>
    if k < size shape then do
      let g ← scalarElem gy
      .ok (ofFn shape (fun o => if flat shape o = k then g else 0))
    else .error .opError
  | none => .error .opError

/-! ## AddN -/

/-- The loop `base += x_i` of `AddN::compute` (src/tensor_ops/array_ops.rs:514-523): `x_i` is broadcast to the shape of the sum so far, panics if
that is impossible. -/
def addNLoop [Add R] (base : Arr R) : List (Arr R) → Res (Arr R)
  | [] => .ok base
  | x :: xs => do
    let b ← unwrap (broadcast x base.shape)
    addNLoop ⟨base.shape, base.strides, fun idx => base.get idx + b.get idx⟩ xs

/-- Models `AddN::compute` (src/tensor_ops/array_ops.rs:504-527); no inputs panic (`unreachable!`). -/
def addN [Add R] : List (Arr R) → Res (Arr R)
  | [] => .error .panic
  | [x] => .ok x
  | x :: y :: xs => do
    let b ← zipOp (· + ·) x y
    addNLoop b xs

/-- Gradients reported by `AddN::grad` (src/tensor_ops/array_ops.rs:530-534): the incoming gradient for every input. -/
def addNGrad (gy : Arr R) (xs : List (Arr R)) : List (Arr R) := xs.map (fun _ => gy)

end Verif.Nd
