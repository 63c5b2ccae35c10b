import Mathlib.Algebra.Ring.Rat
import Mathlib.Data.Rat.Floor
import Verif.Model.NdArray

/-!
# Model of `setdiff1d`
-/

namespace Verif.SetDiff
open Verif Verif.Nd

variable {R : Type}

/-- `x.as_slice().unwrap()` (src/tensor_ops/array_ops.rs:247-248, 254-255): panics unless the array is row-major and without gaps. -/
def asSlice (x : Arr R) : Res (List R) := if isStandard x.shape x.strides then .ok (toList x) else .error .panic

/-- A hash set collected from `a.to_isize().unwrap()` (src/tensor_ops/array_ops.rs:246-258): `toIsize` is `None` (panic) for numbers that have no integer. The set is kept as
the list of its distinct members in some order. -/
def collectSet (toIsize : R → Option Int) (x : Arr R) : Res (List Int) := do
  let xs ← asSlice x
  let ns ← xs.mapM (fun r => unwrap (toIsize r))
  .ok ns.dedup

/-- Models `SetDiff1D::compute` (src/tensor_ops/array_ops.rs:242-274). `iter` is the order in which the difference of two hash sets is iterated (any permutation,
depending on the capacity of the tables). `T::from` is the cast of integers. -/
def setDiff1d [IntCast R] (toIsize : R → Option Int) (iter : List Int → List Int) (x0 x1 : Arr R) : Res (Arr R) := do
  let a ← collectSet toIsize x0
  let b ← collectSet toIsize x1
  let v := (iter (a.filter (fun n => decide (n ∉ b)))).mergeSort
  .ok (ofFn [v.length] (fun i => ((v.getD (i.headD 0) 0 : Int) : R)))

/-- `to_isize` of a float (`num_traits::ToPrimitive`), on rationals: truncation towards zero. Numbers beyond the range of `isize` are not modelled. -/
def truncate (q : ℚ) : Option Int := some (if 0 ≤ q then ⌊q⌋ else ⌈q⌉)

end Verif.SetDiff
