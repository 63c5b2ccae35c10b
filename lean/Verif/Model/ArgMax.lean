import Verif.Model.Reductions

/-!
# Model of `argmax` and `argmin`

`src/tensor_ops/reduction_ops.rs` (`argx_helper`).
-/

namespace Verif.Nd
variable {R : Type}

/-- Exchanges two entries of a list (out of range: unchanged). -/
def swapAt {α : Type} (i j : Nat) (l : List α) : List α :=
  match l[i]?, l[j]? with
  | some a, some b => (l.set i b).set j a
  | _, _ => l

/-- `ArrayBase::swap_axes` (used at src/ndarray_ext.rs:46, 51 and src/tensor_ops/reduction_ops.rs:403); the axes are in range at these calls. -/
def swapAxes (a : Arr R) (i j : Nat) : Arr R := ⟨swapAt i j a.shape, swapAt i j a.strides, fun idx => a.get (swapAt i j idx)⟩

/-- Models `ndarray_ext::roll_axis(arg, Axis(0), Axis(j))` (src/ndarray_ext.rs:41-55): exchanges axis 0 with `j`, `j - 1`, ..., 1. -/
def rollAxis (a : Arr R) : Nat → Arr R
  | 0 => a
  | j + 1 => rollAxis (swapAxes a 0 (j + 1)) j

/-- The mask of the first occurrences of the extremum (src/tensor_ops/reduction_ops.rs:375-394). `st` are the strides of `x.to_owned()`: those
of `x` if its elements fill a memory block without gaps (in any order of the axes), row-major otherwise; the theorems are stated for all `st` with
the required layout. `found` is true at position `j` of a lane iff an earlier element of the lane equals the extremum. -/
def argMask [DecidableEq R] [NatCast R] (x maxed : Arr R) (st : List Int) (axis : Nat) : Arr R :=
  ⟨x.shape, st, fun o =>
    let m := maxed.get (o.eraseIdx axis)
    let found := (List.range (o.getD axis 0)).any (fun j => decide (x.get (o.set axis j) = m))
    if x.get o = m ∧ found = false then ((1 : Nat) : R) else ((0 : Nat) : R)⟩

/-- Models `argx_helper` (src/tensor_ops/reduction_ops.rs:365-429) for a normalised axis; `dflt` is `default_val`. Division by the
reduction length panics if it is 0. The product with the column of indices (line 416) is row-major up to dimensions of size 1. -/
def argx [DecidableEq R] [NatCast R] [Zero R] [Add R] [Mul R] (comp : R → R → R) (dflt : R) (x : Arr R) (st : List Int)
    (axis : Nat) (keep : Bool) : Res (Arr R) := do
  let maxed ← foldAxis x axis dflt comp
  let len ← unwrap x.shape[axis]?
  let rolled := rollAxis (argMask x maxed st axis) axis
  if len = 0 then .error .panic
  else do
    let m2 ← unwrap (intoShape rolled [len, size x.shape / len])
    let mat : Arr R := ofFn [size x.shape / len, 1]
      (fun idx => (List.range len).foldl (fun acc c => acc + m2.get [c, idx.getD 0 0] * ((c : Nat) : R)) 0)
    unwrap (intoShape mat (if keep then x.shape.set axis 1 else x.shape.eraseIdx axis))

/-- Models `ArgMax::compute` (src/tensor_ops/reduction_ops.rs:445-452) with `normalize_negative_axis` (src/ndarray_ext.rs:58-64); an axis
below `-ndim` wraps around to a huge number and makes `fold_axis` panic. -/
def argMax [DecidableEq R] [NatCast R] [Zero R] [Add R] [Mul R] [Max R] (bot : R) (x : Arr R) (st : List Int) (axis : Int) (keep : Bool) : Res (Arr R) :=
  if axis < 0 then
    if (x.shape.length : Int) + axis < 0 then .error .panic else argx max bot x st ((x.shape.length : Int) + axis).toNat keep
  else argx max bot x st axis.toNat keep

/-- Models `ArgMin::compute` (src/tensor_ops/reduction_ops.rs:431-438). -/
def argMin [DecidableEq R] [NatCast R] [Zero R] [Add R] [Mul R] [Min R] (top : R) (x : Arr R) (st : List Int) (axis : Int) (keep : Bool) : Res (Arr R) :=
  if axis < 0 then
    if (x.shape.length : Int) + axis < 0 then .error .panic else argx min top x st ((x.shape.length : Int) + axis).toNat keep
  else argx min top x st axis.toNat keep

end Verif.Nd
