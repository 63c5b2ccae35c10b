import Mathlib.Analysis.Calculus.Deriv.Basic
import Verif.Model.Program
import Verif.Spec.ArrayOps
import Verif.Spec.Conv
import Verif.Spec.Elementwise
import Verif.Spec.Layout
import Verif.Spec.Reductions
import Verif.Spec.Scalar
import Verif.Spec.ShapeHint

/-!
# Specification vocabulary for programs of array ops

What it means that the value of a tensor moves along a curve, and at which points a program is differentiable.
-/

namespace Verif.Prog
open Verif Verif.Nd Verif.Spec

/-- The values of a program for given feeds and variables. -/
noncomputable def setting (feeds : List (Feed (Arr ℝ))) (env : List (Arr ℝ)) : Setting POp Unit (Arr ℝ) := ⟨POp.sem, Arr.shape, feeds, env⟩

/-- The array `V u` moves from `v` with velocity `τ` at `u = 0`; its shape stays the same. -/
structure Moves (V : ℝ → Arr ℝ) (v : Arr ℝ) (τ : List Nat → ℝ) : Prop where
  start : V 0 = v
  shape : ∀ u, (V u).shape = v.shape
  deriv : ∀ i, InB i v.shape → HasDerivAt (fun u => (V u).get i) (τ i) 0

/-- Inner product of two arrays of shape `s`. -/
noncomputable def inner (s : List Nat) (a b : List Nat → ℝ) : ℝ := ∑ i ∈ idxs s, a i * b i

/-- The sum of the elements of an array. -/
noncomputable def total (a : Arr ℝ) : ℝ := ∑ i ∈ idxs a.shape, a.get i

/-- The elementwise op is defined and differentiable at all elements of `x`; `pow 0` at zero is excluded, and for the ops whose gradient divides two arrays
`x` must not have one of the shapes `[0]`, `[1]` (C36). For the ops whose gradient has the layout of `x`, this layout must be row- or column-major, unless there are gaps. -/
def ElemOk (op : EOp) (x : Arr ℝ) : Prop :=
  (∀ i, InB i x.shape → op.Defined (x.get i) ∧ DifferentiableAt ℝ op.f (x.get i) ∧ (op = .pow 0 → x.get i ≠ 0)) ∧
    (op.DividesArrays → x.shape ≠ [0] ∧ x.shape ≠ [1]) ∧ (op.KeepsLayout → isDense x.shape x.strides = true → Contig x.shape x.strides)

/-- The tensor is a variable or a placeholder. -/
def IsLeaf (g : Graph POp) (n : Nat) : Prop := ∃ nd, g.nodes[n]? = some nd ∧ (nd.placeholderName ≠ none ∨ nd.variableId ≠ none)

/-- The tensor does not depend on the values of the variables and placeholders `xs` in a way that is differentiated: it is another variable or placeholder, a shape or a
size, a `stop_gradient`, or an op applied to tensors that do not depend on them (in particular a constant). -/
inductive Still (g : Graph POp) (xs : List Nat) : Nat → Prop where
  | leaf {t} : IsLeaf g t → t ∉ xs → Still g xs t
  | shape {t x} : IsApp g t .shape [x] → Still g xs t
  | size {t x} : IsApp g t .size [x] → Still g xs t
  | stop {t x} : IsApp g t .stop [x] → Still g xs t
  | app {t op zs} : IsApp g t op zs → (∀ z ∈ zs, Still g xs z) → Still g xs t

/-- The axis of a softmax is axis `k`, and the memory layout of the sums over it is one that `into_shape` accepts, for all inputs of the same shape (C37). -/
def SoftmaxOk (lay : Arr ℝ → List Int) (axis : Int) (k : Nat) (x : Arr ℝ) : Prop :=
  AxisIs x.shape.length axis k ∧ ∀ a : Arr ℝ, a.shape = x.shape → Contig (x.shape.eraseIdx k) (lay a)

/-- Logits `x` with one row per example, and their labels `t`: natural numbers less than the number of columns (C38). -/
def SparseOk (lay : Arr ℝ → List Int) (x t : Arr ℝ) : Prop :=
  ∃ b c, x.shape = [b, c] ∧ (∀ a : Arr ℝ, a.shape = x.shape → Contig [b] (lay a)) ∧ (t.shape = [b] ∨ t.shape = [b, 1]) ∧
    ∀ i < b, ∃ l : Nat, t.get (if t.shape = [b] then [i] else [i, 0]) = l ∧ l < c

/-- The axes are given as a vector and denote different axes, at least one; the input is not an empty vector (C26). -/
def MeanOk (x axes : Arr ℝ) : Prop :=
  x.shape ≠ [0] ∧ axes.shape.length = 1 ∧ ∃ ks : List Nat, List.Forall₂ (AxisIs x.shape.length) (readAxes axes) ks ∧ ks.Nodup ∧ ks ≠ []

/-- The axes are natural numbers and denote different axes of size 1 (C54). -/
def SqueezeOk (x axes : Arr ℝ) : Prop :=
  ∃ ks : List Nat, readInts axes = ks.map (fun k : Nat => (k : Int)) ∧ ks.Nodup ∧ ∀ k ∈ ks, x.shape[k]? = some 1

/-- The input is a matrix (or has rank below 2) and the axes are a permutation of its axes (C30). -/
def TransposeOk (x axes : Arr ℝ) : Prop := x.shape.length ≤ 2 ∧ ∃ perm, readShape axes = .ok perm ∧ perm.Perm (List.range x.shape.length)

/-- The axis is given by its number, the indices are given by a non-empty vector or column of natural numbers less than the size of the axis (C33). -/
def GatherOk (axis : Int) (indices param : Arr ℝ) : Prop :=
  ∃ k n m : Nat, axis = k ∧ param.shape[k]? = some n ∧ 0 < m ∧ (indices.shape = [m] ∨ indices.shape = [m, 1]) ∧
    ∀ i, InB i indices.shape → ∃ l : Nat, indices.get i = l ∧ l < n

/-- Images and filters with as many channels, none of them empty; the filter fits into the padded image and is moved in steps that divide evenly; sizes below 2^31 (C41). -/
def ConvOk (pad stride dil : Nat) (x w : Arr ℝ) : Prop :=
  ∃ batch xch xh xw ych kh kw, x.shape = [batch, xch, xh, xw] ∧ w.shape = [ych, xch, kh, kw] ∧ (∀ d ∈ x.shape ++ w.shape, 0 < d) ∧ 0 < stride ∧
    (extent kh dil ≤ xh + 2 * pad ∧ xh + 2 * pad < 2 ^ 31 ∧ stride ∣ xh + 2 * pad - extent kh dil) ∧
    (extent kw dil ≤ xw + 2 * pad ∧ xw + 2 * pad < 2 ^ 31 ∧ stride ∣ xw + 2 * pad - extent kw dil)

/-- Images with values above `bot`; no padding, and the windows are moved in steps that divide evenly (C42). Every window has its maximum at one position only, or
all positions where it has its maximum are `flat`. -/
def PoolOk (flat : List Nat → Prop) (bot : ℝ) (k pad stride : Nat) (x : Arr ℝ) : Prop :=
  pad = 0 ∧ 0 < k ∧ 0 < stride ∧ (∀ i, InB i x.shape → bot < x.get i) ∧
    ∃ batch ch xh xw, x.shape = [batch, ch, xh, xw] ∧ (k ≤ xh ∧ xh + k < 2 ^ 63 ∧ stride ∣ xh - k) ∧ (k ≤ xw ∧ xw + k < 2 ^ 63 ∧ stride ∣ xw - k) ∧
      ∀ o q r, InB q x.shape → InB r x.shape → IsArgMax x xh xw k pad stride o q → IsArgMax x xh xw k pad stride o r → q = r ∨ flat q ∧ flat r

/-- Two arrays of the same shape (not empty vectors) that differ everywhere (C51). -/
def ExtremumOk (a b : Arr ℝ) : Prop := a.shape = b.shape ∧ a.shape ≠ [0] ∧ ∀ i, InB i a.shape → a.get i ≠ b.get i

/-- The axes denote different axes, the input is not an empty vector, its elements are above `lim` (or below it, for minima), and among the elements reduced to the
same output there is one that is larger (or smaller) than all others (C26, C49). -/
def ReduceExtOk (mx : Bool) (lim : ℝ) (keep : Bool) (x axes : Arr ℝ) : Prop :=
  x.shape ≠ [0] ∧ (∀ i, InB i x.shape → if mx then lim < x.get i else x.get i < lim) ∧
    ∃ ks : List Nat, List.Forall₂ (AxisIs x.shape.length) (readAxes axes) ks ∧ ks.Nodup ∧
      ∀ i, InB i (reducedShape ks keep x.shape) → ∃ o ∈ fibre ks keep x.shape i, ∀ q ∈ fibre ks keep x.shape i, q ≠ o →
        if mx then x.get q < x.get o else x.get o < x.get q

/-- The tensor is the result of an elementwise op whose derivative is zero at the element with index `i`. -/
def Flat (g : Graph POp) (p : Nat → Arr ℝ) (t : Nat) (i : List Nat) : Prop := ∃ op x, IsApp g t (.un op) [x] ∧ HasDerivAt op.f 0 ((p x).get i)

/-- What is required of a call in a program, when the tensors have the values `p` and are differentiated with respect to tensors on which those
in `still` do not depend; `flat a i` means that element `i` of `a` has derivative zero. The operands of arithmetic ops
are `Inferable`, the inputs of `add_n` have the same shape (C53), and the first dimension of a placeholder is unknown, or all its dimensions are known (C43).
Inputs that are to be `still` do not depend on the differentiated tensors. If a call depends on them:
* a divisor has no zeros and not the shape `[1]` (C25);
* elementwise ops: `ElemOk`;
* `reduce_sum`: the axes are `still` and denote different axes, and the input is not an empty vector (C26);
* `reduce_mean`: `MeanOk`, and the axes are `still`;
* `softmax`: `SoftmaxOk`; `log_softmax`: `SoftmaxOk` with axis 1 (C37);
* `sigmoid_cross_entropy`: the shape is not one of `[0]`, `[1]`, and the labels are `still` (C38);
* `sparse_softmax_cross_entropy`: `SparseOk`, and the labels are `still` (C38);
* `slice`: the bounds lie inside the input (C31); `squeeze`: `SqueezeOk`, and the axes are `still`; `reshape`: the target shape fits (C29) and is
  `still`; `gather`: `GatherOk`, and the indices are `still`; `transpose`: `TransposeOk`, and the axes are `still`;
* `conv2d`: `ConvOk`; `max_pool2d`: `PoolOk`; `dropout`: it is used for training (C56);
* `maximum`, `minimum`: `ExtremumOk`; `reduce_max`, `reduce_min`: `ReduceExtOk`, and the axes are `still`.
The inputs of `expand_dims`, `argmax`, the comparisons and `stop_gradient` are `still` (for `stop_gradient` of tensors that move see C76).
The shapes of `zeros` and `ones` are `still`. -/
def StmtOk (still : Nat → Prop) (flat : Nat → List Nat → Prop) (p : Nat → Arr ℝ) : Stmt → Prop
  | .placeholder _ s => s.head? = some (-1) ∨ ∀ d ∈ s, d ≠ -1
  | .add a b => Inferable (p a).shape (p b).shape
  | .sub a b => Inferable (p a).shape (p b).shape
  | .mul a b => Inferable (p a).shape (p b).shape
  | .div a b => Inferable (p a).shape (p b).shape ∧
      (still a ∧ still b ∨ (p b).shape ≠ [1] ∧ ∀ i, InB i (p b).shape → (p b).get i ≠ 0)
  | .un op x => still x ∨ ElemOk op (p x)
  | .reduceSum x axes _ => still axes ∧ (still x ∨ (p x).shape ≠ [0] ∧
      ∃ ks : List Nat, List.Forall₂ (AxisIs (p x).shape.length) (readAxes (p axes)) ks ∧ ks.Nodup)
  | .addN x y zs => ∀ z ∈ y :: zs, (p z).shape = (p x).shape
  | .reduceMean x axes _ => still axes ∧ (still x ∨ MeanOk (p x) (p axes))
  | .softmax _ lay x axis => still x ∨ ∃ k, SoftmaxOk lay axis k (p x)
  | .logSoftmax _ lay x axis => still x ∨ SoftmaxOk lay axis 1 (p x)
  | .sigmoidCE x t => still t ∧ (still x ∨ (p x).shape ≠ [0] ∧ (p x).shape ≠ [1])
  | .sparseCE _ lay x t => still t ∧ (still x ∨ SparseOk lay (p x) (p t))
  | .zeros s => still s
  | .ones s => still s
  | .slice x starts stops => still x ∨ ∃ los his, AllBounds (p x).shape starts stops los his
  | .squeeze x axes => still axes ∧ (still x ∨ SqueezeOk (p x) (p axes))
  | .reshape x s => still s ∧ (still x ∨ ∃ t, ReshapesTo (p x).shape (readDims (p s)) t)
  | .gather _ i x axis => still i ∧ (still x ∨ GatherOk axis (p i) (p x))
  | .expandDims x axes => still x ∧ still axes
  | .conv2d pad stride dil x w => still x ∧ still w ∨ ConvOk pad stride dil (p x) (p w)
  | .maxPool bot k pad stride x => still x ∨ PoolOk (flat x) bot k pad stride (p x)
  | .dropout train _ _ x => still x ∨ train = true
  | .argMax _ _ x _ _ => still x
  | .cmp _ a b => still a ∧ still b
  | .transpose x axes => still axes ∧ (still x ∨ TransposeOk (p x) (p axes))
  | .extremum _ a b => still a ∧ still b ∨ ExtremumOk (p a) (p b)
  | .reduceExt mx lim x axes keep => still axes ∧ (still x ∨ ReduceExtOk mx lim keep (p x) (p axes))
  | .stopGradient x => still x
  | _ => True

/-- What is required of a call so that `grad` does not miss a gradient: the axes of a reduction or of `squeeze`, the arguments of `sign`, `zeros` and
`ones`, the target of `reshape`, the axes of `transpose`, the indices of `gather` and the inputs of `expand_dims`, `argmax` and the comparisons, for which the ops report no gradient, are `still` (`expand_dims` reports one for the array). -/
def GradGivenFor (still : Nat → Prop) : Stmt → Prop
  | .un .sign x => still x
  | .reduceSum _ axes _ => still axes
  | .reduceMean _ axes _ => still axes
  | .zeros s => still s
  | .ones s => still s
  | .squeeze _ axes => still axes
  | .reshape _ s => still s
  | .gather _ i _ _ => still i
  | .expandDims _ axes => still axes
  | .argMax _ _ x _ _ => still x
  | .cmp _ a b => still a ∧ still b
  | .transpose _ axes => still axes
  | .reduceExt _ _ _ axes _ => still axes
  | _ => True

/-- The array with `u` added to the element at index `i`. -/
noncomputable def nudge (a : Arr ℝ) (i : List Nat) (u : ℝ) : Arr ℝ := ⟨a.shape, a.strides, fun j => if j = i then a.get j + u else a.get j⟩

/-- The tensor is the variable `vid`. -/
def IsVariable (g : Graph POp) (n vid : Nat) : Prop := ∃ nd, g.nodes[n]? = some nd ∧ nd.variableId = some vid

end Verif.Prog
