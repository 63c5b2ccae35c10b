import Mathlib.Algebra.Order.Floor.Ring
import Mathlib.Algebra.Order.Archimedean.Real.Basic
import Verif.Model.ArgMax
import Verif.Model.ArrayOps
import Verif.Model.Conv
import Verif.Model.CrossEntropy
import Verif.Model.Elementwise
import Verif.Model.Eval
import Verif.Model.Gradient
import Verif.Model.MatMul
import Verif.Model.Optimizers
import Verif.Model.ShapeHint

/-!
# Programs of array ops: constructors, `compute` and `grad` together

Puts the models of the constructors (`Model.ShapeHint`), of the array functions (`Model.BinaryOps`, `Model.Elementwise`, `Model.MatMul`,
`Model.Reductions`, ...) and of back-propagation (`Model.Gradient`) together: a program is a list of calls of `tensor_ops` functions, `POp.opGrad` builds
the same tensors as the `grad` functions of the ops. Numbers are real numbers.
-/

namespace Verif.Prog
open Verif Verif.Graph Verif.Nd Verif.Hint Verif.Gradient

/-- The ops that update variables, with their hyper-parameters (src/tensor_ops/gradient_descent_ops/sgd.rs:3-11 and 23-27, adagrad.rs:3-6, adam.rs:3-8).
Constructors of array programs do not make them, see `Model.TrainLoop`. -/
inductive UOp where
  | sgd (alpha : ℝ)
  | momentum (lr mu : ℝ)
  | adagrad (lr : ℝ)
  | adam (c : Opt.AdamCfg ℝ)

/-- The comparison ops `Equal`, `NotEqual`, `Greater`, `Lesser`, `GreaterEqual` and `LesserEqual` (src/tensor_ops/math_ops.rs:177-182). -/
inductive Cmp where
  | eq | ne | gt | lt | ge | le

/-- The ops. `const a` is `ConvertToTensor` (src/tensor_ops/const_gen_ops.rs:83-93), `un` an elementwise op, `reduceGrad` is `ReduceGradCommon`, `sumAll` and
`sumAllGrad` are `ReduceSumToScalar` and `ReduceSumToScalarGrad`, `ident` is `Identity`, `maybeReduce` and `maybeBroadcast` are `MaybeReduceSum` and `MaybeBroadcast`. `bot` is `T::min_value()`; `lay` is the memory layout that `sum_axis` of
ndarray gives to the row sums for an input (for `argMax` the layout of the copy of the input), an arbitrary function. `conv2d`, `convT` and `convFilterGrad` are `Conv2D`, `Conv2DTranspose` and
`Conv2DFilterGrad`; `maxPool` and `maxPoolGrad` are `MaxPool2D` and `MaxPool2DGrad`; `dropout` holds the mask that its generator draws in the evaluation, an arbitrary
function of the shape of the input (the op is computed once in an evaluation). `index` and `indexGrad` are `IndexOp` and `IndexOpGrad`, `concat` is `Concat`, where `lay` is the
memory layout that `concatenate` of ndarray gives to its result, an arbitrary function; see Model/Jacobian. `extremum` is `Maximum` or `Minimum` and `reduceExt` is `ReduceMax` or `ReduceMin`, where `lim` is `T::min_value()` or `T::max_value()`. `stop` is `StopGradient`
(src/tensor_ops/gradient_ops.rs:4-16). -/
inductive POp where
  | var | placeholder
  | const (a : Arr ℝ)
  | scalar (c : ℝ)
  | zeros | shape | size | infer | addN
  | add | sub | mul | div
  | un (op : EOp)
  | cmp (c : Cmp)
  | eluGrad (alpha : ℝ)
  | clipGrad (lo hi : ℝ)
  | maybeReduce | maybeBroadcast
  | matMul (ta tb : Bool)
  | sumAll | sumAllGrad
  | reduceSum (keep : Bool)
  | reduceGrad (makeDims : Bool)
  | reduceMean (keep : Bool)
  | reduceProd (keep : Bool)
  | gather (normalize : Bool) (axis : Int)
  | ident
  | softmax (bot : ℝ) (lay : Arr ℝ → List Int) (axis : Int)
  | logSoftmax (bot : ℝ) (lay : Arr ℝ → List Int) (axis : Int)
  | sigmoidCE
  | sparseCE (bot : ℝ) (lay : Arr ℝ → List Int)
  | sparseCEGrad
  | ones
  | slice (starts stops : List Int)
  | sliceGrad (starts stops : List Int)
  | squeeze | expandDims | reshape
  | gatherGrad (axis : Int)
  | conv2d (pad stride dil : Nat)
  | convT (pad stride dil : Nat)
  | convFilterGrad (pad stride dil : Nat)
  | maxPool (bot : ℝ) (k pad stride : Nat)
  | maxPoolGrad (k pad stride : Nat)
  | dropout (train : Bool) (ratio : ℝ) (mask : List Nat → List Nat → ℝ)
  | argMax (bot : ℝ) (lay : Arr ℝ → List Int) (axis : Int) (keep : Bool)
  | index (i : Int)
  | indexGrad (i : Int)
  | concat (lay : List (Arr ℝ) → List Int) (axis : Int)
  | transpose (invert : Bool)
  | extremum (mx : Bool)
  | reduceExt (mx : Bool) (lim : ℝ) (keep : Bool)
  | stop
  | upd (u : UOp)

/-- The array holding a list of numbers, and a shape as an array of numbers (`shape_of_view`, src/ndarray_ext.rs:125-134). -/
noncomputable def vec (l : List ℝ) : Arr ℝ := ofFn [l.length] (fun i => l.getD (i.getD 0 0) 0)
/-- The shape vector of a shape (as above). -/
noncomputable def encShape (s : List Nat) : Arr ℝ := vec (s.map (fun n : Nat => (n : ℝ)))

/-- `ndarray_ext::as_shape` (src/ndarray_ext.rs:28-31): `to_usize().unwrap()` of every element truncates, and panics for numbers up to -1. -/
noncomputable def readShape (a : Arr ℝ) : Res (List Nat) :=
  if ∃ r ∈ toList a, r ≤ -1 then .error .panic else .ok ((toList a).map (fun r => ⌊r⌋₊))

/-- The axes given to a reduction, as integers (`normalize_negative_axes`, src/ndarray_ext.rs:64-78, truncates after adding the rank). -/
noncomputable def readAxes (a : Arr ℝ) : List Int := (toList a).map (fun r => ⌊r⌋)

/-- The indices given to `Gather` with negative indices allowed, as integers (as above). -/
noncomputable def ints (a : Arr ℝ) : Arr Int := ⟨a.shape, a.strides, fun i => ⌊a.get i⌋⟩

/-- `to_isize` of a float: truncation towards zero. -/
noncomputable def trunc (r : ℝ) : Int := if r < 0 then ⌈r⌉ else ⌊r⌋

/-- The indices given to `GatherGrad`, and to `Gather` with negative indices not allowed, as integers (`to_isize`, src/tensor_ops/array_ops.rs:436, and `to_usize`,
376-378). -/
noncomputable def truncs (a : Arr ℝ) : Arr Int := ⟨a.shape, a.strides, fun i => trunc (a.get i)⟩

/-- The axes given to `Squeeze` and `ExpandDims`, as integers (`to_isize`, src/tensor_ops/array_ops.rs:829-833, 859-863). -/
noncomputable def readInts (a : Arr ℝ) : List Int := (toList a).map trunc

/-- An entry of the target shape of `Reshape` (src/tensor_ops/array_ops.rs:187-196): the code compares it with -1 and otherwise truncates it by `to_usize`, which
panics for numbers up to -1. The product of the entries is taken here after truncation, which agrees with the code for integers. -/
noncomputable def readDim (r : ℝ) : Int := if r = -1 then -1 else if r ≤ -1 then -2 else ⌊r⌋₊

/-- The target shape of `Reshape` (as above). -/
noncomputable def readDims (a : Arr ℝ) : List Int := (toList a).map readDim

/-- An array copied to row-major memory. `MatMul` is computed on such copies; the layout of its arguments does not change the product (C39). -/
def toView (a : Arr ℝ) : View ℝ := ⟨a.shape, cStrides a.shape, fun o => a.get (unflat a.shape o.toNat)⟩

/-- The positions given to `MaxPool2DGrad`, which are stored as floats (src/tensor_ops/conv_ops/max_pool2d.rs:125-128). -/
noncomputable def nats (a : Arr ℝ) : Arr Nat := ⟨a.shape, a.strides, fun i => ⌊a.get i⌋₊⟩

/-- `Transpose::compute` (src/tensor_ops/math_ops.rs:427-454), with the axes as an array: the number of axes is checked first, then each is read by `to_usize().unwrap()` as
in `as_shape`. -/
noncomputable def transposeBy (invert : Bool) (x perm : Arr ℝ) : Res (Arr ℝ) :=
  if x.shape.length ≠ (toList perm).length then .error .opError
  else do
    let dims ← readShape perm
    Nd.transpose x dims invert

/-- Undefined behaviour (`none`) is taken as a panic in programs. -/
def defined : Res (Option (Arr ℝ)) → Res (Arr ℝ)
  | .ok (some y) => .ok y
  | .ok none => .error .panic
  | .error e => .error e

/-- The functions of the comparison ops (`equal_fn` to `lesser_equal_fn`, src/tensor_ops/math_ops.rs:52-75), on real numbers. -/
noncomputable def cmpFn : Cmp → ℝ → ℝ → ℝ
  | .eq => equalFn
  | .ne => fun a b => if a ≠ b then 1 else 0
  | .gt => greaterFn
  | .lt => fun a b => if a < b then 1 else 0
  | .ge => fun a b => if a ≥ b then 1 else 0
  | .le => fun a b => if a ≤ b then 1 else 0

/-- The function of `Maximum` (if `mx`) and `Minimum` (src/tensor_ops/math_ops.rs:75-84), also used by the reductions. -/
noncomputable def extFn (mx : Bool) : ℝ → ℝ → ℝ := if mx then max else min

/-- `compute` of `ReduceMax` (if `mx`) and `ReduceMin` (src/tensor_ops/reduction_ops.rs:276-290, 305-319). -/
noncomputable def reduceExtOp (mx : Bool) (lim : ℝ) (x : Arr ℝ) (axes : List Int) (keep : Bool) : Res (Arr ℝ) :=
  if mx then Nd.reduceMax lim x axes keep else Nd.reduceMin lim x axes keep

/-- `compute` of the ops; lines as for the functions called. `Shape` src/tensor_ops/array_ops.rs:144-150, `Size` 170-176, `InferBinOpShape` 105-137
(the inputs are shape vectors), `Zeros` and `Ones` src/tensor_ops/const_gen_ops.rs:27-75, `Dropout` src/tensor_ops/random_ops.rs:225-238, `Scalar` 16-25, `Identity` src/tensor_ops/activation_ops.rs:169-175. The first
output of ops with several outputs. Wrong numbers of inputs cannot occur and are reported as a
panic; `compute` of variables and placeholders is `unreachable!` (src/tensor_ops/basic_source_ops.rs). The ops that write to variables are no
functions of arrays and have no value here. -/
noncomputable def POp.run : POp → List (Arr ℝ) → Res (Arr ℝ)
  | const a, [] => .ok a
  | scalar c, [] => .ok (ofFn [] (fun _ => c))
  | zeros, [s] => do let t ← readShape s; .ok (ofFn t (fun _ => 0))
  | shape, [x] => .ok (encShape x.shape)
  | size, [x] => .ok (ofFn [] (fun _ => (Nd.size x.shape : ℝ)))
  | infer, [a, b] => do let s ← readShape a; let t ← readShape b; let r ← inferBinOpShape s t; .ok (encShape r)
  | addN, xs => Nd.addN xs
  | add, [a, b] => addOp a b
  | sub, [a, b] => subOp a b
  | mul, [a, b] => mulOp a b
  | div, [a, b] => divOp a b
  | un op, [x] => .ok (op.compute x)
  | cmp c, [a, b] => cmpOp (cmpFn c) a b
  | eluGrad alpha, [a, b] => eluGradOp alpha a b
  | clipGrad lo hi, [a, b] => clipGradOp lo hi a b
  | maybeReduce, [x, s] => do let t ← readShape s; Nd.maybeReduce x t
  | maybeBroadcast, [x, s] => do let t ← readShape s; Nd.maybeBroadcast x t
  | matMul ta tb, [a, b] => Nd.matMul ta tb (toView a) (toView b)
  | sumAll, [x] => .ok (Nd.sumAll x)
  | sumAllGrad, [gy, s] => do let t ← readShape s; .ok (Nd.sumAllGrad t gy)
  | reduceSum keep, [x, axes] => Nd.reduceSum x (readAxes axes) keep
  | reduceGrad makeDims, [gy, s, axes] => do let t ← readShape s; reduceGradCommon gy t (readAxes axes) makeDims
  | reduceMean keep, [x, axes] => Nd.reduceMean x (readAxes axes) keep
  | reduceProd keep, [x, axes] => Nd.reduceProd x (readAxes axes) keep
  | gather normalize axis, [indices, param] => Nd.gather normalize param (if normalize then ints indices else truncs indices) axis
  | ident, [x] => .ok x
  | softmax bot lay axis, [x] => softmaxImpl bot (lay x) x axis
  | logSoftmax bot lay axis, [x] => Nd.logSoftmax bot (lay x) x axis
  | sigmoidCE, [x, t] => Nd.sigmoidCE x t
  | sparseCE bot lay, [x, t] => do let r ← Nd.sparseCE bot (lay x) x t; .ok r.1
  | sparseCEGrad, [logx, t, gy] => sparseCEGradX logx t gy
  | ones, [s] => do let t ← readShape s; .ok (ofFn t (fun _ => 1))
  | slice starts stops, [x] => Nd.slice x starts stops
  | sliceGrad starts stops, [x, gy] => sliceGradOp x.shape starts stops gy
  | squeeze, [x, axes] => Nd.squeeze x (readInts axes)
  | expandDims, [x, axes] => expandDimsOp x (readInts axes)
  | reshape, [x, s] => Nd.reshape x (readDims s)
  | gatherGrad axis, [indices, param, gy] => Nd.gatherGrad param.shape (truncs indices) axis gy
  | conv2d pad stride dil, [x, w] => do let r ← Nd.conv2d x w pad stride dil; .ok r.1
  | convT pad stride dil, [gy, w] => defined (conv2dTranspose false gy w pad stride dil)
  | convFilterGrad _ _ _, [cols, gy, w] => defined (Nd.convFilterGrad cols gy w)
  | maxPool bot k pad stride, [x] => do let r ← Nd.maxPool false bot x k pad stride; .ok r.1
  | maxPoolGrad k pad stride, [gy, ind] => defined (Nd.maxPoolGrad false gy (nats ind) k pad stride)
  | dropout train ratio mask, [x] =>
    if train then zipOp (· * ·) (ofFn x.shape (mask x.shape)) x else .ok (Nd.map (fun a => a * (1 - ratio)) x)
  | argMax bot lay axis keep, [x] => Nd.argMax bot x (lay x) axis keep
  | index i, [x] => accessElem x i
  | indexGrad i, [x, gy] => accessElemGrad x.shape i gy
  | concat lay axis, xs => Nd.concat (lay xs) xs axis
  | transpose invert, [x, perm] => transposeBy invert x perm
  | extremum mx, [a, b] => cmpOp (extFn mx) a b
  | reduceExt mx lim keep, [x, axes] => reduceExtOp mx lim x (readAxes axes) keep
  | stop, [x] => .ok x
  | _, _ => .error .panic

/-- The outputs after the first one (src/tensor_ops/xent_ops.rs:109-111, src/tensor_ops/conv_ops/conv2d.rs:547-550, src/tensor_ops/conv_ops/max_pool2d.rs:221-224,
src/tensor_ops/random_ops.rs:232). -/
noncomputable def POp.extra : POp → List (Arr ℝ) → List (Arr ℝ)
  | sparseCE bot lay, [x, t] => match Nd.sparseCE bot (lay x) x t with
    | .ok r => [r.2]
    | .error _ => []
  | conv2d pad stride dil, [x, w] => match Nd.conv2d x w pad stride dil with
    | .ok r => [r.2]
    | .error _ => []
  | maxPool bot k pad stride, [x] => match Nd.maxPool false bot x k pad stride with
    | .ok r => [⟨r.2.shape, r.2.strides, fun i => (r.2.get i : ℝ)⟩]
    | .error _ => []
  | dropout train _ mask, [x] => if train then [ofFn x.shape (mask x.shape)] else []
  | _, _ => []

/-- `run` in the form used by the model of evaluation: `none` is a panic. -/
noncomputable def POp.sem (op : POp) (xs : List (OpInput (Arr ℝ))) : Option (Except Unit (List (Arr ℝ))) :=
  match op.run (xs.map OpInput.val) with
  | .ok y => some (.ok (y :: op.extra (xs.map OpInput.val)))
  | .error .panic => none
  | .error .opError => some (.error ())

/-- The ops for the model of the evaluator, in a release build; no writes to variables. -/
noncomputable def progSem : Sem POp (Arr ℝ) Unit Unit where
  compute := fun op w xs => match op.run (xs.map OpInput.val) with
    | .ok y => .done w [] (y :: op.extra (xs.map OpInput.val)) (.ok ())
    | .error .panic => .panic
    | .error .opError => .done w [] [] (.error ())
  shapeOf := Arr.shape
  debug := false

/-- The ops used by constructors. Constants given as integers are shape vectors; `ctrlOp` is not used by the programs here. -/
noncomputable def hintOps : HintOps POp where
  ctrlOp := .addN
  varOp := .var
  phOp := .placeholder
  constOp := fun s => .const (vec (s.map (fun n : Int => (n : ℝ))))
  shapeOp := .shape
  inferOp := .infer

/-- Calls of functions of `tensor_ops`. Tensors are given by their ids; `axes` is a tensor too. -/
inductive Stmt where
  | var (vid : Nat)
  | placeholder (name : String) (s : List Int)
  | const (a : Arr ℝ)
  | scalar (c : ℝ)
  | add (a b : Nat) | sub (a b : Nat) | mul (a b : Nat) | div (a b : Nat)
  | un (op : EOp) (x : Nat)
  | matmul (a b : Nat)
  | sumAll (x : Nat)
  | reduceSum (x axes : Nat) (keep : Bool)
  | addN (x y : Nat) (zs : List Nat)
  | shapeOf (x : Nat)
  | sizeOf (x : Nat)
  | reduceMean (x axes : Nat) (keep : Bool)
  | softmax (bot : ℝ) (lay : Arr ℝ → List Int) (x : Nat) (axis : Int)
  | logSoftmax (bot : ℝ) (lay : Arr ℝ → List Int) (x : Nat) (axis : Int)
  | sigmoidCE (x t : Nat)
  | sparseCE (bot : ℝ) (lay : Arr ℝ → List Int) (x t : Nat)
  | zeros (s : Nat)
  | ones (s : Nat)
  | ident (x : Nat)
  | slice (x : Nat) (starts stops : List Int)
  | squeeze (x axes : Nat)
  | reshape (x s : Nat)
  | gather (normalize : Bool) (indices param : Nat) (axis : Int)
  | expandDims (x axes : Nat)
  | conv2d (pad stride dil : Nat) (x w : Nat)
  | maxPool (bot : ℝ) (k pad stride : Nat) (x : Nat)
  | dropout (train : Bool) (ratio : ℝ) (mask : List Nat → List Nat → ℝ) (x : Nat)
  | argMax (bot : ℝ) (lay : Arr ℝ → List Int) (x : Nat) (axis : Int) (keep : Bool)
  | cmp (c : Cmp) (a b : Nat)
  | transpose (x axes : Nat)
  | hook (x : Nat)
  | extremum (mx : Bool) (a b : Nat)
  | reduceExt (mx : Bool) (lim : ℝ) (x axes : Nat) (keep : Bool)
  | stopGradient (x : Nat)

/-- First output of a tensor as an input. -/
abbrev inp (x : Nat) : Incoming := { id := x }

/-- The constructor of an elementwise op: all record the shape of the input except `neg` and `clip` (lines as for `Ctor.like`; `clip`
src/tensor_ops/mod.rs:1061-1075, `neg` 1457-1464). -/
def unCtor (op : EOp) (x : Nat) : Ctor POp :=
  match op with
  | .neg => .plain (.un .neg) [inp x]
  | .clip lo hi => .plain (.un (.clip lo hi)) [inp x]
  | op => .like (.un op) [inp x] x

/-- What the functions construct: src/tensor_ops/mod.rs:569-651 (arithmetic), 831-847 (`add_n`; with at least two inputs), 266-330 (`shape`, `size`),
1149-1158 (`sum_all`), 1194-1240 (`reduce_sum`), 1870-1880 (`matmul`), 2387-2423 (constants), 2690-2718 (`zeros`, `ones`), 557-567 (`identity`),
2171-2197 (`slice`; it panics for lists of different lengths, here the evaluation panics), 1006-1017 (`squeeze`), 1319-1330 (`reshape`), 2252-2305
(`gather_common`, which allows negative indices, and `gather`), 979-991 (`expand_dims`), 2733-2790 (`conv2d`, `dilated_conv2d`), 2869-2887 (`max_pool2d`), 2895-2930
(`dropout`), 955-963 (`argmax`), 868-879, 900-911, 1585-1647 (`equal`, `not_equal`, `greater`, `greater_equal`, `lesser`, `lesser_equal`), 2074-2086 (`transpose`), 772-810 (`maximum`, `minimum`), 1087-1134 (`reduce_max`, `reduce_min`), 242-253 (`stop_gradient`), src/tensor.rs:198-202 (`register_hook`; `HookOp`, src/tensor_ops/hook_ops.rs:20-31, calls the hook and
otherwise computes and differentiates as `Identity`; for the calls of hooks see Model/Hooks). -/
def Stmt.ctor : Stmt → Ctor POp
  | var vid => .var vid
  | placeholder name s => .placeholder name s
  | const a => .const (a.shape.map (fun n : Nat => (n : Int))) (.const a)
  | scalar c => .scalar (.scalar c)
  | add a b => .binary .add a b
  | sub a b => .binary .sub a b
  | mul a b => .binary .mul a b
  | div a b => .binary .div a b
  | un op x => unCtor op x
  | matmul a b => .plain (.matMul false false) [inp a, inp b]
  | sumAll x => .plain .sumAll [inp x]
  | reduceSum x axes keep => .plain (.reduceSum keep) [inp x, inp axes]
  | addN x y zs => .like .addN ((x :: y :: zs).map inp) x
  | shapeOf x => .shapeOf x
  | sizeOf x => .fixed .size [inp x]
  | reduceMean x axes keep => .plain (.reduceMean keep) [inp x, inp axes]
  | softmax bot lay x axis => .plain (.softmax bot lay axis) [inp x]
  | logSoftmax bot lay x axis => .like (.logSoftmax bot lay axis) [inp x] x
  | sigmoidCE x t => .like .sigmoidCE [inp x, inp t] x
  | sparseCE bot lay x t => .plain (.sparseCE bot lay) [inp x, inp t]
  | zeros s => .plain .zeros [inp s]
  | ones s => .plain .ones [inp s]
  | ident x => .like .ident [inp x] x
  | slice x starts stops => .plain (.slice starts stops) [inp x]
  | squeeze x axes => .plain .squeeze [inp x, inp axes]
  | reshape x s => .plain .reshape [inp x, inp s]
  | gather normalize indices param axis => .plain (.gather normalize axis) [inp indices, inp param]
  | expandDims x axes => .plain .expandDims [inp x, inp axes]
  | conv2d pad stride dil x w => .plain (.conv2d pad stride dil) [inp x, inp w]
  | maxPool bot k pad stride x => .plain (.maxPool bot k pad stride) [inp x]
  | dropout train ratio mask x => .plain (.dropout train ratio mask) [inp x]
  | argMax bot lay x axis keep => .plain (.argMax bot lay axis keep) [inp x]
  | cmp c a b => .plain (.cmp c) [inp a, inp b]
  | transpose x axes => .plain (.transpose false) [inp x, inp axes]
  | hook x => .plain .ident [inp x]
  | extremum mx a b => .plain (.extremum mx) [inp a, inp b]
  | reduceExt mx lim x axes keep => .plain (.reduceExt mx lim keep) [inp x, inp axes]
  | stopGradient x => .fixed .stop [inp x]

/-- Executes a program on an empty graph. -/
noncomputable def runProgram (l : List Stmt) : Except Panic (Graph POp × List Nat) :=
  constructAll hintOps Graph.empty (l.map Stmt.ctor)

/-! ## Gradients -/

/-- `construct` as part of a gradient function. -/
noncomputable def mk (g : Graph POp) (c : Ctor POp) : Except GPanic (Graph POp × Nat) := lift (construct hintOps g c)

/-- `shape(x)` as part of a gradient function. -/
noncomputable def mkShape (g : Graph POp) (x : Nat) : Except GPanic (Graph POp × Nat) := lift (Hint.shape hintOps g x)

/-- `maybe_reduce` (src/tensor_ops/binary_ops.rs:291-302). -/
def reduceTo (x s : Nat) : Ctor POp := .sized .maybeReduce [inp x, inp s] s

/-- Builds the tensors of a gradient expression (`EOp.grad`). Rust builds operands from left to right, which is followed. `greater` records no shape
(src/tensor_ops/mod.rs); `ELUGrad` and `ClipGrad` record that of `gy` (src/tensor_ops/activation_ops.rs:196-204, src/tensor_ops/array_ops.rs:544-556). -/
noncomputable def buildE (x y gy : Nat) : EExp → Graph POp → Except GPanic (Graph POp × Nat)
  | .x, g => .ok (g, x)
  | .y, g => .ok (g, y)
  | .gy, g => .ok (g, gy)
  | .const c, g => mk g (.scalar (.scalar c))
  | .app op e, g => do
    let (g1, a) ← buildE x y gy e g
    mk g1 (unCtor op a)
  | .add a b, g => do
    let (g1, u) ← buildE x y gy a g
    let (g2, v) ← buildE x y gy b g1
    mk g2 (.binary .add u v)
  | .sub a b, g => do
    let (g1, u) ← buildE x y gy a g
    let (g2, v) ← buildE x y gy b g1
    mk g2 (.binary .sub u v)
  | .mul a b, g => do
    let (g1, u) ← buildE x y gy a g
    let (g2, v) ← buildE x y gy b g1
    mk g2 (.binary .mul u v)
  | .div a b, g => do
    let (g1, u) ← buildE x y gy a g
    let (g2, v) ← buildE x y gy b g1
    mk g2 (.binary .div u v)
  | .greater a b, g => do
    let (g1, u) ← buildE x y gy a g
    let (g2, v) ← buildE x y gy b g1
    mk g2 (.plain (.cmp .gt) [inp u, inp v])
  | .eluGrad alpha a b, g => do
    let (g1, u) ← buildE x y gy a g
    let (g2, v) ← buildE x y gy b g1
    mk g2 (.like (.eluGrad alpha) [inp u, inp v] v)
  | .clipGrad lo hi a b, g => do
    let (g1, u) ← buildE x y gy a g
    let (g2, v) ← buildE x y gy b g1
    mk g2 (.like (.clipGrad lo hi) [inp u, inp v] v)

/-- A tensor in a gradient function: input `k`, the output, its gradient, or tensor `k` built before. -/
inductive Ref where
  | x (k : Nat) | y | gy | t (k : Nat)

/-- One tensor built by a gradient function. -/
inductive Cmd where
  | shape (a : Ref)
  | bin (op : POp) (a b : Ref)
  | plain (op : POp) (as : List Ref)
  | like (op : POp) (as : List Ref) (a : Ref)
  | un (op : EOp) (a : Ref)
  | scalar (c : ℝ)
  | vec (l : List ℝ)
  | nth (a : Ref) (n : Nat)
  | withBp (op : POp) (as bps : List Ref)

/-- The id of a tensor in a gradient function; `ts` were built before. -/
def Ref.id (xs : List Nat) (y gy : Nat) (ts : List Nat) : Ref → Nat
  | .x k => xs.getD k 0
  | .y => y
  | .gy => gy
  | .t k => ts.getD k 0

/-- Builds one tensor: the calls of `shape`, of an arithmetic op, of a builder without `set_shape`, of a builder with `set_shape(&shape(a))`, of an elementwise op, of `scalar`, the conversion of a slice to a
tensor (`AsTensor`, by `convert_to_tensor`, src/tensor_ops/mod.rs:2387-2402) `nth_tensor` (src/tensor_ops/mod.rs:545-554) and a builder with other inputs for back-propagation (`append_backprop_input`, src/tensor.rs:745-765). -/
noncomputable def Cmd.build (ρ : Ref → Nat) (g : Graph POp) : Cmd → Except GPanic (Graph POp × Nat)
  | .shape a => mkShape g (ρ a)
  | .bin op a b => mk g (.binary op (ρ a) (ρ b))
  | .plain op as => mk g (.plain op (as.map (fun a => inp (ρ a))))
  | .like op as a => mk g (.like op (as.map (fun a => inp (ρ a))) (ρ a))
  | .un op a => mk g (unCtor op (ρ a))
  | .scalar c => mk g (.scalar (.scalar c))
  | .vec l => mk g (.const [(l.length : Int)] (.const (Prog.vec l)))
  | .nth a n => mk g (.plain .ident [{ id := ρ a, selector := n }])
  | .withBp op as bps => lift (g.build { inNodes := as.map (fun a => inp (ρ a)), backpropInputs := some (bps.map (fun a => inp (ρ a))) } op)

/-- Builds tensors one after the other, given those built before; returns the ids of all of them. -/
noncomputable def runCmds (xs : List Nat) (y gy : Nat) : List Cmd → List Nat → Graph POp → Except GPanic (Graph POp × List Nat)
  | [], ts, g => .ok (g, ts)
  | c :: cs, ts, g => do
    let (g1, t) ← c.build (Ref.id xs y gy ts) g
    runCmds xs y gy cs (ts ++ [t]) g1

/-- A gradient function that builds the given tensors and reports some of them. -/
noncomputable def gradCmds (xs : List Nat) (y gy : Nat) (cs : List Cmd) (out : List (Option Ref)) (g : Graph POp) :
    Except GPanic (Graph POp × List (Option Nat)) := do
  let (g1, ts) ← runCmds xs y gy cs [] g
  .ok (g1, out.map (Option.map (Ref.id xs y gy ts)))

/-- `ReduceMean::grad` (src/tensor_ops/reduction_ops.rs:217-238). -/
def meanCmds (keep : Bool) : List Cmd :=
  [.shape (.x 0), .plain (.reduceGrad (!keep)) [.gy, .t 0, .x 1], .shape (.x 0), .plain (.gather true 0) [.x 1, .t 2], .vec [0],
    .plain (.reduceProd false) [.t 3, .t 4], .bin .div (.t 1) (.t 5)]

/-- `Softmax::grad` (src/tensor_ops/activation_ops.rs:105-110). -/
noncomputable def softmaxCmds (axis : Int) : List Cmd :=
  [.bin .mul .y .gy, .vec [(axis : ℝ)], .plain (.reduceSum true) [.t 0, .t 1], .bin .sub .gy (.t 2), .bin .mul (.t 3) .y]

/-- `LogSoftmax::grad` (src/tensor_ops/xent_ops.rs:24-30). -/
noncomputable def logSoftmaxCmds : List Cmd :=
  [.un .exp .y, .vec [1], .plain (.reduceSum true) [.gy, .t 1], .bin .mul (.t 0) (.t 2), .bin .sub .gy (.t 3)]

/-- `SigmoidCrossEntropy::grad` (src/tensor_ops/xent_ops.rs:48-60). -/
noncomputable def sigmoidCECmds : List Cmd :=
  [.un .exp (.x 0), .scalar 1, .bin .add (.t 1) (.t 0), .bin .div (.t 0) (.t 2), .bin .sub (.t 3) (.x 1), .bin .mul (.t 4) .gy,
    .bin .mul .gy (.x 1), .un .neg (.t 6)]

/-- `SparseSoftmaxCrossEntropy::grad` (src/tensor_ops/xent_ops.rs:115-136). -/
noncomputable def sparseCECmds : List Cmd :=
  [.nth .y 1, .plain .sparseCEGrad [.t 0, .x 1, .gy], .un .exp (.t 0), .bin .mul (.t 2) (.t 0), .vec [1], .plain (.reduceSum true) [.t 3, .t 4],
    .bin .mul (.t 2) .gy, .bin .sub (.t 5) (.t 0), .bin .mul (.t 6) (.t 7)]

/-- `Slice::grad` (src/tensor_ops/array_ops.rs:788-800). -/
def sliceCmds (starts stops : List Int) : List Cmd := [.like (.sliceGrad starts stops) [.x 0, .gy] (.x 0)]

/-- `Squeeze::grad` (src/tensor_ops/array_ops.rs:849-853). -/
def squeezeCmds : List Cmd := [.plain .expandDims [.gy, .x 1]]

/-- `Reshape::grad` (src/tensor_ops/array_ops.rs:228-237). -/
def reshapeCmds : List Cmd := [.shape (.x 0), .plain .reshape [.gy, .t 0]]

/-- `Gather::grad` (src/tensor_ops/array_ops.rs:386-399): the recorded shape is that of the indices (C43). -/
def gatherCmds (axis : Int) : List Cmd := [.like (.gatherGrad axis) [.x 0, .x 1, .gy] (.x 0)]

/-- `Conv2D::grad` (src/tensor_ops/conv_ops/conv2d.rs:557-587). -/
def convCmds (pad stride dil : Nat) : List Cmd :=
  [.plain (.convT pad stride dil) [.gy, .x 1], .nth .y 1, .withBp (.convFilterGrad pad stride dil) [.t 1, .gy, .x 1] [.x 0, .gy]]

/-- `MaxPool2D::grad` (src/tensor_ops/conv_ops/max_pool2d.rs:228-242). -/
def poolCmds (k pad stride : Nat) : List Cmd := [.nth .y 1, .plain (.maxPoolGrad k pad stride) [.gy, .t 0]]

/-- `Dropout::grad` (src/tensor_ops/random_ops.rs:240-244). Without training the second output does not exist, and the gradient cannot be evaluated. -/
def dropoutCmds : List Cmd := [.nth .y 1, .bin .mul .gy (.t 0)]

/-- `Transpose::grad` (src/tensor_ops/math_ops.rs:456-466). -/
def transposeCmds (invert : Bool) : List Cmd := [.like (.transpose (!invert)) [.gy, .x 1] (.x 0)]

/-- `Maximum::grad` and `Minimum::grad` (`min_max_grad`, src/tensor_ops/math_ops.rs:198-209). -/
def extremumCmds : List Cmd := [.plain (.cmp .eq) [.x 0, .y], .plain (.cmp .eq) [.x 1, .y], .bin .mul (.t 0) .gy, .bin .mul (.t 1) .gy]

/-- `ReduceMax::grad` and `ReduceMin::grad` (`min_max_grad`, src/tensor_ops/reduction_ops.rs:332-364). -/
def reduceExtCmds (keep : Bool) : List Cmd :=
  [.shape (.x 0), .plain (.reduceGrad (!keep)) [.y, .t 0, .x 1], .plain (.reduceGrad (!keep)) [.gy, .t 0, .x 1], .plain (.cmp .eq) [.x 0, .t 1], .bin .mul (.t 3) (.t 2)]

/-- `IndexOp::grad` (src/tensor_ops/array_ops.rs:304-314). -/
def indexCmds (i : Int) : List Cmd := [.like (.indexGrad i) [.x 0, .gy] (.x 0)]

/-- Gradients given the ids of the inputs, the output and the incoming gradient.
src/tensor_ops/binary_ops.rs:154-165 (add), 195-206 (sub), 218-236 (mul), 273-289 (div); src/tensor_ops/array_ops.rs:530-534 (add_n);
src/tensor_ops/dot_ops.rs:608-628 (matmul); src/tensor_ops/reduction_ops.rs:130-136 (sum_all), 172-184 (reduce_sum);
src/tensor_ops/const_gen_ops.rs (sources); src/tensor_ops/array_ops.rs:105-181 (`Shape`, `Size`, `InferBinOpShape`).
`unreachable!` for variables and placeholders. Wrong numbers of inputs cannot occur and are reported as a panic. `Identity` src/tensor_ops/activation_ops.rs:176-179.
Ops that occur only in gradients: src/tensor_ops/binary_ops.rs:96-104 (`MaybeReduceSum`), 139-144 (`MaybeBroadcast`), src/tensor_ops/reduction_ops.rs:152-158
(`ReduceSumToScalarGrad`), 498-511 (`ReduceGradCommon`), src/tensor_ops/activation_ops.rs:222-225 (`ELUGrad`), src/tensor_ops/array_ops.rs:570-573 (`ClipGrad`),
820-824 (`SliceGrad`), 878-881 (`ExpandDims`). The gradients of the others (`Greater`, `Equal`, `ArgMax`, the ops in the gradients of convolutions and pooling, `GatherGrad`, `IndexOpGrad`, `Concat`, some of which report fewer gradients than they have inputs, `ReduceProd` and
`SparseSoftmaxCrossEntropyGrad`) are not modelled and reported as a panic. -/
noncomputable def gradOf (g : Graph POp) (y gy : Nat) : POp → List Nat → Except GPanic (Graph POp × List (Option Nat))
  | .scalar _, [] => .ok (g, [none])
  | .const _, [] => .ok (g, [])
  | .zeros, [_] => .ok (g, [none])
  | .ones, [_] => .ok (g, [none])
  | .ident, [_] => .ok (g, [some gy])
  | .shape, [_] => .ok (g, [none])
  | .size, [_] => .ok (g, [none])
  | .infer, [_, _] => .ok (g, [none, none])
  | .addN, xs => .ok (g, xs.map (fun _ => some gy))
  | .add, [a, b] => do
    let (g1, s0) ← mkShape g a
    let (g2, s1) ← mkShape g1 b
    let (g3, t0) ← mk g2 (reduceTo gy s0)
    let (g4, t1) ← mk g3 (reduceTo gy s1)
    .ok (g4, [some t0, some t1])
  | .sub, [a, b] => do
    let (g1, s0) ← mkShape g a
    let (g2, s1) ← mkShape g1 b
    let (g3, t0) ← mk g2 (reduceTo gy s0)
    let (g4, t1) ← mk g3 (reduceTo gy s1)
    let (g5, t2) ← mk g4 (unCtor .neg t1)
    .ok (g5, [some t0, some t2])
  | .mul, [a, b] => do
    let (g1, s0) ← mkShape g a
    let (g2, s1) ← mkShape g1 b
    let (g3, m0) ← mk g2 (.binary .mul gy b)
    let (g4, m1) ← mk g3 (.binary .mul gy a)
    let (g5, t0) ← mk g4 (reduceTo m0 s0)
    let (g6, t1) ← mk g5 (reduceTo m1 s1)
    .ok (g6, [some t0, some t1])
  | .div, [a, b] => do
    let (g1, s0) ← mkShape g a
    let (g2, s1) ← mkShape g1 b
    let (g3, m0) ← mk g2 (.binary .div gy b)
    let (g4, n) ← mk g3 (unCtor .neg a)
    let (g5, q) ← mk g4 (unCtor (.pow (-2)) b)
    let (g6, m) ← mk g5 (.binary .mul n q)
    let (g7, m1) ← mk g6 (.binary .mul m gy)
    let (g8, t0) ← mk g7 (reduceTo m0 s0)
    let (g9, t1) ← mk g8 (reduceTo m1 s1)
    .ok (g9, [some t0, some t1])
  | .un op, [x] =>
    match op.grad with
    | none => .ok (g, [none])
    | some e => do
      let (g1, t) ← buildE x y gy e g
      .ok (g1, [some t])
  | .matMul _ _, [a, b] => do
    let (g1, t0) ← mk g (.plain (.matMul false true) [inp gy, inp b])
    let (g2, t1) ← mk g1 (.plain (.matMul true false) [inp a, inp gy])
    .ok (g2, [some t0, some t1])
  | .sumAll, [x] => do
    let (g1, s) ← mkShape g x
    let (g2, t) ← mk g1 (.plain .sumAllGrad [inp gy, inp s])
    .ok (g2, [some t])
  | .reduceSum keep, [x, axes] => do
    let (g1, s) ← mkShape g x
    let (g2, t) ← mk g1 (.plain (.reduceGrad (!keep)) [inp gy, inp s, inp axes])
    .ok (g2, [some t, none])
  | .reduceMean keep, [x, axes] => gradCmds [x, axes] y gy (meanCmds keep) [some (.t 6), none] g
  | .softmax _ _ axis, [x] => gradCmds [x] y gy (softmaxCmds axis) [some (.t 4)] g
  | .logSoftmax _ _ _, [x] => gradCmds [x] y gy logSoftmaxCmds [some (.t 4)] g
  | .sigmoidCE, [x, t] => gradCmds [x, t] y gy sigmoidCECmds [some (.t 5), some (.t 7)] g
  | .sparseCE _ _, [x, t] => gradCmds [x, t] y gy sparseCECmds [some (.t 1), some (.t 8)] g
  | .slice starts stops, [x] => gradCmds [x] y gy (sliceCmds starts stops) [some (.t 0)] g
  | .squeeze, [x, axes] => gradCmds [x, axes] y gy squeezeCmds [some (.t 0), none] g
  | .reshape, [x, s] => gradCmds [x, s] y gy reshapeCmds [some (.t 1), none] g
  | .gather _ axis, [indices, param] => gradCmds [indices, param] y gy (gatherCmds axis) [none, some (.t 0)] g
  | .maybeReduce, [x, _] => do
    let (g1, s) ← mkShape g x
    let (g2, t) ← mk g1 (.plain .maybeBroadcast [inp gy, inp s])
    .ok (g2, [some t, none])
  | .maybeBroadcast, [x, _] => do
    let (g1, s) ← mkShape g x
    let (g2, t) ← mk g1 (reduceTo gy s)
    .ok (g2, [some t, none])
  | .sumAllGrad, [_, _] => do
    let (g1, t) ← mk g (.plain .sumAll [inp gy])
    .ok (g1, [some t, none])
  | .reduceGrad makeDims, [_, _, axes] => do
    let (g1, t) ← mk g (.plain (.reduceSum makeDims) [inp gy, inp axes])
    .ok (g1, [some t, none, none])
  | .eluGrad _, [_, _] => .ok (g, [none, none])
  | .clipGrad _ _, [_, _] => .ok (g, [none, none])
  | .sliceGrad _ _, [_, _] => .ok (g, [none, none])
  | .conv2d pad stride dil, [x, w] => gradCmds [x, w] y gy (convCmds pad stride dil) [some (.t 0), some (.t 2)] g
  | .maxPool _ k pad stride, [x] => gradCmds [x] y gy (poolCmds k pad stride) [some (.t 1)] g
  | .dropout _ _ _, [x] => gradCmds [x] y gy dropoutCmds [some (.t 1)] g
  | .expandDims, [x, axes] => gradCmds [x, axes] y gy [.plain .squeeze [.gy, .x 1]] [some (.t 0), none] g
  | .argMax _ _ _ _, [_] => .ok (g, [none])
  | .transpose invert, [x, axes] => gradCmds [x, axes] y gy (transposeCmds invert) [some (.t 0), none] g
  | .index i, [x] => gradCmds [x] y gy (indexCmds i) [some (.t 0)] g
  | .extremum _, [a, b] => gradCmds [a, b] y gy extremumCmds [some (.t 2), some (.t 3)] g
  | .reduceExt _ _ keep, [x, axes] => gradCmds [x, axes] y gy (reduceExtCmds keep) [some (.t 4), none] g
  | .stop, [_] => .ok (g, [none])
  | _, _ => .error .opGrad

/-- `Op::grad` (src/op.rs:365-404): the inputs are the incoming tensors of `y`. -/
noncomputable def POp.opGrad (op : POp) (g : Graph POp) (y gy : Nat) : Except GPanic (Graph POp × List (Option Nat)) := do
  let n ← lift (g.access y)
  gradOf g y gy op (n.incoming.map Incoming.id)

/-- The ops used by `grad` (src/tensor_ops/mod.rs:94-114, src/gradient.rs). -/
noncomputable def gradOps : GradOps POp where
  addN := .addN
  shapeOp := .shape
  sumAll := .sumAll
  zeros := .zeros
  one := .scalar 1
  constOp := hintOps.constOp
  opGrad := POp.opGrad

end Verif.Prog
