import Mathlib.Analysis.SpecialFunctions.Pow.Real
import Verif.Model.Eval
import Verif.Model.BinaryOps

/-!
# Model of random arrays and of dropout

Covers `ArrayRng` of `src/ndarray_ext.rs` (212-390) and `src/tensor_ops/random_ops.rs`. The generator of the `rand` crate is an arbitrary
deterministic machine with states `σ`; a distribution is a function that draws a number and advances the state
(`Distribution::sample(&mut rng)`). Numbers are drawn as `f64` and converted (`T::from`); the conversion is left out.
-/

namespace Verif.Rand
open Verif Verif.Nd

variable {σ R : Type}

/-- The loop `for i in 0..size` that fills a buffer with samples (src/ndarray_ext.rs:284-286, 349-352). Writing with `get_unchecked_mut` behind the length of
the vector is taken as a plain write, as in max pooling. -/
def fill (sample : σ → R × σ) : Nat → σ → List R × σ
  | 0, s => ([], s)
  | n + 1, s => ((sample s).1 :: (fill sample n (sample s).2).1, (fill sample n (sample s).2).2)

/-- `NdArray::from_shape_vec_unchecked(shape, buf)` (src/ndarray_ext.rs:288, 354): row-major. -/
def fromVec [Zero R] (shape : List Nat) (xs : List R) : Arr R := ofFn shape (fun i => xs.getD (flat shape i) 0)

/-- Models `ArrayRng::gen_random_array` (src/ndarray_ext.rs:275-290): the array and the state of the generator afterwards. -/
def genRandomArray [Zero R] (sample : σ → R × σ) (shape : List Nat) (s : σ) : Arr R × σ :=
  (fromVec shape (fill sample (size shape) s).1, (fill sample (size shape) s).2)

/-- One sample of `ArrayRng::bernoulli` (src/ndarray_ext.rs:350-351): 1 if the uniform sample is below `p`, otherwise 0. -/
def coin [Zero R] [One R] [LT R] [DecidableLT R] (uniform : σ → R × σ) (p : R) (s : σ) : R × σ :=
  (if (uniform s).1 < p then 1 else 0, (uniform s).2)

/-- Models `ArrayRng::bernoulli` (src/ndarray_ext.rs:343-356). -/
def bernoulli [Zero R] [One R] [LT R] [DecidableLT R] (uniform : σ → R × σ) (p : R) (shape : List Nat) (s : σ) : Arr R × σ :=
  genRandomArray (coin uniform p) shape s

/-- Models `ndarray_ext::as_shape` (src/ndarray_ext.rs:27-30): panics if an element has no `to_usize`. -/
def asShape (toUsize : R → Option Nat) (a : Arr R) : Res (List Nat) := (toList a).mapM (fun r => unwrap (toUsize r))

/-- Models `compute` of the random ops (src/tensor_ops/random_ops.rs:104-214): the shape is read from the input, the array is drawn. The second component
is the state in which the generator of the op is left; when the shape cannot be read, nothing is drawn. -/
def randomOp [Zero R] (toUsize : R → Option Nat) (sample : σ → R × σ) (shape : Arr R) (s : σ) : Res (Arr R × σ) := do
  let sh ← asShape toUsize shape
  .ok (genRandomArray sample sh s)

/-- Successive evaluations of one random tensor (src/tensor_ops/random_ops.rs:104-214; the generator lives in the op, src/ndarray_ext.rs:243-246, and keeps its
state between evaluations), with the given shapes. -/
def draws [Zero R] (sample : σ → R × σ) : List (List Nat) → σ → List (Arr R)
  | [], _ => []
  | sh :: shs, s => (genRandomArray sample sh s).1 :: draws sample shs (genRandomArray sample sh s).2

/-- Scale of `glorot_normal` (src/ndarray_ext.rs:327-332): the standard deviation, for matrices only. A zero number of rows gives an infinite deviation,
for which `Normal::new(..).unwrap()` panics. -/
noncomputable def glorotNormalStd (shape : List Nat) : Res ℝ :=
  match shape with
  | [r, _] => if r = 0 then .error .panic else .ok (1 / Real.sqrt r)
  | _ => .error .panic

/-- Bound of `glorot_uniform` (src/ndarray_ext.rs:335-340): samples lie in `[-s, s)`. A zero number of rows gives an infinite range, for which
`Uniform::new` panics. -/
noncomputable def glorotUniformBound (shape : List Nat) : Res ℝ :=
  match shape with
  | [r, _] => if r = 0 then .error .panic else .ok (Real.sqrt (6 / r))
  | _ => .error .panic

/-- Models `Dropout::compute` (src/tensor_ops/random_ops.rs:225-238): the outputs and the state of the generator. In training mode the outputs are the
masked input and the mask, otherwise the scaled input alone. -/
def dropout [Ring R] [LT R] [DecidableLT R] (train : Bool) (ratio : R) (uniform : σ → R × σ) (x : Arr R) (s : σ) : Res (List (Arr R)) × σ :=
  if train then
    let m := bernoulli uniform (1 - ratio) x.shape s
    ((zipOp (· * ·) m.1 x).map (fun y => [y, m.1]), m.2)
  else (.ok [Nd.map (fun a => a * (1 - ratio)) x], s)

/-- The tensor built by `Dropout::grad` (src/tensor_ops/random_ops.rs:240-244): incoming gradient times second output of the op. -/
def dropoutGrad [Mul R] (gy mask : Arr R) : Res (Arr R) := mulOp gy mask

variable {E W : Type}

/-- `Dropout::compute` as an op of the evaluator (src/tensor_ops/random_ops.rs:225-238): the generator of the op is a part of the world, read by `cell`, written by `put`. -/
def dropoutCompute [Ring R] [LT R] [DecidableLT R] (train : Bool) (ratio : R) (uniform : σ → R × σ) (cell : W → σ) (put : W → σ → W) (w : W) :
    List (OpInput (Arr R)) → Outcome (Arr R) E W
  | [x] =>
    match dropout train ratio uniform x.val (cell w) with
    | (.ok ys, s) => .done (put w s) [] ys (.ok ())
    | (.error _, _) => .panic
  | _ => .panic

/-- `Identity::compute` (src/tensor_ops/activation_ops.rs:169-175), the op of `nth_tensor` (src/tensor_ops/mod.rs:545-554), as an op of the evaluator. -/
def identityCompute (w : W) : List (OpInput (Arr R)) → Outcome (Arr R) E W
  | [x] => .done w [] [x.val] (.ok ())
  | _ => .panic

/-- `MulOp::compute` (src/tensor_ops/binary_ops.rs:209-216) as an op of the evaluator. -/
def mulCompute [Mul R] (w : W) : List (OpInput (Arr R)) → Outcome (Arr R) E W
  | [x, y] =>
    match mulOp x.val y.val with
    | .ok z => .done w [] [z] (.ok ())
    | .error _ => .panic
  | _ => .panic

end Verif.Rand
