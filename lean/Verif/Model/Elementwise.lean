import Mathlib.Analysis.SpecialFunctions.Arcosh
import Mathlib.Analysis.SpecialFunctions.Arsinh
import Mathlib.Analysis.SpecialFunctions.Artanh
import Mathlib.Analysis.SpecialFunctions.Log.Base
import Mathlib.Analysis.SpecialFunctions.Pow.Real
import Mathlib.Analysis.SpecialFunctions.Trigonometric.Arctan
import Mathlib.Analysis.SpecialFunctions.Trigonometric.Inverse
import Verif.Model.Compare

/-!
# Model of the elementwise ops and of the gradient tensors they build

`src/tensor_ops/math_ops.rs`, `src/tensor_ops/activation_ops.rs`, `Clip` of `src/tensor_ops/array_ops.rs`, without the `mkl`/`blas` features.
Floating point numbers are real numbers; the functions of `num_traits::Float` are the real functions, outside of whose domains (where the float functions
return NaN or an infinity) the values mean nothing; see `EOp.Defined` in `Verif.Spec.Elementwise`.
`Lgamma`, `Digamma` (the `special` crate), `Floor`, `Ceil` are not modelled.
-/

namespace Verif.Nd

/-- The elementwise ops. -/
inductive EOp where
  | neg | square | inv | invSqrt | pow (a : ℝ) | sqrt | ln | log2 | log10 | exp | exp2 | exp10
  | sin | cos | tan | asin | acos | atan | sinh | cosh | tanh | asinh | acosh | atanh
  | abs | sign | sigmoid | softplus | relu | elu (alpha : ℝ) | clip (min max : ℝ)

/-- The function mapped over the input by `compute`: src/tensor_ops/math_ops.rs:285 (abs), 298 (neg), 317 (square), 337 (inv), 356 (inv_sqrt),
372-378 (sign), 619 (pow), 640 (sqrt), 662 (log10), 682 (log2), 702 (ln), 721 (exp), 740 (exp2), 763 (exp10), 783 (atanh), 804 (acosh), 826 (asinh),
848 (tanh), 869 (cosh), 888 (sinh), 907 (atan), 929 (acos), 950 (asin), 971 (sin), 990 (cos), 1009 (tan);
src/tensor_ops/activation_ops.rs:115 (softplus), 138-141 (sigmoid), 156 (relu), 185-191 (elu); src/tensor_ops/array_ops.rs:539 (clip). -/
noncomputable def EOp.f : EOp → ℝ → ℝ
  | neg, a => -a
  | square, a => a * a
  | inv, a => a⁻¹
  | invSqrt, a => (Real.sqrt a)⁻¹
  | pow p, a => a ^ p
  | sqrt, a => Real.sqrt a
  | ln, a => Real.log a
  | log2, a => Real.logb 2 a
  | log10, a => Real.logb 10 a
  | exp, a => Real.exp a
  | exp2, a => (2 : ℝ) ^ a
  | exp10, a => (10 : ℝ) ^ a
  | sin, a => Real.sin a
  | cos, a => Real.cos a
  | tan, a => Real.tan a
  | asin, a => Real.arcsin a
  | acos, a => Real.arccos a
  | atan, a => Real.arctan a
  | sinh, a => Real.sinh a
  | cosh, a => Real.cosh a
  | tanh, a => Real.tanh a
  | asinh, a => Real.arsinh a
  | acosh, a => Real.arcosh a
  | atanh, a => Real.artanh a
  | abs, a => |a|
  | sign, a => if a = 0 then 0 else if 0 < a then 1 else -1
  | sigmoid, a => Real.tanh (a * (1 / 2)) * (1 / 2) + 1 / 2
  | softplus, a => Real.log (Real.exp a + 1)
  | relu, a => max a 0
  | elu alpha, a => if a > 0 then a else alpha * (Real.exp a - 1)
  | clip lo hi, a => max (min a hi) lo

/-- Models `compute` of the elementwise ops (lines as above). -/
noncomputable def EOp.compute (op : EOp) (x : Arr ℝ) : Arr ℝ := map op.f x

/-- `greater_fn` (src/tensor_ops/math_ops.rs:60-63). -/
noncomputable def greaterFn (a b : ℝ) : ℝ := if a > b then 1 else 0

/-- Tensors built in `Op::grad` of the elementwise ops: the input, the output, the incoming gradient, `scalar(c)`, elementwise ops, arithmetic ops,
`greater`, and the ops `ELUGrad` and `ClipGrad`. -/
inductive EExp where
  | x | y | gy
  | const (c : ℝ)
  | app (op : EOp) (e : EExp)
  | add (a b : EExp)
  | sub (a b : EExp)
  | mul (a b : EExp)
  | div (a b : EExp)
  | greater (a b : EExp)
  | eluGrad (alpha : ℝ) (a b : EExp)
  | clipGrad (min max : ℝ) (a b : EExp)

/-- The factor computed by `ELUGrad::compute` (src/tensor_ops/activation_ops.rs:210-216). -/
noncomputable def eluFactor (alpha a : ℝ) : ℝ := if a > 0 then 1 else alpha * (Real.exp a - 1) + alpha

/-- The factor computed by `ClipGrad::compute` (src/tensor_ops/array_ops.rs:561-564). -/
noncomputable def clipFactor (lo hi a : ℝ) : ℝ := (if a > lo then 1 else 0) * (if a < hi then 1 else 0)

/-- Models `ELUGrad::compute` (src/tensor_ops/activation_ops.rs:207-220). -/
noncomputable def eluGradOp (alpha : ℝ) (a g : Arr ℝ) : Res (Arr ℝ) := ownedOp (· * ·) (map (eluFactor alpha) a) g

/-- Models `ClipGrad::compute` (src/tensor_ops/array_ops.rs:560-568, `ret *= gy` broadcasts `gy` to the shape of `ret`). -/
noncomputable def clipGradOp (lo hi : ℝ) (a g : Arr ℝ) : Res (Arr ℝ) := do
  let b ← unwrap (broadcast g a.shape)
  let r := map (clipFactor lo hi) a
  .ok ⟨r.shape, r.strides, fun i => r.get i * b.get i⟩

/-- Evaluation of these tensors for evaluated input `x`, output `y` and incoming gradient `g`. `scalar(c)` has rank 0
(src/tensor_ops/const_gen_ops.rs, `Scalar`). -/
noncomputable def EExp.eval (x y g : Arr ℝ) : EExp → Res (Arr ℝ)
  | .x => .ok x
  | .y => .ok y
  | .gy => .ok g
  | const c => .ok (ofFn [] (fun _ => c))
  | app op e => do let a ← e.eval x y g; .ok (op.compute a)
  | add a b => do let a' ← a.eval x y g; let b' ← b.eval x y g; addOp a' b'
  | sub a b => do let a' ← a.eval x y g; let b' ← b.eval x y g; subOp a' b'
  | mul a b => do let a' ← a.eval x y g; let b' ← b.eval x y g; mulOp a' b'
  | div a b => do let a' ← a.eval x y g; let b' ← b.eval x y g; divOp a' b'
  | greater a b => do let a' ← a.eval x y g; let b' ← b.eval x y g; cmpOp greaterFn a' b'
  | eluGrad alpha a b => do let a' ← a.eval x y g; let b' ← b.eval x y g; eluGradOp alpha a' b'
  | clipGrad lo hi a b => do let a' ← a.eval x y g; let b' ← b.eval x y g; clipGradOp lo hi a' b'

open EExp in
/-- The tensor given to `append_input_grad` by `Op::grad`; `none` for `append_input_grad(None)`.
src/tensor_ops/math_ops.rs:291-293 (abs), 303-305 (neg), 323-326 (square), 343-345 (inv), 362-367 (inv_sqrt), 383-385 (sign), 625-629 (pow),
646-651 (sqrt), 668-671 (log10), 688-691 (log2), 708-710 (ln), 727-729 (exp), 746-751 (exp2), 769-772 (exp10), 789-793 (atanh), 810-815 (acosh),
832-837 (asinh), 854-858 (tanh), 875-877 (cosh), 894-896 (sinh), 913-918 (atan), 935-939 (acos), 956-960 (asin), 977-979 (sin), 996-998 (cos),
1015-1018 (tan); src/tensor_ops/activation_ops.rs:120-126 (softplus), 147-151 (sigmoid), 161-166 (relu), 196-204 (elu);
src/tensor_ops/array_ops.rs:544-556 (clip). -/
noncomputable def EOp.grad : EOp → Option EExp
  | neg => some (app neg gy)
  | square => some (mul (mul (const (1 + 1)) x) gy)
  | inv => some (mul (app neg (app square y)) gy)
  | invSqrt => some (mul (mul (const (-0.5)) (app (pow (-1.5)) x)) gy)
  | pow a => some (mul (mul gy (const a)) (app (pow (a - 1)) x))
  | sqrt => some (mul gy (mul (const (1 / (1 + 1))) (app (pow (-(1 / (1 + 1)))) x)))
  | ln => some (div gy x)
  | log2 => some (div gy (mul (const (Real.log (1 + 1))) x))
  | log10 => some (div gy (mul (const (Real.log 10)) x))
  | exp => some (mul y gy)
  | exp2 => some (mul (mul (const (Real.log (1 + 1))) y) gy)
  | exp10 => some (mul (mul (const (Real.log 10)) y) gy)
  | sin => some (mul (app cos x) gy)
  | cos => some (app neg (mul (app sin x) gy))
  | tan => some (div gy (app square (app cos x)))
  | asin => some (mul (app invSqrt (sub (const 1) (app square x))) gy)
  | acos => some (mul (app neg (app invSqrt (sub (const 1) (app square x)))) gy)
  | atan => some (mul (app inv (add (app square x) (const 1))) gy)
  | sinh => some (mul (app cosh x) gy)
  | cosh => some (mul (app sinh x) gy)
  | tanh => some (mul gy (sub (const 1) (app square y)))
  | asinh => some (mul (app inv (app sqrt (add (app square x) (const 1)))) gy)
  | acosh => some (mul (app inv (app sqrt (sub (app square x) (const 1)))) gy)
  | atanh => some (mul (app inv (sub (const 1) (app square x))) gy)
  | abs => some (mul gy (app sign x))
  | sign => none
  | sigmoid => some (mul gy (sub y (app square y)))
  | softplus => some (mul gy (div (app exp x) (add (app exp x) (const 1))))
  | relu => some (mul (greater x (const 0)) gy)
  | elu alpha => some (eluGrad alpha x gy)
  | clip lo hi => some (clipGrad lo hi x gy)

/-- The evaluated gradient of an elementwise op; `none` if the op reports no gradient. -/
noncomputable def EOp.gradOp (op : EOp) (x gy : Arr ℝ) : Option (Res (Arr ℝ)) := op.grad.map (EExp.eval x (op.compute x) gy)

end Verif.Nd
