import Mathlib.Algebra.Field.Defs
import Verif.Model.Eval
import Verif.Model.NdArray
import Verif.Model.OptimizerState

/-!
# Model of the optimizers and of `assign`

Covers `src/optimizers/mod.rs` (`Optimizer::update`), the `compute_updates` of `src/optimizers/{sgd,momentum_sgd,adagrad,adam}.rs`, the ops of
`src/tensor_ops/gradient_descent_ops/`, and `Assign` (src/tensor_ops/array_ops.rs:94-105, src/tensor_ops/mod.rs:2973-2990).

Elements are those of a field with arbitrary functions for `Float::sqrt` and `Float::powf`. An op that calls `input_mut` is modelled by the
list of its writes (input position, new array), computed from the arrays which its inputs have when it is called. This is exact
unless two inputs of the op share memory and one of them is read after the other was written; that can only happen when the gradient tensor
passed to the optimizer is itself the variable tensor of a *state* variable (the parameter itself is harmless, because the update is elementwise).
The rule that an input must not be grabbed twice (src/op.rs:206-259) is not modelled: the ops below grab every input once.
-/

namespace Verif.Opt
open Verif Verif.Nd

variable {R : Type}

/-- `ComputeContext::input` (src/op.rs:205-234): panics on a missing or on a mutable input. -/
def input (xs : List (OpInput (Arr R))) (i : Nat) : Res (Arr R) :=
  match xs[i]? with
  | some x => if x.kind = .rdWr then .error .panic else .ok x.val
  | none => .error .panic

/-- `ComputeContext::input_mut` (src/op.rs:236-259): panics on a missing input or on one that is not a mutable variable. -/
def inputMut (xs : List (OpInput (Arr R))) (i : Nat) : Res (Arr R) :=
  match xs[i]? with
  | some x => if x.kind = .rdWr then .ok x.val else .error .panic
  | none => .error .panic

/-- `a.zip_mut_with(&b, f)` of ndarray: `b` is broadcast to the shape of `a`, panics if that is impossible; `a` keeps its memory
layout. -/
def zipMut (f : R → R → R) (a b : Arr R) : Res (Arr R) := do
  let b' ← unwrap (broadcast b a.shape)
  .ok ⟨a.shape, a.strides, fun i => f (a.get i) (b'.get i)⟩

/-- The new parameter computed by `SGDOp::compute` (src/tensor_ops/gradient_descent_ops/sgd.rs:17). -/
def sgdStep [Field R] (alpha : R) (p g : Arr R) : Res (Arr R) := zipMut (fun l r => l - alpha * r) p g

/-- The new parameter and state computed by `MomentumSGDOp::compute` (src/tensor_ops/gradient_descent_ops/sgd.rs:34-35). -/
def momentumStep [Field R] (lr momentum : R) (p g v : Arr R) : Res (Arr R × Arr R) := do
  let v' ← zipMut (fun v g => v * momentum - lr * g) v g
  let p' ← zipMut (fun p v => p + v) p v'
  .ok (p', v')

/-- `Zip::from(a).and(b).and(c).for_each(..)` of ndarray writing to `a`: no broadcasting, the shapes must be equal. -/
def zip3 (f : R → R → R → R) (a b c : Arr R) : Res (Arr R) :=
  if b.shape = a.shape ∧ c.shape = a.shape then .ok ⟨a.shape, a.strides, fun i => f (a.get i) (b.get i) (c.get i)⟩ else .error .panic

/-- The new parameter and state computed by `AdaGradOp::compute` (src/tensor_ops/gradient_descent_ops/adagrad.rs:12-17). -/
def adagradStep [Field R] (sqrt : R → R) (lr : R) (p g h : Arr R) : Res (Arr R × Arr R) := do
  let h' ← zipMut (fun h g => h + g * g) h g
  let p' ← zip3 (fun p g h => p - lr * g / (sqrt h + 1 / 10 ^ 7)) p g h'
  .ok (p', h')

/-- Hyper-parameters of `AdamOp` (src/tensor_ops/gradient_descent_ops/adam.rs:3-8). -/
structure AdamCfg (R : Type) where
  alpha : R
  eps : R
  b1 : R
  b2 : R

/-- The new parameter, both moments and step counter computed by `AdamOp::compute` (src/tensor_ops/gradient_descent_ops/adam.rs:12-56).
`*t.as_ptr()` is the first element of `t`; an empty `t` (impossible for arrays made by `Adam::new`) is not modelled. -/
def adamStep [Field R] (sqrt : R → R) (powf : R → R → R) (c : AdamCfg R) (p g m v t : Arr R) : Res (Arr R × Arr R × Arr R × Arr R) := do
  let m' ← zipMut (fun x g => x * c.b1 + (1 - c.b1) * g) m g
  let v' ← zipMut (fun x g => x * c.b2 + (1 - c.b2) * g * g) v g
  let first := t.shape.map (fun _ => 0)
  let tv := t.get first
  let rv := 1 / (1 - powf c.b2 tv)
  let vHat := Nd.map (fun x => x * rv) v'
  let rm := 1 / (1 - powf c.b1 tv)
  let mHat := Nd.map (fun x => x * rm) m'
  let mHat' ← zipMut (fun a b => a / (sqrt b + c.eps)) mHat vHat
  let p' ← zipMut (fun l r => l - c.alpha * r) p mHat'
  .ok (p', m', v', ⟨t.shape, t.strides, fun i => if i = first then tv + 1 else t.get i⟩)

/-- Writes of `SGDOp::compute` (src/tensor_ops/gradient_descent_ops/sgd.rs:14-20). -/
def sgdWrites [Field R] (alpha : R) (xs : List (OpInput (Arr R))) : Res (List (Nat × Arr R)) := do
  let p ← inputMut xs 0
  let g ← input xs 1
  let p' ← sgdStep alpha p g
  .ok [(0, p')]

/-- Writes of `MomentumSGDOp::compute` (src/tensor_ops/gradient_descent_ops/sgd.rs:29-38). -/
def momentumWrites [Field R] (lr momentum : R) (xs : List (OpInput (Arr R))) : Res (List (Nat × Arr R)) := do
  let p ← inputMut xs 0
  let g ← input xs 1
  let v ← inputMut xs 2
  let (p', v') ← momentumStep lr momentum p g v
  .ok [(2, v'), (0, p')]

/-- Writes of `AdaGradOp::compute` (src/tensor_ops/gradient_descent_ops/adagrad.rs:8-21). -/
def adagradWrites [Field R] (sqrt : R → R) (lr : R) (xs : List (OpInput (Arr R))) : Res (List (Nat × Arr R)) := do
  let p ← inputMut xs 0
  let g ← input xs 1
  let h ← inputMut xs 2
  let (p', h') ← adagradStep sqrt lr p g h
  .ok [(2, h'), (0, p')]

/-- Writes of `AdamOp::compute` (src/tensor_ops/gradient_descent_ops/adam.rs:11-60). -/
def adamWrites [Field R] (sqrt : R → R) (powf : R → R → R) (c : AdamCfg R) (xs : List (OpInput (Arr R))) : Res (List (Nat × Arr R)) := do
  let t ← inputMut xs 4
  let g ← input xs 1
  let m ← inputMut xs 2
  let v ← inputMut xs 3
  let p ← inputMut xs 0
  let (p', m', v', t') ← adamStep sqrt powf c p g m v t
  .ok [(2, m'), (3, v'), (0, p'), (4, t')]

/-- Writes of `Assign::compute` (src/tensor_ops/array_ops.rs:95-99): `ArrayBase::assign` broadcasts its argument. -/
def assignWrites (xs : List (OpInput (Arr R))) : Res (List (Nat × Arr R)) := do
  let x ← inputMut xs 0
  let y ← input xs 1
  let x' ← zipMut (fun _ b => b) x y
  .ok [(0, x')]

/-- The call of a mutating op: the writes, one empty output (`append_empty_output`, src/op.rs:289-294: a rank-0 zero) and success; or a panic. -/
def mutOutcome {E W : Type} [Zero R] (r : Res (List (Nat × Arr R))) (w : W) : Outcome (Arr R) E W :=
  match r with
  | .ok ws => .done w ws [ofFn [] (fun _ => 0)] (.ok ())
  | .error _ => .panic

variable {Op A : Type}

/-- The state tensors looked up by name (src/optimizers/adam.rs:131-133, src/optimizers/momentum_sgd.rs:103, src/optimizers/adagrad.rs:76). -/
def stateTensors (varOp : Op) (env : VarEnv A) (ns : Str) : Graph Op → List Str → Except Panic (Graph Op × List Nat)
  | g, [] => .ok (g, [])
  | g, name :: names => do
    let (g1, t) ← g.variableByName varOp env ns name
    let (g2, ts) ← stateTensors varOp env ns g1 names
    .ok (g2, t :: ts)

/-- The loop of `compute_updates` over pairs of parameter and gradient tensor (src/optimizers/adam.rs:127-151, src/optimizers/momentum_sgd.rs:99-115,
src/optimizers/adagrad.rs:72-84). `o` is the update op, `stateNames` the names of the state variables of a parameter. A parameter that
is not a variable tensor is a panic ("Got non-variable tensor"). That both lists have equal length is asserted before. -/
def updatesLoop (varOp o : Op) (env : VarEnv A) (ns : Str) (stateNames : Nat → List Str) :
    Graph Op → List (Nat × Nat) → Except Panic (Graph Op × List Nat)
  | g, [] => .ok (g, [])
  | g, (p, gr) :: rest => do
    let np ← g.access p
    match np.variableId with
    | none => .error .variableNotFound
    | some vid => do
      let (g1, ss) ← stateTensors varOp env ns g (stateNames vid)
      let (g2, u) ← g1.build { inNodes := { id := p, allowMut := true } :: { id := gr } :: ss.map (fun s => ({ id := s, allowMut := true } : Incoming)) } o
      let (g3, us) ← updatesLoop varOp o env ns stateNames g2 rest
      .ok (g3, u :: us)

/-- The loop of `SGD::compute_updates` (src/optimizers/sgd.rs:55-62): no state, and no check that the parameter is a variable. -/
def sgdLoop (o : Op) : Graph Op → List (Nat × Nat) → Except Panic (Graph Op × List Nat)
  | g, [] => .ok (g, [])
  | g, (p, gr) :: rest => do
    let (g1, u) ← g.build { inNodes := [{ id := p, allowMut := true }, { id := gr }] } o
    let (g2, us) ← sgdLoop o g1 rest
    .ok (g2, u :: us)

/-- The names of Adam's state arrays in the order of lookup (src/optimizers/adam.rs:131-133). -/
def adamNames (vid : Nat) : List Str := [OptState.nameM vid, OptState.nameV vid, OptState.nameT vid]

/-- The name of the state array of `MomentumSGD` and `AdaGrad` (src/optimizers/momentum_sgd.rs:103, src/optimizers/adagrad.rs:76). -/
def singleNames (vid : Nat) : List Str := [OptState.decimal vid]

/-- `Optimizer::update` (src/optimizers/mod.rs:67-85) after the update tensors `us` were built in the graph `g`: evaluates them, in the order of the
parameters, and unwraps every result (a failed one is a panic). Returns the new variable arrays. -/
def runUpdates {V E W : Type} (S : Sem Op V E W) (g : Graph Op) (fuel : Nat) (us : List Nat) (feeds : List (Feed V)) (env : List V) (w : W) :
    Option (Except Panic (List V)) :=
  match Eval.eval S g fuel us feeds env w with
  | none => none
  | some (.error p) => some (.error p)
  | some (.ok res) =>
    if res.results.all (fun r => match r with | .ok _ => true | .error _ => false) then some (.ok res.env) else some (.error .opPanic)

end Verif.Opt
