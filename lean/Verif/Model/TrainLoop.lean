import Mathlib.Analysis.SpecialFunctions.Pow.Real
import Verif.Model.Program

/-!
# Model of a training loop

A program that builds a loss, its gradients and the update tensors of an optimizer in a new graph and evaluates the update tensors, once for every mini-batch, as in
examples/mlp_mnist.rs:65-87.
-/

namespace Verif.Prog
open Verif Verif.Graph Verif.Nd Verif.Hint Verif.Gradient Verif.Opt Verif.OptState

/-- Writes of the update ops; `sqrt` and `powf` are those of the real numbers. The lines are those of the functions called. -/
noncomputable def UOp.writes : UOp → List (OpInput (Arr ℝ)) → Res (List (Nat × Arr ℝ))
  | .sgd alpha => sgdWrites alpha
  | .momentum lr mu => momentumWrites lr mu
  | .adagrad lr => adagradWrites Real.sqrt lr
  | .adam c => adamWrites Real.sqrt (fun x y => x ^ y) c

/-- The ops for evaluations that include update ops. -/
noncomputable def stepSem : Sem POp (Arr ℝ) Unit Unit where
  compute := fun op w xs => match op with
    | .upd u => mutOutcome (u.writes xs) w
    | op => progSem.compute op w xs
  shapeOf := Arr.shape
  debug := false

/-- `ndarray_ext::zeros` of the shape of an array, and `from_scalar(1)` (src/ndarray_ext.rs:393-397, 405-409). -/
def zerosOf (a : Arr ℝ) : Arr ℝ := ofFn a.shape (fun _ => 0)
def oneArr : Arr ℝ := ofFn [] (fun _ => 1)

/-- The constructors of the optimizers: `SGD::new` (src/optimizers/sgd.rs:36-38) keeps no state; for the others see `singleNew`, `adamNew`. -/
noncomputable def UOp.create (u : UOp) (ns : Str) (venv : VarEnv (Arr ℝ)) (vids : List Nat) : Except Panic (VarEnv (Arr ℝ)) :=
  match u with
  | .sgd _ => .ok venv
  | .momentum _ _ | .adagrad _ => singleNew zerosOf ns venv vids
  | .adam _ => adamNew zerosOf oneArr ns venv vids

/-- `compute_updates` of the optimizers (src/optimizers/sgd.rs:42-64, src/optimizers/momentum_sgd.rs:86-117, src/optimizers/adagrad.rs:59-86,
src/optimizers/adam.rs:112-154). -/
noncomputable def UOp.updates (u : UOp) (ns : Str) (venv : VarEnv (Arr ℝ)) (g : Graph POp) (pgs : List (Nat × Nat)) : Except Panic (Graph POp × List Nat) :=
  match u with
  | .sgd _ => sgdLoop (.upd u) g pgs
  | .momentum _ _ | .adagrad _ => updatesLoop .var (.upd u) venv ns singleNames g pgs
  | .adam _ => updatesLoop .var (.upd u) venv ns adamNames g pgs

/-- One mini-batch: `env.run` with a new graph (src/variable.rs:670-683), in which the calls `l` build the loss `y`, followed by `grad(&[y], xs)` and
`update(xs, grads, ctx, feeder)` (src/optimizers/mod.rs:67-85). That `update` is given as many gradients as variables is clear here. The ids `xs` and `y` are
those of tensors made by `l`. -/
noncomputable def iteration (l : List Stmt) (y : Nat) (xs : List Nat) (u : UOp) (ns : Str) (pick : Graph POp → List Nat → Nat) (fuel : Nat)
    (venv : VarEnv (Arr ℝ)) (feeds : List (Feed (Arr ℝ))) : Option (Except GPanic (VarEnv (Arr ℝ))) :=
  match runProgram l with
  | .error p => some (.error (.graph p))
  | .ok (g, _) =>
    match grad gradOps pick fuel g [y] xs with
    | none => none
    | some (.error p) => some (.error p)
    | some (.ok r) =>
      match u.updates ns venv r.g (xs.zip r.grads) with
      | .error p => some (.error (.graph p))
      | .ok (g', us) =>
        match runUpdates stepSem g' fuel us feeds venv.arrays () with
        | none => none
        | some (.error p) => some (.error (.graph p))
        | some (.ok arrays) => some (.ok { venv with arrays := arrays })

/-- The loop over the mini-batches (examples/mlp_mnist.rs:65-87), whose feeds are given in the order in which they are used. -/
noncomputable def training (l : List Stmt) (y : Nat) (xs : List Nat) (u : UOp) (ns : Str) (pick : Graph POp → List Nat → Nat) (fuel : Nat) :
    VarEnv (Arr ℝ) → List (List (Feed (Arr ℝ))) → Option (Except GPanic (VarEnv (Arr ℝ)))
  | venv, [] => some (.ok venv)
  | venv, feeds :: rest =>
    match iteration l y xs u ns pick fuel venv feeds with
    | none => none
    | some (.error p) => some (.error p)
    | some (.ok venv') => training l y xs u ns pick fuel venv' rest

end Verif.Prog
