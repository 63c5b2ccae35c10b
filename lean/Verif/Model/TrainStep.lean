import Verif.Model.Calls
import Verif.Model.TrainLoop
import Verif.Model.UpdateOp

/-!
# Model of a training step with `grad_helper` and `get_update_op`

A program that builds a loss in a new graph, takes the gradients with respect to the variables of a namespace with `grad_helper`, makes one tensor of all updates with `get_update_op`, and evaluates the loss and
this tensor in one run, as in examples/sine.rs:22-42 and examples/cnn_mnist.rs:96-115.
-/

namespace Verif.Prog
open Verif Verif.Graph Verif.Nd Verif.Hint Verif.Gradient Verif.Opt Verif.OptState Verif.Eval

/-- The ways in which a step can end with a panic. -/
inductive StepPanic where
  /-- a panic while making tensors or in the evaluator -/
  | making (p : GPanic)
  /-- `add_n` of no tensors (src/tensor_ops/mod.rs:836), if there is no gradient -/
  | noUpdates
  /-- `unwrap` of a failed result (examples/sine.rs:39-40, examples/cnn_mnist.rs:113-114) -/
  | unwrap

/-- One step: `env.run` with a new graph (src/variable.rs:670-683), in which the calls `l` build the loss, the call number `loss`. `order` is the order in which the name map of the environment is iterated
(src/variable.rs:768-780), `ns` the namespace given to `grad_helper`, `uns` the namespace of the optimizer. Returns the array of the loss and the new environment. -/
noncomputable def trainStep (l : List Stmt) (loss : Nat) (ns : Str) (order : List (FullName × Nat)) (u : UOp) (uns : Str) (pick : Graph POp → List Nat → Nat) (fuel : Nat)
    (venv : VarEnv (Arr ℝ)) (feeds : List (Feed (Arr ℝ))) : Option (Except StepPanic (Arr ℝ × VarEnv (Arr ℝ))) :=
  match buildCalls l with
  | .error p => some (.error (.making (.graph p)))
  | .ok (g, ids) =>
    match gradHelper gradOps .var pick fuel g [ids.getD loss 0] ns order with
    | none => none
    | some (.error p) => some (.error (.making p))
    | some (.ok (g1, pairs)) =>
      match u.updates uns venv g1 pairs with
      | .error p => some (.error (.making (.graph p)))
      | .ok (g2, us) =>
        match updateOp gradOps g2 us with
        | none => some (.error .noUpdates)
        | some (.error p) => some (.error (.making (.graph p)))
        | some (.ok (g3, up)) =>
          match eval stepSem g3 fuel [ids.getD loss 0, up] feeds venv.arrays () with
          | none => none
          | some (.error p) => some (.error (.making (.graph p)))
          | some (.ok res) =>
            match res.results with
            | [.ok v, .ok _] => some (.ok (v, { venv with arrays := res.env }))
            | _ => some (.error .unwrap)

/-- The loop of the examples (examples/sine.rs:22, examples/cnn_mnist.rs:88-91): one step for each element of the list, given by its calls, the number of its loss and its feeds. Returns the losses. -/
noncomputable def trainSteps (ns : Str) (order : List (FullName × Nat)) (u : UOp) (uns : Str) (pick : Graph POp → List Nat → Nat) (fuel : Nat) :
    VarEnv (Arr ℝ) → List (List Stmt × Nat × List (Feed (Arr ℝ))) → Option (Except StepPanic (List (Arr ℝ) × VarEnv (Arr ℝ)))
  | venv, [] => some (.ok ([], venv))
  | venv, (l, loss, feeds) :: rest =>
    match trainStep l loss ns order u uns pick fuel venv feeds with
    | none => none
    | some (.error p) => some (.error p)
    | some (.ok (v, venv')) =>
      match trainSteps ns order u uns pick fuel venv' rest with
      | none => none
      | some (.error p) => some (.error p)
      | some (.ok (vs, venv'')) => some (.ok (v :: vs, venv''))

end Verif.Prog
