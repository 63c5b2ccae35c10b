import Verif.Model.Cnn
import Verif.Model.MlpMnist
import Verif.Model.TrainStep

/-!
# Model of the example `cnn_mnist`

The whole `main` of examples/cnn_mnist.rs: loading, variables, optimizer, epochs, and the test.
-/

namespace Verif.Prog
open Verif Verif.Graph Verif.Nd Verif.Hint Verif.Gradient Verif.Eval Verif.Mnist

/-- The sizes in the example (examples/cnn_mnist.rs:43-51, 71-78). -/
def cnnSize : CnnSize := ⟨7, 32, 64, 10⟩

/-- What the run of the example depends on besides the files: what is left in a buffer by a failed read, `shuffle` with the state `seed` of the default generator, the choice `pick` of `BinaryHeap` among tensors
of equal rank, what the ops depend on in the training step `t` (`draws t`; steps are counted over all epochs) and in the test (`test`), the orders in which the map of names is iterated before (`order0`) and after
(`order1`) the optimizer has added its variables (the map is not changed later), and the initial weights. -/
structure CnnMain (σ : Type) where
  short : Short
  shuffle : σ → List Nat → List Nat
  seed : σ
  pick : Graph POp → List Nat → Nat
  draws : Nat → CnnRun
  test : CnnRun
  order0 : List (FullName × Nat)
  order1 : List (FullName × Nat)
  w1 : Arr ℝ
  w2 : Arr ℝ
  w3 : Arr ℝ

/-- The variables (examples/cnn_mnist.rs:69-78). -/
noncomputable def cnnVars (w1 w2 w3 : Arr ℝ) : VarEnv (Arr ℝ) :=
  (((((((VarEnv.new : VarEnv (Arr ℝ)).register [] ['w', '1'] w1).1.register [] ['w', '2'] w2).1.register [] ['w', '3'] w3).1.register [] ['b', '1'] (ofFn [1, 32, 28, 28] fun _ => 0)).1.register [] ['b', '2']
    (ofFn [1, 64, 14, 14] fun _ => 0)).1.register [] ['b', '3'] (ofFn [1, 10] fun _ => 0)).1

/-- `feed("x", x_batch).feed("y", y_batch)` (examples/cnn_mnist.rs:109-110, 138-139). -/
def cnnFeeds (b : Arr ℝ × Arr ℝ) : List (Feed (Arr ℝ)) := [⟨.name "x", b.1⟩, ⟨.name "y", b.2⟩]

/-- `eval_results[0].as_ref().unwrap()[0]` (examples/cnn_mnist.rs:114): the first element of an array of one dimension; `none` is a panic. -/
noncomputable def firstElem (v : Arr ℝ) : Option ℝ :=
  match v.shape with
  | [_ + 1] => some (v.get [0])
  | _ => none

/-- The sums of the losses of each epoch, divided by the number of batches (examples/cnn_mnist.rs:89, 114-121); if there are no batches, floats give NaN and this model 0. -/
noncomputable def epochMeans (count batches : Nat) (losses : List ℝ) : List ℝ :=
  (List.range count).map fun k => ((losses.drop (k * batches)).take batches).sum / (batches : ℝ)

/-- Models `main` (examples/cnn_mnist.rs:59-143). Returns the variables at the end, the mean losses printed after each epoch, and what is printed as the test accuracy; `none` if `fuel` steps of a loop of the
crate are not enough, `error ()` for a panic. All batches are sliced before the first is used, and the losses are added up after the last step; this makes a difference only for when a panic happens. The time is not modelled. -/
noncomputable def cnnMain {σ : Type} (r : CnnMain σ) (fuel : Nat) (trainX trainY testX testY : Option (List Byte)) :
    Option (Except Unit (VarEnv (Arr ℝ) × List ℝ × List (Except Unit (Arr ℝ)))) :=
  match load (R := ℝ) r.short trainX trainY testX testY with
  | .error _ => some (.error ())
  | .ok ((x, y), (xt, yt)) =>
    match mlpAdam.create "my_adam".toList (cnnVars r.w1 r.w2 r.w3) (VarEnv.currentVarIds r.order0 []) with
    | .error _ => some (.error ())
    | .ok e1 =>
      match epochs r.shuffle r.seed 128 5 x y with
      | .error _ => some (.error ())
      | .ok es =>
        match trainSteps [] r.order1 mlpAdam "my_adam".toList r.pick fuel e1
            (es.flatten.mapIdx fun t b => (cnnCalls cnnSize (r.draws t), (cnnResult cnnSize (r.draws t)).1, cnnFeeds b)) with
        | none => none
        | some (.error _) => some (.error ())
        | some (.ok (losses, e)) =>
          match losses.mapM firstElem with
          | none => some (.error ())
          | some ls =>
            match buildCalls (cnnTestCalls cnnSize r.test) with
            | .error _ => some (.error ())
            | .ok (g, ids) =>
              match eval progSem g fuel [ids.getD (cnnTestResult cnnSize r.test) 0] (cnnFeeds (xt, yt)) e.arrays () with
              | none => none
              | some (.error _) => some (.error ())
              | some (.ok res) => some (.ok (e, epochMeans 5 (x.shape.getD 0 0 / 128) ls, res.results))

end Verif.Prog
