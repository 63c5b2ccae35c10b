import Verif.Model.Calls
import Verif.Model.Classifier
import Verif.Model.Lstm
import Verif.Model.Mnist
import Verif.Model.TrainLoop

/-!
# Model of the example `mlp_mnist`

The whole `main` of examples/mlp_mnist.rs: loading, variables, optimizer, epochs, and the test.
-/

namespace Verif.Prog
open Verif Verif.Graph Verif.Nd Verif.Hint Verif.Gradient Verif.Eval Verif.Mnist

/-- The test accuracy (examples/mlp_mnist.rs:93-100): the tensor `accuracy`. -/
noncomputable def mlpAccuracy (bot : ℝ) (copy : Arr ℝ → List Int) : StateM (List Stmt) Nat := do
  let w ← emit (.var 0)
  let b ← emit (.var 1)
  let x ← emit (.placeholder "x" [-1, 28 * 28])
  let y ← emit (.placeholder "y" [-1, 1])
  let m ← emit (.matmul x w)
  let z ← emit (.add m b)
  let predictions ← emit (.argMax bot copy z (-1) true)
  let eq ← emit (.cmp .eq predictions y)
  let axes ← emit (.const (vec [0, 1]))
  emit (.reduceMean eq axes false)

noncomputable def mlpTest (bot : ℝ) (copy : Arr ℝ → List Int) : List Stmt := (mlpAccuracy bot copy []).2
noncomputable def mlpTestResult (bot : ℝ) (copy : Arr ℝ → List Int) : Nat := (mlpAccuracy bot copy []).1

/-- What the run of the example depends on besides the files: the least float `bot`, the layouts `lay`, `copy` that ndarray chooses (see `sparseCE`, `argMax`), what is left in a
buffer by a failed read, `shuffle` with the state `seed` of the default generator, the choice `pick` of `BinaryHeap` among tensors of equal rank, the random names of the variables, the order in which
the map of names is iterated, and the initial weights (`glorot_uniform`, drawn with the default generator). -/
structure MlpRun (σ : Type) where
  bot : ℝ
  lay : Arr ℝ → List Int
  copy : Arr ℝ → List Int
  short : Short
  shuffle : σ → List Nat → List Nat
  seed : σ
  pick : Graph POp → List Nat → Nat
  nameW : Str
  nameB : Str
  order : List (FullName × Nat)
  w0 : Arr ℝ

/-- The variables (examples/mlp_mnist.rs:56-58). -/
noncomputable def mlpVars (nameW nameB : Str) (w0 : Arr ℝ) : VarEnv (Arr ℝ) :=
  (((VarEnv.new : VarEnv (Arr ℝ)).register [] nameW w0).1.register [] nameB (ofFn [1, 10] fun _ => 0)).1

/-- `Adam::default` (src/optimizers/adam.rs:58-72). -/
noncomputable def mlpAdam : UOp := .adam ⟨1 / 1000, 1 / 10 ^ 8, 9 / 10, 999 / 1000⟩

/-- `push(x, x_batch).push(y, y_batch)` (examples/mlp_mnist.rs:84, 105-106): in both graphs the placeholders are the tensors 2 and 3. -/
def mlpFeeds (b : Arr ℝ × Arr ℝ) : List (Feed (Arr ℝ)) := [⟨.id 2, b.1⟩, ⟨.id 3, b.2⟩]

/-- Models `main` (examples/mlp_mnist.rs:51-110). Returns the variables at the end and what is printed as the test accuracy; `none` if `fuel` steps of a loop of the crate are not enough, `error ()` for a
panic. All batches are sliced before the first is used; as slices are views, this makes a difference only for when a panic happens. -/
noncomputable def mlpMain {σ : Type} (r : MlpRun σ) (fuel : Nat) (trainX trainY testX testY : Option (List Byte)) : Option (Except Unit (VarEnv (Arr ℝ) × List (Except Unit (Arr ℝ)))) :=
  match load (R := ℝ) r.short trainX trainY testX testY with
  | .error _ => some (.error ())
  | .ok ((x, y), (xt, yt)) =>
    match mlpAdam.create "adam".toList (mlpVars r.nameW r.nameB r.w0) (VarEnv.currentVarIds r.order []) with
    | .error _ => some (.error ())
    | .ok e1 =>
      match epochs r.shuffle r.seed 200 3 x y with
      | .error _ => some (.error ())
      | .ok es =>
        match training (classifier r.bot r.lay (28 * 28) true) 12 [0, 1] mlpAdam "adam".toList r.pick fuel e1 (es.flatten.map mlpFeeds) with
        | none => none
        | some (.error _) => some (.error ())
        | some (.ok e) =>
          match buildCalls (mlpTest r.bot r.copy) with
          | .error _ => some (.error ())
          | .ok (g, ids) =>
            match eval progSem g fuel [ids.getD (mlpTestResult r.bot r.copy) 0] (mlpFeeds (xt, yt)) e.arrays () with
            | none => none
            | some (.error _) => some (.error ())
            | some (.ok res) => some (.ok (e, res.results))

end Verif.Prog
