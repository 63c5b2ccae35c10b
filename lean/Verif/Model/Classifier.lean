import Verif.Model.Program

/-!
# The classifier of the example `mlp_mnist`
-/

namespace Verif.Prog
open Verif Verif.Nd

/-- `reduce_mean(sparse_softmax_cross_entropy(matmul(x, w) + b, &y), &[0], false)` for variables `w`, `b` and placeholders `x`, `y`
(examples/mlp_mnist.rs:38-42 and 73-79; README.md:70-75 has the same calls, but the placeholders before the variables); `d` features (28 * 28 there), and labels
declared as a column `[-1, 1]` (example) or as `[-1]` (README). The numbers
are the tensors returned by earlier calls: `add` also creates the shapes 5, 6, 7 and the constant 11 its shape 10. -/
noncomputable def classifier (bot : ℝ) (lay : Arr ℝ → List Int) (d : Nat) (column : Bool) : List Stmt :=
  [.var 0, .var 1, .placeholder "x" [-1, d], .placeholder "y" (if column then [-1, 1] else [-1]), .matmul 2 0, .add 4 1, .sparseCE bot lay 8 3,
    .const (vec [0]), .reduceMean 9 11 false]

end Verif.Prog
