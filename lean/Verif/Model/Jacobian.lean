import Verif.Model.Program

/-! `jacobians` (src/tensor_ops/mod.rs:188-216). -/

namespace Verif.Prog
open Verif Verif.Graph Verif.Nd Verif.Hint Verif.Gradient

/-- Panics of `jacobians`. -/
inductive JPanic where
  /-- a panic of `grad`, or while adding a tensor to the graph -/
  | grad (p : GPanic)
  /-- index out of range in `vec[i]` (src/tensor_ops/mod.rs:210) -/
  | index
  /-- `assert_ne!(tensors.len(), 0)` of `concat` (src/tensor_ops/mod.rs:2219) -/
  | empty

/-- The panics of tensor constructors in `jacobians`. -/
def liftJ {α : Type} : Except GPanic α → Except JPanic α
  | .ok a => .ok a
  | .error p => .error (.grad p)

/-- The loop over the elements of `y` (src/tensor_ops/mod.rs:198-200): `access_elem` (47-52, no recorded shape) and `grad` of it for every element, given the
positions. The result is the list of the lists of gradients. `none`: out of fuel. -/
noncomputable def elemGrads (pick : Graph POp → List Nat → Nat) (fuel : Nat) (y : Nat) (xs : List Nat) :
    List Nat → Graph POp → Option (Except JPanic (Graph POp × List (List Nat)))
  | [], g => some (.ok (g, []))
  | i :: is, g =>
    match mk g (.plain (.index (i : Int)) [inp y]) with
    | .error p => some (.error (.grad p))
    | .ok (g1, e) =>
      match Gradient.grad gradOps pick fuel g1 [e] xs with
      | none => none
      | some (.error p) => some (.error (.grad p))
      | some (.ok r) =>
        match elemGrads pick fuel y xs is r.g with
        | none => none
        | some (.error p) => some (.error p)
        | some (.ok (g2, vs)) => some (.ok (g2, r.grads :: vs))

/-- `expand_dims(flatten(x), &[0])` (src/tensor_ops/mod.rs:210): `flatten` (1344-1355) first builds the scalar -1, then records the shape of `x` (which is not that
of the result, C43) and builds `Reshape`; `expand_dims` (979-990) builds the constant of the axes and `ExpandDims` without a recorded shape. -/
noncomputable def rowT (g : Graph POp) (x : Nat) : Except GPanic (Graph POp × Nat) := do
  let (g1, c) ← mk g (.scalar (.scalar (-1)))
  let (g2, f) ← mk g1 (.like .reshape [inp x, inp c] x)
  let (g3, a) ← mk g2 (.const [1] (.const (vec [0])))
  mk g3 (.plain .expandDims [inp f, inp a])

/-- The rows of one matrix (src/tensor_ops/mod.rs:207-211). -/
noncomputable def rowsT : List Nat → Graph POp → Except GPanic (Graph POp × List Nat)
  | [], g => .ok (g, [])
  | x :: xs, g => do
    let (g1, t) ← rowT g x
    let (g2, ts) ← rowsT xs g1
    .ok (g2, t :: ts)

/-- The gradients with respect to the `j`-th variable (`vec[i]`, src/tensor_ops/mod.rs:210). -/
def column (j : Nat) (vecs : List (List Nat)) : Except JPanic (List Nat) := vecs.mapM (fun v => match v[j]? with
  | some t => .ok t
  | none => .error .index)

/-- `concat(&jac, 0)` (src/tensor_ops/mod.rs:213, 2215-2227, no recorded shape); `lay` as in `POp.concat`. -/
noncomputable def concatT (lay : List (Arr ℝ) → List Int) (g : Graph POp) (ts : List Nat) : Except JPanic (Graph POp × Nat) :=
  if ts = [] then .error .empty else liftJ (mk g (.plain (.concat lay 0) (ts.map inp)))

/-- The loop over the variables (src/tensor_ops/mod.rs:205-214), given their positions. The panic `index` is reported before the rows of the matrix are built. -/
noncomputable def matrices (lay : List (Arr ℝ) → List Int) (vecs : List (List Nat)) : List Nat → Graph POp → Except JPanic (Graph POp × List Nat)
  | [], g => .ok (g, [])
  | j :: js, g => do
    let col ← column j vecs
    let (g1, ts) ← liftJ (rowsT col g)
    let (g2, m) ← concatT lay g1 ts
    let (g3, ms) ← matrices lay vecs js g2
    .ok (g3, m :: ms)

/-- Models `jacobians` (src/tensor_ops/mod.rs:188-216) with `objective_len = n`. -/
noncomputable def jacobians (pick : Graph POp → List Nat → Nat) (fuel : Nat) (lay : List (Arr ℝ) → List Int) (g : Graph POp) (y : Nat) (xs : List Nat) (n : Nat) :
    Option (Except JPanic (Graph POp × List Nat)) :=
  match elemGrads pick fuel y xs (List.range n) g with
  | none => none
  | some (.error p) => some (.error p)
  | some (.ok (g1, vecs)) => some (matrices lay vecs (List.range xs.length) g1)

end Verif.Prog
