import Verif.Model.HigherOrder

/-!
# `_hessian_vector_product`
-/

namespace Verif.Prog
open Verif Verif.Graph Verif.Nd Verif.Hint Verif.Gradient

/-- The products `g * v` (src/tensor_ops/mod.rs:228-233); the operator is `mul` (src/tensor.rs:882-935). -/
noncomputable def products (g : Graph POp) : List (Nat × Nat) → Except GPanic (Graph POp × List Nat)
  | [] => .ok (g, [])
  | (a, v) :: l => do
    let (g1, t) ← mk g (.binary .mul a v)
    let (g2, ts) ← products g1 l
    .ok (g2, t :: ts)

/-- Models `_hessian_vector_product` (src/tensor_ops/mod.rs:217-236): `zip` drops what one of the lists has in excess. -/
noncomputable def hvp (pick : Graph POp → List Nat → Nat) (fuel : Nat) (g : Graph POp) (ys xs vs : List Nat) : Option (Except GPanic (GradResult POp)) :=
  match Gradient.grad gradOps pick fuel g ys xs with
  | none => none
  | some (.error p) => some (.error p)
  | some (.ok r) => match products r.g (r.grads.zip vs) with
    | .error p => some (.error p)
    | .ok (g2, ps) => Gradient.grad gradOps pick fuel g2 ps xs

end Verif.Prog
