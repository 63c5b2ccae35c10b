import Verif.Spec.HigherOrder

/-! # Specification: products of the Hessian with vectors -/

namespace Verif.Prog
open Verif Verif.Nd Verif.Spec

/-- The second partial derivative of the sum of the elements of the `ys`, with respect to element `i` of `a` and element `j` of `b`. -/
noncomputable def Meaning.second (M : Meaning) (ys : List Nat) (I : Point) (a : Leaf) (i : List Nat) (b : Leaf) (j : List Nat) : ℝ :=
  deriv (fun u => deriv (fun w => M.sum ys ((I.nudge a i u).nudge b j w)) 0) 0

/-- The element for position `i` of `a` of the product of the Hessian with vectors: `bs` are pairs of a variable or placeholder and the number of the result that is its part of the vector. -/
noncomputable def Meaning.hessianVector (M : Meaning) (ys : List Nat) (I : Point) (bs : List (Leaf × Nat)) (a : Leaf) (i : List Nat) : ℝ :=
  (bs.map (fun b => ∑ j ∈ idxs (M.at_ I b.2).shape, M.second ys I a i b.1 j * (M.at_ I b.2).get j)).sum

end Verif.Prog
