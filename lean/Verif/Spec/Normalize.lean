import Mathlib.Analysis.SpecialFunctions.Sqrt
import Verif.Model.Normalize
import Verif.Spec.Calls

/-! # Mean, variance and normalised values along axes -/

namespace Verif.Prog
open Verif Verif.Nd Verif.Spec

/-- The indices of an array of shape `s` that agree with `i` outside the axes `ks`. -/
def line (ks : List Nat) (s i : List Nat) : Finset (List Nat) := (idxs s).filter fun o => ∀ k < s.length, k ∉ ks → o.getD k 0 = i.getD k 0

/-- The mean of `f` over the line of `i`. -/
noncomputable def lineMean (ks : List Nat) (s : List Nat) (f : List Nat → ℝ) (i : List Nat) : ℝ := (∑ o ∈ line ks s i, f o) / (line ks s i).card

/-- The variance of `f` over the line of `i`. -/
noncomputable def lineVariance (ks : List Nat) (s : List Nat) (f : List Nat → ℝ) (i : List Nat) : ℝ := lineMean ks s (fun o => (f o - lineMean ks s f i) ^ 2) i

/-- `f`, shifted and scaled so that its mean over every line is 0 and its variance nearly 1. -/
noncomputable def normalized (eps : ℝ) (ks : List Nat) (s : List Nat) (f : List Nat → ℝ) (i : List Nat) : ℝ :=
  (f i - lineMean ks s f i) / Real.sqrt (lineVariance ks s f i + eps)

/-- A program whose calls have the values `val`, and to which C61 applies when it is differentiated with respect to the variables `vids`. -/
structure Meant (fs : List (String × Arr ℝ)) (env : List (Arr ℝ)) (vids : List Nat) (l : List Stmt) (val : Nat → Arr ℝ) : Prop where
  inScope : Scoped l
  dims : DimsOk l
  values : Denotes fs env l val
  ok : ∀ s ∈ l, StmtOk (Fixed l vids) (FlatIn l val) val s ∧ GradGivenFor (Fixed l vids) s

/-- The argument denotes the axes `ks` of an array of rank `rank`, different and at least one. A tensor must be a vector that does not depend on the variables `vids`. -/
def AxesAre (l : List Stmt) (vids : List Nat) (val : Nat → Arr ℝ) (rank : Nat) (ks : List Nat) : AxesArg → Prop
  | .tensor k => k < l.length ∧ Fixed l vids k ∧ (val k).shape.length = 1 ∧ List.Forall₂ (AxisIs rank) (readAxes (val k)) ks ∧ ks.Nodup ∧ ks ≠ []
  | .ints a => List.Forall₂ (AxisIs rank) a ks ∧ ks.Nodup ∧ ks ≠ []

/-- A weighted sum of the elements of `batch_norm(x, scale, shift)`, where these are the variables 0, 1 and 2. -/
noncomputable def bnLoss (eps : ℝ) (weights : Arr ℝ) : StateM (List Stmt) Nat := do
  let x ← emit (.var 0)
  let scale ← emit (.var 1)
  let shift ← emit (.var 2)
  let w ← emit (.const weights)
  let y ← callBatchNorm eps x scale shift
  let p ← emit (.mul y w)
  emit (.sumAll p)
/-- The calls of `bnLoss`. -/
noncomputable def bnCalls (eps : ℝ) (weights : Arr ℝ) : List Stmt := (bnLoss eps weights []).2
/-- The call that returns the value of `bnLoss`. -/
noncomputable def bnResult (eps : ℝ) (weights : Arr ℝ) : Nat := (bnLoss eps weights []).1

/-- The weighted sum as a formula. -/
noncomputable def bnFormula (eps : ℝ) (m : Nat) (s : List Nat) (weights : Arr ℝ) (env : List (Arr ℝ)) : ℝ :=
  ∑ i ∈ idxs (m :: s), (normalized eps [0] (m :: s) (env.getD 0 (vec [])).get i * (env.getD 1 (vec [])).get (0 :: i.tail) + (env.getD 2 (vec [])).get (0 :: i.tail)) * weights.get i

/-- `mean_squared_error(y, t)`, where these are the variables 0 and 1. -/
noncomputable def mseLoss : StateM (List Stmt) Nat := do
  let y ← emit (.var 0)
  let t ← emit (.var 1)
  callSquaredError y t
/-- The calls of `mseLoss`. -/
noncomputable def mseCalls : List Stmt := (mseLoss []).2
/-- The call that returns the value of `mseLoss`. -/
noncomputable def mseResult : Nat := (mseLoss []).1

/-- The sum of the mean squared errors as a formula. -/
noncomputable def mseFormula (s : List Nat) (n : Nat) (env : List (Arr ℝ)) : ℝ :=
  ∑ i ∈ idxs s, (∑ j ∈ Finset.range n, ((env.getD 0 (vec [])).get (i ++ [j]) - (env.getD 1 (vec [])).get (i ++ [j])) ^ 2) / n

end Verif.Prog
