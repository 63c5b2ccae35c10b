import Verif.Model.Gradient
import Verif.Model.Variables

/-!
# Model of `grad_helper` and `get_update_op`

Covers src/optimizers/mod.rs:17-46, 84-98.
-/

namespace Verif.Gradient
open Verif Verif.Graph
variable {Op : Type} {A : Type}

/-- The loop over the variables in `grad_helper` (src/optimizers/mod.rs:36-42): variables without a gradient are left out. `extract_grad` is src/gradient.rs:131-139. -/
def extractSome (O : GradOps Op) : List Nat → Graph Op → GMap → Except GPanic (Graph Op × List (Nat × Nat))
  | [], g, _ => .ok (g, [])
  | x :: xs, g, m =>
    match m x with
    | some info =>
      if info.onPath then do
        let (g1, m1, t) ← gradient O g m x
        let (g2, ts) ← extractSome O xs g1 m1
        .ok (g2, (x, t) :: ts)
      else extractSome O xs g m
    | none => extractSome O xs g m

/-- Models `grad_helper` (src/optimizers/mod.rs:21-46). `order` is the order in which the name map of the environment is iterated (src/variable.rs:768-780). The result are
the pairs of variable tensor and gradient tensor; the code returns them as two lists. -/
def gradHelper (O : GradOps Op) (varOp : Op) (pick : Graph Op → List Nat → Nat) (fuel : Nat) (g : Graph Op) (losses : List Nat) (ns : Str)
    (order : List (FullName × Nat)) : Option (Except GPanic (Graph Op × List (Nat × Nat))) :=
  if losses = [] then some (.error .noObjective) else
  match sumAlls O g losses with
  | .error p => some (.error (.graph p))
  | .ok (g0, sys) =>
    match varTensorsByName varOp ns g0 order with
    | .error p => some (.error (.graph p))
    | .ok (g1, vars) =>
      match computeGradients O pick fuel g1 sys (vars.map Prod.snd) none with
      | none => none
      | some (.error p) => some (.error p)
      | some (.ok s) => some (extractSome O (vars.map Prod.snd) s.g s.m)

/-- Models `get_update_op` (src/optimizers/mod.rs:84-98) after `compute_updates` made the update tensors: `add_n` of them. `none` is the panic of `add_n` for no tensors
(src/tensor_ops/mod.rs:836). -/
def updateOp (O : GradOps Op) (g : Graph Op) : List Nat → Option (Except Panic (Graph Op × Nat))
  | [] => none
  | u :: us => some (addN O g u us)

end Verif.Gradient
