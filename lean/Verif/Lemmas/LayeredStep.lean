import Verif.Model.TrainStep
import Verif.Spec.Gradient
import Verif.Lemmas.GradDemo

namespace Verif.Props
open Verif Verif.Prog Verif.Nd Verif.Spec Verif.Gradient Verif.Eval Verif.Graph Verif.Hint Verif.Opt Verif.OptState

/-! Two layers with one weight each: the loss `(-w1 * w2)²`. -/

noncomputable def lyCalls : List Stmt := [.var 0, .un .neg 0, .var 1, .mul 1 2, .un .square 3]
def lyOrder (a b : Nat) : List (FullName × Nat) := [(⟨[], ['a']⟩, a), (⟨[], ['b']⟩, b)]
noncomputable def lyEnv (w1 w2 : ℝ) : VarEnv (Arr ℝ) := ⟨[ofFn [] fun _ => w1, ofFn [] fun _ => w2], lyOrder 0 1⟩

/-- The numbers after a step of SGD with learning rate 1: the loss that is returned, and the variables. -/
noncomputable def lyStep (a b : Nat) (w1 w2 : ℝ) : Option (ℝ × List ℝ) :=
  match trainStep lyCalls 4 [] (lyOrder a b) (.sgd 1) ['s'] demoPick 200 (lyEnv w1 w2) [] with
  | some (.ok (L, e)) => some (L.get [], e.arrays.map fun w => w.get [])
  | _ => none

section
attribute [local cbv_opaque] Real.instMul Real.instAdd Real.instNeg Real.instSub Real.instOne Real.instZero
set_option maxRecDepth 100000

theorem lyStep_good (w1 w2 : ℝ) :
    lyStep 1 0 w1 w2 = some ((-w1 * w2) * (-w1 * w2), [w1 - 1 * -((1 + 1) * (-w1 * w2) * 1 * w2), w2 - 1 * ((1 + 1) * (-w1 * w2) * 1 * -w1)]) := by
  cbv

theorem lyStep_bad (w1 w2 : ℝ) :
    lyStep 0 1 w1 w2 = some ((-w1 * w2) * (-w1 * w2), [w1 - 1 * -((1 + 1) * (-w1 * w2) * 1 * (w2 - 1 * ((1 + 1) * (-w1 * w2) * 1 * -w1))), w2 - 1 * ((1 + 1) * (-w1 * w2) * 1 * -w1)]) := by
  cbv
end

end Verif.Props
