import Verif.Lemmas.GradDemo
import Verif.Spec.Real
import Mathlib.Analysis.Calculus.FDeriv.Mul
import Mathlib.Analysis.Calculus.FDeriv.Pi

/-!
# Partial derivatives of the multiplication
-/

namespace Verif.Gradient
open Verif Verif.Spec

theorem mul_partials (a b : ℝ) : HasPartials (demoφ .mul) [a, b] [b, a] := by
  unfold HasPartials
  have e : (fun p : Fin [a, b].length → ℝ => demoφ DOp.mul (List.ofFn p)) = fun p => p 0 * p 1 := by
    funext p
    simp [demoφ, List.ofFn_succ]
  rw [e]
  have h0 := hasFDerivAt_apply (𝕜 := ℝ) (0 : Fin [a, b].length) (fun j => [a, b].get j)
  have h1 := hasFDerivAt_apply (𝕜 := ℝ) (1 : Fin [a, b].length) (fun j => [a, b].get j)
  have := h0.mul h1
  refine this.congr_fderiv ?_
  show _ = ∑ j : Fin 2, _
  rw [Fin.sum_univ_two, add_comm]
  rfl

end Verif.Gradient
