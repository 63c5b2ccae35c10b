import Verif.Lemmas.Hvp
import Verif.Lemmas.HoReadme

/-! The product of the Hessian of `x * x` with `x`. -/

namespace Verif.Prog
open Verif Verif.Nd Verif.Spec

/-- `x * x`. -/
def squareCalls : List Call := [.op (.var 0), .op (.mul 0 0)]

/-- The value of the variable. -/
def squarePoint (x : Arr ℝ) : Point := ⟨[], [x]⟩

theorem square_nudge (x : Arr ℝ) (i : List Nat) (u : ℝ) : (squarePoint x).nudge (.variable_ 0) i u = squarePoint (Prog.nudge x i u) := rfl

theorem square_sum (x : Arr ℝ) (hx : x.shape = []) : (meaning squareCalls).sum [1] (squarePoint x) = x.get [] * x.get [] := by
  simp [Meaning.sum, Meaning.at_, squareCalls, meaning, Meaning.add, opValue, arith, squarePoint, joinShape, joinPos, hx, total, ofFn, idxs]

theorem square_deriv (x : Arr ℝ) (hx : x.shape = []) : deriv (fun u => (meaning squareCalls).sum [1] ((squarePoint x).nudge (.variable_ 0) [] u)) 0 = 2 * x.get [] := by
  have : (fun u => (meaning squareCalls).sum [1] ((squarePoint x).nudge (.variable_ 0) [] u)) = fun u => (x.get [] + u) * (x.get [] + u) := by
    funext u
    rw [square_nudge, square_sum _ (by exact hx), nudge_nil]
  rw [this]
  refine HasDerivAt.deriv ?_
  have hu := (hasDerivAt_id' (0 : ℝ)).const_add (x.get [])
  exact (hu.fun_mul hu).congr_deriv (by ring)

theorem square_hessian (x : Arr ℝ) (hx : x.shape = []) : (meaning squareCalls).hessianVector [1] (squarePoint x) [(.variable_ 0, 0)] (.variable_ 0) [] = 2 * x.get [] := by
  have e : (meaning squareCalls).at_ (squarePoint x) 0 = x := rfl
  have : (meaning squareCalls).second [1] (squarePoint x) (.variable_ 0) [] (.variable_ 0) [] = 2 := by
    unfold Meaning.second
    have : (fun u => deriv (fun w => (meaning squareCalls).sum [1] (((squarePoint x).nudge (.variable_ 0) [] u).nudge (.variable_ 0) [] w)) 0) = fun u => 2 * (x.get [] + u) := by
      funext u
      rw [square_nudge, square_deriv _ (by exact hx), nudge_nil]
    rw [this]
    refine HasDerivAt.deriv ?_
    simpa using ((hasDerivAt_id' (0 : ℝ)).const_add (x.get [])).const_mul 2
  simp [Meaning.hessianVector, e, hx, idxs, this]

/-- The meanings of the program during the calls of `_hessian_vector_product`. -/
noncomputable def squareG : Meaning := (meaning squareCalls).add (.grad [1] [0])
noncomputable def squareP : Meaning := squareG.add (.op (.mul 2 0))

theorem squareG_len (I : Point) : (squareG.value I).length = 3 := rfl
theorem squareP_len (I : Point) : (squareP.value I).length = 4 := rfl
theorem square_meaning : meaning (squareCalls ++ hvpCalls 2 [1] [0] [0]) = squareP.add (.grad [3] [0]) := rfl

theorem square_g (x : Arr ℝ) (hx : x.shape = []) : (squareG.at_ (squarePoint x) 2).shape = [] ∧ (squareG.at_ (squarePoint x) 2).get [] = 2 * x.get [] := by
  rw [squareG, grad_at (leaf := .variable_ 0) (show ((meaning squareCalls).value _).length = 2 from rfl) rfl]
  have : (meaning squareCalls).at_ (squarePoint x) 0 = x := rfl
  rw [this]
  exact ⟨hx, square_deriv x hx⟩

theorem square_p (x : Arr ℝ) (hx : x.shape = []) : squareP.sum [3] (squarePoint x) = 2 * x.get [] * x.get [] := by
  obtain ⟨h1, h2⟩ := square_g x hx
  have e : squareP.at_ (squarePoint x) 3 = arith (· * ·) (squareG.at_ (squarePoint x) 2) x := rfl
  simp [Meaning.sum, e, arith, h1, hx, joinShape, joinPos, total, ofFn, idxs, h2]

theorem square_value (x : Arr ℝ) (hx : x.shape = []) : Same (ofFn [] fun _ => 4 * x.get []) ((meaning (squareCalls ++ hvpCalls 2 [1] [0] [0])).at_ (squarePoint x) 4) := by
  rw [square_meaning, grad_at (leaf := .variable_ 0) (squareP_len _) rfl]
  have : squareP.at_ (squarePoint x) 0 = x := rfl
  rw [this]
  refine ⟨hx.symm, fun i hi => ?_⟩
  have hi : InB i [] := hi
  cases hi
  show _ = deriv (fun u => squareP.sum [3] ((squarePoint x).nudge (.variable_ 0) [] u)) 0
  have : (fun u => squareP.sum [3] ((squarePoint x).nudge (.variable_ 0) [] u)) = fun u => 2 * (x.get [] + u) * (x.get [] + u) := by
    funext u
    rw [square_nudge, square_p _ (by exact hx), nudge_nil]
  rw [this]
  refine (HasDerivAt.deriv ?_).symm
  have hu := (hasDerivAt_id' (0 : ℝ)).const_add (x.get [])
  exact ((hu.const_mul 2).fun_mul hu).congr_deriv (by simp only [ofFn]; ring)

theorem square_dom (x : Arr ℝ) (hx : x.shape = []) : (meaning (squareCalls ++ hvpCalls 2 [1] [0] [0])).dom (squarePoint x) := by
  rw [square_meaning]
  have h1 : Joinable x.shape x.shape := joinable_self (by simp [hx])
  have h2 : Joinable (squareG.at_ (squarePoint x) 2).shape x.shape := by
    rw [(square_g x hx).1, hx]
    exact joinable_self (by simp)
  exact ⟨⟨⟨trivial, Nat.one_pos⟩, h1⟩, h2⟩

theorem square_scoped : (meaning (squareCalls ++ hvpCalls 2 [1] [0] [0])).wellScoped := by
  simp [meaning, squareCalls, hvpCalls, mulCalls, Meaning.add, leafOf, Stmt.args]
  exact ⟨⟨[.variable_ 0], .cons rfl .nil, by simp⟩, [.variable_ 0], .cons rfl .nil, by simp⟩

end Verif.Prog
