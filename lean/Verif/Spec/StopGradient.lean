import Verif.Spec.Calls

/-! Independent specification for C76: the function that `grad` differentiates when `stop_gradient` is called. -/

namespace Verif.Prog
open Verif Verif.Nd

/-- `val k` is the value of the `k`-th call when the results of the calls of `stop_gradient` are not computed from their arguments, but are held at the values given by
`held`. -/
def DenotesHeld (fs : List (String × Arr ℝ)) (env : List (Arr ℝ)) (l : List Stmt) (held val : Nat → Arr ℝ) : Prop :=
  ∀ (k : Nat) (s : Stmt), l[k]? = some s → ((∃ x, s = .stopGradient x) ∧ val k = held k) ∨ ((∀ x, s ≠ .stopGradient x) ∧ Returns fs env val (val k) s)

end Verif.Prog
