import Verif.Spec.ArrayOps
import Verif.Spec.Vjp

/-!
# Specification vocabulary for random arrays
-/

namespace Verif.Rand
open Verif Verif.Nd

variable {σ R : Type}

/-- The state of the generator after `n` samples. -/
def after (sample : σ → R × σ) : Nat → σ → σ
  | 0, s => s
  | n + 1, s => after sample n (sample s).2

/-- The sample that follows `n` others. -/
def nthSample (sample : σ → R × σ) (s : σ) (n : Nat) : R := (sample (after sample n s)).1

/-- A generator that reads off a given sequence of numbers. -/
def stream (u : Nat → R) : R × (Nat → R) := (u 0, fun n => u (n + 1))

end Verif.Rand
