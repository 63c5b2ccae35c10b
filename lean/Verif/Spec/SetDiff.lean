import Verif.Spec.NdArray

/-! # What it means that a number occurs in an array -/

namespace Verif.Spec
open Verif Verif.Nd

/-- `v` is an element of `x`. -/
def Occurs {R : Type} (v : R) (x : Arr R) : Prop := ∃ i, InB i x.shape ∧ x.get i = v

/-- The array is a vector whose elements increase strictly (so that none occurs twice). -/
def Increasing {R : Type} [LT R] (x : Arr R) : Prop := ∃ n, x.shape = [n] ∧ ∀ i j, i < j → j < n → x.get [i] < x.get [j]

end Verif.Spec
