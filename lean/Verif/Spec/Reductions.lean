import Verif.Spec.NdArray

/-!
# Specification vocabulary for reductions: which axes are meant, and where an element goes
-/

namespace Verif.Nd

/-- The integer `a` denotes axis `k` of an array of rank `ndim`; negative numbers count from the back. -/
def AxisIs (ndim : Nat) (a : Int) (k : Nat) : Prop := k < ndim ∧ (a = k ∨ a = (k : Int) - ndim)

/-- The entries of a list whose position (starting with `i`) is not in `A`. -/
def dropAt {α : Type} (A : List Nat) : Nat → List α → List α
  | _, [] => []
  | i, x :: l => if i ∈ A then dropAt A (i + 1) l else x :: dropAt A (i + 1) l

/-- A list with the entries at the positions in `A` (the first position is `i`) replaced by `v`. -/
def setAt {α : Type} (A : List Nat) (v : α) : Nat → List α → List α
  | _, [] => []
  | i, x :: l => (if i ∈ A then v else x) :: setAt A v (i + 1) l

/-- Shape after reducing the axes `A`. -/
def reducedShape (A : List Nat) (keep : Bool) (s : List Nat) : List Nat := if keep then setAt A 1 0 s else dropAt A 0 s

/-- Position of the result to which the element at a position is reduced. -/
def reducedIdx (A : List Nat) (keep : Bool) (o : List Nat) : List Nat := if keep then setAt A 0 0 o else dropAt A 0 o

/-- The positions that are reduced to `idx`. -/
def fibre (A : List Nat) (keep : Bool) (s idx : List Nat) : Finset (List Nat) := (idxs s).filter (fun o => reducedIdx A keep o = idx)

end Verif.Nd
