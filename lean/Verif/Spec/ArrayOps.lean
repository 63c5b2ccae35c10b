import Mathlib.Algebra.BigOperators.Group.List.Basic
import Mathlib.Algebra.BigOperators.Ring.Finset
import Verif.Spec.Reductions

/-!
# Specification vocabulary for the ops that rearrange elements
-/

namespace Verif.Nd

/-- Number of the position `o` in the row-major (lexicographic) enumeration of the positions of an array of shape `s`. -/
def rowPos (s o : List Nat) : Nat := ((idxs s).filter (fun p => List.Lex (· < ·) p o)).card

/-- The arrays have the same elements in row-major order: equal numbers of positions, and equal elements at positions with the same number. -/
def SameSequence {R : Type} (x y : Arr R) : Prop :=
  (idxs x.shape).card = (idxs y.shape).card ∧
  ∀ o i, InB o x.shape → InB i y.shape → rowPos x.shape o = rowPos y.shape i → x.get o = y.get i

/-- `t` is the shape denoted by the target `target` for an array of shape `s`: the same number of elements, equal to `target` except that at most one entry
of it is -1, and then the other dimensions determine this one. -/
def ReshapesTo (s : List Nat) (target : List Int) (t : List Nat) : Prop :=
  t.prod = s.prod ∧ target.count (-1) ≤ 1 ∧ List.Forall₂ (fun (d : Int) (n : Nat) => d = -1 ∨ d = n) target t ∧
  ∀ k : Nat, target[k]? = some (-1) → (t.eraseIdx k).prod ≠ 0

/-- In a dimension of size `n`, the bounds `start` (inclusive, negative: from the back) and `stop` (exclusive if non-negative; inclusive and from the back if
negative) denote the positions `lo ≤ i < hi`. -/
def Bounds (n : Nat) (start stop : Int) (lo hi : Nat) : Prop :=
  (start = lo ∨ (start < 0 ∧ start + n = lo)) ∧ ((0 ≤ stop ∧ stop = hi) ∨ (stop < 0 ∧ stop + n + 1 = hi)) ∧ lo ≤ n ∧ hi ≤ n

/-- `Bounds` in every dimension. -/
def AllBounds : List Nat → List Int → List Int → List Nat → List Nat → Prop
  | [], [], [], [], [] => True
  | n :: s, a :: starts, b :: stops, lo :: los, hi :: his => Bounds n a b lo hi ∧ AllBounds s starts stops los his
  | _, _, _, _, _ => False

/-- The total size along axis `k` of the first `i` parts. -/
def partOffset {R : Type} (k : Nat) (xs : List (Arr R)) (i : Nat) : Nat := ((xs.take i).map (fun x => x.shape.getD k 0)).sum

/-- All arrays have rank `n` and, with axis `k` left out, the shape `rest`. -/
def AgreeOutside {R : Type} (n k : Nat) (rest : List Nat) (xs : List (Arr R)) : Prop :=
  ∀ x ∈ xs, x.shape.length = n ∧ x.shape.eraseIdx k = rest

/-- The position moved by `d` along axis `k`. -/
def shiftAt (k d : Nat) (o : List Nat) : List Nat := o.set k (d + o.getD k 0)

end Verif.Nd
