import Verif.Model.ArrayOps

/-!
# Negative axes and inserted dimensions
-/

namespace Verif.Nd

theorem absIndex_back {n m : Nat} (h : m < n) : absIndex n (-((m : Int) + 1)) = some (n - m - 1) := by
  unfold absIndex
  rw [if_pos (by omega), if_neg (by omega)]
  congr 1
  omega

theorem sortInts_one (a : Int) : sortInts [a] = [a] := by simp [sortInts]

theorem size_insert (s : List Nat) : ∀ k, k ≤ s.length → size (s.insertIdx k 1) = size s := by
  induction s with
  | nil => intro k hk; have : k = 0 := by simpa using hk
           subst this; rfl
  | cons n s ih =>
    intro k hk
    cases k with
    | zero => simp [size]
    | succ k => rw [List.insertIdx_succ_cons]; simp only [size]; rw [ih k (by simpa using hk)]

end Verif.Nd
