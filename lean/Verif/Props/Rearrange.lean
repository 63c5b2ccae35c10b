import Verif.Lemmas.Rearrange

/-!
# C29, C30: reshape and transpose
-/

namespace Verif.Props
open Verif.Nd Finset

/-- An array of shape [2,3] in column-major layout, used in the examples. -/
def exColMajor : Arr ℤ := ⟨[2, 3], [1, 2], fun i => (i.getD 0 0 : ℤ) * 10 + i.getD 1 0⟩

theorem exA_reshapes : ReshapesTo exColMajor.shape [3, -1] [3, 2] := by
  refine ⟨by decide, by decide, by simp, fun k hk => ?_⟩
  rcases k with _ | _ | k
  · simp at hk
  · simp
  · simp at hk

/-- C29: every array (any memory layout), every target that denotes a shape with the same number of elements. -/
theorem C29_reshape {R : Type} (x : Arr R) (target : List Int) (t : List Nat) (h : ReshapesTo x.shape target t) :
    ∃ y, reshape x target = .ok y ∧ y.shape = t ∧ SameSequence x y := by
  obtain ⟨y, hy, hs, hg⟩ := reshape_ok h
  subst hs
  exact ⟨y, hy, rfl, sameSequence_of (prod_eq_iff_size.1 h.1) hg⟩

example : ReshapesTo exColMajor.shape [3, -1] [3, 2] := exA_reshapes

/-- C29: for no target at all does `reshape` return anything but the same elements in the same order. -/
theorem C29_never_wrong {R : Type} (x y : Arr R) (target : List Int) (h : reshape x target = .ok y) : SameSequence x y := by
  cases ht : target.mapM (targetDim (size x.shape) (iprod target)) with
  | error e => simp [reshape, ht, bind, Except.bind] at h
  | ok t =>
    obtain ⟨h1, h2⟩ := reshape_target ht
    by_cases hs : size t = size x.shape
    · obtain ⟨y', hy', hsh, hg⟩ := h1 hs
      rw [h] at hy'
      cases hy'
      subst hsh
      exact sameSequence_of hs hg
    · rw [h2 hs] at h; cases h

example : ∃ y, reshape exColMajor [3, -1] = .ok y ∧ y.shape = [3, 2] ∧ y.get [1, 1] = 10 := ⟨_, rfl, rfl, by decide⟩

/-- C29: a target without -1 and with another number of elements is reported as an error. -/
theorem C29_incompatible {R : Type} (x : Arr R) (t : List Nat) (h : t.prod ≠ x.shape.prod) :
    reshape x (t.map (fun (n : Nat) => (n : Int))) = .error .opError := by
  have hF : List.Forall₂ (fun (d : Int) (n : Nat) => targetDim (size x.shape) (iprod (t.map (fun (n : Nat) => (n : Int)))) d = .ok n)
      (t.map (fun (n : Nat) => (n : Int))) t := by
    rw [List.forall₂_map_left_iff, List.forall₂_same]
    intro n _
    rw [targetDim, if_pos (by omega), if_neg (by omega)]
    simp
  exact (reshape_target (mapM_forall₂ hF)).2 (fun hs => h (prod_eq_iff_size.2 hs))

example : ([4] : List Nat).prod ≠ exColMajor.shape.prod := by decide

/-- C29: `flatten`. -/
theorem C29_flatten {R : Type} (x : Arr R) : ∃ y, flatten x = .ok y ∧ y.shape = [x.shape.prod] ∧ SameSequence x y := by
  refine C29_reshape x [-1] [x.shape.prod] ⟨by simp, by simp, by simp, fun k hk => ?_⟩
  rcases k with _ | k
  · simp
  · simp at hk

example : ∃ y, flatten exColMajor = .ok y ∧ y.shape = [6] ∧ y.get [3] = 10 := ⟨_, rfl, rfl, by decide⟩

/-- C29: the gradient op applied to a reshaped array gives the array back. -/
theorem C29_back {R : Type} (x y : Arr R) (target : List Int) (h : reshape x target = .ok y) :
    ∃ z, reshapeGrad x y = .ok z ∧ Same z x := by
  have hseq := C29_never_wrong x y target h
  have hsz : size x.shape = size y.shape := by rw [← card_idxs, ← card_idxs]; exact hseq.1
  obtain ⟨z, hz, hs, hg⟩ := reshape_ok (x := y) (reshapesTo_self x.shape y.shape (prod_eq_iff_size.2 hsz))
  refine ⟨z, hz, hs, fun o ho => ?_⟩
  rw [hs] at ho
  rw [hg o ho]
  have hlt : flat x.shape o < size y.shape := by rw [← hsz]; exact flat_lt ho
  have hb := inB_unflat hlt
  exact (hseq.2 o _ ho hb (by rw [rowPos_eq ho, rowPos_eq hb, flat_unflat hlt])).symm

example : ∃ y, reshape exColMajor [3, -1] = .ok y := ⟨_, rfl⟩

/-- C29: the gradient is the adjoint of the forward op, for every target that denotes a shape and all memory layouts. -/
theorem C29_gradient {R : Type} [CommSemiring R] (x gy : Arr R) (target : List Int) (t : List Nat) (h : ReshapesTo x.shape target t)
    (hgy : gy.shape = t) :
    ∃ g, reshapeGrad x gy = .ok g ∧ g.shape = x.shape ∧ ∀ dx : Arr R, dx.shape = x.shape → ∃ dy, reshape dx target = .ok dy ∧
      ∑ i ∈ idxs t, gy.get i * dy.get i = ∑ o ∈ idxs x.shape, g.get o * dx.get o :=
  reshape_adjoint x gy target t h hgy

example : ReshapesTo exColMajor.shape [3, -1] [3, 2] ∧ (⟨[3, 2], [2, 1], fun _ => 1⟩ : Arr ℤ).shape = [3, 2] := ⟨exA_reshapes, rfl⟩

/-- C30: the forward op; every position of the result is the permuted image of exactly one position of `x`. -/
theorem C30_transpose {R : Type} (x : Arr R) (perm : List Nat) (hp : perm.Perm (List.range x.shape.length)) :
    ∃ y, transpose x perm false = .ok y ∧ y.shape = perm.map (fun k => x.shape.getD k 0) ∧
      (∀ o, InB o x.shape → y.get (perm.map (fun k => o.getD k 0)) = x.get o) ∧
      ∀ i, InB i y.shape ↔ ∃ o, InB o x.shape ∧ perm.map (fun k => o.getD k 0) = i := transpose_spec x perm hp

example : ([1, 0] : List Nat).Perm (List.range exColMajor.shape.length) := by decide

/-- C30: wrong number of axes. -/
theorem C30_wrong_length {R : Type} (x : Arr R) (perm : List Nat) (invert : Bool) (h : perm.length ≠ x.shape.length) :
    transpose x perm invert = .error .opError := by
  rw [transpose, if_pos (Ne.symm h)]

example : ([0] : List Nat).length ≠ exColMajor.shape.length := by decide

/-- C30: a list of axes (all in range) in which an axis is repeated panics, it never gives a result. -/
theorem C30_not_permutation {R : Type} (x : Arr R) (perm : List Nat) (hl : perm.length = x.shape.length) (hp : ¬ perm.Perm (List.range x.shape.length)) :
    transpose x perm false = .error .panic := by
  rw [transpose, if_neg (by omega), transposeDims_false]
  show permutedAxes x perm = _
  rw [permutedAxes, if_neg]
  rintro ⟨_, h⟩
  apply hp
  refine List.Perm.symm (List.Subperm.perm_of_length_le ?_ (by simp [hl]))
  exact List.subperm_of_subset List.nodup_range h

example : ([1, 1] : List Nat).length = exColMajor.shape.length ∧ ¬ ([1, 1] : List Nat).Perm (List.range exColMajor.shape.length) := by decide

/-- C30 is violated in builds with debug assertions of current toolchains: for every array of rank at least 1 and every permutation, the op aborts because it writes
through `get_unchecked_mut` beyond the length of an empty vector. The other theorems on C30 describe builds without these checks. -/
theorem C30_debug_build_violated {R : Type} (x : Arr R) (perm : List Nat) (invert : Bool) (hr : 0 < x.shape.length)
    (hp : perm.Perm (List.range x.shape.length)) : transposeUbChecks x perm invert = .error .panic := by
  have hlen : perm.length = x.shape.length := by simpa using hp.length_eq
  have : perm.isEmpty = false := by cases perm <;> simp_all
  simp [transposeUbChecks, hlen, this]

example : 0 < exColMajor.shape.length ∧ ([1, 0] : List Nat).Perm (List.range exColMajor.shape.length) := by decide

/-- C30: the gradient op is the inverse of the forward op. -/
theorem C30_gradient_inverse {R : Type} (x y : Arr R) (perm : List Nat) (hp : perm.Perm (List.range x.shape.length))
    (hy : transpose x perm false = .ok y) : ∃ z, transposeGrad y perm false = .ok z ∧ Same z x := by
  obtain ⟨y', hy', hs, hg, -⟩ := C30_transpose x perm hp
  rw [hy] at hy'
  cases hy'
  obtain ⟨z, hz, hzs, hzg⟩ := transposeInv x y perm hp hs
  refine ⟨z, hz, hzs, fun o ho => ?_⟩
  rw [hzs] at ho
  rw [hzg o ho, hg o ho]

example : ∃ y, transpose exColMajor [1, 0] false = .ok y ∧ y.shape = [3, 2] ∧ y.get [2, 1] = 12 := ⟨_, rfl, rfl, by decide⟩

/-- C30: the gradient op is the adjoint of the forward op. -/
theorem C30_gradient {R : Type} [CommSemiring R] (x gy : Arr R) (perm : List Nat) (hp : perm.Perm (List.range x.shape.length))
    (hgy : gy.shape = perm.map (fun k => x.shape.getD k 0)) :
    ∃ g, transposeGrad gy perm false = .ok g ∧ g.shape = x.shape ∧ ∀ dx : Arr R, dx.shape = x.shape → ∃ dy, transpose dx perm false = .ok dy ∧
      ∑ i ∈ idxs gy.shape, gy.get i * dy.get i = ∑ o ∈ idxs x.shape, g.get o * dx.get o := transpose_adjoint x gy perm hp hgy

example : ([1, 0] : List Nat).Perm (List.range exColMajor.shape.length) ∧
    (ofFn [3, 2] (fun _ => 1) : Arr ℤ).shape = [1, 0].map (fun k => exColMajor.shape.getD k 0) := by decide

/-- C30: the gradient of the gradient op (the forward op again) is the adjoint of the gradient op: second derivatives are exact as well. -/
theorem C30_second_gradient {R : Type} [CommSemiring R] (x gg : Arr R) (perm : List Nat) (hp : perm.Perm (List.range x.shape.length))
    (hgg : gg.shape = x.shape) :
    ∃ h, transposeGrad gg perm true = .ok h ∧ h.shape = perm.map (fun k => x.shape.getD k 0) ∧
      ∀ dgy : Arr R, dgy.shape = perm.map (fun k => x.shape.getD k 0) → ∃ dg, transpose dgy perm true = .ok dg ∧
        ∑ o ∈ idxs x.shape, gg.get o * dg.get o = ∑ i ∈ idxs h.shape, h.get i * dgy.get i := by
  obtain ⟨h, hh, hs, -⟩ := C30_transpose gg perm (by rw [hgg]; exact hp)
  rw [hgg] at hs
  refine ⟨h, hh, hs, fun dgy hd => ?_⟩
  obtain ⟨dg, hdg, -, hadj⟩ := C30_gradient x dgy perm hp hd
  refine ⟨dg, hdg, ?_⟩
  obtain ⟨h', hh', he⟩ := hadj gg hgg
  rw [hh'] at hh
  cases hh
  rw [hs, ← hd]
  rw [show (∑ i ∈ idxs dgy.shape, h.get i * dgy.get i) = ∑ i ∈ idxs dgy.shape, dgy.get i * h.get i from sum_congr rfl fun _ _ => mul_comm _ _, he]
  exact sum_congr rfl fun _ _ => mul_comm _ _

example : ([1, 0] : List Nat).Perm (List.range exColMajor.shape.length) ∧ (ofFn [2, 3] (fun i => (i.getD 0 0 : ℤ) - i.getD 1 0) : Arr ℤ).shape = exColMajor.shape := by decide

end Verif.Props
