import Verif.Lemmas.Cnn

/-! # A small network that meets the hypotheses of C69 -/

namespace Verif.Prog
open Verif Verif.Nd Verif.Spec

/-- Images of four rows and columns, one channel in both layers, two classes. -/
def tinySize : CnnSize := ⟨1, 1, 1, 2⟩

/-- Nothing is dropped. -/
noncomputable def tinyRun : CnnRun := ⟨-1000000, fun _ => [1], fun _ => [2, 1], fun _ _ => 1, fun _ _ => 1, fun _ _ => 1⟩

/-- Both convolutions add a bias to the image; the score of class `c` is `c` times the feature. -/
noncomputable def tinyWeights : CnnWeights where
  w1 := ofFn [1, 1, 3, 3] fun i => if i = [0, 0, 1, 1] then 1 else 0
  w2 := ofFn [1, 1, 3, 3] fun i => if i = [0, 0, 1, 1] then 1 else 0
  w3 := ofFn [1, 2] fun i => i.getD 1 0
  b1 := ofFn [1, 1, 4, 4] fun _ => -15 / 2
  b2 := ofFn [1, 1, 2, 2] fun _ => 1 / 2
  b3 := ofFn [1, 2] fun _ => 0

/-- An image with the numbers 1, 2, ..., 16. -/
noncomputable def tinyX : Arr ℝ := ofFn [1, 16] fun i => i.getD 1 0 + 1

theorem convolved_centre {s : Nat} {f : Images} {w b : Arr ℝ} (hw : ∀ a e, w.get [0, 0, a, e] = if a = 1 ∧ e = 1 then 1 else 0) (n i j : Nat) (hi : i < s) (hj : j < s) :
    convolved s 1 f w b n 0 i j = f n 0 i j + b.get [0, 0, i, j] := by
  unfold convolved
  congr 1
  simp only [Finset.sum_range_succ, Finset.sum_range_zero, hw]
  simp only [zero_add, Nat.reduceEqDiff, and_true, and_false, false_and, if_false, zero_mul, add_zero, if_true, one_mul, Nat.add_sub_cancel]
  simp
  intro h
  omega

theorem tiny_pre1 (i j : Nat) (hi : i < 4) (hj : j < 4) : tinyWeights.pre1 1 tinyX 0 0 i j = (4 * i + j : Nat) + 1 - 15 / 2 := by
  unfold CnnWeights.pre1
  rw [convolved_centre (by intro a e; simp [tinyWeights, ofFn]) 0 i j (by omega) (by omega)]
  simp [tinyX, tinyWeights, ofFn]
  ring

theorem tiny_layer1 (i j : Nat) (hi : i < 2) (hj : j < 2) : tinyWeights.layer1 1 (drawn tinySize tinyRun 1) tinyX 0 0 i j = if i = 0 then (if j = 0 then 0 else 1 / 2) else if j = 0 then 13 / 2 else 17 / 2 := by
  have h : ∀ a e, a < 4 → e < 4 → rectified (tinyWeights.pre1 1 tinyX) 0 0 a e = max (((4 * a + e : Nat) : ℝ) + 1 - 15 / 2) 0 := fun a e ha he => by rw [rectified, tiny_pre1 a e ha he]
  unfold CnnWeights.layer1 pooled
  rw [h _ _ (by omega) (by omega), h _ _ (by omega) (by omega), h _ _ (by omega) (by omega), h _ _ (by omega) (by omega)]
  simp only [drawn, tinyRun, one_mul]
  interval_cases i <;> interval_cases j <;> norm_num

theorem tiny_pre2 (i j : Nat) (hi : i < 2) (hj : j < 2) :
    tinyWeights.pre2 1 1 (drawn tinySize tinyRun 1) tinyX 0 0 i j = (if i = 0 then (if j = 0 then 0 else 1 / 2) else if j = 0 then 13 / 2 else 17 / 2) + 1 / 2 := by
  unfold CnnWeights.pre2
  rw [convolved_centre (by intro a e; simp [tinyWeights, ofFn]) 0 i j (by omega) (by omega), tiny_layer1 i j hi hj]
  simp [tinyWeights, ofFn]

theorem tiny_clear : Clear 1 tinySize.ch1 (4 * tinySize.side) (tinyWeights.pre1 tinySize.side tinyX) ∧
    Clear 1 tinySize.ch2 (2 * tinySize.side) (tinyWeights.pre2 tinySize.side tinySize.ch1 (drawn tinySize tinyRun 1) tinyX) := by
  constructor
  · intro n hn o ho i hi j hj
    have hn : n = 0 := by omega
    have ho : o = 0 := by simp [tinySize] at ho; omega
    subst hn ho
    have hi : i < 4 := hi
    have hj : j < 4 := hj
    show tinyWeights.pre1 1 tinyX 0 0 i j ≠ 0 ∧ _
    refine ⟨?_, fun _ _ i' hi' j' hj' h1 h2 h3 => ?_⟩
    · rw [tiny_pre1 i j hi hj]
      intro h
      have : (2 * (4 * i + j) + 2 : ℝ) = 15 := by push_cast at h; linarith
      have : 2 * (4 * i + j) + 2 = 15 := by exact_mod_cast this
      omega
    · have h3 : tinyWeights.pre1 1 tinyX 0 0 i' j' = tinyWeights.pre1 1 tinyX 0 0 i j := h3
      have hi' : i' < 4 := hi'
      have hj' : j' < 4 := hj'
      rw [tiny_pre1 i j hi hj, tiny_pre1 i' j' hi' hj'] at h3
      have : ((4 * i' + j' : Nat) : ℝ) = (4 * i + j : Nat) := by linarith
      have := Nat.cast_inj.1 this
      omega
  · intro n hn o ho i hi j hj
    have hn : n = 0 := by omega
    have ho : o = 0 := by simp [tinySize] at ho; omega
    subst hn ho
    have hi : i < 2 := hi
    have hj : j < 2 := hj
    show tinyWeights.pre2 1 1 (drawn tinySize tinyRun 1) tinyX 0 0 i j ≠ 0 ∧ _
    refine ⟨?_, fun _ _ i' hi' j' hj' h1 h2 h3 => ?_⟩
    · rw [tiny_pre2 i j hi hj]
      split_ifs <;> norm_num
    · have h3 : tinyWeights.pre2 1 1 (drawn tinySize tinyRun 1) tinyX 0 0 i' j' = tinyWeights.pre2 1 1 (drawn tinySize tinyRun 1) tinyX 0 0 i j := h3
      have hi' : i' < 2 := hi'
      have hj' : j' < 2 := hj'
      rw [tiny_pre2 i j hi hj, tiny_pre2 i' j' hi' hj'] at h3
      interval_cases i <;> interval_cases j <;> interval_cases i' <;> interval_cases j' <;> first | exact ⟨rfl, rfl⟩ | (norm_num at h3)

theorem tiny_pictures : Pictures tinyRun.lay tinySize.side tinySize.ch1 tinySize.ch2 tinySize.classes 1 tinyX (ofFn [1, 1] fun _ => 1) (fun _ => 1) :=
  ⟨by decide, by decide, by decide, by decide, by decide, by decide, rfl, rfl, fun n _ => ⟨by simp [ofFn], Nat.one_lt_two⟩, fun _ _ => (by decide : Contig [1] [1])⟩

theorem tiny_shapes : tinyWeights.Shapes tinySize.side tinySize.ch1 tinySize.ch2 tinySize.classes := ⟨rfl, rfl, rfl, rfl, rfl, rfl⟩

theorem predicts_exists (W : CnnWeights) (side ch1 : Nat) (D : Drops) (x : Arr ℝ) (ch2 classes n : Nat) (h : 0 < classes) : ∃ c, W.Predicts side ch1 D x ch2 classes n c := by
  classical
  obtain ⟨m, hm, hmax⟩ := Finset.exists_max_image (Finset.range classes) (fun c => W.score side ch1 D x ch2 n c) ⟨0, Finset.mem_range.2 h⟩
  have hex : ∃ c, c < classes ∧ ∀ c' < classes, W.score side ch1 D x ch2 n c' ≤ W.score side ch1 D x ch2 n c :=
    ⟨m, Finset.mem_range.1 hm, fun c' hc' => hmax c' (Finset.mem_range.2 hc')⟩
  refine ⟨Nat.find hex, (Nat.find_spec hex).1, (Nat.find_spec hex).2, fun c' hc' => ?_⟩
  have := Nat.find_min hex hc'
  push_neg at this
  obtain ⟨c'', h1, h2⟩ := this (lt_trans hc' (Nat.find_spec hex).1)
  exact lt_of_lt_of_le h2 ((Nat.find_spec hex).2 c'' h1)

theorem tiny_scores (n c : Nat) : 0 ≤ tinyWeights.score tinySize.side tinySize.ch1 undrawn tinyX tinySize.ch2 n c := by
  have hp : ∀ (f : Images) n o i j, 0 ≤ pooled (rectified f) n o i j := fun f n o i j => le_trans (le_max_right (f n o (2 * i) (2 * j)) 0) (pooled_ge (rectified f) n o i j (by omega) (by omega))
  unfold CnnWeights.score
  refine mul_nonneg (by simp [undrawn]; norm_num) (add_nonneg (Finset.sum_nonneg fun k _ => mul_nonneg ?_ ?_) (by simp [tinyWeights, ofFn]))
  · exact mul_nonneg (by simp [undrawn]; norm_num) (hp _ _ _ _ _)
  · simp [tinyWeights, ofFn]

end Verif.Prog
