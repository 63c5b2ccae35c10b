import Verif.Lemmas.CnnMnist
import Verif.Lemmas.CnnExample

/-! # A run of the example `cnn_mnist` at whose weights the network is always differentiable -/

namespace Verif.Prog
open Verif Verif.Nd Verif.Spec Verif.Gradient Verif.Graph Verif.Eval Verif.Mnist Verif.Hint Verif.Opt

/-- Images in which the four pixels of each window are different. -/
def cmPixel (_ j : Nat) : Byte := ⟨1 + 2 * (j / 28 % 2) + j % 28 % 2, by omega⟩

/-- The filters of the first layer copy the image, those of the second change the sign of the first channel; the scores are zero, and all of them are dropped in training. -/
noncomputable def cmRun : CnnMain Unit where
  short := fun _ _ => (fun _ => 0, [])
  shuffle := fun _ l => l.reverse
  seed := ()
  pick := demoPick
  draws := fun _ => ⟨-10 ^ 30, fun a => cStrides [a.shape.getD 0 0], fun a => cStrides a.shape, fun _ _ => 1, fun _ _ => 1, fun _ _ => 0⟩
  test := ⟨-10 ^ 30, fun a => cStrides [a.shape.getD 0 0], fun a => cStrides a.shape, fun _ _ => 1, fun _ _ => 1, fun _ _ => 0⟩
  order0 := [(⟨[], ['b', '3']⟩, 5), (⟨[], ['b', '2']⟩, 4), (⟨[], ['b', '1']⟩, 3), (⟨[], ['w', '3']⟩, 2), (⟨[], ['w', '2']⟩, 1), (⟨[], ['w', '1']⟩, 0)]
  order1 := [(⟨[], ['w', '2']⟩, 1), (⟨[], ['w', '3']⟩, 2), (⟨[], ['w', '1']⟩, 0), (⟨[], ['b', '3']⟩, 5), (⟨[], ['b', '1']⟩, 3), (⟨[], ['b', '2']⟩, 4)]
  w1 := ofFn [32, 1, 3, 3] fun i => if i.getD 2 0 = 1 ∧ i.getD 3 0 = 1 then 1 else 0
  w2 := ofFn [64, 32, 3, 3] fun i => if i.getD 1 0 = 0 ∧ i.getD 2 0 = 1 ∧ i.getD 3 0 = 1 then -1 else 0
  w3 := ofFn [3136, 10] fun _ => 0

/-- Weights with the elements of the initial ones. -/
def Unmoved (W : CnnWeights) : Prop := ∀ v < 6, ∀ i, InB i ((firstWeights cmRun).get v).shape → (W.get v).get i = ((firstWeights cmRun).get v).get i

section
variable {W : CnnWeights} (h : Unmoved W) {x : Arr ℝ}
include h

theorem cm_pre1 {n o i j : Nat} (ho : o < 32) (hi : i < 28) (hj : j < 28) : W.pre1 7 x n o i j = x.get [n, i * 28 + j] := by
  have hb : W.b1.get [0, o, i, j] = 0 := h 3 (by decide) [0, o, i, j] (.cons (by decide) (.cons ho (.cons hi (.cons hj .nil))))
  have hw : ∀ a < 3, ∀ e < 3, W.w1.get [o, 0, a, e] = if a = 1 ∧ e = 1 then 1 else 0 := fun a ha e he =>
    h 0 (by decide) [o, 0, a, e] (.cons ho (.cons (by decide) (.cons ha (.cons he .nil))))
  have hc : (1 ≤ i + 1 ∧ i + 1 ≤ 4 * 7) ∧ (1 ≤ j + 1 ∧ j + 1 ≤ 4 * 7) := by omega
  simp only [CnnWeights.pre1, convolved, Finset.sum_range_succ, Finset.sum_range_zero, hb, hw 0 (by decide) 0 (by decide), hw 0 (by decide) 1 (by decide), hw 0 (by decide) 2 (by decide),
    hw 1 (by decide) 0 (by decide), hw 1 (by decide) 1 (by decide), hw 1 (by decide) 2 (by decide), hw 2 (by decide) 0 (by decide), hw 2 (by decide) 1 (by decide), hw 2 (by decide) 2 (by decide)]
  rw [if_pos (c := _ ∧ 1 ≤ j + 1 ∧ _) hc]
  simp

theorem cm_pre2 {D : Drops} {n o i j : Nat} (ho : o < 64) (hi : i < 14) (hj : j < 14) : W.pre2 7 32 D x n o i j = -W.layer1 7 D x n 0 i j := by
  have hb : W.b2.get [0, o, i, j] = 0 := h 4 (by decide) [0, o, i, j] (.cons (by decide) (.cons ho (.cons hi (.cons hj .nil))))
  have hw : ∀ c < 32, ∀ a < 3, ∀ e < 3, W.w2.get [o, c, a, e] = if c = 0 ∧ a = 1 ∧ e = 1 then -1 else 0 := fun c hc a ha e he =>
    h 1 (by decide) [o, c, a, e] (.cons ho (.cons hc (.cons ha (.cons he .nil))))
  have hc : (1 ≤ i + 1 ∧ i + 1 ≤ 2 * 7) ∧ (1 ≤ j + 1 ∧ j + 1 ≤ 2 * 7) := by omega
  simp only [CnnWeights.pre2, convolved]
  rw [hb, add_zero, Finset.sum_eq_single 0, Finset.sum_eq_single 1, Finset.sum_eq_single 1, hw 0 (by decide) 1 (by decide) 1 (by decide), if_pos hc]
  · simp
  · intro e he hne
    rw [hw 0 (by decide) 1 (by decide) e (Finset.mem_range.1 he)]
    simp [hne]
  · simp
  · intro a ha hne
    refine Finset.sum_eq_zero fun e he => ?_
    rw [hw 0 (by decide) a (Finset.mem_range.1 ha) e (Finset.mem_range.1 he)]
    simp [hne]
  · simp
  · intro c hc hne
    refine Finset.sum_eq_zero fun a ha => Finset.sum_eq_zero fun e he => ?_
    rw [hw c (Finset.mem_range.1 hc) a (Finset.mem_range.1 ha) e (Finset.mem_range.1 he)]
    simp [hne]
  · simp

theorem cm_clear (label : Nat → Byte) (ks : List Nat) (t : Nat) : (samplesBatch (cmRun.draws t) cmPixel label ks).ClearAt cnnSize W := by
  have hp : ∀ {n o i j : Nat}, o < 32 → i < 28 → j < 28 → W.pre1 7 (picturesOf cmPixel ks) n o i j = ((1 + 2 * (i % 2) + j % 2 : Nat) : ℝ) / 255 := by
    intro n o i j ho hi hj
    rw [cm_pre1 h ho hi hj]
    show ((cmPixel _ (i * 28 + j)).val : ℝ) / 255 = _
    have e1 : (i * 28 + j) / 28 = i := by omega
    have e2 : (i * 28 + j) % 28 = j := by omega
    simp only [cmPixel, e1, e2]
  have hpos : ∀ {n o i j : Nat}, o < 32 → i < 28 → j < 28 → 0 < W.pre1 7 (picturesOf cmPixel ks) n o i j := by
    intro n o i j ho hi hj
    rw [hp ho hi hj]
    have : (0 : ℝ) < ((1 + 2 * (i % 2) + j % 2 : Nat) : ℝ) := Nat.cast_pos.2 (by omega)
    positivity
  constructor
  · intro n _ o ho i hi j hj
    refine ⟨(hpos ho hi hj).ne', fun _ _ i' hi' j' hj' h1 h2 h3 => ?_⟩
    have h3 : W.pre1 7 (picturesOf cmPixel ks) n o i' j' = W.pre1 7 (picturesOf cmPixel ks) n o i j := h3
    rw [hp ho hi hj, hp ho hi' hj', div_left_inj' (by norm_num), Nat.cast_inj] at h3
    omega
  · intro n _ o ho i hi j hj
    have hneg : W.pre2 7 32 (drawn cnnSize (cmRun.draws t) ks.length) (picturesOf cmPixel ks) n o i j < 0 := by
      have hi : i < 14 := hi
      have hj : j < 14 := hj
      rw [cm_pre2 h ho hi hj, neg_lt_zero]
      show 0 < (1 : ℝ) * pooled _ n 0 i j
      rw [one_mul]
      refine lt_of_lt_of_le ?_ ((le_max_left _ _).trans (le_max_left _ _))
      exact lt_of_lt_of_le (hpos (o := 0) (by decide) (i := 2 * i) (j := 2 * j) (by omega) (by omega)) (le_max_left _ _)
    exact ⟨hneg.ne, fun hpos' => absurd hpos' (not_lt.2 hneg.le)⟩

theorem cm_score {D : Drops} {n c : Nat} (hc : c < 10) : W.score 7 32 D x 64 n c = 0 := by
  have hb : W.b3.get [0, c] = 0 := h 5 (by decide) [0, c] (.cons (by decide) (.cons hc .nil))
  have hw : ∀ k < 3136, W.w3.get [k, c] = 0 := fun k hk => h 2 (by decide) [k, c] (.cons hk (.cons hc .nil))
  unfold CnnWeights.score
  rw [hb, Finset.sum_eq_zero fun k hk => by rw [hw k (by simpa using hk), mul_zero]]
  simp

end

/-- In training all weights give the same loss. -/
theorem cm_loss (label : Nat → Byte) (ks : List Nat) (t : Nat) (W W' : CnnWeights) : (samplesBatch (cmRun.draws t) cmPixel label ks).loss cnnSize W = (samplesBatch (cmRun.draws t) cmPixel label ks).loss cnnSize W' := by
  have hz : ∀ (W : CnnWeights) n c, W.score 7 32 (drawn cnnSize (cmRun.draws t) ks.length) (picturesOf cmPixel ks) 64 n c = 0 := by
    intro W n c
    show (0 : ℝ) * _ = 0
    exact zero_mul _
  show CnnWeights.loss _ 7 32 (drawn cnnSize (cmRun.draws t) ks.length) (picturesOf cmPixel ks) 64 10 ks.length _ = CnnWeights.loss _ 7 32 (drawn cnnSize (cmRun.draws t) ks.length) (picturesOf cmPixel ks) 64 10 ks.length _
  unfold CnnWeights.loss
  simp only [hz]

/-- With gradients zero Adam does not move. -/
theorem adam_still {c : AdamCfg ℝ} {p0 : ℝ} {g : Nat → ℝ} : ∀ {t : Nat}, (∀ s < t, g s = 0) → followed (.adam c) p0 g t = p0 := by
  have hm : ∀ {b : ℝ} {t : Nat}, (∀ s < t, g s = 0) → movingAvg b g t = 0 := by
    intro b t
    induction t with
    | zero => intro _; rfl
    | succ t ih =>
      intro h
      simp [movingAvg, ih fun s hs => h s (by omega), h t (by omega)]
  intro t
  induction t with
  | zero => intro _; rfl
  | succ t ih =>
    intro h
    have h1 := ih fun s hs => h s (by omega)
    simp only [followed] at h1 ⊢
    rw [adamParam, h1, hm h]
    simp

end Verif.Prog
