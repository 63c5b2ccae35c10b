import Verif.Lemmas.ExpandSqueeze

/-! Which shapes `add_n` accepts. -/

namespace Verif.Nd
variable {R : Type}

theorem broadcast_to {x : Arr R} {t : List Nat} (h : BroadcastsTo x.shape t) : ∃ b, broadcast x t = some b ∧ ∀ i, b.get i = x.get (bIdx x.shape i) := by
  unfold broadcast
  rw [if_pos (bcastOk_iff.2 (broadcastsTo_iff.1 h))]
  exact ⟨_, rfl, fun i => rfl⟩

theorem broadcast_none {x : Arr R} {t : List Nat} (h : ¬ BroadcastsTo x.shape t) : broadcast x t = none := by
  unfold broadcast
  rw [if_neg fun e => h (broadcastsTo_iff.2 (bcastOk_iff.1 e))]

/-- The loop of `add_n`. -/
theorem addNLoop_to [AddCommMonoid R] (base : Arr R) (xs : List (Arr R)) (h : ∀ x ∈ xs, BroadcastsTo x.shape base.shape) :
    ∃ y, addNLoop base xs = .ok y ∧ y.shape = base.shape ∧ ∀ i, y.get i = base.get i + (xs.map (fun x => x.get (bIdx x.shape i))).sum := by
  induction xs generalizing base with
  | nil => exact ⟨base, rfl, rfl, fun i => by simp⟩
  | cons x xs ih =>
    obtain ⟨b, hb, hbg⟩ := broadcast_to (x := x) (t := base.shape) (h x (by simp))
    obtain ⟨y, hy, hys, hyg⟩ := ih ⟨base.shape, base.strides, fun idx => base.get idx + b.get idx⟩ (fun z hz => h z (by simp [hz]))
    refine ⟨y, ?_, hys, fun i => ?_⟩
    · rw [addNLoop, hb]
      exact hy
    · rw [hyg i]
      show base.get i + b.get i + _ = _
      rw [hbg i, List.map_cons, List.sum_cons, add_assoc]

theorem addNLoop_panics [Add R] (base : Arr R) (xs : List (Arr R)) (h : ¬ ∀ x ∈ xs, BroadcastsTo x.shape base.shape) : addNLoop base xs = .error .panic := by
  induction xs generalizing base with
  | nil => exact absurd (by simp) h
  | cons x xs ih =>
    by_cases hx : BroadcastsTo x.shape base.shape
    · obtain ⟨b, hb, -⟩ := broadcast_to hx
      rw [addNLoop, hb]
      exact ih _ fun h' => h (by
        intro z hz
        rcases List.mem_cons.1 hz with rfl | hz
        · exact hx
        · exact h' z hz)
    · rw [addNLoop, broadcast_none hx]
      rfl

end Verif.Nd
