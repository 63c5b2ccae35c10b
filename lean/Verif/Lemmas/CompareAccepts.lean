import Verif.Lemmas.Compare

/-! Which shapes the comparison ops accept. -/

namespace Verif.Nd
variable {R : Type}

/-- For operands with elements, the comparison ops accept a scalar and operands of the same rank of which the first can be broadcast to the second. -/
theorem cmpOp_accepts {f : R → R → R} {x0 x1 : Arr R} (h0 : 0 < size x0.shape) (h1 : 0 < size x1.shape) :
    (∃ y, cmpOp f x0 x1 = .ok y) ↔ x0.shape = [] ∨ x1.shape = [] ∨ x0.shape.length = x1.shape.length ∧ BroadcastsTo x0.shape x1.shape := by
  have n0 : x0.shape ≠ [0] := by intro h; simp [h, size] at h0
  have n1 : x1.shape ≠ [0] := by intro h; simp [h, size] at h1
  constructor
  · rintro ⟨y, hy⟩
    by_cases e0 : x0.shape = []
    · exact .inl e0
    by_cases e1 : x1.shape = []
    · exact .inr (.inl e1)
    have s0 : isScalarShape x0.shape = false := by rw [← Bool.not_eq_true, isScalarShape_iff]; simp [e0, n0]
    have s1 : isScalarShape x1.shape = false := by rw [← Bool.not_eq_true, isScalarShape_iff]; simp [e1, n1]
    unfold cmpOp at hy
    simp only [s0, s1, Bool.and_false, Bool.false_and, Bool.not_false, Bool.and_true, Bool.false_eq_true, if_false] at hy
    refine .inr (.inr ?_)
    split_ifs at hy with a b c d
    · rw [not_not] at a
      refine ⟨a, ?_⟩
      cases hb : broadcast x0 x1.shape with
      | none => rw [hb] at hy; cases hy
      | some v =>
        unfold broadcast at hb
        split_ifs at hb with e
        exact broadcastsTo_iff.2 (bcastOk_iff.1 e)
    · rw [not_not] at a
      exact ⟨a, d ▸ broadcastsTo_self _⟩
  · rintro (e | e | ⟨e, hb⟩)
    · by_cases e1 : x1.shape = []
      · obtain ⟨y, hy, _⟩ := cmpOp_spec (f := f) (x0 := x0) (x1 := x1) (by rw [e, e1]; exact broadcastsTo_self _) (.inl e) h1
        exact ⟨y, hy⟩
      · obtain ⟨y, hy, _⟩ := cmpOp_spec (f := f) (x0 := x0) (x1 := x1) (by rw [e]; exact ⟨Nat.zero_le _, fun k hk => by cases hk⟩) (.inl e) h1
        exact ⟨y, hy⟩
    · unfold cmpOp
      cases hs0 : isScalarShape x0.shape <;> simp [isScalarShape_iff.2 (.inl e), scalarElem_nil e, bind, Except.bind]
    · obtain ⟨y, hy, _⟩ := cmpOp_spec (f := f) hb (.inr e) h1
      exact ⟨y, hy⟩

/-- The comparison ops do not report errors, they panic. -/
theorem cmpOp_error {f : R → R → R} {x0 x1 : Arr R} {e : Fail} (h : cmpOp f x0 x1 = .error e) : e = .panic := by
  have sc : ∀ (x : Arr R) {g : R → Arr R}, (do let e ← scalarElem x; Except.ok (g e)) = (Except.error e : Res (Arr R)) → e = .panic := by
    intro x g hx
    unfold scalarElem at hx
    split at hx <;> simp_all [bind, Except.bind]
  unfold cmpOp at h
  simp only at h
  split_ifs at h
  · exact sc _ h
  · exact sc _ h
  · exact sc _ h
  · cases h; rfl
  · cases hb : broadcast x0 x1.shape with
    | none => rw [hb] at h; cases h; rfl
    | some v => rw [hb] at h; cases h
  · cases h; rfl
  · cases h; rfl

/-- The gradients of `maximum` and `minimum` for operands of the same shape. -/
theorem extremum_grads [DecidableEq R] [CommSemiring R] {f : R → R → R} {x0 x1 gy : Arr R} (hs : x0.shape = x1.shape) (hx : x0.shape ≠ [0]) (hg : gy.shape = x0.shape) :
    ∃ y g0 g1, cmpOp f x0 x1 = .ok y ∧ maximumGrad x0 x1 y gy = .ok (g0, g1) ∧ g0.shape = x0.shape ∧ g1.shape = x1.shape ∧
      ∀ o, InB o x0.shape → g0.get o = equalFn (x0.get o) (f (x0.get o) (x1.get o)) * gy.get o ∧ g1.get o = equalFn (x1.get o) (f (x0.get o) (x1.get o)) * gy.get o := by
  obtain ⟨y, hy, hys, hye⟩ := cmpOp_same (f := f) hs hx
  obtain ⟨a, ha, has, hae⟩ := cmpOp_same (f := equalFn) (x0 := x0) (x1 := y) hys.symm hx
  obtain ⟨b, hb, hbs, hbe⟩ := cmpOp_same (f := equalFn) (x0 := x1) (x1 := y) (by rw [hys, hs]) (by rw [← hs]; exact hx)
  obtain ⟨g0, hg0, hg0s, hg0e⟩ := mulOp_same (x0 := a) (x1 := gy) (by rw [has, hg])
  obtain ⟨g1, hg1, hg1s, hg1e⟩ := mulOp_same (x0 := b) (x1 := gy) (by rw [hbs, hg, hs])
  refine ⟨y, g0, g1, hy, ?_, by rw [hg0s, has], by rw [hg1s, hbs], fun o ho => ?_⟩
  · unfold maximumGrad
    simp only [ha, hb, hg0, hg1, bind, Except.bind]
  · have ho1 : InB o x1.shape := by rw [← hs]; exact ho
    exact ⟨by rw [hg0e o (by rw [has]; exact ho), hae o ho, hye o ho], by rw [hg1e o (by rw [hbs]; exact ho1), hbe o ho1, hye o ho]⟩

end Verif.Nd
