import Verif.Lemmas.MaybeReduce

/-!
# Gradients of the broadcasting ops, inferred shapes
-/

namespace Verif.Nd
open Finset
variable {R : Type}

theorem IsBinary.elementwise {f : R → R → R} {x0 x1 y : Arr R} {t : List Nat} (h : IsBinary f x0 x1 t y) :
    Elementwise f x0 x1 t y := by
  refine ⟨h.1, fun idx o0 o1 hi h0 h1 => ?_⟩
  rw [h.2 idx hi, readsAt_unique h0, readsAt_unique h1]

theorem pos_of_broadcast {s t : List Nat} (hb : BroadcastsTo s t) (hpos : ∀ n ∈ t, 0 < n) : ∀ n ∈ s, 0 < n := by
  intro n hn
  obtain ⟨k, hk, rfl⟩ := List.mem_iff_getElem.1 hn
  have := hb.1
  rcases hb.2 k hk (by omega) with h | h
  · rw [h]; exact hpos _ (List.getElem_mem _)
  · omega

theorem ne_zero_shape {s : List Nat} (hpos : ∀ n ∈ s, 0 < n) : s ≠ [0] := by
  rintro rfl; have := hpos 0 (by simp); omega

theorem mulOp_spec [CommSemiring R] {x0 x1 : Arr R} {t : List Nat} (h : CommonShape x0.shape x1.shape t) (hpos : ∀ n ∈ t, 0 < n) :
    ∃ y, mulOp x0 x1 = .ok y ∧ IsBinary (· * ·) x0 x1 t y :=
  binForward_spec (fun a b => mul_comm a b) h
    (fun h0 => absurd h0 (ne_zero_shape (pos_of_broadcast h.1 hpos)))
    (fun h1 => absurd h1 (ne_zero_shape (pos_of_broadcast h.2.1 hpos)))

section
variable {x0 x1 gy : Arr R} {t : List Nat}

theorem addGrad_spec [CommSemiring R] (h : CommonShape x0.shape x1.shape t) (hg : gy.shape = t) (hpos : ∀ n ∈ t, 0 < n)
    (hr0 : ScalarOrRank x0.shape t) (hr1 : ScalarOrRank x1.shape t) :
    ∃ g0 g1, addGrad x0 x1 gy = .ok (g0, g1) ∧ g0.shape = x0.shape ∧ g1.shape = x1.shape ∧
      FiberSum gy g0 (bIdx x0.shape) ∧ FiberSum gy g1 (bIdx x1.shape) := by
  subst hg
  obtain ⟨g0, e0, s0, f0⟩ := maybeReduce_spec gy h.1 hr0 hpos
  obtain ⟨g1, e1, s1, f1⟩ := maybeReduce_spec gy h.2.1 hr1 hpos
  exact ⟨g0, g1, by simp only [addGrad, e0, e1, bind, Except.bind], s0, s1, f0, f1⟩

theorem mulGrad_spec [CommSemiring R] (h : CommonShape x0.shape x1.shape t) (hg : gy.shape = t) (hpos : ∀ n ∈ t, 0 < n)
    (hr0 : ScalarOrRank x0.shape t) (hr1 : ScalarOrRank x1.shape t) :
    ∃ g0 g1 a0 a1, mulGrad x0 x1 gy = .ok (g0, g1) ∧ g0.shape = x0.shape ∧ g1.shape = x1.shape ∧
      IsBinary (· * ·) gy x1 t a0 ∧ IsBinary (· * ·) gy x0 t a1 ∧
      FiberSum a0 g0 (bIdx x0.shape) ∧ FiberSum a1 g1 (bIdx x1.shape) := by
  subst hg
  obtain ⟨a0, d0, b0⟩ := mulOp_spec (commonShape_left h.2.1) hpos
  obtain ⟨a1, d1, b1⟩ := mulOp_spec (commonShape_left h.1) hpos
  obtain ⟨g0, e0, s0, f0⟩ := maybeReduce_spec a0 (s := x0.shape) (by rw [b0.1]; exact h.1) (by rw [b0.1]; exact hr0)
    (by rw [b0.1]; exact hpos)
  obtain ⟨g1, e1, s1, f1⟩ := maybeReduce_spec a1 (s := x1.shape) (by rw [b1.1]; exact h.2.1) (by rw [b1.1]; exact hr1)
    (by rw [b1.1]; exact hpos)
  exact ⟨g0, g1, a0, a1, by simp only [mulGrad, d0, d1, e0, e1, bind, Except.bind], s0, s1, b0, b1, f0, f1⟩

theorem divGrad_spec [Field R] (h : CommonShape x0.shape x1.shape t) (hg : gy.shape = t) (hpos : ∀ n ∈ t, 0 < n)
    (hr0 : ScalarOrRank x0.shape t) (hr1 : ScalarOrRank x1.shape t) (h1 : x1.shape ≠ [1]) :
    ∃ g0 g1 a0 a1, divGrad x0 x1 gy = .ok (g0, g1) ∧ g0.shape = x0.shape ∧ g1.shape = x1.shape ∧
      a0.shape = t ∧ (∀ idx, InB idx t → a0.get idx = gy.get idx / x1.get (bIdx x1.shape idx)) ∧
      a1.shape = t ∧ (∀ idx, InB idx t → a1.get idx =
        -x0.get (bIdx x0.shape idx) * (1 / (x1.get (bIdx x1.shape idx) * x1.get (bIdx x1.shape idx))) * gy.get idx) ∧
      FiberSum a0 g0 (bIdx x0.shape) ∧ FiberSum a1 g1 (bIdx x1.shape) := by
  subst hg
  obtain ⟨a0, d0, b0⟩ := divOp_spec (commonShape_left h.2.1) (ne_zero_shape hpos) (fun _ => h1)
  obtain ⟨c, dc, bc⟩ := mulOp_spec (x0 := negOp x0) (x1 := map (fun a => 1 / (a * a)) x1) h hpos
  obtain ⟨a1, d1, b1⟩ := mulOp_spec (x0 := c) (x1 := gy) (t := gy.shape)
    (by rw [bc.1]; exact commonShape_left (broadcastsTo_self _)) hpos
  obtain ⟨g0, e0, s0, f0⟩ := maybeReduce_spec a0 (s := x0.shape) (by rw [b0.1]; exact h.1) (by rw [b0.1]; exact hr0)
    (by rw [b0.1]; exact hpos)
  obtain ⟨g1, e1, s1, f1⟩ := maybeReduce_spec a1 (s := x1.shape) (by rw [b1.1]; exact h.2.1) (by rw [b1.1]; exact hr1)
    (by rw [b1.1]; exact hpos)
  refine ⟨g0, g1, a0, a1, by simp only [divGrad, d0, dc, d1, e0, e1, bind, Except.bind], s0, s1, b0.1, ?_, b1.1, ?_, f0, f1⟩
  · intro idx hi
    rw [b0.2 idx hi, bIdx_self hi]
  · intro idx hi
    rw [b1.2 idx hi, bIdx_self hi, bc.1, bIdx_self hi, bc.2 idx hi]
    rfl

end

theorem maybeBroadcast_spec {x : Arr R} {t : List Nat} (hb : BroadcastsTo x.shape t)
    (h0 : x.shape = [0] → t = [0]) :
    ∃ y, maybeBroadcast x t = .ok y ∧ y.shape = t ∧ ∀ idx, InB idx t → y.get idx = x.get (bIdx x.shape idx) := by
  unfold maybeBroadcast
  split
  · rename_i he
    exact ⟨x, rfl, he, fun idx hi => by rw [he, bIdx_self hi]⟩
  · rename_i hne
    have hs0 : x.shape ≠ [0] := fun h => hne (h.trans (h0 h).symm)
    by_cases hs : x.shape = []
    · have hsc : isScalarShape x.shape = true := isScalarShape_iff.2 (.inl hs)
      have hst : isStandard x.shape x.strides = true := by rw [hs]; exact isStandard_ones 0 _
      have hbc : bcastOk (List.replicate t.length 1).reverse t.reverse = true := by
        rw [bcastOk_iff, ← broadcastsTo_iff]
        exact ⟨by simp, fun k h h' => .inr (by simp)⟩
      rw [if_pos hsc, intoShape_standard hst (by rw [size_ones, hs]; rfl)]
      simp only [unwrap, bind, Except.bind, broadcast, hbc, if_true]
      refine ⟨_, rfl, rfl, fun idx hi => ?_⟩
      simp only [toOwned, map, id]
      rw [hs, bIdx_nil]
      simp [unflat]
    · have hsc : ¬ isScalarShape x.shape = true := by rw [isScalarShape_iff]; simp [hs, hs0]
      rw [if_neg hsc]
      have hbc : bcastOk x.shape.reverse t.reverse = true := bcastOk_iff.2 (broadcastsTo_iff.1 hb)
      simp only [bind, Except.bind, broadcast, hbc, if_true]
      exact ⟨_, rfl, rfl, fun idx hi => rfl⟩

theorem inferBinOpShape_spec {a b t : List Nat} (h : CommonShape a b t) (hr : a = [] ∨ b = [] ∨ a.length = b.length)
    (hpos : ∀ n ∈ t, 0 < n) : inferBinOpShape a b = .ok t := by
  have ha0 : a ≠ [0] := ne_zero_shape (pos_of_broadcast h.1 hpos)
  have hb0 : b ≠ [0] := ne_zero_shape (pos_of_broadcast h.2.1 hpos)
  unfold inferBinOpShape
  by_cases ha : a = []
  · subst ha
    have := commonShape_nil h
    simp [isScalarShape, this]
  · by_cases hb : b = []
    · subst hb
      have := commonShape_nil (commonShape_comm h)
      simp [isScalarShape, ha, ha0, this]
    · have hl : a.length = b.length := by simpa [ha, hb] using hr
      have e1 : isScalarShape a = false := by simp [isScalarShape, ha, ha0]
      have e2 : isScalarShape b = false := by simp [isScalarShape, hb, hb0]
      simp only [e1, e2, Bool.not_false, Bool.and_self, if_true, hl, ne_eq, not_true_eq_false, if_false]
      have ht : t.length = a.length := by rw [h.2.2.1, hl]; simp
      congr 1
      refine List.ext_getElem (by simp; omega) fun k h1 h2 => ?_
      have hka : k < a.length := by omega
      have hkb : k < b.length := by omega
      have A := h.1.2 k hka (by omega)
      have B := h.2.1.2 k hkb (by omega)
      simp only [ht, hl, Nat.sub_self, Nat.add_zero] at A B
      have C := h.2.2.2 k h2
      have hp := hpos _ (List.getElem_mem h2)
      have pa := pos_of_broadcast h.1 hpos _ (List.getElem_mem hka)
      have pb := pos_of_broadcast h.2.1 hpos _ (List.getElem_mem hkb)
      simp only [List.getElem_zipWith]
      have C' : t[k] = a[k] ∨ t[k] = b[k] := by
        rcases C with ⟨j, hj, e, e'⟩ | ⟨j, hj, e, e'⟩
        · left; have : j = k := by omega
          subst this; exact e'
        · right; have : j = k := by omega
          subst this; exact e'
      clear C
      omega

end Verif.Nd
