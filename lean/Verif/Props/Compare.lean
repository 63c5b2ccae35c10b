import Mathlib.Algebra.Field.Rat
import Mathlib.Algebra.Order.Ring.Unbundled.Rat
import Mathlib.Tactic.Linarith
import Verif.Lemmas.CompareAccepts

/-!
# C50, C51: comparison ops, maximum and minimum
-/

namespace Verif.Props
open Verif.Nd Finset

/-- A 2x2 array used in the examples. -/
def cmpA : Arr ℚ := ofFn [2, 2] (fun i => (i.getD 0 0 : ℚ) * 2 + i.getD 1 0 + 1)
/-- A 1x2 array used in the examples. -/
def cmpB : Arr ℚ := ofFn [1, 2] (fun i => (i.getD 1 0 : ℚ) + 2)

/-- C50: a comparison op (or `maximum`, `minimum`) with elementwise function `f` whose first operand can be broadcast to the shape of the second
is elementwise. Full statement: for every pair of shapes with a common broadcast shape (as for `+`); the code rejects a second operand that is
smaller than the first, see `C50_violated`. -/
theorem C50_partial {R : Type} (f : R → R → R) (x0 x1 : Arr R) (hb : BroadcastsTo x0.shape x1.shape)
    (hr : ScalarOrRank x0.shape x1.shape) (hp : 0 < size x1.shape) :
    ∃ y, cmpOp f x0 x1 = .ok y ∧ Elementwise f x0 x1 x1.shape y := by
  obtain ⟨y, hy, h⟩ := cmpOp_spec (f := f) hb hr hp
  exact ⟨y, hy, h.elementwise⟩

example : BroadcastsTo cmpB.shape cmpA.shape ∧ ScalarOrRank cmpB.shape cmpA.shape ∧ 0 < size cmpA.shape :=
  ⟨(commonShape_iff.2 (show coBroadcast cmpB.shape cmpA.shape = some [2, 2] by decide)).1, .inr rfl, by decide⟩

/-- C50 for a scalar second operand. -/
theorem C50_scalar_partial {R : Type} (f : R → R → R) (x0 x1 : Arr R) (h1 : x1.shape = []) :
    ∃ y, cmpOp f x0 x1 = .ok y ∧ Elementwise f x0 x1 x0.shape y := by
  have hs1 : isScalarShape x1.shape = true := isScalarShape_iff.2 (.inl h1)
  have : cmpOp f x0 x1 = .ok (map (fun a => f a (x1.get [])) x0) := by
    unfold cmpOp
    cases hs0 : isScalarShape x0.shape <;> simp [hs1, scalarElem_nil h1, bind, Except.bind]
  refine ⟨_, this, rfl, fun idx o0 o1 hi h0 h1' => ?_⟩
  have e0 : o0 = idx := by rw [readsAt_unique h0, bIdx_self hi]
  have e1 : o1 = [] := by rw [readsAt_unique h1', h1, bIdx_nil]
  subst e0 e1; rfl

-- A 2x2 array compared with a number.
example : (ofFn [] (fun _ => (3 : ℚ))).shape = [] ∧ ∃ y, cmpOp equalFn cmpA (ofFn [] (fun _ => (3 : ℚ))) = .ok y ∧ y.shape = [2, 2] ∧ y.get [0, 1] = 0 ∧ y.get [1, 0] = 1 :=
  ⟨rfl, _, rfl, rfl, by norm_num [Nd.map, cmpA, ofFn, equalFn], by norm_num [Nd.map, cmpA, ofFn, equalFn]⟩

/-- C50: exactly which operands are accepted, if both have elements: one of them is a scalar, or they have the same rank and the first can be broadcast to the shape of the
second. (Full statement: all operands with a common broadcast shape.) In these cases the result is elementwise and has the common shape; in all others the op panics. -/
theorem C50_accepts_iff_partial {R : Type} (f : R → R → R) (x0 x1 : Arr R) (h0 : 0 < size x0.shape) (h1 : 0 < size x1.shape) :
    ((x0.shape = [] ∨ x1.shape = [] ∨ x0.shape.length = x1.shape.length ∧ BroadcastsTo x0.shape x1.shape) →
      ∃ y t, cmpOp f x0 x1 = .ok y ∧ CommonShape x0.shape x1.shape t ∧ Elementwise f x0 x1 t y) ∧
    (¬ (x0.shape = [] ∨ x1.shape = [] ∨ x0.shape.length = x1.shape.length ∧ BroadcastsTo x0.shape x1.shape) → cmpOp f x0 x1 = .error .panic) := by
  have nil : ∀ t, BroadcastsTo [] t := fun t => ⟨Nat.zero_le _, fun k hk => by cases hk⟩
  refine ⟨?_, fun h => ?_⟩
  · rintro (e | e | ⟨e, hb⟩)
    · have hb : BroadcastsTo x0.shape x1.shape := by rw [e]; exact nil _
      obtain ⟨y, hy, he⟩ := C50_partial f x0 x1 hb (.inl e) h1
      exact ⟨y, _, hy, commonShape_comm (commonShape_left hb), he⟩
    · obtain ⟨y, hy, he⟩ := C50_scalar_partial f x0 x1 e
      exact ⟨y, _, hy, commonShape_left (by rw [e]; exact nil _), he⟩
    · obtain ⟨y, hy, he⟩ := C50_partial f x0 x1 hb (.inr e) h1
      exact ⟨y, _, hy, commonShape_comm (commonShape_left hb), he⟩
  · rw [← cmpOp_accepts (f := f) h0 h1] at h
    cases hc : cmpOp f x0 x1 with
    | ok y => exact absurd ⟨y, hc⟩ h
    | error e => rw [cmpOp_error hc]

-- Accepted: a row and a matrix. Not accepted: the other order, and different ranks.
example : 0 < size cmpA.shape ∧ 0 < size cmpB.shape ∧ (cmpB.shape.length = cmpA.shape.length ∧ BroadcastsTo cmpB.shape cmpA.shape) ∧
    ¬ (cmpA.shape = [] ∨ cmpB.shape = [] ∨ cmpA.shape.length = cmpB.shape.length ∧ BroadcastsTo cmpA.shape cmpB.shape) := by
  refine ⟨by decide, by decide, ⟨rfl, (commonShape_iff.2 (show coBroadcast cmpB.shape cmpA.shape = some [2, 2] by decide)).1⟩, ?_⟩
  rintro (h | h | ⟨_, h⟩)
  · cases h
  · cases h
  · exact absurd (h.2 0 (by decide) (by decide)) (by decide)

/-- C50 is violated when the second operand is the one to be broadcast: `maximum` of a 2x2 and a 1x2 array panics although the shapes
are compatible (the reverse order works). -/
theorem C50_violated : CommonShape cmpA.shape cmpB.shape [2, 2] ∧ cmpOp max cmpA cmpB = .error .panic ∧
    ∃ y, cmpOp max cmpB cmpA = .ok y ∧ Elementwise max cmpB cmpA [2, 2] y :=
  ⟨commonShape_iff.2 (by decide), rfl,
    C50_partial max cmpB cmpA (commonShape_iff.2 (show coBroadcast cmpB.shape cmpA.shape = some [2, 2] by decide)).1 (.inr rfl) (by decide)⟩

/-- C51: for operands of the same shape, `maximum` passes the incoming gradient to the larger operand and 0 to the smaller one.
Missing with respect to the full statement: ties (`C51_tie_violated`) and broadcast operands (`C51_broadcast_violated`). -/
theorem C51_partial {R : Type} [CommRing R] [LinearOrder R] (x0 x1 gy : Arr R) (hs : x0.shape = x1.shape) (hg : gy.shape = x0.shape)
    (hx : x0.shape ≠ [0]) :
    ∃ y g0 g1, cmpOp max x0 x1 = .ok y ∧ maximumGrad x0 x1 y gy = .ok (g0, g1) ∧ g0.shape = x0.shape ∧ g1.shape = x1.shape ∧
      ∀ o, InB o x0.shape →
        (x1.get o < x0.get o → g0.get o = gy.get o ∧ g1.get o = 0) ∧ (x0.get o < x1.get o → g0.get o = 0 ∧ g1.get o = gy.get o) := by
  obtain ⟨y, hy, hys, hye⟩ := cmpOp_same (f := max) hs hx
  obtain ⟨a, ha, has, hae⟩ := cmpOp_same (f := equalFn) (x0 := x0) (x1 := y) hys.symm hx
  obtain ⟨b, hb, hbs, hbe⟩ := cmpOp_same (f := equalFn) (x0 := x1) (x1 := y) (by rw [hys, hs]) (by rw [← hs]; exact hx)
  obtain ⟨g0, hg0, hg0s, hg0e⟩ := mulOp_same (x0 := a) (x1 := gy) (by rw [has, hg])
  obtain ⟨g1, hg1, hg1s, hg1e⟩ := mulOp_same (x0 := b) (x1 := gy) (by rw [hbs, hg, hs])
  refine ⟨y, g0, g1, hy, ?_, by rw [hg0s, has], by rw [hg1s, hbs], fun o ho => ?_⟩
  · unfold maximumGrad
    simp only [ha, hb, hg0, hg1, bind, Except.bind]
  · have ho1 : InB o x1.shape := by rw [← hs]; exact ho
    rw [hg0e o (by rw [has]; exact ho), hg1e o (by rw [hbs]; exact ho1), hae o ho, hbe o ho1, hye o ho]
    constructor
    · intro h
      simp [equalFn, max_eq_left h.le, h.ne]
    · intro h
      simp [equalFn, max_eq_right h.le, h.ne]

example : cmpA.shape = (ofFn [2, 2] (fun _ => (1 : ℚ))).shape ∧ cmpA.shape ≠ [0] := ⟨rfl, by decide⟩

/-- C51 for `minimum`: for operands of the same shape the incoming gradient goes to the smaller operand and 0 to the larger one. Missing as for `C51_partial`. -/
theorem C51_minimum_partial {R : Type} [LinearOrder R] [CommSemiring R] (x0 x1 gy : Arr R) (hs : x0.shape = x1.shape) (hx : x0.shape ≠ [0]) (hg : gy.shape = x0.shape) :
    ∃ y g0 g1, cmpOp min x0 x1 = .ok y ∧ maximumGrad x0 x1 y gy = .ok (g0, g1) ∧ g0.shape = x0.shape ∧ g1.shape = x1.shape ∧
      ∀ o, InB o x0.shape → (x0.get o < x1.get o → g0.get o = gy.get o ∧ g1.get o = 0) ∧ (x1.get o < x0.get o → g0.get o = 0 ∧ g1.get o = gy.get o) := by
  obtain ⟨y, g0, g1, hy, hgr, s0, s1, he⟩ := extremum_grads (f := min) hs hx hg
  refine ⟨y, g0, g1, hy, hgr, s0, s1, fun o ho => ?_⟩
  rw [(he o ho).1, (he o ho).2]
  exact ⟨fun h => by simp [equalFn, min_eq_left h.le, h.ne'], fun h => by simp [equalFn, min_eq_right h.le, h.ne']⟩

example : cmpA.shape = (ofFn [2, 2] (fun _ => (2 : ℚ))).shape ∧ cmpA.shape ≠ [0] ∧ cmpA.get [0, 0] < 2 ∧ 2 < cmpA.get [1, 0] :=
  ⟨rfl, by decide, by norm_num [cmpA, ofFn], by norm_num [cmpA, ofFn]⟩

/-- C51 is violated at every tie, for `maximum` and `minimum` (and all operands of the same shape): each of the two operands gets the whole incoming gradient, so that
their total is twice the incoming gradient. -/
theorem C51_all_ties_violated {R : Type} [LinearOrder R] [CommSemiring R] (mx : Bool) (x0 x1 gy : Arr R) (hs : x0.shape = x1.shape) (hx : x0.shape ≠ [0]) (hg : gy.shape = x0.shape) :
    ∃ y g0 g1, cmpOp (if mx then max else min) x0 x1 = .ok y ∧ maximumGrad x0 x1 y gy = .ok (g0, g1) ∧
      ∀ o, InB o x0.shape → x0.get o = x1.get o → g0.get o = gy.get o ∧ g1.get o = gy.get o ∧ g0.get o + g1.get o = 2 * gy.get o := by
  obtain ⟨y, g0, g1, hy, hgr, s0, s1, he⟩ := extremum_grads (f := if mx then max else min) hs hx hg
  refine ⟨y, g0, g1, hy, hgr, fun o ho h => ?_⟩
  rw [(he o ho).1, (he o ho).2, h]
  cases mx <;> simp [equalFn, two_mul]

example : cmpA.shape = (ofFn [2, 2] (fun _ => (2 : ℚ))).shape ∧ cmpA.shape ≠ [0] ∧ cmpA.get [0, 1] = (ofFn [2, 2] (fun _ => (2 : ℚ))).get [0, 1] :=
  ⟨rfl, by decide, by norm_num [cmpA, ofFn]⟩

/-- C51 is violated for every first operand that is broadcast, for `maximum` and `minimum`: its gradient has the shape of the other operand, not its own. -/
theorem C51_all_broadcasts_violated {R : Type} [LinearOrder R] [CommSemiring R] (mx : Bool) (x0 x1 gy : Arr R) (hb : BroadcastsTo x0.shape x1.shape) (hr : ScalarOrRank x0.shape x1.shape)
    (hne : x0.shape ≠ x1.shape) (hp : 0 < size x1.shape) (hg : gy.shape = x1.shape) :
    ∃ y g0 g1, cmpOp (if mx then max else min) x0 x1 = .ok y ∧ maximumGrad x0 x1 y gy = .ok (g0, g1) ∧ g0.shape = x1.shape ∧ g0.shape ≠ x0.shape ∧ g1.shape = x1.shape := by
  obtain ⟨y, hy, hye⟩ := C50_partial (if mx then max else min) x0 x1 hb hr hp
  have hys : y.shape = x1.shape := hye.1
  obtain ⟨a, ha, hae⟩ := C50_partial equalFn x0 y (by rw [hys]; exact hb) (by rw [hys]; exact hr) (by rw [hys]; exact hp)
  have has : a.shape = x1.shape := hae.1.trans hys
  obtain ⟨b, hb', hbs, _⟩ := cmpOp_same (f := equalFn) (x0 := x1) (x1 := y) hys.symm (by intro h; simp [h, size] at hp)
  obtain ⟨g0, hg0, hg0s, _⟩ := mulOp_same (x0 := a) (x1 := gy) (by rw [has, hg])
  obtain ⟨g1, hg1, hg1s, _⟩ := mulOp_same (x0 := b) (x1 := gy) (by rw [hbs, hg])
  refine ⟨y, g0, g1, hy, ?_, hg0s.trans has, fun h => hne (h.symm.trans (hg0s.trans has)), hg1s.trans hbs⟩
  unfold maximumGrad
  simp only [ha, hb', hg0, hg1, bind, Except.bind]

example : BroadcastsTo cmpB.shape cmpA.shape ∧ ScalarOrRank cmpB.shape cmpA.shape ∧ cmpB.shape ≠ cmpA.shape ∧ 0 < size cmpA.shape :=
  ⟨(commonShape_iff.2 (show coBroadcast cmpB.shape cmpA.shape = some [2, 2] by decide)).1, .inr rfl, by decide, by decide⟩

/-- The gradients of `maximum` for equal operands and an incoming gradient 1. -/
theorem maximum_tie_run : ∃ (x y gy g0 g1 : Arr ℚ), cmpOp max x x = .ok y ∧ maximumGrad x x y gy = .ok (g0, g1) ∧
    gy.get [] = 1 ∧ g0.get [] = 1 ∧ g1.get [] = 1 ∧ x.shape = [] := by
  refine ⟨ofFn [] (fun _ => 3), _, ofFn [] (fun _ => 1), _, _, rfl, rfl, rfl, ?_, ?_, rfl⟩
  · simp [Nd.map, ofFn, equalFn]
  · simp [Nd.map, ofFn, equalFn]

/-- C51 is violated at ties: `maximum(x, x)` is `x`, moving both operands by `t` moves it by `t`; the reported gradients
give the rate of change 2 for that direction. -/
theorem C51_tie_violated :
    ∃ (x y gy g0 g1 : Arr ℚ), x.shape = [] ∧ cmpOp max x x = .ok y ∧ maximumGrad x x y gy = .ok (g0, g1) ∧
      (∀ t : ℚ, max (x.get [] + t) (x.get [] + t) - max (x.get []) (x.get []) = 1 * t) ∧
      g0.get [] * 1 + g1.get [] * 1 ≠ gy.get [] * 1 := by
  obtain ⟨x, y, gy, g0, g1, hy, hg, h1, h2, h3, hs⟩ := maximum_tie_run
  refine ⟨x, y, gy, g0, g1, hs, hy, hg, fun t => by simp, ?_⟩
  rw [h1, h2, h3]; norm_num

/-- C51 is violated for broadcast operands: the gradient of a 1x2 operand that was broadcast to 2x2 has shape 2x2. -/
theorem C51_broadcast_violated :
    ∃ (y gy g0 g1 : Arr ℚ), cmpOp max cmpB cmpA = .ok y ∧ gy.shape = y.shape ∧ maximumGrad cmpB cmpA y gy = .ok (g0, g1) ∧
      g0.shape = [2, 2] ∧ g0.shape ≠ cmpB.shape :=
  ⟨_, ofFn [2, 2] (fun _ => 1), _, _, rfl, rfl, rfl, rfl, by decide⟩

end Verif.Props
