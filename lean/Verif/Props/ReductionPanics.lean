import Mathlib.Algebra.Field.Rat
import Verif.Lemmas.Compare
import Verif.Lemmas.ReduceRel

/-!
# C26, C27: where the reductions and their gradients fail, in general
-/

namespace Verif.Props
open Verif.Nd

/-- C26 is violated for every empty vector: reducing its only axis without keeping dimensions returns the vector itself, which does not have the shape of a reduction. -/
theorem C26_all_empty_violated {R : Type} [Field R] [LinearOrder R] (x : Arr R) (hx : x.shape = [0]) (a : Int) (ha : a = 0 ∨ a = -1) (lim : R) :
    reduceSum x [a] false = .ok x ∧ reduceProd x [a] false = .ok x ∧ reduceMean x [a] false = .ok x ∧ reduceMin lim x [a] false = .ok x ∧ reduceMax lim x [a] false = .ok x ∧
      x.shape ≠ reducedShape [0] false x.shape := by
  have hn : normAxes x.shape.length [a] = .ok [0] := normAxes_spec (.cons ⟨by simp [hx], by rcases ha with rfl | rfl <;> simp [hx]⟩ .nil)
  have hs : isScalarShape x.shape = true := isScalarShape_iff.2 (.inr hx)
  refine ⟨?_, ?_, ?_, ?_, ?_, by rw [hx]; decide⟩
  · simp [reduceSum, hn, reduceForward, hs, bind, Except.bind]
  · simp [reduceProd, hn, reduceForward, hs, bind, Except.bind]
  · simp [reduceMean, hn, reduceForward, hs, bind, Except.bind]
    simp [reductionLen, hx]
    rfl
  · simp [reduceMin, hn, reduceForward, hs, bind, Except.bind]
  · simp [reduceMax, hn, reduceForward, hs, bind, Except.bind]

example : (ofFn [0] fun _ => (0 : ℚ)).shape = [0] ∧ ((-1 : Int) = 0 ∨ (-1 : Int) = -1) := ⟨rfl, .inr rfl⟩

/-- C27 is violated for every incoming gradient in another memory layout (neither row-major nor column-major without gaps), when dimensions are not kept: the gradients of the sum and of the mean over at
least one axis panic. -/
theorem C27_all_layouts_violated {R : Type} [Field R] (x gy : Arr R) (axes : List Int) (ks : List Nat) (ha : List.Forall₂ (AxisIs x.shape.length) axes ks) (hne : ks ≠ [])
    (hg : gy.shape = reducedShape ks false x.shape) (hc : ¬ Contig gy.shape gy.strides) :
    reduceSumGrad x gy axes false = .error .panic ∧ reduceMeanGrad x gy axes false = .error .panic := by
  have key : reduceGradCommon gy x.shape axes (!false) = .error .panic := by
    have hsh : gy.shape ≠ x.shape := by
      intro h
      obtain ⟨k, hk⟩ := List.exists_mem_of_ne_nil _ hne
      have := dropAt_length_lt (A := ks) hk (axes_lt ha k hk)
      rw [hg] at h
      rw [show dropAt ks 0 x.shape = x.shape from h] at this
      omega
    unfold reduceGradCommon
    rw [if_neg hsh]
    simp only [Bool.not_false, Bool.true_or, if_true, normAxes_spec ha, bind, Except.bind]
    have hins : ∀ (l s : List Nat), (∃ t, insertOnes s l = .ok t) ∨ insertOnes s l = .error .panic := by
      intro l
      induction l with
      | nil => exact fun s => .inl ⟨s, rfl⟩
      | cons k l ih =>
        intro s
        rw [insertOnes]
        split
        · exact ih _
        · exact .inr rfl
    rcases hins (sortAxes ks) gy.shape with ⟨t, ht⟩ | ht
    · simp only [ht, intoShape_not_contig hc, unwrap]
    · simp only [ht]
  exact ⟨key, by simp only [reduceMeanGrad, key, bind, Except.bind]⟩

example : ∃ x gy : Arr ℚ, List.Forall₂ (AxisIs x.shape.length) [3] [3] ∧ gy.shape = reducedShape [3] false x.shape ∧ ¬ Contig gy.shape gy.strides :=
  ⟨ofFn [2, 2, 2, 1] (fun _ => 1), ⟨[2, 2, 2], [2, 4, 1], fun _ => 1⟩, .cons ⟨by decide, .inl rfl⟩ .nil, by decide, by decide⟩

/-- C27 is violated for the mean over no axes of any array: the forward op returns its input, the gradient panics (`gather` refuses an empty list of indices). -/
theorem C27_mean_noaxes_all_violated {R : Type} [Field R] (x gy : Arr R) (keep : Bool) (hg : gy.shape = x.shape) :
    reduceMean x [] keep = .ok x ∧ reduceMeanGrad x gy [] keep = .error .panic := by
  refine ⟨rfl, ?_⟩
  have h1 : reduceGradCommon gy x.shape [] (!keep) = .ok gy := by rw [reduceGradCommon, if_pos hg]
  unfold reduceMeanGrad
  rw [h1]
  rfl

example : ∃ x gy : Arr ℚ, gy.shape = x.shape := ⟨ofFn [2, 3] fun _ => 1, ofFn [2, 3] fun _ => 2, rfl⟩

/-- C49 is violated in the same way for the gradients of minimum and maximum: they panic for every incoming gradient that is not contiguous, when dimensions are not kept (`y` is the output of the forward op). -/
theorem C49_all_layouts_violated {R : Type} [Field R] [DecidableEq R] (x y gy : Arr R) (axes : List Int) (ks : List Nat) (ha : List.Forall₂ (AxisIs x.shape.length) axes ks) (hne : ks ≠ [])
    (hg : gy.shape = reducedShape ks false x.shape) (hc : ¬ Contig gy.shape gy.strides) : reduceMinMaxGrad x y gy axes false = .error .panic := by
  have key : reduceGradCommon gy x.shape axes (!false) = .error .panic := (C27_all_layouts_violated x gy axes ks ha hne hg hc).1
  have hins : ∀ (l s : List Nat), (∃ t, insertOnes s l = .ok t) ∨ insertOnes s l = .error .panic := by
    intro l
    induction l with
    | nil => exact fun s => .inl ⟨s, rfl⟩
    | cons k l ih =>
      intro s
      rw [insertOnes]
      split
      · exact ih _
      · exact .inr rfl
  have hy : (∃ y', reduceGradCommon y x.shape axes (!false) = .ok y') ∨ reduceGradCommon y x.shape axes (!false) = .error .panic := by
    unfold reduceGradCommon
    split
    · exact .inl ⟨_, rfl⟩
    · simp only [Bool.not_false, Bool.true_or, if_true, normAxes_spec ha, bind, Except.bind]
      rcases hins (sortAxes ks) y.shape with ⟨t, ht⟩ | ht
      · simp only [ht]
        cases intoShape y t with
        | none => exact .inr rfl
        | some a =>
          simp only [unwrap]
          cases broadcast a x.shape with
          | none => exact .inr rfl
          | some b => exact .inl ⟨_, rfl⟩
      · simp only [ht]; exact .inr trivial
  unfold reduceMinMaxGrad
  rcases hy with ⟨y', hy⟩ | hy
  · simp only [hy, key, bind, Except.bind]
  · simp only [hy, bind, Except.bind]

example : ∃ x y gy : Arr ℚ, y.shape = reducedShape [3] false x.shape ∧ List.Forall₂ (AxisIs x.shape.length) [3] [3] ∧ gy.shape = reducedShape [3] false x.shape ∧ ¬ Contig gy.shape gy.strides :=
  ⟨ofFn [2, 2, 2, 1] (fun _ => 1), ofFn [2, 2, 2] (fun _ => 1), ⟨[2, 2, 2], [2, 4, 1], fun _ => 1⟩, by decide, .cons ⟨by decide, .inl rfl⟩ .nil, by decide, by decide⟩

end Verif.Props
