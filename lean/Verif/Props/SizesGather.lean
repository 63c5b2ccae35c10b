import Verif.Lemmas.Softmax
import Verif.Model.ArrayOps
import Verif.Model.Reductions

/-!
# C27: the sizes in the gradient of the mean are those of the op `Gather`
-/

namespace Verif.Props
open Verif.Nd

/-- `reductionSizes` of `Model/Reductions`, which C27 divides by, agrees with the op `Gather` (C33) on the shape vector for all shapes and axes: one panics iff the other does, and otherwise the shape and
the elements are the same. (The gradient builds the op `Gather`, src/tensor_ops/reduction_ops.rs:232.) -/
theorem C27_sizes_are_gathered {R : Type} [NatCast R] [Zero R] (shape : List Nat) (axes : List Int) (sh : Arr R) (ax : Arr Int)
    (hsh : sh.shape = [shape.length]) (hshg : ∀ i, sh.get [i] = ((shape.getD i 0 : Nat) : R)) (hax : ax.shape = [axes.length]) (haxg : ∀ i, ax.get [i] = axes.getD i 0) :
    (reductionSizes (R := R) shape axes = .error .panic ∧ gather true sh ax 0 = .error .panic) ∨
      ∃ y z : Arr R, reductionSizes shape axes = .ok y ∧ gather true sh ax 0 = .ok z ∧ y.shape = z.shape ∧ ∀ o, InB o y.shape → y.get o = z.get o := by
  have hl : toList ax = axes := by
    apply List.ext_getElem
    · simp [toList, hax, Nd.size]
    · intro k h1 h2
      simp only [toList, hax, List.getElem_map, List.getElem_range, unflat, Nd.size, Nat.div_one]
      rw [haxg]
      simp [h2]
  have hn : ∀ (n : Nat) (l : List Int), (∃ ks, normAxes n l = .ok ks ∧ ks.length = l.length) ∨ normAxes n l = .error .panic := by
    intro n l
    induction l with
    | nil => exact .inl ⟨[], rfl, rfl⟩
    | cons a l ih =>
      rw [normAxes]
      rcases ih with ⟨ks, hks, hlen⟩ | h
      · rw [hks]
        by_cases h0 : a < 0
        · by_cases h1 : (n : Int) + a < 0
          · right; simp [h0, h1, bind, Except.bind]
          · left; simp [h0, h1, bind, Except.bind, hlen]
        · left; simp [h0, bind, Except.bind, hlen]
      · right
        rw [h]
        by_cases h0 : a < 0
        · by_cases h1 : (n : Int) + a < 0 <;> simp [h0, h1, bind, Except.bind]
        · simp [h0, bind, Except.bind]
  have hg : gather true sh ax 0 = (do
      let flat ← normAxes shape.length axes
      let sel ← select sh 0 flat
      unwrap (intoShape sel [axes.length])) := by
    unfold gather
    simp [normAxis, absIndex, hsh, hax, flatIndices, hl]
  rcases hn shape.length axes with ⟨ks, hks, hlen⟩ | h
  · unfold reductionSizes
    rw [hg, hks]
    simp only [bind, Except.bind]
    by_cases hc : ks ≠ [] ∧ ∀ k ∈ ks, k < shape.length
    · right
      rw [if_pos (by simpa using hc)]
      have hsel : select sh 0 ks = .ok (ofFn (sh.shape.set 0 ks.length) (fun o => sh.get (o.set 0 (ks.getD (o.getD 0 0) 0)))) := by
        unfold select
        simp only [hsh, List.getElem?_cons_zero]
        rw [if_pos hc]
      rw [hsel]
      obtain ⟨r, hr, hrs, hrg⟩ := intoShape_same (a := ofFn (sh.shape.set 0 ks.length) (fun o => sh.get (o.set 0 (ks.getD (o.getD 0 0) 0))))
        (.inl (isStandard_cStrides _)) (s := [axes.length]) (by simp [ofFn, hsh, hlen])
      refine ⟨_, r, rfl, by simp only [hr, unwrap], by rw [hrs]; simp [ofFn, hlen], fun o ho => ?_⟩
      have ho' : InB o [ks.length] := ho
      rw [hrg o (by simpa [ofFn, hsh] using ho')]
      have h1 := inB_length ho'
      obtain ⟨i, rfl⟩ := List.length_eq_one_iff.1 h1
      simp [ofFn, hshg]
    · left
      rw [if_neg (by simpa using hc)]
      refine ⟨rfl, ?_⟩
      have hsel : select sh 0 ks = .error .panic := by
        unfold select
        simp only [hsh, List.getElem?_cons_zero]
        rw [if_neg hc]
      rw [hsel]
  · left
    unfold reductionSizes
    rw [hg, h]
    exact ⟨rfl, rfl⟩

example : ∃ (sh : Arr Nat) (ax : Arr Int), sh.shape = [[2, 3].length] ∧ (∀ i, sh.get [i] = (([2, 3].getD i 0 : Nat) : Nat)) ∧ ax.shape = [[(-1 : Int)].length] ∧
    (∀ i, ax.get [i] = [(-1 : Int)].getD i 0) :=
  ⟨ofFn [2] fun o => [2, 3].getD (o.getD 0 0) 0, ofFn [1] fun o => [(-1 : Int)].getD (o.getD 0 0) 0, rfl, fun _ => rfl, rfl, fun _ => rfl⟩

end Verif.Props
