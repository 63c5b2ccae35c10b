import Verif.Lemmas.NegativeAxes
import Verif.Props.ExpandSqueeze
import Verif.Props.Gather

/-!
# C33, C34, C54: what negative axes and the index -1 do, in general
-/

namespace Verif.Props
open Verif.Nd

/-- C34 is violated for every negative axis: on an array of rank `r` in a layout without gaps, the axis `-(m + 1)` with `m < r` inserts the new dimension at position `r - m - 1` instead of `r - m` (counted
from the end of the result, as for `squeeze`), so the shape is wrong unless the dimension there is 1 as well. -/
theorem C34_expand_negative_all_violated {R : Type} (x : Arr R) (m : Nat) (hm : m < x.shape.length) (hc : Contig x.shape x.strides) :
    ∃ y, expandDimsOp x [-((m : Int) + 1)] = .ok y ∧ y.shape = x.shape.insertIdx (x.shape.length - m - 1) 1 ∧
      (y.shape = x.shape.insertIdx (x.shape.length - m) 1 ↔ x.shape[x.shape.length - m - 1]? = some 1) := by
  have hle : x.shape.length - m - 1 ≤ x.shape.length := by omega
  obtain ⟨y, hy, hys, -⟩ := intoShape_sq hc (size_insert x.shape (x.shape.length - m - 1) hle)
  refine ⟨y, ?_, hys, ?_⟩
  · rw [expandDimsOp, sortInts_one, expandShape, absIndex_back hm]
    simp only [hle, if_true, expandShape, bind, Except.bind, hy, unwrap]
  · rw [hys]
    obtain ⟨k, hk⟩ : ∃ k, k = x.shape.length - m - 1 := ⟨_, rfl⟩
    have hk' : x.shape.length - m = k + 1 := by omega
    rw [hk', Nat.add_sub_cancel]
    have hlt : k < x.shape.length := by omega
    constructor
    · intro h
      have := congrArg (fun l => l[k]?) h
      simp only [List.getElem?_insertIdx_self, List.getElem?_insertIdx_of_lt (Nat.lt_succ_self k)] at this
      rw [if_pos (by omega)] at this
      exact this.symm
    · intro h
      apply List.ext_getElem?
      intro i
      rcases Nat.lt_trichotomy i k with hi | hi | hi
      · rw [List.getElem?_insertIdx_of_lt hi, List.getElem?_insertIdx_of_lt (by omega)]
      · subst hi
        rw [List.getElem?_insertIdx_self, if_pos (by omega), List.getElem?_insertIdx_of_lt (by omega), h]
      · rw [List.getElem?_insertIdx_of_gt hi]
        rcases Nat.lt_or_ge (k + 1) i with hi' | hi'
        · rw [List.getElem?_insertIdx_of_gt hi']
        · have : i = k + 1 := by omega
          subst this
          rw [List.getElem?_insertIdx_self, if_pos (by omega)]
          simpa using h

example : 1 < exE.shape.length ∧ Contig exE.shape exE.strides ∧ exE.shape[exE.shape.length - 1 - 1]? ≠ some 1 :=
  ⟨by decide, .inr ⟨by decide, by decide⟩, by decide⟩

/-- C54 is violated for every negative axis of `expand_dims` where the dimension of the input is not 1: the gradient (a `squeeze` with the same axis) panics for every incoming gradient of the shape of the result. -/
theorem C54_expand_negative_all_violated {R : Type} (x gy : Arr R) (m : Nat) (hm : m < x.shape.length) (hc : Contig x.shape x.strides)
    (h1 : x.shape[x.shape.length - m - 1]? ≠ some 1) :
    ∃ y, expandDimsOp x [-((m : Int) + 1)] = .ok y ∧ (gy.shape = y.shape → squeeze gy [-((m : Int) + 1)] = .error .panic) := by
  obtain ⟨y, hy, hys, -⟩ := C34_expand_negative_all_violated x m hm hc
  refine ⟨y, hy, fun hg => ?_⟩
  have hl : gy.shape.length = x.shape.length + 1 := by
    rw [hg, hys, List.length_insertIdx, if_pos (by omega)]
  rw [squeeze, sortInts_one, squeezeLoop, absIndex_back (by omega)]
  simp only [Nat.not_lt_zero, if_false, Nat.sub_zero]
  rw [if_neg]
  rw [hg, hys, ← hys, ← hg, hl, hg, hys, List.getElem?_insertIdx_of_gt (by omega), show x.shape.length + 1 - m - 1 - 1 = x.shape.length - m - 1 by omega]
  exact h1

example : 0 < exE.shape.length ∧ Contig exE.shape exE.strides ∧ exE.shape[exE.shape.length - 0 - 1]? ≠ some 1 :=
  ⟨by decide, .inr ⟨by decide, by decide⟩, by decide⟩

/-- C54 is violated for every negative axis of `squeeze` whose preceding dimension is not 1 (or that has none): the gradient (an `expand_dims` with the same axis) panics or has not the shape of the input. -/
theorem C54_squeeze_negative_all_violated {R : Type} (x gy : Arr R) (m : Nat) (hm : m < x.shape.length) (h1 : x.shape[x.shape.length - m - 1]? = some 1)
    (hp : ∀ k, k + 1 = x.shape.length - m - 1 → x.shape[k]? ≠ some 1) :
    ∃ y, squeeze x [-((m : Int) + 1)] = .ok y ∧ y.shape = x.shape.eraseIdx (x.shape.length - m - 1) ∧
      (gy.shape = y.shape → ∀ g, expandDimsOp gy [-((m : Int) + 1)] = .ok g → g.shape ≠ x.shape) := by
  refine ⟨indexAxis0 x (x.shape.length - m - 1), ?_, rfl, fun hg g h hs => ?_⟩
  · rw [squeeze, sortInts_one, squeezeLoop, absIndex_back hm]
    simp [h1, squeezeLoop]
  · have hl : gy.shape.length = x.shape.length - 1 := by
      rw [hg]; show (x.shape.eraseIdx _).length = _
      rw [List.length_eraseIdx, if_pos (by omega)]
    rw [expandDimsOp, sortInts_one, expandShape] at h
    rcases Nat.lt_or_ge m gy.shape.length with hm' | hm'
    · rw [absIndex_back hm'] at h
      have hle : gy.shape.length - m - 1 ≤ gy.shape.length := by omega
      simp only [hle, if_true, expandShape, bind, Except.bind] at h
      cases hi : intoShape gy (gy.shape.insertIdx (gy.shape.length - m - 1) 1) with
      | none => rw [hi] at h; cases h
      | some r =>
        rw [hi] at h
        have hr : r = g := by simpa [unwrap] using h
        have hrs : r.shape = gy.shape.insertIdx (gy.shape.length - m - 1) 1 := by
          unfold intoShape at hi
          split at hi
          · split at hi
            · cases hi; rfl
            · split at hi
              · cases hi; rfl
              · cases hi
          · cases hi
        have e : x.shape = gy.shape.insertIdx (gy.shape.length - m - 1) 1 := by rw [← hs, ← hr, hrs]
        refine hp (gy.shape.length - m - 1) (by omega) ?_
        rw [List.getElem?_eq_some_iff]
        refine ⟨by omega, ?_⟩
        have := congrArg (fun l => l[gy.shape.length - m - 1]?) e
        simp only [List.getElem?_insertIdx_self, hle, if_true] at this
        exact (List.getElem?_eq_some_iff.1 this).2
    · have : absIndex gy.shape.length (-((m : Int) + 1)) = none := by
        unfold absIndex
        rw [if_pos (by omega), if_pos (by omega)]
      rw [this] at h
      cases h

example : ∃ x : Arr ℤ, 0 < x.shape.length ∧ x.shape[x.shape.length - 0 - 1]? = some 1 ∧ ∀ k, k + 1 = x.shape.length - 0 - 1 → x.shape[k]? ≠ some 1 :=
  ⟨ofFn [3, 1] fun _ => 1, by decide, by decide, fun k hk => by
    have : k = 0 := by simpa [ofFn] using hk
    subst this; decide⟩

/-- C33 is violated for every index array that contains -1 (the last position, accepted by `gather_common`): the gradient panics, whatever the shapes. -/
theorem C33_gradient_index_all_violated {R : Type} [AddCommMonoid R] (pshape : List Nat) (gy : Arr R) (indices : Arr Int) (axis : Int)
    (o : List Nat) (ho : InB o indices.shape) (hi : indices.get o = -1) : gatherGrad pshape indices axis gy = .error .panic := by
  have hpos : ∀ (n : Nat) (i : Int), (∃ p, gatherPos n i = .ok p) ∨ gatherPos n i = .error .panic := by
    intro n i
    unfold gatherPos sliceBounds
    split
    · split
      · simp only [bind, Except.bind]
        split
        · exact .inr rfl
        · exact .inl ⟨_, rfl⟩
      · exact .inr rfl
    · exact .inr rfl
  have hone : ∀ n : Nat, gatherPos n (-1) = .error .panic := by
    intro n
    rcases hpos n (-1) with ⟨p, hp⟩ | hp
    · exfalso
      unfold gatherPos sliceBounds at hp
      by_cases hn : n = 0
      · subst hn; cases hp
      · have h1 : absIndex n (-1) = some (n - 1) := by
          unfold absIndex
          rw [if_pos (by omega), if_neg (by omega)]
          congr 1
          omega
        have h2 : absIndex n 0 = some 0 := rfl
        simp [h1, h2, bind, Except.bind] at hp
    · exact hp
  have hmem : (-1 : Int) ∈ toList indices := by
    refine List.mem_map.2 ⟨flat indices.shape o, List.mem_range.2 (flat_lt ho), ?_⟩
    rw [unflat_flat ho, hi]
  have hmap : ∀ (n : Nat) (l : List Int), (-1 : Int) ∈ l → l.mapM (gatherPos n) = .error .panic := by
    intro n l
    induction l with
    | nil => intro h; cases h
    | cons a l ih =>
      intro h
      rw [List.mapM_cons]
      rcases hpos n a with ⟨p, hp⟩ | hp
      · rcases List.mem_cons.1 h with h | h
        · rw [← h, hone n] at hp; cases hp
        · rw [hp, ih h]; rfl
      · rw [hp]; rfl
  unfold gatherGrad
  split
  · rfl
  · split
    · rfl
    · rename_i n hn
      simp only [hmap n _ hmem, bind, Except.bind]
      cases intoShape gy (pshape.take axis.toNat ++ size indices.shape :: pshape.drop (axis.toNat + 1)) <;> rfl

example : ∃ indices : Arr Int, InB [1] indices.shape ∧ indices.get [1] = -1 := ⟨ofFn [2] fun i => -(i.getD 0 0 : Int), by decide, by decide⟩

end Verif.Props
