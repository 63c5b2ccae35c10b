import Verif.Lemmas.ExpandSqueeze
import Verif.Model.Elementwise
import Verif.Lemmas.Gather

/-!
# C34: expand_dims and squeeze; C54: their gradients; C52: access_elem; C53: add_n
-/

namespace Verif.Props
open Verif.Nd Finset

/-- C34 (`expand_dims`). Full statement: for all axes that denote distinct positions of the result, also negative ones, and for all memory layouts; see
`C34_expand_negative_violated` and `C34_expand_layout_violated`. -/
theorem C34_expand_partial {R : Type} (x : Arr R) (ks : List Nat) (hd : ks.Nodup) (hlt : ∀ k ∈ ks, k < x.shape.length + ks.length)
    (hc : Contig x.shape x.strides) :
    ∃ y, expandDimsOp x (ks.map (fun k : Nat => (k : Int))) = .ok y ∧ y.shape.length = x.shape.length + ks.length ∧
      (∀ k ∈ ks, y.shape[k]? = some 1) ∧ dropAt ks 0 y.shape = x.shape ∧ ∀ o, InB o y.shape → y.get o = x.get (dropAt ks 0 o) := by
  obtain ⟨y, hy, hl, h1, hdr, hg⟩ := expand_spec hd hlt hc
  refine ⟨y, hy, hl, fun k hk => ?_, hdr, hg⟩
  have hkl : k < y.shape.length := by rw [hl]; exact hlt k hk
  have := setAt_getElem ks 1 0 k y.shape hkl (by rw [setAt_length]; exact hkl)
  rw [if_pos (by simpa using hk)] at this
  rw [List.getElem?_eq_getElem hkl, ← this]
  simp [h1]

/-- A column-major array, expanded at positions 3 and 0 (in this order). -/
def exE : Arr ℤ := ⟨[2, 3], [1, 2], fun i => (i.getD 0 0 : ℤ) * 10 + i.getD 1 0⟩

example : ([3, 0] : List Nat).Nodup ∧ (∀ k ∈ ([3, 0] : List Nat), k < exE.shape.length + 2) ∧ Contig exE.shape exE.strides :=
  ⟨by decide, by decide, .inr ⟨by decide, by decide⟩⟩

/-- C34: past the end of the result expand_dims panics. -/
theorem C34_expand_out_of_range {R : Type} (x : Arr R) (k : Nat) (hk : x.shape.length < k) : expandDimsOp x [(k : Int)] = .error .panic := by
  have := expandShape_cast x.shape.length [k] x.shape
  simp only [List.map_cons, List.map_nil] at this
  rw [expandDimsOp, show sortInts [(k : Int)] = [(k : Int)] by simp [sortInts], this, insertOnes, if_neg (by omega)]
  rfl

example : exE.shape.length < 3 := by decide

/-- C34 is violated: a negative axis is counted from the end of the input instead of the result; -1 on a vector inserts the dimension at the front. -/
theorem C34_expand_negative_violated :
    ∃ y, expandDimsOp (ofFn [3] (fun i => (i.getD 0 0 : ℤ))) [-1] = .ok y ∧ y.shape = [1, 3] := by
  rw [expandDimsOp, sortInts_sorted (by decide)]; exact ⟨_, rfl, rfl⟩

/-- C34 is violated: an input in a layout that is neither row- nor column-major (a sliced or permuted array) always panics, for all valid axes. -/
theorem C34_expand_layout_violated {R : Type} (x : Arr R) (ks : List Nat) (hd : ks.Nodup) (hlt : ∀ k ∈ ks, k < x.shape.length + ks.length)
    (hc : ¬ Contig x.shape x.strides) : expandDimsOp x (ks.map (fun k : Nat => (k : Int))) = .error .panic := by
  have hcnt := count_not hd hlt
  obtain ⟨t, h1, h2, h3⟩ := undrop ks 0 (x.shape.length + ks.length) x.shape (by omega)
  have hins : insertOnes x.shape (sortAxes ks) = .ok t := by
    have := insertOnes_spec (sortAxes ks) t (sortAxes_lt hd) (fun k hk => by
      rw [h1]; exact hlt k ((sortAxes_perm ks).mem_iff.1 hk))
    rw [← dropAt_congr' 0 t (fun k _ => ((sortAxes_perm ks).mem_iff).symm), h2,
      setAt_congr (B := ks) (fun k => ((sortAxes_perm ks).mem_iff)) 1 0 t, h3] at this
    exact this
  rw [expandDimsOp, sortInts_cast, expandShape_cast, hins]
  simp only [bind, Except.bind, intoShape_not_contig hc, unwrap]

/-- Every second column of an array with six columns. -/
def exN : Arr ℤ := ⟨[2, 3], [6, 2], fun i => (i.getD 0 0 : ℤ) * 10 + i.getD 1 0⟩

example : ([3, 0] : List Nat).Nodup ∧ (∀ k ∈ ([3, 0] : List Nat), k < exN.shape.length + 2) ∧ ¬ Contig exN.shape exN.strides :=
  ⟨by decide, by decide, fun h => by rcases h with h | ⟨-, h⟩ <;> revert h <;> decide⟩

/-- C34 (`squeeze`). Full statement: also for lists with several axes some of which are negative, see `C34_squeeze_negative_violated`.
Every position of the result is the image of exactly one position of the input. -/
theorem C34_squeeze_partial {R : Type} (x : Arr R) (ks : List Nat) (hd : ks.Nodup) (h1 : ∀ k ∈ ks, x.shape[k]? = some 1) :
    ∃ y, squeeze x (ks.map (fun k : Nat => (k : Int))) = .ok y ∧ y.shape = dropAt ks 0 x.shape ∧
      (∀ o, InB o x.shape → y.get (dropAt ks 0 o) = x.get o) ∧
      ∀ p, InB p y.shape → ∃! o, InB o x.shape ∧ dropAt ks 0 o = p := by
  obtain ⟨y, hy, hs, hg⟩ := squeeze_spec hd h1
  refine ⟨y, hy, hs, hg, fun p hp => ?_⟩
  have hfix : setAt ks 1 0 x.shape = x.shape := setAt_fix_iff fun k hk hl => by
    have := h1 k hk; rw [List.getElem?_eq_getElem hl] at this; exact Option.some.inj this
  rw [hs] at hp
  obtain ⟨o, ho, he⟩ := dropAt_surj hfix hp
  exact ⟨o, ⟨ho, he⟩, fun o' ho' => dropAt_inj hfix ho'.1 ho (ho'.2.trans he.symm)⟩

/-- An array with two dimensions of size 1. -/
def exO : Arr ℤ := ⟨[1, 3, 1, 2], [1, 1, 3, 3], fun i => (i.getD 1 0 : ℤ) * 10 + i.getD 3 0⟩

example : ([2, 0] : List Nat).Nodup ∧ ∀ k ∈ ([2, 0] : List Nat), exO.shape[k]? = some 1 := by decide

/-- C34: a single axis may be negative. -/
theorem C34_squeeze_one {R : Type} (x : Arr R) (a : Int) (k : Nat) (hk : AxisIs x.shape.length a k) (h1 : x.shape[k]? = some 1) :
    ∃ y, squeeze x [a] = .ok y ∧ y.shape = dropAt [k] 0 x.shape ∧ ∀ o, InB o x.shape → y.get (dropAt [k] 0 o) = x.get o := by
  obtain ⟨y, hy, hs, hg⟩ := squeeze_spec (x := x) (ks := [k]) (by simp) (by simpa using h1)
  refine ⟨y, ?_, hs, hg⟩
  rw [← hy]
  have h2 : absIndex x.shape.length a = absIndex x.shape.length (k : Int) := by
    have := normAxis_ok hk
    rw [normAxis] at this
    rw [this, absIndex_cast]
  simp only [squeeze, sortInts, List.map_cons, List.map_nil, List.mergeSort_singleton, squeezeLoop, h2]

example : AxisIs exO.shape.length (-2) 2 ∧ exO.shape[2]? = some 1 := ⟨⟨by decide, .inr (by decide)⟩, by decide⟩

/-- C34: dimensions of another size are never removed. -/
theorem C34_squeeze_not_one {R : Type} (x : Arr R) (a : Int) (k : Nat) (hk : AxisIs x.shape.length a k) (h1 : x.shape[k]? ≠ some 1) :
    squeeze x [a] = .error .panic := by
  have h2 : absIndex x.shape.length a = some k := by have := normAxis_ok hk; rwa [normAxis] at this
  simp only [squeeze, sortInts, List.mergeSort_singleton, squeezeLoop, h2]
  rw [if_neg (by omega), if_neg (by simpa using h1)]

example : AxisIs exO.shape.length (-1) 3 ∧ exO.shape[3]? ≠ some 1 := ⟨⟨by decide, .inr (by decide)⟩, by decide⟩

/-- C34 is violated: of several axes, the ones after a negative one are off: axes 1 and 3 of shape [2,1,3,1] given as [-3,-1] panic (the code looks at the
dimension of size 3), axes 0 and 2 of [1,3,1] given as [-1,0] panic. -/
theorem C34_squeeze_negative_violated :
    squeeze (ofFn [2, 1, 3, 1] (fun _ => (0 : ℤ))) [-3, -1] = .error .panic ∧ squeeze (ofFn [1, 3, 1] (fun _ => (0 : ℤ))) [-1, 0] = .error .panic ∧
    (∃ y, squeeze (ofFn [2, 1, 3, 1] (fun _ => (0 : ℤ))) [1, 3] = .ok y ∧ y.shape = [2, 3]) ∧
    ∃ y, squeeze (ofFn [1, 3, 1] (fun _ => (0 : ℤ))) [0, 2] = .ok y ∧ y.shape = [3] := by
  simp only [squeeze]
  rw [sortInts_sorted (l := [-3, -1]) (by decide), sortInts_sorted (l := [-1, 0]) (by decide), sortInts_sorted (l := [1, 3]) (by decide),
    sortInts_sorted (l := [0, 2]) (by decide)]
  exact ⟨rfl, rfl, ⟨_, rfl, rfl⟩, ⟨_, rfl, rfl⟩⟩

/-- C34 is violated: a dimension of size 2 requested to be removed is not rejected; another dimension is removed instead. Axes 0 and 2 of [1,1,2] given as
[-3,-1] yield [2] (given as [0,2] they are rejected). -/
theorem C34_squeeze_other_violated :
    (∃ y, squeeze (ofFn [1, 1, 2] (fun _ => (0 : ℤ))) [-3, -1] = .ok y ∧ y.shape = [2]) ∧
    squeeze (ofFn [1, 1, 2] (fun _ => (0 : ℤ))) [0, 2] = .error .panic := by
  simp only [squeeze]
  rw [sortInts_sorted (l := [-3, -1]) (by decide), sortInts_sorted (l := [0, 2]) (by decide)]
  exact ⟨⟨_, rfl, rfl⟩, rfl⟩

/-- C34: squeeze undoes expand_dims (axes as in `C34_expand_partial`). -/
theorem C34_roundtrip_partial {R : Type} (x : Arr R) (ks : List Nat) (hd : ks.Nodup) (hlt : ∀ k ∈ ks, k < x.shape.length + ks.length)
    (hc : Contig x.shape x.strides) :
    ∃ y z, expandDimsOp x (ks.map (fun k : Nat => (k : Int))) = .ok y ∧ squeeze y (ks.map (fun k : Nat => (k : Int))) = .ok z ∧ Same z x := by
  obtain ⟨y, hy, hl, h1, hdr, hg⟩ := C34_expand_partial x ks hd hlt hc
  obtain ⟨z, hz, hzs, hzg, hzu⟩ := C34_squeeze_partial y ks hd h1
  rw [hdr] at hzs
  refine ⟨y, z, hy, hz, hzs, fun p hp => ?_⟩
  obtain ⟨o, ⟨ho, he⟩, -⟩ := hzu p hp
  rw [← he, hzg o ho, hg o ho]

example : ([3, 0] : List Nat).Nodup ∧ (∀ k ∈ ([3, 0] : List Nat), k < exE.shape.length + 2) ∧ Contig exE.shape exE.strides :=
  ⟨by decide, by decide, .inr ⟨by decide, by decide⟩⟩

/-! ## C54 -/

/-- C54: the gradient of expand_dims (`squeeze` of the incoming gradient with the same axes) is the adjoint of expand_dims. Full statement: also for
negative axes and all layouts. -/
theorem C54_expand_gradient_partial {R : Type} [CommSemiring R] (x gy : Arr R) (ks : List Nat) (hd : ks.Nodup)
    (hlt : ∀ k ∈ ks, k < x.shape.length + ks.length) (hgl : gy.shape.length = x.shape.length + ks.length)
    (hg1 : ∀ k ∈ ks, gy.shape[k]? = some 1) (hgs : dropAt ks 0 gy.shape = x.shape) :
    ∃ g, squeeze gy (ks.map (fun k : Nat => (k : Int))) = .ok g ∧ g.shape = x.shape ∧
      ∀ dx : Arr R, dx.shape = x.shape → Contig dx.shape dx.strides →
        ∃ dy, expandDimsOp dx (ks.map (fun k : Nat => (k : Int))) = .ok dy ∧ dy.shape = gy.shape ∧
          ∑ i ∈ idxs gy.shape, gy.get i * dy.get i = ∑ o ∈ idxs x.shape, g.get o * dx.get o := by
  obtain ⟨g, hg, hs, hget⟩ := squeeze_spec hd hg1
  have hfix : setAt ks 1 0 gy.shape = gy.shape := setAt_fix_iff fun k hk hl => by
    have := hg1 k hk; rw [List.getElem?_eq_getElem hl] at this; exact Option.some.inj this
  refine ⟨g, hg, by rw [hs, hgs], fun dx hdx hc => ?_⟩
  obtain ⟨dy, hdy, hl, h1, hdr, hyg⟩ := expand_spec (x := dx) hd (by rw [hdx]; exact hlt) hc
  have hys : dy.shape = gy.shape := by
    have key : ∀ (t t' : List Nat) (i : Nat), t.length = t'.length → setAt ks 1 i t = t → setAt ks 1 i t' = t' → dropAt ks i t = dropAt ks i t' → t = t' := by
      intro t
      induction t with
      | nil => intro t' i hl _ _ _; exact (List.length_eq_zero_iff.1 (by simpa using hl.symm)).symm
      | cons a t ih =>
        intro t' i hl h1 h2 h3
        cases t' with
        | nil => simp at hl
        | cons b t' =>
          rw [setAt] at h1 h2
          obtain ⟨h1a, h1b⟩ := List.cons.inj h1
          obtain ⟨h2a, h2b⟩ := List.cons.inj h2
          rw [dropAt, dropAt] at h3
          by_cases hi : i ∈ ks
          · rw [if_pos hi] at h1a h2a
            rw [if_pos hi, if_pos hi] at h3
            rw [ih t' (i + 1) (by simpa using hl) h1b h2b h3, ← h1a, ← h2a]
          · rw [if_neg hi, if_neg hi] at h3
            obtain ⟨e1, e2⟩ := List.cons.inj h3
            rw [ih t' (i + 1) (by simpa using hl) h1b h2b e2, e1]
    exact key _ _ 0 (by rw [hl, hgl, hdx]) h1 hfix (by rw [hdr, hgs, hdx])
  refine ⟨dy, hdy, hys, ?_⟩
  rw [← hgs, ← sum_dropAt hfix]
  refine sum_congr rfl fun o ho => ?_
  rw [hget o (mem_idxs.1 ho), hyg o (by rw [hys]; exact mem_idxs.1 ho)]

/-- The incoming gradient for `exE` expanded at 3 and 0. -/
def exGE : Arr ℤ := ofFn [1, 2, 3, 1] (fun i => (i.getD 1 0 : ℤ) - i.getD 2 0)

example : ([3, 0] : List Nat).Nodup ∧ (∀ k ∈ ([3, 0] : List Nat), k < exE.shape.length + 2) ∧ exGE.shape.length = exE.shape.length + 2 ∧
    (∀ k ∈ ([3, 0] : List Nat), exGE.shape[k]? = some 1) ∧ dropAt [3, 0] 0 exGE.shape = exE.shape := by decide

/-- C54: the gradient of squeeze (`expand_dims` of the incoming gradient with the same axes) is the adjoint of squeeze, for non-negative axes and a
contiguous incoming gradient. -/
theorem C54_squeeze_gradient_partial {R : Type} [CommSemiring R] (x gy : Arr R) (ks : List Nat) (hd : ks.Nodup)
    (h1 : ∀ k ∈ ks, x.shape[k]? = some 1) (hgs : gy.shape = dropAt ks 0 x.shape) (hc : Contig gy.shape gy.strides) :
    ∃ g, expandDimsOp gy (ks.map (fun k : Nat => (k : Int))) = .ok g ∧ g.shape = x.shape ∧
      ∀ dx : Arr R, dx.shape = x.shape → ∃ dy, squeeze dx (ks.map (fun k : Nat => (k : Int))) = .ok dy ∧ dy.shape = gy.shape ∧
          ∑ i ∈ idxs gy.shape, gy.get i * dy.get i = ∑ o ∈ idxs x.shape, g.get o * dx.get o :=
  squeeze_adjoint x gy ks hd h1 hgs hc

/-- The incoming gradient for `exO` squeezed at 2 and 0. -/
def exGO : Arr ℤ := ⟨[3, 2], [1, 3], fun i => (i.getD 0 0 : ℤ) - i.getD 1 0⟩

example : ([2, 0] : List Nat).Nodup ∧ (∀ k ∈ ([2, 0] : List Nat), exO.shape[k]? = some 1) ∧ exGO.shape = dropAt [2, 0] 0 exO.shape ∧
    Contig exGO.shape exGO.strides := ⟨by decide, by decide, by decide, .inr ⟨by decide, by decide⟩⟩

/-- C54 is violated: squeeze accepts the axis -1, but its gradient has the wrong shape: for [3,1] the incoming gradient of shape [3] becomes [1,3]. -/
theorem C54_squeeze_gradient_violated :
    (∃ y, squeeze (ofFn [3, 1] (fun i => (i.getD 0 0 : ℤ))) [-1] = .ok y ∧ y.shape = [3]) ∧
    ∃ g, expandDimsOp (ofFn [3] (fun _ => (1 : ℤ))) [-1] = .ok g ∧ g.shape = [1, 3] := by
  rw [squeeze, expandDimsOp, sortInts_sorted (by decide)]; exact ⟨⟨_, rfl, rfl⟩, ⟨_, rfl, rfl⟩⟩

/-- C54 is violated: expand_dims with the axis -1 turns a vector of length 3 into [1,3], and its gradient then panics, because `squeeze` takes -1 as the
last dimension of its own input. -/
theorem C54_expand_gradient_violated :
    (∃ y, expandDimsOp (ofFn [3] (fun _ => (1 : ℤ))) [-1] = .ok y ∧ y.shape = [1, 3]) ∧
    squeeze (ofFn [1, 3] (fun _ => (1 : ℤ))) [-1] = .error .panic := by
  rw [squeeze, expandDimsOp, sortInts_sorted (by decide)]; exact ⟨⟨_, rfl, rfl⟩, rfl⟩

/-- C54 is violated: the gradient of `transpose` is a view, for three dimensions in general not contiguous. So the gradient of `transpose(squeeze(x, [0]), [0, 2, 1])`,
for x of shape [1, 2, 3, 4] and every incoming gradient, panics: `expand_dims` refuses the view. -/
theorem C54_transposed_gradient_violated :
    (∃ y z, squeeze (ofFn [1, 2, 3, 4] (fun i => (i.getD 1 0 : ℤ))) [0] = .ok y ∧ transpose y [0, 2, 1] false = .ok z ∧ z.shape = [2, 4, 3]) ∧
    ∀ f : List Nat → ℤ, ∃ g, transposeGrad (ofFn [2, 4, 3] f) [0, 2, 1] false = .ok g ∧ g.shape = [2, 3, 4] ∧ expandDimsOp g [0] = .error .panic := by
  rw [squeeze, sortInts_sorted (by decide)]
  refine ⟨⟨_, _, rfl, rfl, rfl⟩, fun f => ⟨_, rfl, rfl, ?_⟩⟩
  rw [expandDimsOp, sortInts_sorted (by decide)]
  rfl

/-- C54 is violated: `ELUGrad` and `ClipGrad` write into a copy of the input, which keeps the strides of an input without gaps. So the gradients of `elu(squeeze(x, [0]))` and
`clip(squeeze(x, [0]))`, for a variable x of shape [1, 2, 3, 4] whose axes were permuted, panic for every incoming gradient. -/
theorem C54_layout_gradient_violated (alpha lo hi : ℝ) (v f : List Nat → ℝ) :
    ∃ y, squeeze (⟨[1, 2, 3, 4], [24, 4, 8, 1], v⟩ : Arr ℝ) [0] = .ok y ∧ y.shape = [2, 3, 4] ∧
      (∃ g, (EOp.elu alpha).gradOp y (ofFn [2, 3, 4] f) = some (.ok g) ∧ g.shape = [2, 3, 4] ∧ expandDimsOp g [0] = .error .panic) ∧
      ∃ g, (EOp.clip lo hi).gradOp y (ofFn [2, 3, 4] f) = some (.ok g) ∧ g.shape = [2, 3, 4] ∧ expandDimsOp g [0] = .error .panic := by
  rw [squeeze, sortInts_sorted (by decide)]
  refine ⟨_, rfl, rfl, ⟨_, rfl, rfl, ?_⟩, ⟨_, rfl, rfl, ?_⟩⟩
  all_goals
    rw [expandDimsOp, sortInts_sorted (by decide)]
    rfl

/-! ## C52 -/

/-- C52 (`access_elem`). Full statement: for all memory layouts, see `C52_layout_violated` and `C52_panic_violated`. -/
theorem C52_access_partial {R : Type} (x : Arr R) (i : Int) (o : List Nat) (ho : InB o x.shape)
    (hi : i = rowPos x.shape o ∨ i = (rowPos x.shape o : Int) - x.shape.prod) (hst : isStandard x.shape x.strides = true) :
    ∃ y, accessElem x i = .ok y ∧ y.shape = [] ∧ y.get [] = x.get o := by
  rw [rowPos_eq ho, ← size_eq_prod] at hi
  have hlt := flat_lt ho
  have habs : absIndex (size x.shape) i = some (flat x.shape o) := by
    unfold absIndex
    rcases hi with h | h
    · rw [if_neg (by omega), h]; simp
    · rw [if_pos (by omega), if_neg (by omega), h]; congr 1; omega
  refine ⟨ofFn [] (fun _ => x.get (unflat x.shape (flat [size x.shape] [flat x.shape o]))), ?_, rfl, ?_⟩
  · rw [accessElem, intoShape_standard hst (by simp [size])]
    simp only [unwrap, bind, Except.bind, habs]
    rw [if_pos hlt]
  · show x.get (unflat x.shape (flat [size x.shape] [flat x.shape o])) = _
    rw [show flat [size x.shape] [flat x.shape o] = flat x.shape o by simp [flat, size], unflat_flat ho]

example : InB [0, 1, 2, 0] exGE.shape ∧ (-1 : Int) = (rowPos exGE.shape [0, 1, 2, 0] : Int) - exGE.shape.prod ∧
    isStandard exGE.shape exGE.strides = true := by decide

/-- C52: an index out of range is reported as an error. -/
theorem C52_out_of_range {R : Type} (x : Arr R) (i : Int) (hc : Contig x.shape x.strides)
    (hi : (x.shape.prod : Int) ≤ i ∨ i < -(x.shape.prod : Int)) : accessElem x i = .error .opError := by
  rw [← size_eq_prod] at hi
  obtain ⟨f, hf, -, -⟩ := intoShape_sq (s := [size x.shape]) hc (by simp [size])
  rw [accessElem, hf]
  simp only [unwrap, bind, Except.bind]
  unfold absIndex
  by_cases hn : i < 0
  · rw [if_pos hn, if_pos (by omega)]
  · rw [if_neg hn]
    simp only
    rw [if_neg (by omega)]

example : Contig exE.shape exE.strides ∧ ((exE.shape.prod : Int) ≤ 6 ∨ (6 : Int) < -(exE.shape.prod : Int)) :=
  ⟨.inr ⟨by decide, by decide⟩, .inl (by decide)⟩

/-- C52 is violated: for a column-major array (a transposed tensor) element 1 is not `x[0,1]` but `x[1,0]`. -/
theorem C52_layout_violated : ∃ y, accessElem exE 1 = .ok y ∧ y.get [] = exE.get [1, 0] ∧ exE.get [1, 0] ≠ exE.get [0, 1] :=
  ⟨_, rfl, by decide, by decide⟩

/-- C52 is violated: every access to an array in another layout panics, whatever the index. -/
theorem C52_panic_violated {R : Type} (x : Arr R) (i : Int) (hc : ¬ Contig x.shape x.strides) : accessElem x i = .error .panic := by
  rw [accessElem, intoShape_not_contig hc]; rfl

example : ¬ Contig exN.shape exN.strides := fun h => by rcases h with h | ⟨-, h⟩ <;> revert h <;> decide

/-- C52 (gradient): the incoming gradient at the accessed position, zero elsewhere; the adjoint of the access (row-major inputs). -/
theorem C52_gradient_partial {R : Type} [CommSemiring R] (x gy : Arr R) (i : Int) (o : List Nat) (ho : InB o x.shape)
    (hi : i = rowPos x.shape o ∨ i = (rowPos x.shape o : Int) - x.shape.prod) (hgy : gy.shape = []) :
    ∃ g, accessElemGrad x.shape i gy = .ok g ∧ g.shape = x.shape ∧
      (∀ p, InB p x.shape → g.get p = if p = o then gy.get [] else 0) ∧
      ∀ dx : Arr R, dx.shape = x.shape → isStandard dx.shape dx.strides = true → ∃ dy, accessElem dx i = .ok dy ∧
        gy.get [] * dy.get [] = ∑ p ∈ idxs x.shape, g.get p * dx.get p := by
  have hi' := hi
  rw [rowPos_eq ho, ← size_eq_prod] at hi
  have hlt := flat_lt ho
  have habs : absIndex (size x.shape) i = some (flat x.shape o) := by
    unfold absIndex
    rcases hi with h | h
    · rw [if_neg (by omega), h]; simp
    · rw [if_pos (by omega), if_neg (by omega), h]; congr 1; omega
  have hel : ∀ p, InB p x.shape → (if flat x.shape p = flat x.shape o then gy.get [] else 0) = if p = o then gy.get [] else 0 := by
    intro p hp
    by_cases h : p = o
    · subst h; simp
    · rw [if_neg h, if_neg]
      intro hf
      apply h
      rw [← unflat_flat hp, hf, unflat_flat ho]
  refine ⟨ofFn x.shape (fun p => if flat x.shape p = flat x.shape o then gy.get [] else 0), ?_, rfl, hel, fun dx hdx hst => ?_⟩
  · rw [accessElemGrad, habs]
    simp only
    rw [if_pos hlt, scalarElem, if_pos hgy]
    rfl
  · obtain ⟨dy, hdy, -, hv⟩ := C52_access_partial dx i o (by rw [hdx]; exact ho) (by rw [hdx]; exact hi') hst
    refine ⟨dy, hdy, ?_⟩
    rw [hv]
    rw [show (∑ p ∈ idxs x.shape, _) = ∑ p ∈ idxs x.shape, if p = o then gy.get [] * dx.get o else 0 from
      sum_congr rfl fun p hp => by
        show (if flat x.shape p = flat x.shape o then gy.get [] else 0) * dx.get p = _
        rw [hel p (mem_idxs.1 hp)]
        split
        · rename_i h; rw [h]
        · rw [zero_mul]]
    rw [sum_ite_eq' (idxs x.shape) o, if_pos (mem_idxs.2 ho)]

example : InB [1, 2] exE.shape ∧ (-1 : Int) = (rowPos exE.shape [1, 2] : Int) - exE.shape.prod ∧ (ofFn [] (fun _ => 3) : Arr ℤ).shape = [] := by decide

/-! ## C53 -/

/-- C53 (`add_n`). Full statement: also for inputs of different, broadcast-compatible shapes, see `C53_broadcast_violated`. -/
theorem C53_add_n_partial {R : Type} [AddCommMonoid R] (xs : List (Arr R)) (s : List Nat) (hne : xs ≠ []) (h : ∀ x ∈ xs, x.shape = s) :
    ∃ y, addN xs = .ok y ∧ y.shape = s ∧ ∀ i, InB i s → y.get i = (xs.map (fun x => x.get i)).sum := by
  match xs, hne, h with
  | [x], _, h => exact ⟨x, rfl, h x (by simp), fun i _ => by simp⟩
  | x :: y :: xs, _, h =>
    have hx := h x (by simp)
    have hy := h y (by simp)
    have hcs : CommonShape x.shape y.shape s := by
      rw [hx, hy]
      exact ⟨broadcastsTo_self s, broadcastsTo_self s, by simp, fun k hk => .inl ⟨k, hk, by simp, rfl⟩⟩
    obtain ⟨b, hb, hbs, hbg⟩ := zipOp_spec (f := (· + ·)) hcs
    obtain ⟨z, hz, hzs, hzg⟩ := addNLoop_same b xs (fun z hz => by rw [hbs]; exact h z (by simp [hz]))
    refine ⟨z, ?_, by rw [hzs, hbs], fun i hi => ?_⟩
    · rw [addN, hb]; exact hz
    · rw [hzg i (by rw [hbs]; exact hi), hbg i hi, hx, hy, bIdx_self hi]
      simp [add_assoc]

example : ([exE, exE, exN] : List (Arr ℤ)) ≠ [] ∧ ∀ x ∈ ([exE, exE, exN] : List (Arr ℤ)), x.shape = [2, 3] :=
  ⟨by simp, by intro x hx; simp at hx; rcases hx with rfl | rfl <;> rfl⟩

/-- C53 (gradient): every input gets the incoming gradient, and this is the adjoint of add_n for inputs of the same shape. -/
theorem C53_gradient_partial {R : Type} [CommSemiring R] (xs : List (Arr R)) (gy : Arr R) (s : List Nat) (hne : xs ≠ []) (h : ∀ x ∈ xs, x.shape = s)
    (hgy : gy.shape = s) :
    (addNGrad gy xs).length = xs.length ∧ (∀ g ∈ addNGrad gy xs, g.shape = s) ∧
    ∀ dxs : List (Arr R), List.Forall₂ (fun (dx x : Arr R) => dx.shape = x.shape) dxs xs → ∃ dy, addN dxs = .ok dy ∧ dy.shape = s ∧
      ∑ i ∈ idxs s, gy.get i * dy.get i = (List.zipWith (fun (g dx : Arr R) => ∑ i ∈ idxs s, g.get i * dx.get i) (addNGrad gy xs) dxs).sum := by
  refine ⟨by simp [addNGrad], by intro g hg; simp [addNGrad] at hg; rw [hg.2, hgy], fun dxs hf => ?_⟩
  have hds : ∀ x ∈ dxs, x.shape = s := by
    intro x hx
    obtain ⟨k, hk, rfl⟩ := List.getElem_of_mem hx
    have hl := hf.length_eq
    exact (List.Forall₂.get hf hk (hl ▸ hk)).trans (h _ (List.getElem_mem _))
  have hdne : dxs ≠ [] := by
    intro hc; subst hc; cases hf; exact hne rfl
  obtain ⟨dy, hdy, hs, hg⟩ := C53_add_n_partial dxs s hdne hds
  refine ⟨dy, hdy, hs, ?_⟩
  have e1 : ∑ i ∈ idxs s, gy.get i * dy.get i = (dxs.map (fun dx => ∑ i ∈ idxs s, gy.get i * dx.get i)).sum := by
    rw [show (∑ i ∈ idxs s, gy.get i * dy.get i) = ∑ i ∈ idxs s, (dxs.map (fun dx => gy.get i * dx.get i)).sum from
      sum_congr rfl fun i hi => by rw [hg i (mem_idxs.1 hi), ← List.sum_map_mul_left]]
    clear hdy hg hdne hds hf
    induction dxs with
    | nil => simp
    | cons d dxs ih => simp only [List.map_cons, List.sum_cons, sum_add_distrib, ih]
  rw [e1]
  clear e1 hg hdy hds hdne hne h
  induction hf with
  | nil => rfl
  | cons _ hf ih => simp only [addNGrad, List.map_cons, List.sum_cons, List.zipWith_cons_cons] at ih ⊢; rw [ih]

example : ([exE, exN] : List (Arr ℤ)) ≠ [] ∧ (∀ x ∈ ([exE, exN] : List (Arr ℤ)), x.shape = [2, 3]) ∧ exE.shape = [2, 3] :=
  ⟨by simp, by intro x hx; simp at hx; rcases hx with rfl | rfl <;> rfl, rfl⟩

/-- C53 is violated: shapes [1], [1], [2] panic although they are broadcast-compatible (and [2], [1], [1] works), and with shapes [1], [2] the gradient
reported for the first input has shape [2]. -/
theorem C53_broadcast_violated :
    addN [ofFn [1] (fun _ => (1 : ℤ)), ofFn [1] (fun _ => 1), ofFn [2] (fun _ => 1)] = .error .panic ∧
    (∃ y, addN [ofFn [2] (fun _ => (1 : ℤ)), ofFn [1] (fun _ => 1), ofFn [1] (fun _ => 1)] = .ok y ∧ y.shape = [2]) ∧
    (∃ y, addN [ofFn [1] (fun _ => (1 : ℤ)), ofFn [2] (fun _ => 1)] = .ok y ∧ y.shape = [2]) ∧
    ((addNGrad (ofFn [2] (fun _ => (1 : ℤ))) [ofFn [1] (fun _ => (1 : ℤ)), ofFn [2] (fun _ => 1)]).map Arr.shape)[0]? = some [2] :=
  ⟨by rfl, ⟨_, rfl, rfl⟩, ⟨_, rfl, rfl⟩, rfl⟩

end Verif.Props
