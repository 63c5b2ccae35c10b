import Verif.Lemmas.Compare
import Verif.Lemmas.Slices
import Verif.Props.Reductions

/-!
# C31, C32, C35: concat, split, slice and tile
-/

namespace Verif.Props
open Verif.Nd Finset

/-! ## C32 -/

/-- An array of shape [4,3], neither row-major nor contiguous, used in the examples. -/
def exS : Arr ℤ := ⟨[4, 3], [6, 2], fun i => (i.getD 0 0 : ℤ) * 10 + i.getD 1 0⟩

/-- Rows 1 to the last but one, columns from the last but one to the end. -/
theorem exS_bounds : AllBounds exS.shape [1, -2] [-2, -1] [1, 1] [3, 3] := by
  simp [AllBounds, exS, Bounds]

/-- C32: the selected positions, for all shapes and all bounds in range. -/
theorem C32_slice {R : Type} (x : Arr R) (starts stops : List Int) (los his : List Nat) (h : AllBounds x.shape starts stops los his) :
    ∃ y, slice x starts stops = .ok y ∧ y.shape = List.zipWith (· - ·) his los ∧
      ∀ i, InB i y.shape → InB (List.zipWith (· + ·) los i) x.shape ∧ y.get i = x.get (List.zipWith (· + ·) los i) := by
  obtain ⟨h1, h2⟩ := sliceRegion_ok h
  obtain ⟨y, hy, hs, hg⟩ := sliceArr_region h1
  exact ⟨y, by rw [slice, if_pos h2, hy], hs, fun i hi => ⟨(sliceRegion_in h1).2.2 i (hs ▸ hi), hg i⟩⟩

example : AllBounds exS.shape [1, -2] [-2, -1] [1, 1] [3, 3] := exS_bounds

/-- C32: bounds out of range, or of the wrong number, always panic. -/
theorem C32_out_of_range {R : Type} (x : Arr R) (starts stops : List Int) (h : ¬ ∃ los his, AllBounds x.shape starts stops los his) :
    slice x starts stops = .error .panic := by
  unfold slice
  split
  · rename_i hl
    have key : ∀ (s : List Nat) (a b : List Int), a.length = b.length → (¬ ∃ los his, AllBounds s a b los his) →
        sliceRegion s (List.zipWith sliceElem a b) = .error .panic := by
      intro s
      induction s with
      | nil =>
        intro a b hl h
        cases a with
        | nil =>
          cases b with
          | nil => exact absurd ⟨[], [], trivial⟩ h
          | cons => simp at hl
        | cons =>
          cases b with
          | nil => simp at hl
          | cons => rfl
      | cons n s ih =>
        intro a b hl h
        cases a with
        | nil =>
          cases b with
          | nil => rfl
          | cons => simp at hl
        | cons a as =>
          cases b with
          | nil => simp at hl
          | cons b bs =>
            simp only [List.zipWith_cons_cons, sliceRegion]
            cases hb : sliceBounds n (sliceElem a b) with
            | error e =>
              have : e = .panic := by
                unfold sliceBounds at hb
                split at hb
                · split at hb <;> cases hb; rfl
                · cases hb; rfl
              subst this; rfl
            | ok r =>
              have := ih as bs (by simpa using hl) (by
                rintro ⟨los, his, h'⟩
                obtain ⟨lo, hi, hbd⟩ := bounds_of_ok hb
                exact h ⟨lo :: los, hi :: his, hbd, h'⟩)
              rw [this]; rfl
    simp [sliceArr, key x.shape starts stops hl h, bind, Except.bind]
  · rfl

example : ¬ ∃ los his, AllBounds exS.shape [0, 0] [5, 3] los his := by
  rintro ⟨los, his, h⟩
  cases los <;> cases his <;> simp [AllBounds, exS, Bounds] at h
  omega

/-- C32: the gradient holds the incoming gradient at the selected positions and zero elsewhere. -/
theorem C32_gradient_elements {R : Type} [Zero R] (x gy : Arr R) (starts stops : List Int) (los his : List Nat)
    (h : AllBounds x.shape starts stops los his) (hg : gy.shape = List.zipWith (· - ·) his los) :
    ∃ g, sliceGradOp x.shape starts stops gy = .ok g ∧ g.shape = x.shape ∧
      (∀ i, InB i gy.shape → g.get (List.zipWith (· + ·) los i) = gy.get i) ∧
      ∀ o, InB o x.shape → (∀ i, InB i gy.shape → List.zipWith (· + ·) los i ≠ o) → g.get o = 0 := by
  rw [hg]
  exact sliceGrad_region (sliceRegion_ok h).1 hg

example : AllBounds exS.shape [1, -2] [-2, -1] [1, 1] [3, 3] ∧ (ofFn [2, 2] (fun _ => 7) : Arr ℤ).shape = List.zipWith (· - ·) [3, 3] [1, 1] :=
  ⟨exS_bounds, rfl⟩

/-- C32: the gradient is the adjoint of the forward op. -/
theorem C32_gradient {R : Type} [CommSemiring R] (x gy : Arr R) (starts stops : List Int) (los his : List Nat)
    (h : AllBounds x.shape starts stops los his) (hg : gy.shape = List.zipWith (· - ·) his los) :
    ∃ g, sliceGradOp x.shape starts stops gy = .ok g ∧ g.shape = x.shape ∧ ∀ dx : Arr R, dx.shape = x.shape →
      ∃ dy, slice dx starts stops = .ok dy ∧
        ∑ i ∈ idxs gy.shape, gy.get i * dy.get i = ∑ o ∈ idxs x.shape, g.get o * dx.get o := by
  obtain ⟨h1, h2⟩ := sliceRegion_ok h
  obtain ⟨g, hgg, hs, hadj⟩ := slice_adjoint h1 hg
  refine ⟨g, hgg, hs, fun dx hdx => ?_⟩
  obtain ⟨dy, hdy, -, he⟩ := hadj dx hdx
  exact ⟨dy, by rw [slice, if_pos h2, hdy], by rw [hg]; exact he⟩

example : AllBounds exS.shape [1, -2] [-2, -1] [1, 1] [3, 3] ∧ (ofFn [2, 2] (fun _ => 7) : Arr ℤ).shape = List.zipWith (· - ·) [3, 3] [1, 1] :=
  ⟨exS_bounds, rfl⟩

/-! ## C31 -/

/-- Two arrays of shapes [2,1] and [2,2] used in the examples. -/
def exP : Arr ℤ := ofFn [2, 1] (fun i => (i.getD 0 0 : ℤ) + 1)
def exQ : Arr ℤ := ⟨[2, 2], [1, 2], fun i => (i.getD 0 0 : ℤ) * 10 + i.getD 1 0⟩

theorem exPQ_agree : AxisIs 2 (-1) 1 ∧ AgreeOutside 2 1 [2] [exP, exQ] := by
  refine ⟨⟨by decide, .inr (by decide)⟩, ?_⟩
  intro x hx
  simp only [List.mem_cons, List.not_mem_nil, or_false] at hx
  rcases hx with rfl | rfl <;> decide

/-- C31 (concat), for all lists of arrays that agree outside the axis, all layouts `st` of the result. -/
theorem C31_concat {R : Type} (st : List Int) (xs : List (Arr R)) (axis : Int) (n k : Nat) (rest : List Nat) (hne : xs ≠ [])
    (hk : AxisIs n axis k) (ha : AgreeOutside n k rest xs) :
    ∃ y, concat st xs axis = .ok y ∧ y.shape = rest.insertIdx k (partOffset k xs xs.length) ∧
      ∀ i x o, xs[i]? = some x → InB o x.shape → y.get (shiftAt k (partOffset k xs i) o) = x.get o := by
  obtain ⟨y, hy, hs, hg⟩ := concatenate_spec st hne hk.1 ha
  refine ⟨y, ?_, hs, hg⟩
  cases xs with
  | nil => exact absurd rfl hne
  | cons a as =>
    have := (ha a (by simp)).1
    simp only [concat]
    rw [this, normAxis_ok hk]
    simp only [hy, orOpError]

example : AxisIs 2 (-1) 1 ∧ AgreeOutside 2 1 [2] [exP, exQ] ∧ [exP, exQ] ≠ [] := ⟨exPQ_agree.1, exPQ_agree.2, by simp⟩

/-- C31: arrays that do not agree outside the axis are reported as an error. -/
theorem C31_concat_incompatible {R : Type} (st : List Int) (a : Arr R) (as : List (Arr R)) (axis : Int) (k : Nat) (hk : AxisIs a.shape.length axis k)
    (b : Arr R) (hb : b ∈ as) (hd : b.shape.eraseIdx k ≠ a.shape.eraseIdx k) : concat st (a :: as) axis = .error .opError := by
  simp only [concat]
  rw [normAxis_ok hk]
  simp only [concatenate]
  rw [if_neg]
  · rfl
  · rintro ⟨_, h⟩
    exact hd (h b (by simp [hb])).2

example : AxisIs exP.shape.length 0 0 ∧ exQ ∈ [exQ] ∧ exQ.shape.eraseIdx 0 ≠ exP.shape.eraseIdx 0 :=
  ⟨⟨by decide, .inl rfl⟩, by simp, by decide⟩

/-- C31 (split): part `i` of a split, for all sizes that fit. -/
theorem C31_split {R : Type} (x : Arr R) (sizes : List Nat) (axis : Int) (k n i : Nat) (hk : AxisIs x.shape.length axis k)
    (hn : x.shape[k]? = some n) (hi : i < sizes.length) (hfit : sizes.sum ≤ n) :
    ∃ y, split x sizes axis i = .ok y ∧ y.shape = x.shape.set k sizes[i] ∧
      ∀ o, InB o y.shape → InB (shiftAt k (sizes.take i).sum o) x.shape ∧ y.get o = x.get (shiftAt k (sizes.take i).sum o) := by
  have hsum : (sizes.take i).sum + sizes[i] ≤ sizes.sum := by
    conv_rhs => rw [← List.take_append_drop i sizes, List.sum_append, ← List.cons_getElem_drop_succ (h := hi), List.sum_cons]
    omega
  have hD : sizes.getD i 0 = sizes[i] := by simp [List.getD_eq_getElem?_getD, hi]
  have hr := axisRegion (a := (sizes.take i).sum) (c := (sizes.take i).sum + sizes[i]) hn (by omega) (by omega)
  rw [Nat.add_sub_cancel_left] at hr
  obtain ⟨y, hy, hs, hg⟩ := sliceArr_region hr
  have hin := (sliceRegion_in hr).2.2
  refine ⟨y, ?_, hs, fun o ho => ?_⟩
  · rw [split, splitPart, normAxis_ok hk, hD]
    simp only [hk.1, if_true]
    exact hy
  · have hl : o.length = x.shape.length := by rw [inB_length ho, hs, List.length_set]
    have := hin o (hs ▸ ho)
    rw [zipWith_axis hl] at this
    exact ⟨this, by rw [hg o, zipWith_axis hl]⟩

example : AxisIs exS.shape.length (-2) 0 ∧ exS.shape[0]? = some 4 ∧ 1 < ([1, 2, 1] : List Nat).length ∧ ([1, 2, 1] : List Nat).sum ≤ 4 :=
  ⟨⟨by decide, .inr (by decide)⟩, by decide, by decide, by decide⟩

/-- C31: splitting a concatenation with the sizes of the parts gives the parts back. -/
theorem C31_split_concat {R : Type} (st : List Int) (xs : List (Arr R)) (y : Arr R) (axis : Int) (n k : Nat) (rest : List Nat)
    (hk : AxisIs n axis k) (ha : AgreeOutside n k rest xs) (hy : concat st xs axis = .ok y) (i : Nat) (x : Arr R) (hx : xs[i]? = some x) :
    ∃ z, split y (xs.map (fun a => a.shape.getD k 0)) axis i = .ok z ∧ Same z x := by
  have hne : xs ≠ [] := by rintro rfl; simp at hx
  obtain ⟨y', hy', hs, hg⟩ := C31_concat st xs axis n k rest hne hk ha
  rw [hy] at hy'; cases hy'
  obtain ⟨hxl, hxr⟩ := ha x (List.mem_of_getElem? hx)
  have hkn := hk.1
  have hrl : rest.length + 1 = n := by rw [← hxr, List.length_eraseIdx_of_lt (by omega)]; omega
  have hyl : y.shape.length = n := by rw [hs, List.length_insertIdx_of_le_length (by omega)]; omega
  have hyk : y.shape[k]? = some (partOffset k xs xs.length) := by rw [hs, List.getElem?_insertIdx_self]; simp; omega
  have hil : i < xs.length := by by_contra hc; rw [List.getElem?_eq_none (by omega)] at hx; cases hx
  have hxi : xs[i] = x := by rw [List.getElem?_eq_getElem hil] at hx; exact Option.some.inj hx
  obtain ⟨z, hz, hzs, hzg⟩ := C31_split y (xs.map (fun a => a.shape.getD k 0)) axis k _ i (by rw [hyl]; exact hk) hyk (by simpa using hil)
    (by simp [partOffset])
  have hsh : z.shape = x.shape := by
    rw [hzs, List.getElem_map, hxi, hs, set_insertIdx _ _ _ _ (by omega), ← hxr, ← set_of_erase (l := x.shape) (by omega) rfl]
    apply List.ext_getElem (by simp)
    intro j h1 h2
    rw [List.getElem_set]
    split
    · rename_i h; subst h; simp [List.getD_eq_getElem?_getD, h2]
    · rfl
  refine ⟨z, hz, hsh, fun o ho => ?_⟩
  rw [(hzg o ho).2]
  rw [hsh] at ho
  have := hg i x o hx ho
  rw [← this, ← List.map_take]
  rfl

example : AxisIs 2 (-1) 1 ∧ AgreeOutside 2 1 [2] [exP, exQ] ∧ ∃ y, concat [1, 2] [exP, exQ] (-1) = .ok y ∧ y.shape = [2, 3] ∧ y.get [1, 2] = 11 :=
  ⟨exPQ_agree.1, exPQ_agree.2, _, rfl, rfl, by decide⟩

/-- C31: the gradient of a part of a split is the adjoint of taking the part, and zero outside the part. -/
theorem C31_split_gradient {R : Type} [CommSemiring R] (x gy : Arr R) (sizes : List Nat) (axis : Int) (k n i : Nat) (hk : AxisIs x.shape.length axis k)
    (hn : x.shape[k]? = some n) (hi : i < sizes.length) (hfit : sizes.sum ≤ n) (hgy : gy.shape = x.shape.set k sizes[i]) :
    ∃ g, splitGradOp x.shape sizes axis i gy = .ok g ∧ g.shape = x.shape ∧
      (∀ o, InB o gy.shape → g.get (shiftAt k (sizes.take i).sum o) = gy.get o) ∧
      (∀ o, InB o x.shape → (∀ p, InB p gy.shape → shiftAt k (sizes.take i).sum p ≠ o) → g.get o = 0) ∧
      ∀ dx : Arr R, dx.shape = x.shape → ∃ dy, split dx sizes axis i = .ok dy ∧
        ∑ p ∈ idxs gy.shape, gy.get p * dy.get p = ∑ o ∈ idxs x.shape, g.get o * dx.get o := by
  have hsum : (sizes.take i).sum + sizes[i] ≤ sizes.sum := by
    conv_rhs => rw [← List.take_append_drop i sizes, List.sum_append, ← List.cons_getElem_drop_succ (h := hi), List.sum_cons]
    omega
  have hD : sizes.getD i 0 = sizes[i] := by simp [List.getD_eq_getElem?_getD, hi]
  have hr := axisRegion (a := (sizes.take i).sum) (c := (sizes.take i).sum + sizes[i]) hn (by omega) (by omega)
  rw [Nat.add_sub_cancel_left] at hr
  obtain ⟨g, hg, hs, hadj⟩ := slice_adjoint hr hgy
  obtain ⟨g', hg', -, h1, h2⟩ := sliceGrad_region hr hgy
  rw [hg] at hg'; cases hg'
  have hl : ∀ p, InB p gy.shape → p.length = x.shape.length := fun p hp => by rw [inB_length hp, hgy, List.length_set]
  refine ⟨g, ?_, hs, fun o ho => ?_, fun o ho hno => ?_, fun dx hdx => ?_⟩
  · rw [splitGradOp, splitGrad, normAxis_ok hk, hD]
    simp only [hk.1, if_true]
    exact hg
  · rw [← zipWith_axis (hl o ho)]
    exact h1 o (hgy ▸ ho)
  · refine h2 o ho fun p hp => ?_
    rw [← hgy] at hp
    rw [zipWith_axis (hl p hp)]
    exact hno p hp
  · obtain ⟨dy, hdy, -, he⟩ := hadj dx hdx
    refine ⟨dy, ?_, by rw [hgy]; exact he⟩
    rw [split, splitPart, hdx, normAxis_ok hk, hD]
    simp only [hk.1, if_true]
    exact hdy

example : AxisIs exS.shape.length (-2) 0 ∧ exS.shape[0]? = some 4 ∧ 1 < ([1, 2, 1] : List Nat).length ∧ ([1, 2, 1] : List Nat).sum ≤ 4 ∧
    (ofFn [2, 3] (fun _ => 1) : Arr ℤ).shape = exS.shape.set 0 ([1, 2, 1][1]) :=
  ⟨⟨by decide, .inr (by decide)⟩, by decide, by decide, by decide, by decide⟩

/-- C31 (gradient of concat). Full statement: for every part `i`, `g[o] = gy[o shifted by the offset of part i]`. Proved for the parts whose offset is 0, in
particular for the first one; it is false for the others, see `C31_concat_gradient_violated`. -/
theorem C31_concat_gradient_partial {R : Type} (gy x : Arr R) (xs : List (Arr R)) (axis : Int) (n k i : Nat) (rest : List Nat)
    (hk : AxisIs n axis k) (ha : AgreeOutside n k rest xs) (hgy : gy.shape = rest.insertIdx k (partOffset k xs xs.length))
    (hx : xs[i]? = some x) (hi : partOffset k xs i = 0) :
    ∃ g, concatGrad gy xs axis i = .ok g ∧ g.shape = x.shape ∧ ∀ o, InB o x.shape → g.get o = gy.get (shiftAt k (partOffset k xs i) o) := by
  have hst : concatStart k xs i = 0 := by
    have h1 : (xs.take (i - 1)).map (fun b => b.shape.getD k 0) = ((xs.take i).map (fun b => b.shape.getD k 0)).take (i - 1) := by
      rw [← List.map_take, List.take_take, Nat.min_eq_left (by omega)]
    have h2 : (((xs.take i).map (fun b => b.shape.getD k 0)).take (i - 1)).sum ≤ ((xs.take i).map (fun b => b.shape.getD k 0)).sum := by
      conv_rhs => rw [← List.take_append_drop (i - 1) ((xs.take i).map (fun b => b.shape.getD k 0)), List.sum_append]
      omega
    unfold partOffset at hi
    rw [concatStart, h1]
    omega
  obtain ⟨g, hg, hs, hget⟩ := concatGrad_begin gy x xs axis n k i rest hk ha hgy hx hst
  refine ⟨g, hg, hs, fun o ho => ?_⟩
  rw [hget o ho, hi]
  congr 1
  apply List.ext_getElem (by simp [shiftAt])
  intro j h1 h2
  simp only [shiftAt, List.getElem_set]
  split
  · rename_i h; subst h; simp [List.getD_eq_getElem?_getD, show _ < o.length from by assumption]
  · rfl

/-- An incoming gradient of shape [2,3]. -/
def exG3 : Arr ℤ := ofFn [2, 3] (fun i => (i.getD 0 0 : ℤ) * 10 + i.getD 1 0)

example : AxisIs 2 (-1) 1 ∧ AgreeOutside 2 1 [2] [exP, exQ] ∧ exG3.shape = ([2] : List Nat).insertIdx 1 (partOffset 1 [exP, exQ] 2) ∧
    [exP, exQ][0]? = some exP ∧ partOffset 1 [exP, exQ] 0 = 0 := ⟨exPQ_agree.1, exPQ_agree.2, by decide, rfl, rfl⟩

/-- C31 is violated: for every concatenation the gradient reported for the second part is the beginning of the incoming gradient, whatever the size of
the first part. -/
theorem C31_concat_gradient_always_begin {R : Type} (gy x : Arr R) (xs : List (Arr R)) (axis : Int) (n k : Nat) (rest : List Nat)
    (hk : AxisIs n axis k) (ha : AgreeOutside n k rest xs) (hgy : gy.shape = rest.insertIdx k (partOffset k xs xs.length))
    (hx : xs[1]? = some x) :
    ∃ g, concatGrad gy xs axis 1 = .ok g ∧ g.shape = x.shape ∧ ∀ o, InB o x.shape → g.get o = gy.get o :=
  concatGrad_begin gy x xs axis n k 1 rest hk ha hgy hx (by simp [concatStart])

example : AxisIs 2 (-1) 1 ∧ AgreeOutside 2 1 [2] [exP, exQ] ∧ exG3.shape = ([2] : List Nat).insertIdx 1 (partOffset 1 [exP, exQ] 2) ∧
    [exP, exQ][1]? = some exQ := ⟨exPQ_agree.1, exPQ_agree.2, by decide, rfl⟩

/-- C31 is violated: witness with a value that differs from the region of the second part. -/
theorem C31_concat_gradient_violated : ∃ g, concatGrad exG3 [exP, exQ] 1 1 = .ok g ∧ InB [0, 0] exQ.shape ∧
    g.get [0, 0] ≠ exG3.get (shiftAt 1 (partOffset 1 [exP, exQ] 1) [0, 0]) := ⟨_, rfl, by decide, by decide⟩

/-- C31 is violated: for the third part even the shape is wrong (vectors of sizes 1, 1, 2; the gradient reported for the third has size 1). -/
theorem C31_concat_gradient_shape_violated :
    ∃ g, concatGrad (ofFn [4] (fun i => (i.getD 0 0 : ℤ))) [ofFn [1] (fun _ => 0), ofFn [1] (fun _ => 0), ofFn [2] (fun _ => 0)] 0 2 = .ok g ∧
      g.shape ≠ [2] := ⟨_, rfl, by decide⟩

/-! ## C35 -/

/-- C35 (forward): `num` copies along the axis. -/
theorem C35_tile {R : Type} (st : List Int) (x : Arr R) (axis : Int) (k n num : Nat) (hk : AxisIs x.shape.length axis k) (hn : x.shape[k]? = some n)
    (hnum : 0 < num) :
    ∃ y, tile st x axis num = .ok y ∧ y.shape = x.shape.set k (num * n) ∧
      ∀ j o, j < num → InB o x.shape → y.get (shiftAt k (j * n) o) = x.get o := by
  have hnD : x.shape.getD k 0 = n := by simp [List.getD_eq_getElem?_getD, hn]
  have hoff : ∀ j, j ≤ num → partOffset k (List.replicate num x) j = j * n := by
    intro j hj
    rw [partOffset, List.take_replicate, List.map_replicate, hnD, List.sum_replicate, Nat.min_eq_left hj]; rfl
  have hne : List.replicate num x ≠ [] := by simp; omega
  obtain ⟨y, hy, hs, hg⟩ := concatenate_spec (xs := List.replicate num x) (rest := x.shape.eraseIdx k) st hne hk.1
    (fun a ha => by rw [(List.mem_replicate.1 ha).2]; exact ⟨rfl, rfl⟩)
  refine ⟨y, ?_, ?_, fun j o hj ho => ?_⟩
  · rw [tile, normAxis_ok hk]; simp only [hy, orOpError]
  · rw [hs, List.length_replicate, hoff num (le_refl _), ← set_of_erase hk.1 rfl]
  · have := hg j x o (by simp [hj]) ho
    rwa [hoff j (by omega)] at this

example : AxisIs exS.shape.length (-2) 0 ∧ exS.shape[0]? = some 4 ∧ 0 < 3 := ⟨⟨by decide, .inr (by decide)⟩, by decide, by decide⟩

/-- C35: `num = 0` is reported as an error. -/
theorem C35_zero {R : Type} (st : List Int) (x : Arr R) (axis : Int) (k : Nat) (hk : AxisIs x.shape.length axis k) :
    tile st x axis 0 = .error .opError := by
  rw [tile, normAxis_ok hk]; rfl

example : AxisIs exS.shape.length (-2) 0 := ⟨by decide, .inr (by decide)⟩

/-- C35 is violated: for every array whose size `n` along the axis is not 1, the reported gradient has size 1 along the axis and not the shape of `x`. -/
theorem C35_gradient_violated {R : Type} [AddCommMonoid R] (x gy : Arr R) (axis : Int) (k n num : Nat) (hk : AxisIs x.shape.length axis k)
    (hn : x.shape[k]? = some n) (hgy : gy.shape = x.shape.set k (num * n)) (hn1 : n ≠ 1) (h0 : gy.shape ≠ [0]) :
    ∃ g, tileGrad gy axis = .ok g ∧ g.shape ≠ x.shape := by
  obtain ⟨g, hg, hs, -⟩ := C26_sum_partial gy [axis] [k] true (.cons (by rw [hgy, List.length_set]; exact hk) .nil) (by simp) h0
  refine ⟨g, hg, fun he => hn1 ?_⟩
  rw [he, reducedShape, if_pos rfl, setAt_from k 0 1 _ (by omega), hgy, Nat.sub_zero, List.set_set] at hs
  rw [hs, List.getElem?_set_self hk.1] at hn
  exact (Option.some.inj hn).symm

example : AxisIs exS.shape.length (-2) 0 ∧ exS.shape[0]? = some 4 ∧ (ofFn [8, 3] (fun _ => 1) : Arr ℤ).shape = exS.shape.set 0 (2 * 4) ∧ 4 ≠ 1 ∧
    (ofFn [8, 3] (fun _ => 1) : Arr ℤ).shape ≠ [0] := ⟨⟨by decide, .inr (by decide)⟩, by decide, by decide, by decide, by decide⟩

/-- C35 (gradient). Full statement: for every size `n` along the axis. Proved for `n = 1`; false for all other sizes, see `C35_gradient_violated`. -/
theorem C35_gradient_partial {R : Type} [CommSemiring R] (st : List Int) (x gy : Arr R) (axis : Int) (k num : Nat) (hk : AxisIs x.shape.length axis k)
    (hn : x.shape[k]? = some 1) (hnum : 0 < num) (hgy : gy.shape = x.shape.set k num) :
    ∃ g, tileGrad gy axis = .ok g ∧ g.shape = x.shape ∧ ∀ dx : Arr R, dx.shape = x.shape → ∃ dy, tile st dx axis num = .ok dy ∧
      ∑ i ∈ idxs gy.shape, gy.get i * dy.get i = ∑ o ∈ idxs x.shape, g.get o * dx.get o := by
  have hkl := hk.1
  have h0 : gy.shape ≠ [0] := by
    intro h
    have : gy.shape[k]? = some num := by rw [hgy, List.getElem?_set_self hkl]
    rw [h] at this
    rcases k with _ | k
    · simp at this; omega
    · simp at this
  have hx1 : x.shape.set k 1 = x.shape := by
    apply List.ext_getElem?
    intro j
    rw [List.getElem?_set]
    split
    · rename_i h; subst h; rw [hn]
    · rfl
  obtain ⟨g, hg, hs, hget⟩ := C26_sum_partial gy [axis] [k] true (.cons (by rw [hgy, List.length_set]; exact hk) .nil) (by simp) h0
  have hsx : g.shape = x.shape := by
    rw [hs, reducedShape, if_pos rfl, setAt_from k 0 1 _ (by omega), hgy, Nat.sub_zero, List.set_set, hx1]
  refine ⟨g, hg, hsx, fun dx hdx => ?_⟩
  obtain ⟨dy, hdy, hys, hyg⟩ := C35_tile st dx axis k 1 num (by rw [hdx]; exact hk) (by rw [hdx]; exact hn) hnum
  refine ⟨dy, hdy, ?_⟩
  have hp : ∀ i, InB i gy.shape → InB (i.set k 0) x.shape ∧ dy.get i = dx.get (i.set k 0) := by
    intro i hi
    have hil : i.length = x.shape.length := by rw [inB_length hi, hgy, List.length_set]
    have hb : InB (i.set k 0) x.shape := by
      have := inB_setAt [k] 0 hi
      rw [setAt_from k 0 0 _ (by omega), setAt_from k 0 1 _ (by omega), hgy, Nat.sub_zero, List.set_set, hx1] at this
      exact this
    refine ⟨hb, ?_⟩
    have hj : i.getD k 0 < num := by
      have := (inB_iff.1 hi).2 k (by omega) (by rw [hgy, List.length_set]; exact hkl)
      simp only [hgy, List.getElem_set_self] at this
      simpa [List.getD_eq_getElem?_getD, show k < i.length by omega] using this
    have := hyg (i.getD k 0) (i.set k 0) hj (by rw [hdx]; exact hb)
    rw [← this]
    congr 1
    apply List.ext_getElem (by simp [shiftAt])
    intro j h1 h2
    simp only [shiftAt, List.getElem_set]
    split
    · rename_i h; subst h; simp [List.getD_eq_getElem?_getD, h1]
    · rfl
  rw [show (∑ i ∈ idxs gy.shape, gy.get i * dy.get i) = ∑ i ∈ idxs gy.shape, dx.get (i.set k 0) * gy.get i from
    sum_congr rfl fun i hi => by rw [(hp i (by simpa using hi)).2, mul_comm],
    pullback_adjoint (fun i => i.set k 0) (fun i hi => (hp i hi).1) dx.get gy.get]
  refine sum_congr rfl fun o ho => ?_
  rw [hget o (by rw [hsx]; simpa using ho), mul_comm]
  congr 1
  unfold fibre
  refine sum_congr ?_ fun _ _ => rfl
  ext i
  simp only [mem_filter, reducedIdx, if_true, setAt_from k 0 0 i (by omega), Nat.sub_zero]

example : AxisIs exP.shape.length (-1) 1 ∧ exP.shape[1]? = some 1 ∧ 0 < 3 ∧ (ofFn [2, 3] (fun _ => 1) : Arr ℤ).shape = exP.shape.set 1 3 :=
  ⟨⟨by decide, .inr (by decide)⟩, by decide, by decide, by decide⟩

end Verif.Props
