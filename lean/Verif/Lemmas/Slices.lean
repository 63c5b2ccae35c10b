import Verif.Lemmas.ArgMax
import Verif.Lemmas.Rearrange

/-!
# Lemmas on slices, concatenation and splitting
-/

namespace Verif.Nd
variable {R : Type}
open Finset

theorem sliceBounds_ok {n : Nat} {a b : Int} {lo hi : Nat} (h : Bounds n a b lo hi) : sliceBounds n (sliceElem a b) = .ok (lo, hi - lo) := by
  obtain ⟨h1, h2, h3, h4⟩ := h
  have e1 : absIndex n a = some lo := by
    unfold absIndex
    rcases h1 with h1 | ⟨h1, h1'⟩
    · rw [if_neg (by omega)]; congr 1; omega
    · rw [if_pos h1, if_neg (by omega)]; congr 1; omega
  have e2 : absIndex n ((sliceElem a b).stop.getD n) = some hi := by
    unfold sliceElem absIndex
    rcases h2 with ⟨h2, h2'⟩ | ⟨h2, h2'⟩
    · have : b ≠ -1 := by omega
      have h3 : ¬ b < -1 := by omega
      simp only [this, if_false, h3, Option.getD_some]
      rw [if_neg (by omega)]; congr 1; omega
    · by_cases hb : b = -1
      · simp only [hb, if_true, Option.getD_none]
        rw [if_neg (by omega)]; congr 1; omega
      · have h3 : b < -1 := by omega
        simp only [hb, if_false, h3, if_true, Option.getD_some]
        rw [if_pos (by omega), if_neg (by omega)]; congr 1; omega
  unfold sliceBounds
  rw [show (sliceElem a b).start = a from rfl, e1, e2]
  simp only
  rw [if_pos ⟨h3, by omega⟩]
  congr 2; omega

theorem sliceRegion_ok {s : List Nat} {starts stops : List Int} {los his : List Nat} (h : AllBounds s starts stops los his) :
    sliceRegion s (List.zipWith sliceElem starts stops) = .ok (los, List.zipWith (· - ·) his los) ∧ starts.length = stops.length := by
  induction s generalizing starts stops los his with
  | nil =>
    cases starts <;> cases stops <;> cases los <;> cases his <;> simp [AllBounds] at h
    exact ⟨rfl, rfl⟩
  | cons n s ih =>
    cases starts <;> cases stops <;> cases los <;> cases his <;> simp only [AllBounds] at h
    obtain ⟨h1, h2⟩ := ih h.2
    exact ⟨by simp [sliceRegion, sliceBounds_ok h.1, h1, bind, Except.bind], by simp [h2]⟩

/-- The regions computed by `sliceRegion` are inside the shape. -/
theorem sliceRegion_in {s : List Nat} {es : List SliceElem} {los lens : List Nat} (h : sliceRegion s es = .ok (los, lens)) :
    los.length = s.length ∧ lens.length = s.length ∧ ∀ i, InB i lens → InB (List.zipWith (· + ·) los i) s := by
  induction s generalizing es los lens with
  | nil =>
    cases es with
    | nil => simp [sliceRegion] at h; obtain ⟨rfl, rfl⟩ := h; simp
    | cons => simp [sliceRegion] at h
  | cons n s ih =>
    cases es with
    | nil => simp [sliceRegion] at h
    | cons e es =>
      rw [sliceRegion] at h
      cases hb : sliceBounds n e with
      | error => simp [hb, bind, Except.bind] at h
      | ok b =>
        cases hr : sliceRegion s es with
        | error => simp [hb, hr, bind, Except.bind] at h
        | ok r =>
          simp [hb, hr, bind, Except.bind] at h
          obtain ⟨rfl, rfl⟩ := h
          obtain ⟨h1, h2, h3⟩ := ih hr
          refine ⟨by simp [h1], by simp [h2], fun i hi => ?_⟩
          cases i with
          | nil => exact absurd (inB_length hi) (by simp)
          | cons a i =>
            obtain ⟨ha, hi'⟩ := List.forall₂_cons.1 hi
            refine List.Forall₂.cons ?_ (h3 i hi')
            unfold sliceBounds at hb
            split at hb
            · split at hb
              · rename_i u v _ _ hc
                cases hb
                dsimp only at ha ⊢
                omega
              · cases hb
            · cases hb

theorem inRegion_iff {los lens o : List Nat} (h1 : los.length = o.length) (h2 : lens.length = o.length) :
    inRegion los lens o = true ↔ ∃ i, InB i lens ∧ List.zipWith (· + ·) los i = o := by
  induction o generalizing los lens with
  | nil =>
    have e1 : los = [] := List.length_eq_zero_iff.1 (by simpa using h1)
    have e2 : lens = [] := List.length_eq_zero_iff.1 (by simpa using h2)
    subst e1 e2
    simp [inRegion]
  | cons a o ih =>
    cases los with
    | nil => simp at h1
    | cons l los =>
      cases lens with
      | nil => simp at h2
      | cons m lens =>
        simp only [List.length_cons, Nat.add_right_cancel_iff] at h1 h2
        simp only [inRegion, Bool.and_eq_true, decide_eq_true_eq, ih h1 h2]
        constructor
        · rintro ⟨⟨h3, h4⟩, i, hi, rfl⟩
          exact ⟨(a - l) :: i, .cons (by omega) hi, by simp only [List.zipWith_cons_cons]; congr 1; omega⟩
        · rintro ⟨i, hi, he⟩
          cases i with
          | nil => exact absurd (inB_length hi) (by simp)
          | cons b i =>
            obtain ⟨hb, hi'⟩ := List.forall₂_cons.1 hi
            simp only [List.zipWith_cons_cons, List.cons.injEq] at he
            exact ⟨⟨by omega, by omega⟩, i, hi', he.2⟩

theorem zipWith_sub_add {los i : List Nat} (h : los.length = i.length) : List.zipWith (· - ·) (List.zipWith (· + ·) los i) los = i := by
  induction i generalizing los with
  | nil => simp
  | cons a i ih =>
    cases los with
    | nil => simp at h
    | cons l los =>
      simp only [List.length_cons, Nat.add_right_cancel_iff] at h
      simp only [List.zipWith_cons_cons, ih h]
      congr 1; omega

theorem broadcast_same {a : Arr R} {t : List Nat} (h : a.shape = t) :
    ∃ g, broadcast a t = some g ∧ g.shape = t ∧ ∀ i, InB i t → g.get i = a.get i := by
  have hb : bcastOk a.shape.reverse t.reverse = true := by rw [h, bcastOk_iff, ← broadcastsTo_iff]; exact broadcastsTo_self t
  unfold broadcast
  rw [if_pos hb]
  refine ⟨_, rfl, rfl, fun i hi => ?_⟩
  show a.get (bIdx a.shape i) = a.get i
  rw [h, bIdx_self hi]

theorem sliceArr_region {x : Arr R} {es : List SliceElem} {los lens : List Nat} (h : sliceRegion x.shape es = .ok (los, lens)) :
    ∃ y, sliceArr x es = .ok y ∧ y.shape = lens ∧ ∀ i, y.get i = x.get (List.zipWith (· + ·) los i) :=
  ⟨⟨lens, x.strides, fun idx => x.get (List.zipWith (· + ·) los idx)⟩, by simp [sliceArr, h, bind, Except.bind], rfl, fun _ => rfl⟩

theorem sliceGrad_region [Zero R] {s : List Nat} {es : List SliceElem} {los lens : List Nat} {gy : Arr R}
    (h : sliceRegion s es = .ok (los, lens)) (hg : gy.shape = lens) :
    ∃ g, sliceGrad s es gy = .ok g ∧ g.shape = s ∧ (∀ i, InB i lens → g.get (List.zipWith (· + ·) los i) = gy.get i) ∧
      ∀ o, InB o s → (∀ i, InB i lens → List.zipWith (· + ·) los i ≠ o) → g.get o = 0 := by
  obtain ⟨b, hb, hbs, hbg⟩ := broadcast_same hg
  obtain ⟨h1, h2, h3⟩ := sliceRegion_in h
  refine ⟨ofFn s (fun o => if inRegion los lens o then b.get (List.zipWith (· - ·) o los) else 0),
    by simp [sliceGrad, h, hb, bind, Except.bind, unwrap], rfl, fun i hi => ?_, fun o ho hno => ?_⟩
  · have hl := inB_length hi
    show (if inRegion los lens (List.zipWith (· + ·) los i) then _ else _) = _
    rw [if_pos ((inRegion_iff (by simp; omega) (by simp; omega)).2 ⟨i, hi, rfl⟩), zipWith_sub_add (by omega), hbg i hi]
  · have hl := inB_length ho
    show (if inRegion los lens o then _ else _) = _
    rw [if_neg]
    intro hr
    obtain ⟨i, hi, he⟩ := (inRegion_iff (by omega) (by omega)).1 hr
    exact hno i hi he

/-- Slicing and its gradient are adjoint. -/
theorem slice_adjoint [CommSemiring R] {s : List Nat} {es : List SliceElem} {los lens : List Nat} {gy : Arr R}
    (h : sliceRegion s es = .ok (los, lens)) (hg : gy.shape = lens) :
    ∃ g, sliceGrad s es gy = .ok g ∧ g.shape = s ∧ ∀ dx : Arr R, dx.shape = s → ∃ dy, sliceArr dx es = .ok dy ∧ dy.shape = lens ∧
      ∑ i ∈ idxs lens, gy.get i * dy.get i = ∑ o ∈ idxs s, g.get o * dx.get o := by
  obtain ⟨g, hgg, hs, h1, h2⟩ := sliceGrad_region h hg
  obtain ⟨l1, l2, l3⟩ := sliceRegion_in h
  refine ⟨g, hgg, hs, fun dx hdx => ?_⟩
  obtain ⟨dy, hdy, hds, hdg⟩ := sliceArr_region (x := dx) (by rw [hdx]; exact h)
  refine ⟨dy, hdy, hds, ?_⟩
  rw [scatter_adjoint_inj (fun i => List.zipWith (· + ·) los i) l3 ?_ g.get gy.get dx.get h1 h2]
  · exact sum_congr rfl fun i _ => by rw [hdg i]
  · intro i j hi hj hij
    rw [← zipWith_sub_add (los := los) (i := i) (by rw [inB_length hi]; omega), hij, zipWith_sub_add (by rw [inB_length hj]; omega)]

/-! ## Slices along one axis -/

theorem sliceBounds_full (n : Nat) : sliceBounds n ⟨0, none⟩ = .ok (0, n) := by
  simp [sliceBounds, absIndex, show ¬ (n : Int) < 0 by omega]

theorem sliceRegion_axis (s : List Nat) (i k : Nat) (e : SliceElem) (b : Nat × Nat)
    (hb : i ≤ k → ∀ n, s[k - i]? = some n → sliceBounds n e = .ok b) :
    sliceRegion s ((List.range' i s.length).map (fun j => if j = k then e else ⟨0, none⟩)) =
      .ok (if i ≤ k then (List.replicate s.length 0).set (k - i) b.1 else List.replicate s.length 0,
           if i ≤ k then s.set (k - i) b.2 else s) := by
  induction s generalizing i with
  | nil => simp [sliceRegion]
  | cons n s ih =>
    simp only [List.length_cons, List.range'_succ, List.map_cons, sliceRegion]
    rw [ih (i + 1) (fun h m hm => hb (by omega) m (by rw [show k - i = (k - (i + 1)) + 1 by omega, List.getElem?_cons_succ]; exact hm))]
    by_cases hik : i = k
    · subst hik
      rw [if_pos rfl, hb (le_refl _) n (by simp)]
      simp [bind, Except.bind, List.replicate_succ]
    · rw [if_neg hik, sliceBounds_full]
      by_cases h : i ≤ k
      · obtain ⟨m, hm⟩ : ∃ m, k - i = m + 1 := ⟨k - i - 1, by omega⟩
        have hm' : k - (i + 1) = m := by omega
        simp [bind, Except.bind, h, hm, hm', List.replicate_succ, show i + 1 ≤ k by omega]
      · simp [bind, Except.bind, h, show ¬ i + 1 ≤ k by omega, List.replicate_succ]

theorem sliceBounds_nat {n a c : Nat} (h : a ≤ n) (h' : c ≤ n) : sliceBounds n ⟨a, some c⟩ = .ok (a, c - a) := by
  have e1 : absIndex n (a : Int) = some a := by simp [absIndex, show ¬ (a : Int) < 0 by omega]
  have e2 : absIndex n (c : Int) = some c := by simp [absIndex, show ¬ (c : Int) < 0 by omega]
  simp only [sliceBounds, Option.getD_some, e1, e2]
  rw [if_pos ⟨h, by omega⟩]
  congr 2; omega

theorem axisRegion {s : List Nat} {k n a c : Nat} (hk : s[k]? = some n) (ha : a ≤ n) (hc : c ≤ n) :
    sliceRegion s (axisSlices s.length k ⟨a, some c⟩) = .ok ((List.replicate s.length 0).set k a, s.set k (c - a)) := by
  have := sliceRegion_axis s 0 k ⟨a, some c⟩ (a, c - a) (fun _ m hm => by
    rw [Nat.sub_zero, hk] at hm; cases hm; exact sliceBounds_nat ha hc)
  simpa [axisSlices, List.range_eq_range'] using this

theorem zipWith_axis {k a m : Nat} {i : List Nat} (hi : i.length = m) : List.zipWith (· + ·) ((List.replicate m 0).set k a) i = shiftAt k a i := by
  apply List.ext_getElem
  · simp [shiftAt, hi]
  · intro j h1 h2
    simp only [shiftAt, List.getElem_zipWith, List.getElem_set, List.getElem_replicate]
    split
    · rename_i h; subst h
      simp only [shiftAt, List.length_set] at h2
      simp [List.getD_eq_getElem?_getD, h2]
    · simp

/-! ## Concatenation -/

theorem normAxis_ok {n k : Nat} {a : Int} (h : AxisIs n a k) : normAxis n a = some k := by
  obtain ⟨hk, rfl | rfl⟩ := h
  · simp [normAxis, absIndex, show ¬ (k : Int) < 0 by omega]
  · unfold normAxis absIndex
    rw [if_pos (by omega), if_neg (by omega)]
    congr 1; omega

theorem pickPart_spec {k : Nat} {d : R} {xs : List (Arr R)} {i : Nat} {x : Arr R} (hx : xs[i]? = some x) {c : Nat} (hc : c < x.shape.getD k 0)
    (o : List Nat) : pickPart k d xs (partOffset k xs i + c) o = x.get (o.set k c) := by
  induction xs generalizing i with
  | nil => simp at hx
  | cons y xs ih =>
    cases i with
    | zero =>
      simp at hx; subst hx
      rw [show partOffset k (y :: xs) 0 + c = c by simp [partOffset], pickPart, if_pos hc]
    | succ i =>
      simp only [List.getElem?_cons_succ] at hx
      have : partOffset k (y :: xs) (i + 1) = y.shape.getD k 0 + partOffset k xs i := by simp [partOffset]
      rw [pickPart, this, if_neg (by omega), show y.shape.getD k 0 + partOffset k xs i + c - y.shape.getD k 0 = partOffset k xs i + c by omega]
      exact ih hx

theorem set_of_erase {α : Type} {l rest : List α} {k : Nat} (hk : k < l.length) (h : l.eraseIdx k = rest) (v : α) : l.set k v = rest.insertIdx k v := by
  subst h
  induction l generalizing k with
  | nil => simp at hk
  | cons a l ih =>
    cases k with
    | zero => simp
    | succ k => simp only [List.set_cons_succ, List.eraseIdx_cons_succ, List.insertIdx_succ_cons]
                rw [ih (by simpa using hk)]

theorem concatenate_spec {n k : Nat} {rest : List Nat} {xs : List (Arr R)} (st : List Int) (hne : xs ≠ []) (hk : k < n)
    (ha : AgreeOutside n k rest xs) :
    ∃ y, concatenate st k xs = some y ∧ y.shape = rest.insertIdx k (partOffset k xs xs.length) ∧
      ∀ i x o, xs[i]? = some x → InB o x.shape → y.get (shiftAt k (partOffset k xs i) o) = x.get o := by
  cases xs with
  | nil => exact absurd rfl hne
  | cons a as =>
    obtain ⟨hal, har⟩ := ha a (by simp)
    have hcond : k < a.shape.length ∧ ∀ b ∈ a :: as, b.shape.length = a.shape.length ∧ b.shape.eraseIdx k = a.shape.eraseIdx k :=
      ⟨by omega, fun b hb => ⟨by rw [(ha b hb).1, hal], by rw [(ha b hb).2, har]⟩⟩
    unfold concatenate
    simp only
    rw [if_pos hcond]
    refine ⟨_, rfl, ?_, fun i x o hx ho => ?_⟩
    · show a.shape.set k _ = _
      rw [set_of_erase (by omega) har]
      simp [partOffset]
    · have hxl := (ha x (List.mem_of_getElem? hx)).1
      have hol := inB_length ho
      have hgd : (shiftAt k (partOffset k (a :: as) i) o).getD k 0 = partOffset k (a :: as) i + o.getD k 0 := by
        simp [shiftAt, List.getD_eq_getElem?_getD, show k < o.length by omega]
      show pickPart k _ (a :: as) ((shiftAt k (partOffset k (a :: as) i) o).getD k 0) _ = _
      rw [hgd, pickPart_spec hx]
      · congr 1
        apply List.ext_getElem
        · simp [shiftAt]
        · intro j h1 h2
          simp only [shiftAt, List.getElem_set]
          split
          · rename_i h; subst h; simp [List.getD_eq_getElem?_getD, h2]
          · rfl
      · rw [inB_iff] at ho
        have := ho.2 k (by omega) (by omega)
        simpa [List.getD_eq_getElem?_getD, show k < o.length by omega, show k < x.shape.length by omega] using this

theorem bounds_of_ok {n : Nat} {a b : Int} {r : Nat × Nat} (h : sliceBounds n (sliceElem a b) = .ok r) : ∃ lo hi, Bounds n a b lo hi := by
  unfold sliceBounds at h
  split at h
  · rename_i u v h1 h2
    have abs_some : ∀ {i : Int} {v : Nat}, absIndex n i = some v → (i < 0 ∧ i + n = v) ∨ (0 ≤ i ∧ i = v) := by
      intro i v hi
      unfold absIndex at hi
      split at hi
      · split at hi
        · cases hi
        · cases hi; left; omega
      · cases hi; right; omega
    split at h
    · rename_i hc
      refine ⟨u, v, ?_, ?_, hc.1, by omega⟩
      · rcases abs_some (i := a) h1 with h | h
        · right; omega
        · left; omega
      · by_cases hb : b = -1
        · rw [show (sliceElem a b).stop = none by simp [sliceElem, hb], Option.getD_none] at h2
          rcases abs_some h2 with h | h <;> right <;> omega
        · by_cases hb' : b < -1
          · rw [show (sliceElem a b).stop = some (b + 1) by simp [sliceElem, hb, hb'], Option.getD_some] at h2
            rcases abs_some h2 with h | h <;> right <;> omega
          · rw [show (sliceElem a b).stop = some b by simp [sliceElem, hb, hb'], Option.getD_some] at h2
            rcases abs_some h2 with h | h <;> left <;> omega
    · cases h
  · cases h

theorem le_sum_of_mem {l : List Nat} {a : Nat} (h : a ∈ l) : a ≤ l.sum := by
  induction l with
  | nil => cases h
  | cons b l ih =>
    rw [List.sum_cons]
    rcases List.mem_cons.1 h with rfl | h
    · omega
    · have := ih h; omega

/-- What `ConcatGrad` does for part 0 and part 1: it takes the beginning of the incoming gradient. -/
theorem concatGrad_begin (gy x : Arr R) (xs : List (Arr R)) (axis : Int) (n k i : Nat) (rest : List Nat)
    (hk : AxisIs n axis k) (ha : AgreeOutside n k rest xs) (hgy : gy.shape = rest.insertIdx k (partOffset k xs xs.length))
    (hx : xs[i]? = some x) (hst : concatStart k xs i = 0) :
    ∃ g, concatGrad gy xs axis i = .ok g ∧ g.shape = x.shape ∧ ∀ o, InB o x.shape → g.get o = gy.get o := by
  obtain ⟨hxl, hxr⟩ := ha x (List.mem_of_getElem? hx)
  have hkn := hk.1
  have hrl : rest.length + 1 = n := by rw [← hxr, List.length_eraseIdx_of_lt (by omega)]; omega
  have hgl : gy.shape.length = n := by rw [hgy, List.length_insertIdx_of_le_length (by omega)]; omega
  have hgk : gy.shape[k]? = some (partOffset k xs xs.length) := by rw [hgy, List.getElem?_insertIdx_self]; simp; omega
  have hxk : x.shape[k]? = some (x.shape.getD k 0) := by simp [List.getD_eq_getElem?_getD, show k < x.shape.length by omega]
  have hle : x.shape.getD k 0 ≤ partOffset k xs xs.length := by
    have : x.shape.getD k 0 ∈ xs.map (fun a => a.shape.getD k 0) := List.mem_map.2 ⟨x, List.mem_of_getElem? hx, rfl⟩
    simpa [partOffset] using le_sum_of_mem this
  have hr := axisRegion (a := 0) (c := x.shape.getD k 0) hgk (by omega) hle
  obtain ⟨g, hg, hs, hget⟩ := sliceArr_region hr
  have hsh : g.shape = x.shape := by
    rw [hs, Nat.sub_zero, hgy, set_insertIdx _ _ _ _ (by omega), ← hxr, ← set_of_erase (l := x.shape) (by omega) rfl]
    apply List.ext_getElem (by simp)
    intro j h1 h2
    rw [List.getElem_set]
    split
    · rename_i h; subst h; simp [List.getD_eq_getElem?_getD, h2]
    · rfl
  refine ⟨g, ?_, hsh, fun o ho => ?_⟩
  · rw [concatGrad, hgl, normAxis_ok hk, hx]
    simp only
    rw [hxk]
    simp only [hst]
    rw [hgl] at hg
    exact hg
  · rw [hget, zipWith_axis (by rw [inB_length ho]; omega)]
    congr 1
    apply List.ext_getElem (by simp [shiftAt])
    intro j h1 h2
    simp only [shiftAt, List.getElem_set]
    split
    · rename_i h; subst h; simp [List.getD_eq_getElem?_getD, h2]
    · rfl

theorem setAt_from {α : Type} (k i : Nat) (v : α) (l : List α) (h : i ≤ k) : setAt [k] v i l = l.set (k - i) v := by
  induction l generalizing i with
  | nil => simp [setAt]
  | cons a l ih =>
    rw [setAt]
    by_cases hik : i = k
    · subst hik
      have : ∀ (m : List α) (j : Nat), i < j → setAt [i] v j m = m := by
        intro m
        induction m with
        | nil => intro j _; rfl
        | cons b m ih2 => intro j hj; simp [setAt, ih2 (j + 1) (by omega), show j ≠ i by omega]
      simp [this l (i + 1) (by omega)]
    · rw [ih (i + 1) (by omega), if_neg (by simp; omega)]
      obtain ⟨m, hm⟩ : ∃ m, k - i = m + 1 := ⟨k - i - 1, by omega⟩
      rw [hm, show k - (i + 1) = m by omega, List.set_cons_succ]

end Verif.Nd
