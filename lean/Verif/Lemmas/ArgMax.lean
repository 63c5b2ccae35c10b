import Mathlib.Algebra.Order.Ring.Defs
import Verif.Model.ArgMax
import Verif.Lemmas.ReduceGrad
import Verif.Lemmas.ReduceRel

/-!
# `argmax`/`argmin`: first extremal position of every lane
-/

namespace Verif.Nd
open Finset
variable {R : Type}

/-- The fold of a lane with `max` is an upper bound that is attained, if all elements are at least the start value. -/
theorem foldl_max_spec [LinearOrder R] (f : Nat → R) (n : Nat) (b : R) (hb : ∀ j, j < n → b ≤ f j) (hn : 0 < n) :
    (∀ j, j < n → f j ≤ (List.range n).foldl (fun acc j => max acc (f j)) b) ∧
      ∃ j, j < n ∧ (List.range n).foldl (fun acc j => max acc (f j)) b = f j := by
  induction n with
  | zero => omega
  | succ n ih =>
    rw [List.range_succ, List.foldl_append]
    simp only [List.foldl_cons, List.foldl_nil]
    rcases Nat.eq_zero_or_pos n with rfl | hn'
    · simp only [List.range_zero, List.foldl_nil]
      refine ⟨fun j hj => ?_, 0, by omega, max_eq_right (hb 0 (by omega))⟩
      have : j = 0 := by omega
      subst this; exact le_max_right _ _
    · obtain ⟨h1, j0, hj0, h2⟩ := ih (fun j hj => hb j (by omega)) hn'
      refine ⟨fun j hj => ?_, ?_⟩
      · rcases Nat.lt_succ_iff_lt_or_eq.1 hj with h | rfl
        · exact le_trans (h1 j h) (le_max_left _ _)
        · exact le_max_right _ _
      · rcases le_total ((List.range n).foldl (fun acc j => max acc (f j)) b) (f n) with h | h
        · exact ⟨n, by omega, max_eq_right h⟩
        · exact ⟨j0, by omega, by rw [max_eq_left h, h2]⟩

/-- The weighted sum of the mask of a lane is the first position at which the lane has the value `m`. -/
theorem foldl_first [DecidableEq R] [CommSemiring R] (f : Nat → R) (m : R) (n j : Nat) (hj : j < n) (hm : f j = m)
    (hfirst : ∀ j', j' < j → f j' ≠ m) :
    (List.range n).foldl (fun acc c => acc +
      (if f c = m ∧ (List.range c).any (fun i => decide (f i = m)) = false then ((1 : Nat) : R) else ((0 : Nat) : R)) * ((c : Nat) : R)) 0 = (j : R) := by
  rw [foldl_range_add n (fun c => (if f c = m ∧ (List.range c).any (fun i => decide (f i = m)) = false then ((1 : Nat) : R) else ((0 : Nat) : R)) * ((c : Nat) : R)) 0,
    zero_add, Finset.sum_eq_single j]
  · rw [if_pos]
    · simp
    · refine ⟨hm, ?_⟩
      rw [List.any_eq_false]
      intro i hi
      simpa using hfirst i (by simpa using hi)
  · intro c _ hc
    rw [if_neg]
    · simp
    · rintro ⟨h1, h2⟩
      rw [List.any_eq_false] at h2
      rcases Nat.lt_or_gt_of_ne hc with h | h
      · exact hfirst c h h1
      · have := h2 j (by simpa using h)
        simp [hm] at this
  · intro h; simp at h; omega

theorem set_insertIdx (idx : List Nat) (k i j : Nat) (hk : k ≤ idx.length) : (idx.insertIdx k i).set k j = idx.insertIdx k j := by
  induction idx generalizing k with
  | nil => have : k = 0 := by simpa using hk
           subst this; rfl
  | cons a idx ih =>
    cases k with
    | zero => rfl
    | succ k => simp [ih k (by simpa using hk)]

theorem getD_insertIdx (idx : List Nat) (k i : Nat) (hk : k ≤ idx.length) : (idx.insertIdx k i).getD k 0 = i := by
  simp [List.getD_eq_getElem?_getD, List.getElem?_insertIdx_self, hk]

/-- The layouts for which `argx_helper` works: axis 0 of a row-major mask, or rank at most 2. -/
def ArgLayout (shape : List Nat) (st : List Int) (axis : Nat) : Prop :=
  (axis = 0 ∧ isStandard shape st = true) ∨ (shape.length ≤ 2 ∧ Contig shape st)

theorem intoShape_id {a : Arr R} (hc : Contig a.shape a.strides) {s : List Nat} (hs : s = a.shape) :
    ∃ r, intoShape a s = some r ∧ ∀ o, InB o a.shape → r.get o = a.get o := by
  subst hs
  obtain ⟨r, hr, _, hg⟩ := intoShape_sq (a := a) (s := a.shape) hc rfl
  refine ⟨r, hr, fun o ho => hg o o ?_ ho⟩
  have : ∀ (s o : List Nat), o.length = s.length → Sq s o s o := by
    intro s
    induction s with
    | nil => intro o h; have : o = [] := List.length_eq_zero_iff.1 (by simpa using h)
             subst this; exact .nil
    | cons n s ih => intro o h; cases o with
      | nil => simp at h
      | cons i o => exact (ih o (by simpa using h)).keep n i
  exact this _ _ (inB_length ho)

theorem rolled_reshape (a : Arr R) (axis n : Nat) (hn : a.shape[axis]? = some n) (hl : a.strides.length = a.shape.length)
    (hc : ArgLayout a.shape a.strides axis) :
    ∃ r, intoShape (rollAxis a axis) [n, size (a.shape.eraseIdx axis)] = some r ∧
      ∀ j q, j < n → q < size (a.shape.eraseIdx axis) → r.get [j, q] = a.get ((unflat (a.shape.eraseIdx axis) q).insertIdx axis j) := by
  have std : axis = 0 → isStandard a.shape a.strides = true → ∃ r, intoShape (rollAxis a axis) [n, size (a.shape.eraseIdx axis)] = some r ∧
      ∀ j q, j < n → q < size (a.shape.eraseIdx axis) → r.get [j, q] = a.get ((unflat (a.shape.eraseIdx axis) q).insertIdx axis j) := by
    rintro rfl hst
    obtain ⟨rest, hrest⟩ : ∃ rest, a.shape = n :: rest := by
      cases h : a.shape with
      | nil => simp [h] at hn
      | cons m rest => simp [h] at hn; exact ⟨rest, by rw [hn]⟩
    have he : a.shape.eraseIdx 0 = rest := by rw [hrest]; rfl
    rw [he]
    simp only [rollAxis]
    rw [intoShape_standard hst (by rw [hrest]; simp [size])]
    refine ⟨_, rfl, fun j q hj hq => ?_⟩
    simp only [hrest, flat, unflat, size, Nat.mul_one, Nat.add_zero, List.insertIdx_zero]
    rw [Nat.mul_comm j, Nat.mul_add_div (by omega), Nat.mul_add_mod, Nat.div_eq_of_lt hq, Nat.mod_eq_of_lt hq, Nat.add_zero]
  rcases hc with ⟨h0, hst⟩ | ⟨hlen, hc⟩
  · exact std h0 hst
  · match hsh : a.shape, hst : a.strides with
    | [], _ => simp [hsh] at hn
    | [m], st =>
      have hax : axis = 0 := by
        by_contra h
        rw [hsh, List.getElem?_eq_none (by simp; omega)] at hn; simp at hn
      rw [← hsh]
      refine std hax ?_
      rcases hc with h | h
      · exact h
      · rw [hsh] at h; simp at h
    | [m0, m1], [s0, s1] =>
      rw [hsh] at hn
      match axis, hn with
      | 0, hn =>
        simp at hn; subst hn
        obtain ⟨r, hr, hg⟩ := intoShape_id hc (s := [m0, m1]) hsh.symm
        refine ⟨r, by simpa [rollAxis, size] using hr, fun j q hj hq => ?_⟩
        simp [size] at hq
        rw [hg [j, q] (by rw [hsh]; simp [hj, hq])]
        simp [unflat, size]
      | 1, hn =>
        simp at hn; subst hn
        let t : Arr R := ⟨[m1, m0], [s1, s0], fun idx => a.get (swapAt 0 1 idx)⟩
        have hroll : rollAxis a 1 = t := by simp [rollAxis, swapAxes, hsh, hst, swapAt, t]
        have hct : Contig t.shape t.strides := by
          rw [hsh, hst] at hc
          unfold Contig at hc ⊢
          simp only [t]
          rcases hc with h | h
          · exact .inr ⟨by simp, h⟩
          · exact .inl h.2
        obtain ⟨r, hr, hg⟩ := intoShape_id hct (s := [m1, m0]) rfl
        refine ⟨r, by rw [hroll]; simpa [size] using hr, fun j q hj hq => ?_⟩
        simp [size] at hq
        rw [hg [j, q] (by simp [t, hj, hq])]
        simp [unflat, size, t, swapAt]
      | k + 2, hn => simp at hn
    | [m0, m1], [] => simp [hsh, hst] at hl
    | [m0, m1], [_] => simp [hsh, hst] at hl
    | [m0, m1], _ :: _ :: _ :: _ => simp [hsh, hst] at hl
    | _ :: _ :: _ :: _, _ => simp [hsh] at hlen

theorem size_eraseIdx {s : List Nat} {k n : Nat} (h : s[k]? = some n) : size s = n * size (s.eraseIdx k) := by
  induction s generalizing k with
  | nil => simp at h
  | cons m s ih =>
    cases k with
    | zero => simp at h; subst h; rfl
    | succ k => simp only [size, List.eraseIdx_cons_succ, ih (by simpa using h)]; ring

/-- `argx_helper` with `max`: the first position of the maximum of every lane. -/
theorem argx_max_spec [CommSemiring R] [LinearOrder R] (bot : R) (x : Arr R) (st : List Int) (axis n : Nat) (keep : Bool)
    (hn : x.shape[axis]? = some n) (hn0 : 0 < n) (hl : st.length = x.shape.length) (hc : ArgLayout x.shape st axis)
    (hbot : ∀ o, InB o x.shape → bot ≤ x.get o) :
    ∃ y, argx max bot x st axis keep = .ok y ∧ y.shape = (if keep then x.shape.set axis 1 else x.shape.eraseIdx axis) ∧
      ∀ idx, InB idx (x.shape.eraseIdx axis) → ∃ j, j < n ∧
        y.get (if keep then idx.insertIdx axis 0 else idx) = (j : R) ∧
        (∀ j', j' < n → x.get (idx.insertIdx axis j') ≤ x.get (idx.insertIdx axis j)) ∧
        (∀ j', j' < j → x.get (idx.insertIdx axis j') < x.get (idx.insertIdx axis j)) := by
  have hk : axis < x.shape.length := by
    by_contra h
    rw [List.getElem?_eq_none (by omega)] at hn; simp at hn
  have hsz := size_eraseIdx hn
  have hdiv : size x.shape / n = size (x.shape.eraseIdx axis) := by rw [hsz, Nat.mul_div_cancel_left _ hn0]
  unfold argx
  have hfold : foldAxis x axis bot max = .ok (ofFn (x.shape.eraseIdx axis)
      (fun idx => (List.range n).foldl (fun acc j => max acc (x.get (idx.insertIdx axis j))) bot)) := by
    unfold foldAxis; rw [hn]
  simp only [hfold, hn, unwrap, bind, Except.bind]
  rw [if_neg (by omega)]
  obtain ⟨r, hr, hrg⟩ := rolled_reshape (argMask x (ofFn (x.shape.eraseIdx axis)
      (fun idx => (List.range n).foldl (fun acc j => max acc (x.get (idx.insertIdx axis j))) bot)) st axis) axis n hn hl hc
  rw [hdiv]
  have hr' : intoShape (rollAxis (argMask x (ofFn (x.shape.eraseIdx axis)
      (fun idx => (List.range n).foldl (fun acc j => max acc (x.get (idx.insertIdx axis j))) bot)) st axis) axis) [n, size (x.shape.eraseIdx axis)] = some r := hr
  simp only [hr']
  have hfs : size (if keep then x.shape.set axis 1 else x.shape.eraseIdx axis) = size [size (x.shape.eraseIdx axis), 1] := by
    cases keep
    · simp [size]
    · have : (x.shape.set axis 1)[axis]? = some 1 := by simp [hk]
      simp only [if_true, size_eraseIdx this, List.eraseIdx_set_eq]
      simp [size]
  rw [intoShape_standard (isStandard_cStrides _) hfs]
  refine ⟨_, rfl, rfl, fun idx hidx => ?_⟩
  have hil : idx.length = (x.shape.eraseIdx axis).length := inB_length hidx
  have hka : axis ≤ idx.length := by rw [hil, List.length_eraseIdx, if_pos hk]; omega
  -- the flat position
  have hflat : flat (if keep then x.shape.set axis 1 else x.shape.eraseIdx axis) (if keep then idx.insertIdx axis 0 else idx) =
      flat (x.shape.eraseIdx axis) idx := by
    cases keep
    · simp
    · simp only [if_true]
      have h1 : x.shape.set axis 1 = (x.shape.eraseIdx axis).insertIdx axis 1 := by
        rw [← List.insertIdx_eraseIdx_self (by omega : axis ≠ x.shape.length)]
      rw [h1, flat_insertIdx_one (by omega) hil]
  have hlt := flat_lt hidx
  set q := flat (x.shape.eraseIdx axis) idx with hq
  have hun : unflat [size (x.shape.eraseIdx axis), 1] q = [q, 0] := by simp [unflat, size, Nat.mod_one]
  simp only [hflat, ofFn, hun, List.getD_cons_zero]
  -- the lane
  let lane : Nat → R := fun j => x.get (idx.insertIdx axis j)
  have hin : ∀ j, j < n → InB (idx.insertIdx axis j) x.shape := fun j hj => inB_insert_erase hn hj hidx
  obtain ⟨hmax, j1, hj1, hje⟩ := foldl_max_spec lane n bot (fun j hj => hbot _ (hin j hj)) hn0
  set M := (List.range n).foldl (fun acc j => max acc (lane j)) bot with hM
  have hex : ∃ j, j < n ∧ lane j = M := ⟨j1, hj1, hje.symm⟩
  obtain ⟨hj, hjm⟩ := Nat.find_spec hex
  have hmin : ∀ j', j' < Nat.find hex → lane j' ≠ M := fun j' hj' he =>
    Nat.find_min hex hj' ⟨lt_trans hj' hj, he⟩
  refine ⟨Nat.find hex, hj, ?_, fun j' hj' => ?_, fun j' hj' => ?_⟩
  · have hlane := foldl_first lane M n (Nat.find hex) hj hjm hmin
    rw [← hlane]
    have hcong : ∀ (l : List Nat), (∀ c ∈ l, c < n) → ∀ acc : R, l.foldl (fun acc c => acc + r.get [c, q] * ((c : Nat) : R)) acc =
        l.foldl (fun acc c => acc + (if lane c = M ∧ (List.range c).any (fun i => decide (lane i = M)) = false then ((1 : Nat) : R) else ((0 : Nat) : R)) * ((c : Nat) : R)) acc := by
      intro l
      induction l with
      | nil => intro _ _; rfl
      | cons c l ih =>
        intro hl' acc
        simp only [List.foldl_cons]
        rw [ih (fun d hd => hl' d (by simp [hd]))]
        congr 2
        rw [hrg c q (hl' c (by simp)) hlt]
        have hu : unflat (x.shape.eraseIdx axis) q = idx := by rw [hq]; exact unflat_flat hidx
        simp only [argMask, ofFn]
        rw [hu, List.eraseIdx_insertIdx_self, getD_insertIdx idx axis c hka]
        simp only [set_insertIdx idx axis c _ hka]
        rfl
    exact hcong (List.range n) (by simp) 0
  · change lane j' ≤ lane _
    rw [hjm]; exact hmax j' hj'
  · change lane j' < lane _
    rw [hjm]
    exact lt_of_le_of_ne (hmax j' (lt_trans hj' hj)) (hmin j' hj')

/-- `argx_helper` with `min`: the first position of the minimum of every lane. -/
theorem argx_min_spec [CommSemiring R] [LinearOrder R] (top : R) (x : Arr R) (st : List Int) (axis n : Nat) (keep : Bool)
    (hn : x.shape[axis]? = some n) (hn0 : 0 < n) (hl : st.length = x.shape.length) (hc : ArgLayout x.shape st axis)
    (htop : ∀ o, InB o x.shape → x.get o ≤ top) :
    ∃ y, argx min top x st axis keep = .ok y ∧ y.shape = (if keep then x.shape.set axis 1 else x.shape.eraseIdx axis) ∧
      ∀ idx, InB idx (x.shape.eraseIdx axis) → ∃ j, j < n ∧
        y.get (if keep then idx.insertIdx axis 0 else idx) = (j : R) ∧
        (∀ j', j' < n → x.get (idx.insertIdx axis j) ≤ x.get (idx.insertIdx axis j')) ∧
        (∀ j', j' < j → x.get (idx.insertIdx axis j) < x.get (idx.insertIdx axis j')) :=
  @argx_max_spec Rᵒᵈ (inferInstanceAs (CommSemiring R)) _ top x st axis n keep hn hn0 hl hc htop

end Verif.Nd
