import Mathlib.Algebra.Order.Ring.Cast
import Verif.Lemmas.SetDiff

/-! # Property theorems about `setdiff1d`: C57

`iter` is any order of iteration over hash sets. -/

namespace Verif.Props
open Verif Verif.Nd Verif.SetDiff Verif.Spec
variable {R : Type}

/-- **C57** For row-major arrays without gaps the result is a strictly increasing vector of the integers that truncation makes of elements of the first array, but of no element of
the second. -/
theorem C57_truncated [Ring R] [LinearOrder R] [IsStrictOrderedRing R] (toIsize : R → Option Int) (iter : List Int → List Int) (x0 x1 : Arr R)
    (hi : ∀ l, (iter l).Perm l) (h0 : isStandard x0.shape x0.strides = true) (h1 : isStandard x1.shape x1.strides = true)
    (ht0 : ∀ v, Occurs v x0 → (toIsize v).isSome) (ht1 : ∀ v, Occurs v x1 → (toIsize v).isSome) :
    ∃ r, setDiff1d toIsize iter x0 x1 = .ok r ∧ Increasing r ∧
      ∀ v, Occurs v r ↔ ∃ k : Int, v = k ∧ (∃ a, Occurs a x0 ∧ toIsize a = some k) ∧ ¬ ∃ b, Occurs b x1 ∧ toIsize b = some k := by
  obtain ⟨a, ha, hna, hma⟩ := collect_ok h0 ht0
  obtain ⟨b, hb, _, hmb⟩ := collect_ok h1 ht1
  generalize hv : (iter (a.filter (fun n => decide (n ∉ b)))).mergeSort = v
  have hp : v.Perm (a.filter (fun n => decide (n ∉ b))) := by rw [← hv]; exact (List.mergeSort_perm _ _).trans (hi _)
  have hnd : v.Nodup := hp.nodup_iff.2 (hna.filter _)
  have hsort : v.Pairwise (· ≤ ·) := by
    rw [← hv]
    have := List.pairwise_mergeSort (le := fun a b : Int => decide (a ≤ b)) (by intro a b c; simp; omega) (by intro a b; simp; omega)
      (iter (a.filter (fun n => decide (n ∉ b))))
    exact this.imp (by simp)
  have hlt : v.Pairwise (· < ·) := (hsort.and hnd).imp fun h => lt_of_le_of_ne h.1 h.2
  refine ⟨ofFn [v.length] (fun i => ((v.getD (i.headD 0) 0 : Int) : R)), ?_, ⟨v.length, rfl, fun i j hij hj => ?_⟩, fun w => ?_⟩
  · simp only [setDiff1d, ha, hb]
    subst hv
    rfl
  · have hi : i < v.length := by omega
    show ((v.getD i 0 : Int) : R) < ((v.getD j 0 : Int) : R)
    rw [List.getD_eq_getElem?_getD, List.getD_eq_getElem?_getD, List.getElem?_eq_getElem hi, List.getElem?_eq_getElem hj, Option.getD_some, Option.getD_some, Int.cast_lt]
    exact List.pairwise_iff_getElem.1 hlt i j hi hj hij
  · have hmem : ∀ k : Int, k ∈ v ↔ (∃ a, Occurs a x0 ∧ toIsize a = some k) ∧ ¬ ∃ b, Occurs b x1 ∧ toIsize b = some k := by
      intro k
      rw [hp.mem_iff, List.mem_filter, hma, ← hmb]
      simp
    simp only [← hmem]
    constructor
    · rintro ⟨i, hi, rfl⟩
      obtain ⟨j, rfl⟩ : ∃ j, i = [j] := by
        rcases i with _ | ⟨j, _ | _⟩
        · simp [InB, ofFn] at hi
        · exact ⟨j, rfl⟩
        · simp [InB, ofFn] at hi
      have hj : j < v.length := by simpa [InB, ofFn] using hi
      exact ⟨v[j], by simp [ofFn, hj], List.getElem_mem hj⟩
    · rintro ⟨k, rfl, hk⟩
      obtain ⟨j, hj, rfl⟩ := List.getElem_of_mem hk
      exact ⟨[j], by simpa [InB, ofFn] using hj, by simp [ofFn, hj]⟩

/-- **C57** partial (arrays of integers, row-major and without gaps): the result is the strictly increasing vector of the numbers that occur in the first array and not in the
second. Missing: other numbers and other layouts, for which this is false, see below. -/
theorem C57_difference_partial [Ring R] [LinearOrder R] [IsStrictOrderedRing R] (toIsize : R → Option Int) (iter : List Int → List Int) (x0 x1 : Arr R)
    (hi : ∀ l, (iter l).Perm l) (h0 : isStandard x0.shape x0.strides = true) (h1 : isStandard x1.shape x1.strides = true)
    (ht : ∀ k : Int, toIsize (k : R) = some k) (hx0 : ∀ v, Occurs v x0 → ∃ k : Int, v = k) (hx1 : ∀ v, Occurs v x1 → ∃ k : Int, v = k) :
    ∃ r, setDiff1d toIsize iter x0 x1 = .ok r ∧ Increasing r ∧ ∀ v, Occurs v r ↔ Occurs v x0 ∧ ¬ Occurs v x1 := by
  obtain ⟨r, e1, e2, e3⟩ := C57_truncated toIsize iter x0 x1 hi h0 h1 (fun v hv => by obtain ⟨k, rfl⟩ := hx0 v hv; rw [ht]; rfl)
    (fun v hv => by obtain ⟨k, rfl⟩ := hx1 v hv; rw [ht]; rfl)
  refine ⟨r, e1, e2, fun v => ?_⟩
  rw [e3]
  constructor
  · rintro ⟨k, rfl, ⟨a, ha, hk⟩, hn⟩
    obtain ⟨k', rfl⟩ := hx0 a ha
    rw [ht] at hk
    cases hk
    exact ⟨ha, fun hb => hn ⟨_, hb, ht _⟩⟩
  · rintro ⟨ha, hn⟩
    obtain ⟨k, rfl⟩ := hx0 v ha
    refine ⟨k, rfl, ⟨_, ha, ht k⟩, ?_⟩
    rintro ⟨b, hb, hk⟩
    obtain ⟨k', rfl⟩ := hx1 b hb
    rw [ht] at hk
    cases hk
    exact hn hb

/-- The example of the documentation: [4, 1, 5, 2] without [[2, 3], [1, 7]]. -/
def sdA : Arr ℚ := ofFn [4] fun i => ([4, 1, 5, 2] : List ℚ).getD (i.headD 0) 0
def sdB : Arr ℚ := ofFn [2, 2] fun i => ([2, 3, 1, 7] : List ℚ).getD (flat [2, 2] i) 0

example : (∀ l : List Int, l.reverse.Perm l) ∧ isStandard sdA.shape sdA.strides = true ∧ isStandard sdB.shape sdB.strides = true ∧
    (∀ k : Int, truncate (k : ℚ) = some k) ∧ (∀ v, Occurs v sdA → ∃ k : Int, v = k) ∧ (∀ v, Occurs v sdB → ∃ k : Int, v = k) := by
  refine ⟨fun l => List.reverse_perm l, rfl, rfl, fun k => ?_, fun v hv => ?_, fun v hv => ?_⟩
  · simp [truncate]
  · have hv : v ∈ ([4, 1, 5, 2] : List ℚ) := mem_elems.2 hv
    simp at hv
    rcases hv with rfl | rfl | rfl | rfl
    exacts [⟨4, by norm_num⟩, ⟨1, by norm_num⟩, ⟨5, by norm_num⟩, ⟨2, by norm_num⟩]
  · have hv : v ∈ ([2, 3, 1, 7] : List ℚ) := mem_elems.2 hv
    simp at hv
    rcases hv with rfl | rfl | rfl | rfl
    exacts [⟨2, by norm_num⟩, ⟨3, by norm_num⟩, ⟨1, by norm_num⟩, ⟨7, by norm_num⟩]

/-- **C57** violated for numbers that are not integers: `3/2` is lost although the second array does not contain it, and it is replaced by `1` when the second array is
empty. -/
theorem C57_fractions_violated (iter : List Int → List Int) (hi : ∀ l, (iter l).Perm l) :
    (∃ r, setDiff1d truncate iter (ofFn [1] fun _ => 3 / 2) (ofFn [1] fun _ => 5 / 4) = .ok r ∧ ¬ Occurs (3 / 2) r) ∧
    ∃ r, setDiff1d truncate iter (ofFn [1] fun _ => 3 / 2) (ofFn [0] fun _ => 0) = .ok r ∧ Occurs 1 r := by
  have t : ∀ v : ℚ, (truncate v).isSome := fun _ => rfl
  have t1 : truncate (3 / 2) = some 1 := by rw [truncate, if_pos (by norm_num)]; norm_num [Int.floor_eq_iff]
  obtain ⟨r, e1, _, e3⟩ := C57_truncated truncate iter (ofFn [1] fun _ => 3 / 2) (ofFn [1] fun _ => 5 / 4) hi rfl rfl (fun v _ => t v) (fun v _ => t v)
  obtain ⟨r', e1', _, e3'⟩ := C57_truncated truncate iter (ofFn [1] fun _ => 3 / 2) (ofFn [0] fun _ => 0) hi rfl rfl (fun v _ => t v) (fun v _ => t v)
  refine ⟨⟨r, e1, fun h => ?_⟩, r', e1', ?_⟩
  · obtain ⟨k, hk, -⟩ := (e3 _).1 h
    have h2 : (3 : ℚ) = ((2 * k : Int) : ℚ) := by push_cast; rw [← hk]; norm_num
    have : (3 : Int) = 2 * k := by exact_mod_cast h2
    omega
  · refine (e3' _).2 ⟨1, by norm_num, ⟨3 / 2, ⟨[0], by simp [InB, ofFn], rfl⟩, t1⟩, ?_⟩
    rintro ⟨b, ⟨i, hi, _⟩, _⟩
    rcases i with _ | ⟨j, _ | _⟩ <;> simp [InB, ofFn] at hi

/-- **C57** violated for arrays that are not row-major without gaps, a transposed matrix for example: `setdiff1d` panics. -/
theorem C57_layout_violated [IntCast R] (toIsize : R → Option Int) (iter : List Int → List Int) (x0 x1 : Arr R)
    (h : isStandard x0.shape x0.strides = false ∨ isStandard x0.shape x0.strides = true ∧ (∀ v, Occurs v x0 → (toIsize v).isSome) ∧ isStandard x1.shape x1.strides = false) :
    setDiff1d toIsize iter x0 x1 = .error .panic := by
  rcases h with h | ⟨h, h', h''⟩
  · simp only [setDiff1d, collectSet, asSlice, h]
    rfl
  · obtain ⟨a, ha, _⟩ := collect_ok h h'
    have hb : collectSet toIsize x1 = .error .panic := by
      simp only [collectSet, asSlice, h'']
      rfl
    simp only [setDiff1d, ha, hb]
    rfl

example : isStandard [2, 3] [1, 2] = false := rfl

end Verif.Props
