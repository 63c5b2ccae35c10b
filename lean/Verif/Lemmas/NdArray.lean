import Mathlib.Algebra.BigOperators.Group.Finset.Sigma
import Mathlib.Data.List.InsertIdx
import Mathlib.Tactic.Ring
import Verif.Spec.NdArray

/-!
# Lemmas about indices, reshaping and folding
-/

namespace Verif.Nd
open Finset
variable {R : Type}

theorem inB_length {idx s : List Nat} (h : InB idx s) : idx.length = s.length := List.Forall₂.length_eq h

@[simp] theorem inB_nil {idx : List Nat} : InB idx [] ↔ idx = [] := List.forall₂_nil_right_iff

@[simp] theorem inB_cons {i n : Nat} {idx s : List Nat} : InB (i :: idx) (n :: s) ↔ i < n ∧ InB idx s := List.forall₂_cons

theorem inB_iff {idx s : List Nat} : InB idx s ↔ idx.length = s.length ∧ ∀ k (h : k < idx.length) (h' : k < s.length), idx[k] < s[k] := by
  unfold InB
  rw [List.forall₂_iff_get]
  simp only [List.get_eq_getElem]

theorem inB_reverse {idx s : List Nat} : InB idx.reverse s.reverse ↔ InB idx s := List.forall₂_reverse_iff

@[simp] theorem mem_idxs {s idx : List Nat} : idx ∈ idxs s ↔ InB idx s := by
  induction s generalizing idx with
  | nil => simp [idxs]
  | cons n s ih =>
    cases idx with
    | nil => simp [idxs, InB]
    | cons i is => simp [idxs, ih]

theorem size_pos_of_inB {s idx : List Nat} (h : InB idx s) : 0 < size s := by
  induction s generalizing idx with
  | nil => simp [size]
  | cons n s ih =>
    cases idx with
    | nil => simp [InB] at h
    | cons i is =>
      simp only [inB_cons] at h
      have := ih h.2
      simp only [size]
      exact Nat.mul_pos (by omega) this

theorem flat_lt {s idx : List Nat} (h : InB idx s) : flat s idx < size s := by
  induction s generalizing idx with
  | nil => simp at h; subst h; simp [flat, size]
  | cons n s ih =>
    cases idx with
    | nil => simp [InB] at h
    | cons i is =>
      simp only [inB_cons] at h
      have := ih h.2
      simp only [size, flat]
      calc i * size s + flat s is < i * size s + size s := by omega
        _ = (i + 1) * size s := by ring
        _ ≤ n * size s := Nat.mul_le_mul_right _ h.1

theorem unflat_flat {s idx : List Nat} (h : InB idx s) : unflat s (flat s idx) = idx := by
  induction s generalizing idx with
  | nil => simp at h; subst h; simp [unflat]
  | cons n s ih =>
    cases idx with
    | nil => simp [InB] at h
    | cons i is =>
      simp only [inB_cons] at h
      have hlt := flat_lt h.2
      simp only [flat, unflat]
      have h1 : (i * size s + flat s is) % size s = flat s is := by
        rw [Nat.add_comm, Nat.add_mul_mod_self_right, Nat.mod_eq_of_lt hlt]
      have h2 : (i * size s + flat s is) / size s = i := by
        rw [Nat.add_comm, Nat.add_mul_div_right _ _ (by omega), Nat.div_eq_of_lt hlt]; simp
      rw [h1, h2, ih h.2]

theorem inB_unflat {s : List Nat} {k : Nat} (h : k < size s) : InB (unflat s k) s := by
  induction s generalizing k with
  | nil => simp [unflat]
  | cons n s ih =>
    simp only [size] at h
    have hp : 0 < size s := Nat.pos_of_ne_zero (by rintro h0; simp [h0] at h)
    simp only [unflat, inB_cons]
    exact ⟨Nat.div_lt_of_lt_mul (by rwa [Nat.mul_comm]), ih (Nat.mod_lt _ hp)⟩

theorem flat_unflat {s : List Nat} {k : Nat} (h : k < size s) : flat s (unflat s k) = k := by
  induction s generalizing k with
  | nil => simp [size] at h; simp [flat, h]
  | cons n s ih =>
    simp only [size] at h
    have hp : 0 < size s := Nat.pos_of_ne_zero (by rintro h0; simp [h0] at h)
    simp only [unflat, flat]
    rw [ih (Nat.mod_lt _ hp)]
    exact Nat.div_add_mod' k (size s)

/-! Inserting and removing coordinates. -/

theorem inB_insertIdx {s idx : List Nat} {k i n : Nat} (hk : k ≤ s.length) (hl : idx.length = s.length) :
    InB (idx.insertIdx k i) (s.insertIdx k n) ↔ i < n ∧ InB idx s := by
  induction s generalizing idx k with
  | nil =>
    have : idx = [] := List.length_eq_zero_iff.1 (by simpa using hl)
    subst this
    have : k = 0 := by simpa using hk
    subst this; simp
  | cons m s ih =>
    cases idx with
    | nil => simp at hl
    | cons j idx =>
      cases k with
      | zero => simp
      | succ k =>
        simp only [List.insertIdx_succ_cons, inB_cons]
        rw [ih (by simpa using hk) (by simpa using hl)]
        tauto

theorem inB_eraseIdx {s idx : List Nat} (k : Nat) (h : InB idx s) : InB (idx.eraseIdx k) (s.eraseIdx k) := by
  induction s generalizing idx k with
  | nil => simp at h; subst h; simp
  | cons m s ih =>
    cases idx with
    | nil => simp [InB] at h
    | cons j idx =>
      simp only [inB_cons] at h
      cases k with
      | zero => simpa using h.2
      | succ k => simpa using ⟨h.1, ih k h.2⟩

theorem inB_insert_erase {s idx : List Nat} {k n i : Nat} (hn : s[k]? = some n) (hi : i < n)
    (h : InB idx (s.eraseIdx k)) : InB (idx.insertIdx k i) s := by
  induction s generalizing idx k with
  | nil => simp at hn
  | cons m s ih =>
    cases k with
    | zero => simp at hn h ⊢; subst hn; exact ⟨hi, h⟩
    | succ k =>
      simp only [List.eraseIdx_cons_succ] at h
      cases idx with
      | nil => simp [InB] at h
      | cons j idx =>
        simp only [inB_cons] at h
        simp only [List.insertIdx_succ_cons, inB_cons]
        exact ⟨h.1, ih (by simpa using hn) h.2⟩

theorem size_insertIdx_one (s : List Nat) (k : Nat) : size (s.insertIdx k 1) = size s := by
  induction s generalizing k with
  | nil => cases k <;> simp [size]
  | cons m s ih => cases k <;> simp [size, ih]

theorem size_append (s t : List Nat) : size (s ++ t) = size s * size t := by
  induction s with
  | nil => simp [size]
  | cons n s ih => simp [size, ih, Nat.mul_assoc]

theorem size_reverse (s : List Nat) : size s.reverse = size s := by
  induction s with
  | nil => rfl
  | cons n s ih => simp [size, size_append, ih, Nat.mul_comm]

theorem flat_insertIdx_one {s idx : List Nat} {k : Nat} (hk : k ≤ s.length) (hl : idx.length = s.length) :
    flat (s.insertIdx k 1) (idx.insertIdx k 0) = flat s idx := by
  induction s generalizing idx k with
  | nil =>
    have : idx = [] := List.length_eq_zero_iff.1 (by simpa using hl)
    subst this
    have : k = 0 := by simpa using hk
    subst this; simp [flat]
  | cons m s ih =>
    cases idx with
    | nil => simp at hl
    | cons j idx =>
      cases k with
      | zero => simp [flat]
      | succ k =>
        simp only [List.insertIdx_succ_cons, flat]
        rw [ih (by simpa using hk) (by simpa using hl), size_insertIdx_one]

/-! Row-major arrays. -/

theorem cStrides_length (s : List Nat) : (cStrides s).length = s.length := by
  induction s with
  | nil => rfl
  | cons n s ih => simp [cStrides, ih]

theorem layoutLoop_append (ds ds' : List Nat) (ss ss' : List Int) (c : Int) (hl : ds.length = ss.length) :
    layoutLoop (ds ++ ds') (ss ++ ss') c
      = (layoutLoop ds ss c && layoutLoop ds' ss' (c * size ds)) := by
  induction ds generalizing ss c with
  | nil =>
    have : ss = [] := List.length_eq_zero_iff.1 (by simpa using hl.symm)
    subst this
    simp [layoutLoop, size]
  | cons d ds ih =>
    cases ss with
    | nil => simp at hl
    | cons s ss =>
      simp only [List.cons_append, layoutLoop, size]
      split
      · rename_i hd; subst hd; rw [ih _ _ (by simpa using hl)]; simp
      · rw [ih _ _ (by simpa using hl), Bool.and_assoc]
        congr 3
        push_cast; ring

theorem layoutLoop_cStrides (s : List Nat) : layoutLoop s.reverse (cStrides s).reverse 1 = true := by
  induction s with
  | nil => simp [layoutLoop]
  | cons n s ih =>
    simp only [cStrides, List.reverse_cons]
    rw [layoutLoop_append _ _ _ _ _ (by simp [cStrides_length]), ih]
    simp [layoutLoop, size_reverse]

theorem isStandard_cStrides (s : List Nat) : isStandard s (cStrides s) = true := by
  simp [isStandard, layoutLoop_cStrides]

/-- `into_shape` of a row-major array keeps the row-major sequence. -/
theorem intoShape_standard {a : Arr R} {s : List Nat} (hst : isStandard a.shape a.strides = true) (hs : size s = size a.shape) :
    intoShape a s = some ⟨s, cStrides s, fun idx => a.get (unflat a.shape (flat s idx))⟩ := by
  simp [intoShape, hs, hst]

theorem expandDims_standard {a : Arr R} {k : Nat} (hst : isStandard a.shape a.strides = true) (hk : k ≤ a.shape.length) :
    ∃ r, expandDims a k = .ok r ∧ r.shape = a.shape.insertIdx k 1 ∧ r.strides = cStrides r.shape ∧
      ∀ idx, InB idx a.shape → r.get (idx.insertIdx k 0) = a.get idx := by
  refine ⟨_, by rw [expandDims, if_pos hk, intoShape_standard hst (size_insertIdx_one _ _)]; rfl, rfl, rfl, ?_⟩
  intro idx h
  simp only
  rw [flat_insertIdx_one hk (inB_length h), unflat_flat h]

/-! Fibre sums: `c` is obtained from `x` by summing over the fibres of a map of indices. -/

/-- `c` holds at every position the sum of the elements of `x` whose index is mapped to that position. -/
structure FiberSum {M : Type} [AddCommMonoid M] (x c : Arr M) (p : List Nat → List Nat) : Prop where
  maps : ∀ o, InB o x.shape → InB (p o) c.shape
  sum : ∀ idx, InB idx c.shape → c.get idx = ∑ o ∈ (idxs x.shape).filter (fun o => p o = idx), x.get o

variable {M : Type} [AddCommMonoid M]

theorem fiberSum_id (x : Arr M) : FiberSum x x id := by
  refine ⟨fun o h => h, fun idx h => ?_⟩
  have : (idxs x.shape).filter (fun o => id o = idx) = {idx} := by
    ext o; simp only [mem_filter, mem_idxs, id, mem_singleton]
    exact ⟨fun h => h.2, fun h' => ⟨h' ▸ h, h'⟩⟩
  rw [this]; simp

theorem foldl_range_add (n : Nat) (f : Nat → M) (b : M) :
    (List.range n).foldl (fun acc j => acc + f j) b = b + ∑ j ∈ Finset.range n, f j := by
  induction n with
  | zero => simp
  | succ n ih => rw [List.range_succ, List.foldl_append, ih, Finset.sum_range_succ]; simp [add_assoc]

theorem FiberSum.foldAxis {x c : Arr M} {p : List Nat → List Nat} (h : FiberSum x c p) {k : Nat} (hk : k < c.shape.length) :
    ∃ r, foldAxis c k 0 (· + ·) = .ok r ∧ r.shape = c.shape.eraseIdx k ∧ r.strides = cStrides r.shape ∧
      FiberSum x r (fun o => (p o).eraseIdx k) := by
  have hn : c.shape[k]? = some c.shape[k] := List.getElem?_eq_getElem hk
  refine ⟨_, by rw [Nd.foldAxis, hn], rfl, rfl, fun o ho => inB_eraseIdx k (h.maps o ho), ?_⟩
  intro idx hidx
  change InB idx (c.shape.eraseIdx k) at hidx
  change (List.range c.shape[k]).foldl (fun acc j => acc + c.get (idx.insertIdx k j)) 0 = _
  rw [foldl_range_add, zero_add]
  rw [Finset.sum_congr rfl (fun j hj => h.sum _ (inB_insert_erase hn (by simpa using hj) hidx))]
  rw [← Finset.sum_fiberwise_of_maps_to (s := (idxs x.shape).filter (fun o => (p o).eraseIdx k = idx))
    (t := Finset.range c.shape[k]) (g := fun o => ((p o)[k]?).getD 0)]
  · refine Finset.sum_congr rfl (fun j hj => Finset.sum_congr ?_ (fun _ _ => rfl))
    ext o
    simp only [mem_filter, mem_idxs]
    constructor
    · rintro ⟨ho, hp⟩
      have hlen : k < (p o).length := by rw [inB_length (h.maps o ho)]; exact hk
      refine ⟨⟨ho, by rw [hp, List.eraseIdx_insertIdx_self]⟩, ?_⟩
      have hkl : k ≤ idx.length := by
        have := inB_length hidx
        rw [List.length_eraseIdx_of_lt hk] at this; omega
      rw [hp, List.getElem?_insertIdx_self, if_pos hkl]; rfl
    · rintro ⟨⟨ho, hp⟩, hj'⟩
      have hlen : k < (p o).length := by rw [inB_length (h.maps o ho)]; exact hk
      refine ⟨ho, ?_⟩
      rw [List.getElem?_eq_getElem hlen, Option.getD_some] at hj'
      rw [← hp, ← hj', List.insertIdx_eraseIdx_getElem hlen]
  · intro o ho
    simp only [mem_filter, mem_idxs] at ho
    have hb := (inB_iff.1 (h.maps o ho.1))
    have hlen : k < (p o).length := by rw [hb.1]; exact hk
    rw [List.getElem?_eq_getElem hlen]
    simpa using hb.2 k hlen hk

theorem FiberSum.expandDims {x c : Arr M} {p : List Nat → List Nat} (h : FiberSum x c p) {k : Nat}
    (hst : isStandard c.shape c.strides = true) (hk : k ≤ c.shape.length) :
    ∃ r, expandDims c k = .ok r ∧ r.shape = c.shape.insertIdx k 1 ∧ r.strides = cStrides r.shape ∧
      FiberSum x r (fun o => (p o).insertIdx k 0) := by
  obtain ⟨r, hr, hs, hstr, hg⟩ := expandDims_standard hst hk
  refine ⟨r, hr, hs, hstr, ?_, ?_⟩
  · intro o ho
    rw [hs]
    exact (inB_insertIdx hk (inB_length (h.maps o ho))).2 ⟨by omega, h.maps o ho⟩
  · intro idx hidx
    rw [hs] at hidx
    have hlen := inB_length hidx
    rw [List.length_insertIdx_of_le_length hk] at hlen
    have hk' : k < idx.length := by omega
    have he : InB (idx.eraseIdx k) c.shape := by
      have := inB_eraseIdx k hidx
      rwa [List.eraseIdx_insertIdx_self] at this
    have hi0 : idx[k] = 0 := by
      have := (inB_iff.1 hidx).2 k hk' (by rw [List.length_insertIdx_of_le_length hk]; omega)
      rw [List.getElem_insertIdx_self] at this; omega
    have hid : (idx.eraseIdx k).insertIdx k 0 = idx := by
      rw [← hi0, List.insertIdx_eraseIdx_getElem hk']
    have hcg := hg _ he
    rw [hid] at hcg
    rw [hcg, h.sum _ he]
    refine Finset.sum_congr ?_ (fun _ _ => rfl)
    ext o
    simp only [mem_filter, mem_idxs]
    refine and_congr_right fun ho => ⟨fun h' => by rw [h', hid], fun h' => by rw [← h', List.eraseIdx_insertIdx_self]⟩

end Verif.Nd
