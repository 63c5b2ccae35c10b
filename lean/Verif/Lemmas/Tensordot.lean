import Verif.Model.Tensordot
import Verif.Lemmas.MatMul
import Verif.Lemmas.Reductions
import Verif.Lemmas.Rearrange
import Verif.Lemmas.Gather

/-!
# Lemmas about tensordot
-/

namespace Verif.Nd
open Finset
variable {R : Type}

theorem viewOffset_flat (s o : List Nat) (h : o.length = s.length) : viewOffset o (cStrides s) = flat s o := by
  have := viewOffset_cStrides s o h 1
  simpa using this

theorem toView_get (a : Arr R) {o : List Nat} (h : InB o a.shape) : (toView a).arr.get o = a.get o := by
  show a.get (unflat a.shape (viewOffset o (cStrides a.shape)).toNat) = _
  rw [viewOffset_flat _ _ (inB_length h), Int.toNat_natCast, unflat_flat h]

theorem dropAt_eq_map (A : List Nat) (i : Nat) (l : List Nat) :
    dropAt A i l = ((List.range l.length).filter (fun k => !A.contains (i + k))).map (fun k => l.getD k 0) := by
  induction l generalizing i with
  | nil => rfl
  | cons x l ih =>
    rw [dropAt, List.length_cons, List.range_succ_eq_map, List.filter_cons, List.filter_map, ih]
    have e : (List.map (fun k => (x :: l).getD k 0) (List.map Nat.succ (List.filter ((fun k => !A.contains (i + k)) ∘ Nat.succ) (List.range l.length)))) =
        List.map (fun k => l.getD k 0) (List.filter (fun k => !A.contains (i + 1 + k)) (List.range l.length)) := by
      rw [List.map_map]
      have : ((fun k => !A.contains (i + k)) ∘ Nat.succ) = fun k => !A.contains (i + 1 + k) := by
        funext k; simp only [Function.comp]; congr 2; omega
      rw [this]
      exact List.map_congr_left fun k _ => by simp
    by_cases h : i ∈ A
    · rw [if_pos h, if_neg (by simpa using h), e]
    · rw [if_neg h, if_pos (by simpa using h), List.map_cons, e]; simp

theorem free_map (A o : List Nat) : (freeAxes o.length A).map (fun k => o.getD k 0) = dropAt A 0 o := by
  rw [dropAt_eq_map]
  simp [freeAxes]

theorem free_perm {n : Nat} {A : List Nat} (hn : A.Nodup) (hl : ∀ k ∈ A, k < n) : (freeAxes n A ++ A).Perm (List.range n) := by
  refine (List.perm_ext_iff_of_nodup (List.Nodup.append (List.nodup_range.filter _) hn ?_) List.nodup_range).2 fun k => ?_
  · intro k h1 h2
    simp at h1
    exact h1.2 h2
  · simp only [List.mem_append, List.mem_filter, List.mem_range]
    by_cases h : k ∈ A
    · simp [h, hl k h]
    · simp [h]

theorem repeated_length {n : Nat} {A : List Nat} (h : ¬ A.Nodup) : (freeAxes n A ++ A).length ≠ n := by
  intro hl
  have hsub : List.range n ⊆ freeAxes n A ++ A := fun k hk => by
    by_cases hm : k ∈ A <;> simp_all [freeAxes]
  have hp : (List.range n).Perm (freeAxes n A ++ A) :=
    (List.subperm_of_subset List.nodup_range hsub).perm_of_length_le (by rw [hl, List.length_range])
  exact h (List.nodup_append.1 (hp.nodup_iff.1 List.nodup_range)).2.1

/-- An index is determined by its entries at the free axes and at the contracted ones. -/
theorem index_ext {n : Nat} {A o o' : List Nat} (hn : A.Nodup) (hl : ∀ k ∈ A, k < n) (ho : o.length = n) (ho' : o'.length = n)
    (h1 : dropAt A 0 o = dropAt A 0 o') (h2 : A.map (fun k => o.getD k 0) = A.map (fun k => o'.getD k 0)) : o = o' := by
  refine perm_inj (free_perm hn hl) ho ho' ?_
  have e1 := free_map A o
  have e2 := free_map A o'
  rw [ho] at e1
  rw [ho'] at e2
  rw [List.map_append, List.map_append, e1, e2, h1, h2]

/-- The index with given entries. -/
theorem index_exists {A s i c : List Nat} (hn : A.Nodup) (hl : ∀ k ∈ A, k < s.length) (hi : InB i (dropAt A 0 s)) (hc : InB c (A.map (fun k => s.getD k 0))) :
    ∃ o, InB o s ∧ dropAt A 0 o = i ∧ A.map (fun k => o.getD k 0) = c := by
  have hp := free_perm hn hl
  have hb : InB (i ++ c) ((freeAxes s.length A ++ A).map (fun k => s.getD k 0)) := by
    rw [List.map_append, free_map]; exact inB_append hi hc
  refine ⟨unperm s.length (freeAxes s.length A ++ A) (i ++ c), inB_unperm rfl hp hb, ?_⟩
  have hul : (unperm s.length (freeAxes s.length A ++ A) (i ++ c)).length = s.length := by simp [unperm]
  have := perm_unperm hp (i := i ++ c) (by rw [inB_length hb, List.length_map, hp.length_eq, List.length_range])
  rw [List.map_append] at this
  have e := free_map A (unperm s.length (freeAxes s.length A ++ A) (i ++ c))
  rw [hul] at e
  rw [e] at this
  refine List.append_inj this ?_
  rw [← e, List.length_map, inB_length hi, ← free_map, List.length_map]

theorem inB_axes {A s o : List Nat} (hl : ∀ k ∈ A, k < s.length) (h : InB o s) : InB (A.map (fun k => o.getD k 0)) (A.map (fun k => s.getD k 0)) := by
  rw [InB, List.forall₂_map_left_iff, List.forall₂_map_right_iff, List.forall₂_same]
  intro k hk
  have := (inB_iff.1 h).2 k (by rw [inB_length h]; exact hl k hk) (hl k hk)
  simpa [List.getD_eq_getElem?_getD, hl k hk, inB_length h] using this

/-- Sum over the indices with given free entries. -/
theorem sum_free [AddCommMonoid R] {A s : List Nat} (hl : ∀ k ∈ A, k < s.length) (i : List Nat)
    (f : List Nat → List Nat → R) :
    ∑ o ∈ (idxs s).filter (fun o => dropAt A 0 o = i), f o (A.map (fun k => o.getD k 0)) =
      ∑ c ∈ idxs (A.map (fun k => s.getD k 0)), ∑ o ∈ (idxs s).filter (fun o => dropAt A 0 o = i ∧ A.map (fun k => o.getD k 0) = c), f o c := by
  rw [← sum_fiberwise_of_maps_to (s := (idxs s).filter (fun o => dropAt A 0 o = i)) (t := idxs (A.map (fun k => s.getD k 0)))
    (g := fun o => A.map (fun k => o.getD k 0))]
  · refine sum_congr rfl fun c _ => ?_
    rw [filter_filter]
    refine sum_congr rfl fun o ho => ?_
    rw [(mem_filter.1 ho).2.2]
  · intro o ho
    exact mem_idxs.2 (inB_axes hl (mem_idxs.1 (mem_filter.1 ho).1))

/-- There is exactly one index with given entries. -/
theorem sum_single [AddCommMonoid R] {A s i c o : List Nat} (hn : A.Nodup) (hl : ∀ k ∈ A, k < s.length) (ho : InB o s) (h1 : dropAt A 0 o = i)
    (h2 : A.map (fun k => o.getD k 0) = c) (f : List Nat → R) :
    ∑ o ∈ (idxs s).filter (fun o => dropAt A 0 o = i ∧ A.map (fun k => o.getD k 0) = c), f o = f o := by
  rw [sum_eq_single_of_mem o (mem_filter.2 ⟨mem_idxs.2 ho, h1, h2⟩)]
  intro o' ho' hne
  rw [mem_filter] at ho'
  exact absurd (index_ext hn hl (inB_length (mem_idxs.1 ho'.1)) (inB_length ho) (by rw [ho'.2.1, h1]) (by rw [ho'.2.2, h2])) hne

theorem sum_flat [AddCommMonoid R] (s : List Nat) (f : Nat → R) : ∑ q ∈ range (size s), f q = ∑ c ∈ idxs s, f (flat s c) := by
  symm
  refine sum_nbij' (flat s) (unflat s) (fun c hc => mem_range.2 (flat_lt (mem_idxs.1 hc))) (fun q hq => mem_idxs.2 (inB_unflat (mem_range.1 hq)))
    (fun c hc => unflat_flat (mem_idxs.1 hc)) (fun q hq => flat_unflat (mem_range.1 hq)) (fun _ _ => rfl)

theorem reshapesTo_shape (s t : List Nat) (h : size s = size t) : ReshapesTo t (shapeInts s) s := by
  refine ⟨prod_eq_iff_size.2 h, ?_, ?_, ?_⟩
  · have : (shapeInts s).count (-1) = 0 := by
      rw [List.count_eq_zero]
      simp [shapeInts]
    omega
  · rw [shapeInts, List.forall₂_map_left_iff, List.forall₂_same]
    exact fun n _ => .inr rfl
  · intro k hk
    rw [shapeInts, List.getElem?_map] at hk
    cases hs : s[k]? with
    | none => simp [hs] at hk
    | some n => simp [hs] at hk

/-- Grouping the axes of an array into two gives a matrix. -/
theorem group_spec (x : Arr R) (p q : List Nat) (hp : (p ++ q).Perm (List.range x.shape.length)) :
    ∃ t r, transpose x (p ++ q) false = .ok t ∧ reshape t (shapeInts [size (p.map (fun k => x.shape.getD k 0)), size (q.map (fun k => x.shape.getD k 0))]) = .ok r ∧
      t.shape = (p ++ q).map (fun k => x.shape.getD k 0) ∧ r.shape = [size (p.map (fun k => x.shape.getD k 0)), size (q.map (fun k => x.shape.getD k 0))] ∧
      ∀ o, InB o x.shape → r.get [flat (p.map (fun k => x.shape.getD k 0)) (p.map (fun k => o.getD k 0)),
        flat (q.map (fun k => x.shape.getD k 0)) (q.map (fun k => o.getD k 0))] = x.get o := by
  have hlen : (p ++ q).length = x.shape.length := by simpa using hp.length_eq
  obtain ⟨t, ht, hts, htg⟩ := permutedAxes_ok rfl hp
  obtain ⟨r, hr, hrs, hrg⟩ := reshape_ok (x := t) (reshapesTo_shape [size (p.map (fun k => x.shape.getD k 0)), size (q.map (fun k => x.shape.getD k 0))] t.shape
    (by rw [hts, List.map_append, size_append]; simp [size]))
  refine ⟨t, r, ?_, hr, hts, hrs, fun o ho => ?_⟩
  · rw [transpose, if_neg (by omega), transposeDims_false]; exact ht
  · have hb := inB_perm rfl hp ho
    rw [List.map_append, List.map_append] at hb
    have h1 : InB (p.map (fun k => o.getD k 0)) (p.map (fun k => x.shape.getD k 0)) ∧ InB (q.map (fun k => o.getD k 0)) (q.map (fun k => x.shape.getD k 0)) := by
      have hl : ∀ k ∈ p ++ q, k < x.shape.length := fun k hk => List.mem_range.1 (hp.mem_iff.1 hk)
      exact ⟨inB_axes (fun k hk => hl k (by simp [hk])) ho, inB_axes (fun k hk => hl k (by simp [hk])) ho⟩
    rw [hrg _ (.cons (flat_lt h1.1) (.cons (flat_lt h1.2) .nil))]
    have e : flat [size (p.map (fun k => x.shape.getD k 0)), size (q.map (fun k => x.shape.getD k 0))]
        [flat (p.map (fun k => x.shape.getD k 0)) (p.map (fun k => o.getD k 0)), flat (q.map (fun k => x.shape.getD k 0)) (q.map (fun k => o.getD k 0))] =
        flat t.shape ((p ++ q).map (fun k => o.getD k 0)) := by
      rw [hts, List.map_append, List.map_append, flat_append (by simp)]
      simp [flat, size]
    rw [e, unflat_flat (by rw [hts, List.map_append, List.map_append]; exact hb), htg o (inB_length ho)]

theorem tensordotPre_ok {shape axes : List Nat} (hl : ∀ k ∈ axes, k < shape.length) (flip : Bool) :
    tensordotPre shape axes flip = .ok (if flip then (axes ++ freeAxes shape.length axes, [size (axes.map (fun k => shape.getD k 0)), size (dropAt axes 0 shape)], dropAt axes 0 shape)
      else (freeAxes shape.length axes ++ axes, [size (dropAt axes 0 shape), size (axes.map (fun k => shape.getD k 0))], dropAt axes 0 shape)) := by
  rw [tensordotPre, if_pos (by simpa using hl)]
  simp only [free_map]

/-- The operands as matrices. -/
theorem tensordotParts_ok {a b : Arr R} {aAxes bAxes : List Int} {ka kb : List Nat} (ha : List.Forall₂ (AxisIs a.shape.length) aAxes ka)
    (hb : List.Forall₂ (AxisIs b.shape.length) bAxes kb) (hna : ka.Nodup) (hnb : kb.Nodup) :
    ∃ ta ra tb rb, tensordotParts a b aAxes bAxes =
        .ok ((freeAxes a.shape.length ka ++ ka, ta, ra), (kb ++ freeAxes b.shape.length kb, tb, rb), dropAt ka 0 a.shape ++ dropAt kb 0 b.shape) ∧
      transpose a (freeAxes a.shape.length ka ++ ka) false = .ok ta ∧
      reshape ta (shapeInts [size (dropAt ka 0 a.shape), size (ka.map (fun k => a.shape.getD k 0))]) = .ok ra ∧
      transpose b (kb ++ freeAxes b.shape.length kb) false = .ok tb ∧
      reshape tb (shapeInts [size (kb.map (fun k => b.shape.getD k 0)), size (dropAt kb 0 b.shape)]) = .ok rb ∧
      ta.shape = (freeAxes a.shape.length ka ++ ka).map (fun k => a.shape.getD k 0) ∧
      tb.shape = (kb ++ freeAxes b.shape.length kb).map (fun k => b.shape.getD k 0) ∧
      ra.shape = [size (dropAt ka 0 a.shape), size (ka.map (fun k => a.shape.getD k 0))] ∧
      rb.shape = [size (kb.map (fun k => b.shape.getD k 0)), size (dropAt kb 0 b.shape)] ∧
      (∀ o, InB o a.shape → ra.get [flat (dropAt ka 0 a.shape) (dropAt ka 0 o), flat (ka.map (fun k => a.shape.getD k 0)) (ka.map (fun k => o.getD k 0))] = a.get o) ∧
      (∀ o, InB o b.shape → rb.get [flat (kb.map (fun k => b.shape.getD k 0)) (kb.map (fun k => o.getD k 0)), flat (dropAt kb 0 b.shape) (dropAt kb 0 o)] = b.get o) := by
  have hla := axes_lt ha
  have hlb := axes_lt hb
  obtain ⟨ta, ra, h1, h2, h3, h4, h5⟩ := group_spec a _ _ (free_perm hna hla)
  obtain ⟨tb, rb, h1', h2', h3', h4', h5'⟩ := group_spec b _ _ (List.perm_append_comm.trans (free_perm hnb hlb))
  rw [free_map] at h2 h4 h2' h4'
  refine ⟨ta, ra, tb, rb, ?_, h1, h2, h1', h2', h3, h3', h4, h4', fun o ho => ?_, fun o ho => ?_⟩
  · simp only [tensordotParts, normAxes_spec ha, normAxes_spec hb, tensordotPre_ok hla, tensordotPre_ok hlb, bind, Except.bind, Bool.false_eq_true, if_false, if_true,
      h1, h2, h1', h2']
  · have e := free_map ka o
    rw [inB_length ho] at e
    rw [← h5 o ho, free_map, e]
  · have e := free_map kb o
    rw [inB_length ho] at e
    rw [← h5' o ho, free_map, e]

theorem matMulArr_spec [NonUnitalNonAssocSemiring R] (a b : Arr R) (m k n : Nat) (ha : a.shape = [m, k]) (hb : b.shape = [k, n]) :
    ∃ y, matMulArr a b = .ok y ∧ y.shape = [m, n] ∧ ∀ i < m, ∀ j < n, y.get [i, j] = ∑ p ∈ range k, a.get [i, p] * b.get [p, j] := by
  obtain ⟨y, hy, hs, he⟩ := matMul_spec false false (toView a) (toView b) m k n (by simp [toView, cStrides_length, ha]) (by simp [toView, cStrides_length, hb])
    ha hb
  refine ⟨y, hy, hs, fun i hi j hj => (he [] (by simp) i hi j hj).trans (sum_congr rfl fun p hp => ?_)⟩
  have hp := mem_range.1 hp
  show (toView a).arr.get [i, p] * (toView b).arr.get [p, j] = _
  rw [toView_get a (by rw [ha]; exact .cons hi (.cons hp .nil)), toView_get b (by rw [hb]; exact .cons hp (.cons hj .nil))]

end Verif.Nd
