import Verif.Lemmas.Broadcast
import Verif.Spec.Layout

/-!
# The memory layout of the results of `map`, `to_owned` and arithmetic on arrays
-/

namespace Verif.Nd
variable {R S : Type}

theorem fStrides_len (s : List Nat) : (fStrides s).length = s.length := by simp [fStrides, cStrides_length]

theorem contig_fStrides (s : List Nat) : Contig s (fStrides s) := by
  match s with
  | [] => exact .inl rfl
  | [n] => exact .inl (isStandard_cStrides [n])
  | a :: b :: s =>
    refine .inr ⟨by simp, ?_⟩
    rw [fStrides, List.reverse_reverse]
    exact isStandard_cStrides _

/-- A layout that `into_shape` accepts, with one stride for every dimension. -/
def Neat (shape : List Nat) (strides : List Int) : Prop := Contig shape strides ∧ strides.length = shape.length

theorem neat_c (s : List Nat) : Neat s (cStrides s) := ⟨.inl (isStandard_cStrides s), cStrides_length s⟩

theorem neat_f (s : List Nat) : Neat s (fStrides s) := ⟨contig_fStrides s, fStrides_len s⟩

theorem neat_zipStrides (a : Arr R) (b : Arr S) (s : List Nat) : Neat s (zipStrides a b s) := by
  unfold zipStrides
  split
  · split
    · exact neat_f s
    · exact neat_c s
  · exact neat_c s

theorem neat_zip {f : R → R → R} {a b r : Arr R} (h : zipOp f a b = .ok r) : Neat r.shape r.strides := by
  unfold zipOp at h
  split at h
  · cases h; exact neat_zipStrides _ _ _
  · cases h

theorem isDense_length {s : List Nat} {st : List Int} (h : isDense s st = true) : st.length = s.length := by
  unfold isDense at h
  simp only [Bool.and_eq_true, beq_iff_eq] at h
  exact h.1

theorem neat_map {f : R → S} {a : Arr R} (h : isDense a.shape a.strides = true → Contig a.shape a.strides) : Neat (map f a).shape (map f a).strides := by
  show Neat a.shape (if isDense a.shape a.strides then a.strides else cStrides a.shape)
  split
  · rename_i hd; exact ⟨h hd, isDense_length hd⟩
  · exact neat_c _

theorem contig_nil (st : List Int) : Contig [] st := .inl (by simp [isStandard, layoutLoop])

theorem neat_map_nil {f : R → S} {a : Arr R} (h : a.shape = []) : Neat (map f a).shape (map f a).strides :=
  neat_map fun _ => by rw [h]; exact contig_nil _

/-! ## Copies of broadcast arrays -/

theorem mem_insertStride {p q : Nat × Int} {l : List (Nat × Int)} : q ∈ insertStride p l ↔ q = p ∨ q ∈ l := by
  induction l with
  | nil => simp [insertStride]
  | cons r l ih =>
    unfold insertStride
    split
    · simp
    · simp only [List.mem_cons, ih]; tauto

theorem mem_sortStrides {q : Nat × Int} {l : List (Nat × Int)} : q ∈ l.foldr insertStride [] ↔ q ∈ l := by
  induction l with
  | nil => simp
  | cons r l ih => rw [List.foldr_cons, mem_insertStride, ih, List.mem_cons]

theorem denseLoop_zero {l : List (Nat × Int)} {c : Nat} (hc : c ≠ 0) (hd : ∀ p ∈ l, p.1 ≠ 0) (h : denseLoop l c = true) : ∀ p ∈ l, p.2 = 0 → p.1 = 1 := by
  induction l generalizing c with
  | nil => simp
  | cons q l ih =>
    obtain ⟨d, s⟩ := q
    simp only [denseLoop, Bool.and_eq_true, Bool.or_eq_true, beq_iff_eq] at h
    intro p hp h0
    rcases List.mem_cons.1 hp with rfl | hp
    · rcases h.1 with h1 | h1
      · exact h1
      · simp only at h0; subst h0; simp at h1; exact absurd h1.symm hc
    · exact ih (Nat.mul_ne_zero hc (hd (d, s) (by simp))) (fun p hp => hd p (List.mem_cons_of_mem _ hp)) h.2 p hp h0

theorem size_ne_zero {s : List Nat} (h : ∀ d ∈ s, d ≠ 0) : size s ≠ 0 := by
  induction s with
  | nil => simp [size]
  | cons n s ih => exact Nat.mul_ne_zero (h n (by simp)) (ih fun d hd => h d (List.mem_cons_of_mem _ hd))

theorem cStrides_ne_zero {s : List Nat} (h : ∀ d ∈ s, d ≠ 0) : ∀ x ∈ cStrides s, x ≠ 0 := by
  induction s with
  | nil => simp [cStrides]
  | cons n s ih =>
    have h' : ∀ d ∈ s, d ≠ 0 := fun d hd => h d (List.mem_cons_of_mem _ hd)
    intro x hx
    rcases List.mem_cons.1 hx with rfl | hx
    · exact_mod_cast size_ne_zero h'
    · exact ih h' x hx

/-- In an array without gaps only dimensions of length 1 have stride 0. -/
theorem isDense_zero {s : List Nat} {st : List Int} (hd : ∀ d ∈ s, d ≠ 0) (h : isDense s st = true) : ∀ p ∈ s.zip st, p.2 = 0 → p.1 = 1 := by
  unfold isDense at h
  simp only [Bool.and_eq_true, Bool.or_eq_true, beq_iff_eq] at h
  intro p hp h0
  have hp1 : p.1 ∈ s := (List.of_mem_zip hp).1
  have hp2 : p.2 ∈ st := (List.of_mem_zip hp).2
  rcases h.2 with h | h
  · exact absurd h0 (cStrides_ne_zero hd _ (h ▸ hp2))
  · split at h
    · simp only [List.mem_singleton] at hp2
      rw [← hp2, h0] at h
      simp at h
    · refine denseLoop_zero one_ne_zero (fun q hq => hd _ (List.of_mem_zip (mem_sortStrides.1 hq)).1) h p (mem_sortStrides.2 hp) h0

/-- The strides of a broadcast dimension. -/
def bStride (p : Nat × Int) (n : Nat) : Int := if p.1 = n then p.2 else 0

theorem bcast_ones {sr tr : List Nat} {str : List Int} (hl : str.length = sr.length) (hb : bcastOk sr tr = true)
    (h : ∀ p ∈ tr.zip (List.zipWith bStride (sr.zip str) tr ++ List.replicate (tr.length - sr.length) 0), p.2 = 0 → p.1 = 1) :
    tr = sr ++ List.replicate (tr.length - sr.length) 1 ∧ List.zipWith bStride (sr.zip str) tr = str := by
  induction sr generalizing tr str with
  | nil =>
    cases str with
    | cons _ _ => simp at hl
    | nil =>
      refine ⟨?_, rfl⟩
      simp only [List.zip_nil_left, List.zipWith_nil_left, List.nil_append, List.length_nil, Nat.sub_zero] at h ⊢
      refine List.eq_replicate_iff.2 ⟨rfl, fun b hb => ?_⟩
      obtain ⟨i, hi, rfl⟩ := List.getElem_of_mem hb
      exact h (tr[i], 0) (List.mem_iff_getElem.2 ⟨i, by simpa using hi, by simp⟩) rfl
  | cons d sr ih =>
    cases str with
    | nil => simp at hl
    | cons s str =>
      cases tr with
      | nil => simp [bcastOk] at hb
      | cons n tr =>
        simp only [bcastOk, Bool.and_eq_true, Bool.or_eq_true, beq_iff_eq] at hb
        simp only [List.zip_cons_cons, List.zipWith_cons_cons, List.length_cons, Nat.add_sub_add_right, List.cons_append, List.mem_cons, forall_eq_or_imp] at h ⊢
        obtain ⟨h1, h2⟩ := ih (by simpa using hl) hb.2 h.2
        have hdn : d = n := by
          by_contra hne
          have := h.1 (by simp [bStride, hne])
          exact hne ((hb.1.resolve_left hne).trans this.symm)
        subst hdn
        refine ⟨by rw [← h1], ?_⟩
        rw [h2]
        simp [bStride]

theorem layoutLoop_ones_left (k : Nat) (x : Int) (s : List Nat) (st : List Int) (c : Int) :
    layoutLoop (List.replicate k 1 ++ s) (List.replicate k x ++ st) c = layoutLoop s st c := by
  induction k with
  | zero => rfl
  | succ k ih => simpa [List.replicate_succ, layoutLoop] using ih

theorem layoutLoop_ones_right (k : Nat) (x : Int) (s : List Nat) (st : List Int) (c : Int) (hl : st.length = s.length) (h : layoutLoop s st c = true) :
    layoutLoop (s ++ List.replicate k 1) (st ++ List.replicate k x) c = true := by
  induction s generalizing st c with
  | nil =>
    cases st with
    | cons _ _ => simp at hl
    | nil =>
      have := layoutLoop_ones_left k x [] [] c
      simp only [List.append_nil, List.nil_append] at this ⊢
      rw [this]; rfl
  | cons d s ih =>
    cases st with
    | nil => simp at hl
    | cons y st =>
      simp only [List.cons_append, layoutLoop] at h ⊢
      have hl' : st.length = s.length := by simpa using hl
      split
      · rename_i hd; rw [if_pos hd] at h; exact ih st c hl' h
      · rename_i hd
        rw [if_neg hd, Bool.and_eq_true] at h
        rw [Bool.and_eq_true]
        exact ⟨h.1, ih st _ hl' h.2⟩

theorem bcastOk_length {s t : List Nat} (h : bcastOk s t = true) : s.length ≤ t.length := by
  induction s generalizing t with
  | nil => simp
  | cons a s ih =>
    cases t with
    | nil => simp [bcastOk] at h
    | cons b t => simp only [bcastOk, Bool.and_eq_true] at h; simpa using ih h.2

/-- A copy of a broadcast row- or column-major array is row- or column-major. -/
theorem neat_toOwned {a b : Arr R} {t : List Nat} (ha : Neat a.shape a.strides) (h : broadcast a t = some b) : Neat (toOwned b).shape (toOwned b).strides := by
  refine neat_map fun hd => ?_
  have hlen := isDense_length hd
  unfold broadcast at h
  split at h
  · rename_i hb
    simp only [Option.some.injEq] at h
    subst h
    simp only at hd hlen ⊢
    by_cases h0 : ∀ d ∈ t, d ≠ 0
    · have hz := isDense_zero h0 hd
      have hle := bcastOk_length hb
      simp only [List.length_reverse] at hle
      change ∀ p ∈ t.zip (List.replicate (t.length - (List.zipWith bStride (a.shape.zip a.strides).reverse t.reverse).reverse.length) 0 ++
        (List.zipWith bStride (a.shape.zip a.strides).reverse t.reverse).reverse), _ at hz
      change Contig t (List.replicate (t.length - (List.zipWith bStride (a.shape.zip a.strides).reverse t.reverse).reverse.length) 0 ++
        (List.zipWith bStride (a.shape.zip a.strides).reverse t.reverse).reverse)
      have hrz : (a.shape.zip a.strides).reverse = a.shape.reverse.zip a.strides.reverse := by
        have := List.reverse_zipWith (f := Prod.mk) (l := a.shape) (l' := a.strides) ha.2.symm
        simpa [List.zip] using this
      have hlz : (List.zipWith bStride (a.shape.zip a.strides).reverse t.reverse).reverse.length = a.shape.length := by
        simp [ha.2]; omega
      rw [hlz] at hz ⊢
      rw [hrz] at hz ⊢
      obtain ⟨e1, e2⟩ := bcast_ones (sr := a.shape.reverse) (tr := t.reverse) (str := a.strides.reverse) (by simpa using ha.2) hb (by
        intro p hp
        refine hz p ?_
        have hl2 : t.length = (List.replicate (t.length - a.shape.length) (0 : Int) ++
            (List.zipWith bStride (a.shape.reverse.zip a.strides.reverse) t.reverse).reverse).length := by
          rw [hrz] at hlz; simp only [List.length_append, List.length_replicate, hlz]; omega
        have := List.reverse_zipWith (f := Prod.mk) (l := t) (l' := List.replicate (t.length - a.shape.length) (0 : Int) ++
            (List.zipWith bStride (a.shape.reverse.zip a.strides.reverse) t.reverse).reverse) hl2
        rw [← List.mem_reverse]
        unfold List.zip at this hp ⊢
        rw [this]
        simpa using hp)
      simp only [List.length_reverse] at e1
      rw [e2, List.reverse_reverse]
      have ht : t = List.replicate (t.length - a.shape.length) 1 ++ a.shape := by
        have := congrArg List.reverse e1
        simpa using this
      have hst : isStandard t (List.replicate (t.length - a.shape.length) 0 ++ a.strides) = (t.any (· == 0) || layoutLoop t.reverse
          (List.replicate (t.length - a.shape.length) 0 ++ a.strides).reverse 1) := rfl
      generalize t.length - a.shape.length = k at *
      subst ht
      have hany : (List.replicate k 1 ++ a.shape).any (· == 0) = a.shape.any (· == 0) := by
        rw [List.any_append]; simp
      rcases ha.1 with hc | ⟨h1, hf⟩
      · left
        rw [hst, hany]
        unfold isStandard at hc
        rw [Bool.or_eq_true] at hc ⊢
        refine hc.imp_right fun hc => ?_
        simp only [List.reverse_append, List.reverse_replicate]
        exact layoutLoop_ones_right k 0 _ _ 1 (by simpa using ha.2) hc
      · right
        refine ⟨by simp; omega, ?_⟩
        unfold isStandard at hf ⊢
        rw [Bool.or_eq_true] at hf ⊢
        refine hf.imp (fun h => ?_) fun h => ?_
        · rw [List.any_reverse] at h ⊢; rw [hany]; exact h
        · rw [List.reverse_reverse, List.reverse_reverse] at h ⊢
          rw [layoutLoop_ones_left]; exact h
    · left
      simp only [not_forall, not_not] at h0
      obtain ⟨d, hd, rfl⟩ := h0
      unfold isStandard
      rw [Bool.or_eq_true]
      exact .inl (List.any_eq_true.2 ⟨0, hd, rfl⟩)
  · cases h

end Verif.Nd
