import Mathlib.Data.List.Nodup
import Verif.Lemmas.Slices
import Verif.Lemmas.Squeeze

/-!
# Lemmas: expand_dims and squeeze
-/

namespace Verif.Nd
open Finset

theorem sortInts_cast (ks : List Nat) : sortInts (ks.map (fun k : Nat => (k : Int))) = (sortAxes ks).map (fun k : Nat => (k : Int)) := by
  rw [sortInts, sortAxes, List.map_mergeSort]
  intro a _ b _
  simp

theorem sortInts_sorted {l : List Int} (h : l.Pairwise (· ≤ ·)) : sortInts l = l := by
  rw [sortInts, List.mergeSort_of_pairwise]
  exact h.imp (by simp)

theorem absIndex_cast (n k : Nat) : absIndex n (k : Int) = some k := by
  rw [absIndex, if_neg (by omega)]; simp

theorem expandShape_cast (n : Nat) (ks s : List Nat) : expandShape n (ks.map (fun k : Nat => (k : Int))) s = insertOnes s ks := by
  induction ks generalizing s with
  | nil => rfl
  | cons k ks ih =>
    simp only [List.map_cons, expandShape, insertOnes, absIndex_cast, ih]

theorem dropAt_congr' {α : Type} {A B : List Nat} (i : Nat) (l : List α) (h : ∀ k, i ≤ k → (k ∈ A ↔ k ∈ B)) : dropAt A i l = dropAt B i l := by
  induction l generalizing i with
  | nil => rfl
  | cons x l ih =>
    rw [dropAt, dropAt, ih (i + 1) (fun k hk => h k (by omega))]
    by_cases hi : i ∈ A
    · rw [if_pos hi, if_pos ((h i le_rfl).1 hi)]
    · rw [if_neg hi, if_neg (fun hc => hi ((h i le_rfl).2 hc))]

/-- A shape with ones at the positions `A` that reduces to `s`. -/
theorem undrop (A : List Nat) (i n : Nat) (s : List Nat) (h : ((List.range' i n).filter (fun j => decide (j ∉ A))).length = s.length) :
    ∃ t, t.length = n ∧ dropAt A i t = s ∧ setAt A 1 i t = t := by
  induction n generalizing i s with
  | zero =>
    have : s = [] := List.length_eq_zero_iff.1 (by simpa using h.symm)
    subst this
    exact ⟨[], rfl, rfl, rfl⟩
  | succ n ih =>
    rw [List.range'_succ] at h
    by_cases hi : i ∈ A
    · rw [List.filter_cons_of_neg (by simpa using hi)] at h
      obtain ⟨t, h1, h2, h3⟩ := ih (i + 1) s h
      exact ⟨1 :: t, by simp [h1], by rw [dropAt, if_pos hi, h2], by rw [setAt, if_pos hi, h3]⟩
    · rw [List.filter_cons_of_pos (by simpa using hi)] at h
      cases s with
      | nil => simp at h
      | cons d s =>
        obtain ⟨t, h1, h2, h3⟩ := ih (i + 1) s (by simpa using h)
        exact ⟨d :: t, by simp [h1], by rw [dropAt, if_neg hi, h2], by rw [setAt, if_neg hi, h3]⟩

theorem count_not {ks : List Nat} {n : Nat} (hd : ks.Nodup) (hlt : ∀ k ∈ ks, k < n) :
    ((List.range' 0 n).filter (fun j => decide (j ∉ ks))).length + ks.length = n := by
  have hp : ((List.range' 0 n).filter (fun j => decide (j ∈ ks))).Perm ks := by
    rw [List.perm_ext_iff_of_nodup ((List.nodup_range').filter _) hd]
    intro a
    simp only [List.mem_filter, List.mem_range'_1, decide_eq_true_eq]
    exact ⟨fun h => h.2, fun h => ⟨⟨by omega, by simpa using hlt a h⟩, h⟩⟩
  rw [← hp.length_eq]
  have := List.length_eq_length_filter_add (l := List.range' 0 n) (fun j => decide (j ∉ ks))
  simp only [List.length_range', decide_not, Bool.not_not] at this ⊢
  omega

theorem setAt_fix {A : List Nat} {i : Nat} {t : List Nat} (h : setAt A 1 i t = t) {o : List Nat} (ho : InB o t) : setAt A 0 i o = o := by
  induction t generalizing i o with
  | nil => rw [inB_nil.1 ho]; rfl
  | cons d t ih =>
    cases ho with
    | cons hj ho =>
      rw [setAt] at h
      obtain ⟨h1, h2⟩ := List.cons.inj h
      rw [setAt, ih h2 ho]
      split
      · rename_i hi; rw [if_pos hi] at h1; congr 1; omega
      · rfl

theorem setAt_fix_iff {A t : List Nat} (h : ∀ k, k ∈ A → ∀ hk : k < t.length, t[k] = 1) : setAt A 1 0 t = t := by
  apply List.ext_getElem (setAt_length _ _ _ _)
  intro k h1 h2
  rw [setAt_getElem A 1 0 k t h2]
  split
  · rename_i hk; exact (h k (by simpa using hk) h2).symm
  · rfl

/-- Positions of an array with ones at `A` and positions of the reduced array correspond one to one. -/
theorem dropAt_inj {A : List Nat} {i : Nat} {t : List Nat} (h : setAt A 1 i t = t) {o o' : List Nat} (ho : InB o t) (ho' : InB o' t)
    (he : dropAt A i o = dropAt A i o') : o = o' := by
  induction t generalizing i o o' with
  | nil => rw [inB_nil.1 ho, inB_nil.1 ho']
  | cons d t ih =>
    cases ho with
    | cons hj ho =>
      cases ho' with
      | cons hj' ho' =>
        rw [setAt] at h
        obtain ⟨h1, h2⟩ := List.cons.inj h
        rw [dropAt, dropAt] at he
        by_cases hi : i ∈ A
        · rw [if_pos hi] at h1 he
          rw [if_pos hi] at he
          rw [ih h2 ho ho' he]; congr 1; omega
        · rw [if_neg hi, if_neg hi] at he
          obtain ⟨e1, e2⟩ := List.cons.inj he
          rw [ih h2 ho ho' e2, e1]

theorem dropAt_surj {A : List Nat} {i : Nat} {t : List Nat} (h : setAt A 1 i t = t) {p : List Nat} (hp : InB p (dropAt A i t)) :
    ∃ o, InB o t ∧ dropAt A i o = p := by
  induction t generalizing i p with
  | nil => rw [dropAt, inB_nil] at hp; exact ⟨[], by simp, by rw [hp]; rfl⟩
  | cons d t ih =>
    rw [setAt] at h
    obtain ⟨h1, h2⟩ := List.cons.inj h
    rw [dropAt] at hp
    by_cases hi : i ∈ A
    · rw [if_pos hi] at h1 hp
      obtain ⟨o, ho, he⟩ := ih h2 hp
      exact ⟨0 :: o, .cons (by omega) ho, by rw [dropAt, if_pos hi, he]⟩
    · rw [if_neg hi] at hp
      cases hp with
      | cons hj hp =>
        obtain ⟨o, ho, he⟩ := ih h2 hp
        exact ⟨_ :: o, .cons hj ho, by rw [dropAt, if_neg hi, he]⟩

theorem sum_dropAt {M : Type} [AddCommMonoid M] {A t : List Nat} (h : setAt A 1 0 t = t) (f : List Nat → M) :
    ∑ o ∈ idxs t, f (dropAt A 0 o) = ∑ p ∈ idxs (dropAt A 0 t), f p := by
  refine sum_nbij (dropAt A 0) ?_ ?_ ?_ (fun _ _ => rfl)
  · intro o ho; exact mem_idxs.2 (inB_dropAt A 0 (mem_idxs.1 ho))
  · intro o ho o' ho' he
    exact dropAt_inj h (mem_idxs.1 ho) (mem_idxs.1 ho') he
  · intro p hp
    obtain ⟨o, ho, he⟩ := dropAt_surj h (mem_idxs.1 hp)
    exact ⟨o, mem_idxs.2 ho, he⟩

theorem expand_spec {R : Type} {x : Arr R} {ks : List Nat} (hd : ks.Nodup) (hlt : ∀ k ∈ ks, k < x.shape.length + ks.length)
    (hc : Contig x.shape x.strides) :
    ∃ y, expandDimsOp x (ks.map (fun k : Nat => (k : Int))) = .ok y ∧ y.shape.length = x.shape.length + ks.length ∧ setAt ks 1 0 y.shape = y.shape ∧
      dropAt ks 0 y.shape = x.shape ∧ ∀ o, InB o y.shape → y.get o = x.get (dropAt ks 0 o) := by
  have hcnt := count_not hd hlt
  obtain ⟨t, h1, h2, h3⟩ := undrop ks 0 (x.shape.length + ks.length) x.shape (by omega)
  have hmem : ∀ k, 0 ≤ k → (k ∈ ks ↔ k ∈ sortAxes ks) := fun k _ => ((sortAxes_perm ks).mem_iff).symm
  have hins : insertOnes x.shape (sortAxes ks) = .ok t := by
    have := insertOnes_spec (sortAxes ks) t (sortAxes_lt hd) (fun k hk => by
      rw [h1]; exact hlt k ((sortAxes_perm ks).mem_iff.1 hk))
    rw [← dropAt_congr' 0 t hmem, h2, setAt_congr (B := ks) (fun k => ((sortAxes_perm ks).mem_iff)) 1 0 t, h3] at this
    exact this
  have hsz : size t = size x.shape := by
    have := (sq_setAt_dropAt ks 0 t t rfl).size
    rw [h3, h2] at this
    exact this
  obtain ⟨y, hy, hys, hg⟩ := intoShape_sq hc hsz
  refine ⟨y, ?_, by rw [hys, h1], by rw [hys, h3], by rw [hys, h2], ?_⟩
  · rw [expandDimsOp, sortInts_cast, expandShape_cast, hins]
    simp only [bind, Except.bind, hy, unwrap]
  · intro o ho
    rw [hys] at ho
    have hsq := sq_setAt_dropAt ks 0 t o (inB_length ho)
    rw [h3, setAt_fix h3 ho, h2] at hsq
    refine hg o _ hsq ?_
    have := inB_dropAt ks 0 ho
    rwa [h2] at this

theorem squeezeLoop_spec {R : Type} (A : List Nat) (t : List Nat) : ∀ (ks : List Nat) (i adjust : Nat) (P : List Nat) (x : Arr R),
    P.length + adjust = i → x.shape = P ++ t → ks.Pairwise (· < ·) → (∀ k ∈ ks, i ≤ k ∧ k < i + t.length) →
    (∀ k, i ≤ k → (k ∈ A ↔ k ∈ ks)) → setAt A 1 i t = t →
    ∃ y, squeezeLoop adjust (ks.map (fun k : Nat => (k : Int))) x = .ok y ∧ y.shape = P ++ dropAt A i t ∧
      ∀ p o, p.length = P.length → InB o t → y.get (p ++ dropAt A i o) = x.get (p ++ o) := by
  induction t with
  | nil =>
    intro ks i adjust P x hP hx hs hb hA h1
    cases ks with
    | nil => exact ⟨x, rfl, by rw [hx]; rfl, fun p o _ ho => by rw [inB_nil.1 ho]; rfl⟩
    | cons k ks => have := hb k (by simp); simp at this; omega
  | cons d t ih =>
    intro ks i adjust P x hP hx hs hb hA h1
    rw [setAt] at h1
    obtain ⟨hd, ht⟩ := List.cons.inj h1
    by_cases hi : i ∈ A
    · rw [if_pos hi] at hd
      have hik := (hA i le_rfl).1 hi
      obtain ⟨k, ks, rfl⟩ : ∃ k ks', ks = k :: ks' := by cases ks with | nil => cases hik | cons k ks => exact ⟨k, ks, rfl⟩
      have hki : k = i := by
        rcases List.mem_cons.1 hik with h | h
        · exact h.symm
        · have := (List.pairwise_cons.1 hs).1 i h
          have := (hb k (by simp)).1
          omega
      subst hki
      have hak : k - adjust = P.length := by omega
      have hget : x.shape[k - adjust]? = some 1 := by rw [hx, hak, List.getElem?_append_right le_rfl, Nat.sub_self, hd]; rfl
      obtain ⟨y, hy, hys, hg⟩ := ih ks (k + 1) (adjust + 1) P (indexAxis0 x (k - adjust)) (by omega)
        (by show x.shape.eraseIdx _ = _; rw [hx, hak, eraseIdx_mid]) (List.pairwise_cons.1 hs).2
        (fun r hr => ⟨(List.pairwise_cons.1 hs).1 r hr, by have := (hb r (by simp [hr])).2; simp at this; omega⟩)
        (fun r hr => by
          rw [hA r (by omega), List.mem_cons]
          exact ⟨fun h => h.resolve_left (by omega), .inr⟩) ht
      refine ⟨y, ?_, by rw [hys, dropAt, if_pos hi], ?_⟩
      · rw [List.map_cons, squeezeLoop, absIndex_cast]
        simp only
        rw [if_neg (by omega), if_pos hget, hy]
      · intro p o hp ho
        cases ho with
        | @cons j _ o _ hj ho =>
          rw [dropAt, if_pos hi, hg p o hp ho]
          show x.get ((p ++ o).insertIdx (k - adjust) 0) = _
          rw [hak, ← hp, insertIdx_mid, show j = 0 by omega]
    · rw [if_neg hi] at hd
      obtain ⟨y, hy, hys, hg⟩ := ih ks (i + 1) adjust (P ++ [d]) x (by simp; omega) (by rw [hx]; simp) hs
        (fun r hr => by
          have h1 := hb r hr
          have : r ≠ i := fun h => hi ((hA i le_rfl).2 (h ▸ hr))
          simp at h1; omega)
        (fun r hr => hA r (by omega)) ht
      refine ⟨y, hy, by rw [hys, dropAt, if_neg hi]; simp, ?_⟩
      intro p o hp ho
      cases ho with
      | @cons j _ o _ hj ho =>
        have := hg (p ++ [j]) o (by simp [hp]) ho
        rw [dropAt, if_neg hi]
        simpa using this

theorem squeeze_spec {R : Type} {x : Arr R} {ks : List Nat} (hd : ks.Nodup) (h1 : ∀ k ∈ ks, x.shape[k]? = some 1) :
    ∃ y, squeeze x (ks.map (fun k : Nat => (k : Int))) = .ok y ∧ y.shape = dropAt ks 0 x.shape ∧
      ∀ o, InB o x.shape → y.get (dropAt ks 0 o) = x.get o := by
  obtain ⟨y, hy, hys, hg⟩ := squeezeLoop_spec ks x.shape (sortAxes ks) 0 0 [] x rfl rfl (sortAxes_lt hd)
    (fun k hk => ⟨by omega, by
      have := (List.getElem?_eq_some_iff.1 (h1 k ((sortAxes_perm ks).mem_iff.1 hk))).1
      omega⟩)
    (fun k _ => (sortAxes_perm ks).mem_iff.symm)
    (setAt_fix_iff fun k hk hl => by have := h1 k hk; rw [List.getElem?_eq_getElem hl] at this; exact Option.some.inj this)
  exact ⟨y, by rw [squeeze, sortInts_cast, hy], by simpa using hys, fun o ho => by simpa using hg [] o rfl ho⟩

theorem addNLoop_same {R : Type} [AddCommMonoid R] (base : Arr R) (xs : List (Arr R)) (h : ∀ x ∈ xs, x.shape = base.shape) :
    ∃ y, addNLoop base xs = .ok y ∧ y.shape = base.shape ∧ ∀ i, InB i base.shape → y.get i = base.get i + (xs.map (fun x => x.get i)).sum := by
  induction xs generalizing base with
  | nil => exact ⟨base, rfl, rfl, fun i _ => by simp⟩
  | cons x xs ih =>
    obtain ⟨b, hb, -, hbg⟩ := broadcast_same (a := x) (t := base.shape) (h x (by simp))
    obtain ⟨y, hy, hys, hyg⟩ := ih ⟨base.shape, base.strides, fun idx => base.get idx + b.get idx⟩ (fun z hz => h z (by simp [hz]))
    refine ⟨y, ?_, hys, fun i hi => ?_⟩
    · rw [addNLoop, hb]
      exact hy
    · rw [hyg i hi]
      show base.get i + b.get i + _ = _
      rw [hbg i hi, List.map_cons, List.sum_cons, add_assoc]

/-- Squeezing and its gradient are adjoint. -/
theorem squeeze_adjoint {R : Type} [CommSemiring R] (x gy : Arr R) (ks : List Nat) (hd : ks.Nodup)
    (h1 : ∀ k ∈ ks, x.shape[k]? = some 1) (hgs : gy.shape = dropAt ks 0 x.shape) (hc : Contig gy.shape gy.strides) :
    ∃ g, expandDimsOp gy (ks.map (fun k : Nat => (k : Int))) = .ok g ∧ g.shape = x.shape ∧
      ∀ dx : Arr R, dx.shape = x.shape → ∃ dy, squeeze dx (ks.map (fun k : Nat => (k : Int))) = .ok dy ∧ dy.shape = gy.shape ∧
          ∑ i ∈ idxs gy.shape, gy.get i * dy.get i = ∑ o ∈ idxs x.shape, g.get o * dx.get o := by
  have hfix : setAt ks 1 0 x.shape = x.shape := setAt_fix_iff fun k hk hl => by
    have := h1 k hk; rw [List.getElem?_eq_getElem hl] at this; exact Option.some.inj this
  have hklt : ∀ k ∈ ks, k < x.shape.length := fun k hk => (List.getElem?_eq_some_iff.1 (h1 k hk)).1
  have hins : insertOnes gy.shape (sortAxes ks) = .ok x.shape := by
    have := insertOnes_spec (sortAxes ks) x.shape (sortAxes_lt hd) (fun k hk => hklt k ((sortAxes_perm ks).mem_iff.1 hk))
    rw [← dropAt_congr' 0 x.shape (fun k _ => ((sortAxes_perm ks).mem_iff).symm), ← hgs,
      setAt_congr (B := ks) (fun k => ((sortAxes_perm ks).mem_iff)) 1 0 x.shape, hfix] at this
    exact this
  have hsz : size x.shape = size gy.shape := by
    have := (sq_setAt_dropAt ks 0 x.shape x.shape rfl).size
    rwa [hfix, ← hgs] at this
  obtain ⟨g, hg, hs, hget⟩ := intoShape_sq hc hsz
  refine ⟨g, ?_, hs, fun dx hdx => ?_⟩
  · rw [expandDimsOp, sortInts_cast, expandShape_cast, hins]
    simp only [bind, Except.bind, hg, unwrap]
  · obtain ⟨dy, hdy, hys, hyg⟩ := squeeze_spec (x := dx) hd (by rw [hdx]; exact h1)
    rw [hdx] at hys hyg
    refine ⟨dy, hdy, by rw [hys, hgs], ?_⟩
    rw [hgs, ← sum_dropAt hfix]
    refine sum_congr rfl fun o ho => ?_
    have ho' := mem_idxs.1 ho
    have hsq := sq_setAt_dropAt ks 0 x.shape o (inB_length ho')
    rw [hfix, setAt_fix hfix ho', ← hgs] at hsq
    rw [hyg o ho', hget o _ hsq (by rw [hgs]; exact inB_dropAt ks 0 ho')]

end Verif.Nd
