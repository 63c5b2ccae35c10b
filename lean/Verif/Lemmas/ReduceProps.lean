import Mathlib.Algebra.BigOperators.Group.Finset.Piecewise
import Mathlib.Algebra.BigOperators.Ring.Finset
import Mathlib.Algebra.Field.Basic
import Mathlib.Algebra.Order.Group.Nat
import Mathlib.Data.Finset.Card
import Mathlib.Order.Bounds.Basic
import Verif.Lemmas.Reductions

/-!
# Products, minima and the number of reduced elements
-/

namespace Verif.Nd
open Finset
variable {R : Type}

theorem reduceForward_prod [CommMonoid R] (x : Arr R) (ks : List Nat) (keep : Bool) (hx : x.shape ≠ [0]) (hnd : ks.Nodup)
    (hlt : ∀ k ∈ ks, k < x.shape.length) :
    ∃ y, reduceForward (· * ·) 1 x ks keep = .ok y ∧ y.shape = reducedShape ks keep x.shape ∧
      (∀ o, InB o x.shape → InB (reducedIdx ks keep o) y.shape) ∧
      ∀ idx, InB idx y.shape → y.get idx = ∏ o ∈ (idxs x.shape).filter (fun o => reducedIdx ks keep o = idx), x.get o := by
  obtain ⟨y, hy, hs, hF⟩ := @reduceForward_spec (Additive R) _ x ks keep hx hnd hlt
  exact ⟨y, hy, hs, hF.maps, hF.sum⟩

/-- The commutative monoid of minima with the greatest element as unit. -/
abbrev minMonoid [LinearOrder R] (top : R) (h : ∀ a : R, a ≤ top) : AddCommMonoid R where
  add := min
  zero := top
  add_assoc := min_assoc
  zero_add a := min_eq_right (h a)
  add_zero a := min_eq_left (h a)
  add_comm := min_comm
  nsmul := @nsmulRec R ⟨top⟩ ⟨min⟩

/-- The commutative monoid of maxima with the least element as unit. -/
abbrev maxMonoid [LinearOrder R] (bot : R) (h : ∀ a : R, bot ≤ a) : AddCommMonoid R where
  add := max
  zero := bot
  add_assoc := max_assoc
  zero_add a := max_eq_right (h a)
  add_zero a := max_eq_left (h a)
  add_comm := max_comm
  nsmul := @nsmulRec R ⟨bot⟩ ⟨max⟩

theorem minMonoid_sum [LinearOrder R] (top : R) (h : ∀ a : R, a ≤ top) (s : Finset (List Nat)) (f : List Nat → R) :
    (∀ o ∈ s, @Finset.sum _ _ (minMonoid top h) s f ≤ f o) ∧ (s.Nonempty → ∃ o ∈ s, @Finset.sum _ _ (minMonoid top h) s f = f o) := by
  let _ := minMonoid top h
  have hadd : ∀ a b : R, a + b = min a b := fun _ _ => rfl
  induction s using Finset.induction_on with
  | empty => simp
  | insert a s ha ih =>
    rw [Finset.sum_insert ha, hadd]
    refine ⟨fun o ho => ?_, fun _ => ?_⟩
    · rcases Finset.mem_insert.1 ho with rfl | ho
      · exact min_le_left _ _
      · exact (min_le_right _ _).trans (ih.1 o ho)
    · rcases s.eq_empty_or_nonempty with rfl | hne
      · refine ⟨a, by simp, ?_⟩
        rw [Finset.sum_empty]; exact min_eq_left (h _)
      · obtain ⟨o, ho, he⟩ := ih.2 hne
        rcases min_choice (f a) (∑ x ∈ s, f x) with hm | hm
        · exact ⟨a, by simp, hm⟩
        · exact ⟨o, by simp [ho], hm.trans he⟩

theorem maxMonoid_sum [LinearOrder R] (bot : R) (h : ∀ a : R, bot ≤ a) (s : Finset (List Nat)) (f : List Nat → R) :
    (∀ o ∈ s, f o ≤ @Finset.sum _ _ (maxMonoid bot h) s f) ∧ (s.Nonempty → ∃ o ∈ s, @Finset.sum _ _ (maxMonoid bot h) s f = f o) := by
  let _ := maxMonoid bot h
  have hadd : ∀ a b : R, a + b = max a b := fun _ _ => rfl
  induction s using Finset.induction_on with
  | empty => simp
  | insert a s ha ih =>
    rw [Finset.sum_insert ha, hadd]
    refine ⟨fun o ho => ?_, fun _ => ?_⟩
    · rcases Finset.mem_insert.1 ho with rfl | ho
      · exact le_max_left _ _
      · exact (ih.1 o ho).trans (le_max_right _ _)
    · rcases s.eq_empty_or_nonempty with rfl | hne
      · refine ⟨a, by simp, ?_⟩
        rw [Finset.sum_empty]; exact max_eq_left (h _)
      · obtain ⟨o, ho, he⟩ := ih.2 hne
        rcases max_choice (f a) (∑ x ∈ s, f x) with hm | hm
        · exact ⟨a, by simp, hm⟩
        · exact ⟨o, by simp [ho], hm.trans he⟩

/-! Number of reduced elements. -/

/-- Product of the sizes at the positions in `A`. -/
def sizeAt (A : List Nat) : Nat → List Nat → Nat
  | _, [] => 1
  | i, n :: s => (if i ∈ A then n else 1) * sizeAt A (i + 1) s

theorem idxs_filter_cons (n : Nat) (s : List Nat) (P : List Nat → Prop) [DecidablePred P] :
    ((idxs (n :: s)).filter P).card = ∑ i ∈ Finset.range n, ((idxs s).filter (fun o => P (i :: o))).card := by
  have : (idxs (n :: s)).filter P =
      (Finset.range n).biUnion (fun i => ((idxs s).filter (fun o => P (i :: o))).image (fun o => i :: o)) := by
    ext o
    simp only [mem_filter, mem_idxs, mem_biUnion, Finset.mem_range, mem_image]
    constructor
    · rintro ⟨ho, hP⟩
      cases o with
      | nil => simp [InB] at ho
      | cons i o => simp only [inB_cons] at ho; exact ⟨i, ho.1, o, ⟨ho.2, hP⟩, rfl⟩
    · rintro ⟨i, hi, o', ⟨ho, hP⟩, rfl⟩
      exact ⟨by simp [hi, ho], hP⟩
  rw [this, Finset.card_biUnion]
  · exact Finset.sum_congr rfl fun i _ => Finset.card_image_of_injective _ (fun a b h => by simpa using h)
  · intro i _ j _ hij
    refine Finset.disjoint_left.2 ?_
    intro o ho ho'
    simp only [mem_image] at ho ho'
    obtain ⟨a, -, rfl⟩ := ho
    obtain ⟨b, -, hb⟩ := ho'
    simp at hb; exact hij hb.1.symm

theorem card_drop (A : List Nat) (i : Nat) (s idx : List Nat) (h : InB idx (dropAt A i s)) :
    ((idxs s).filter (fun o => dropAt A i o = idx)).card = sizeAt A i s := by
  induction s generalizing i idx with
  | nil =>
    have : idx = [] := by simpa [dropAt] using h
    subst this
    simp [idxs, Finset.filter_singleton, dropAt, sizeAt]
  | cons n s ih =>
    rw [idxs_filter_cons]
    simp only [dropAt, sizeAt] at h ⊢
    by_cases hi : i ∈ A
    · simp only [hi, if_true] at h ⊢
      rw [Finset.sum_congr rfl (fun j _ => ih (i + 1) idx h)]
      simp
    · simp only [hi, if_false, Nat.one_mul] at h ⊢
      cases idx with
      | nil => simp [InB] at h
      | cons a idx =>
        simp only [inB_cons] at h
        simp only [List.cons.injEq]
        rw [Finset.sum_eq_single a]
        · simp only [true_and]; exact ih (i + 1) idx h.2
        · intro b _ hb; simp [hb]
        · intro ha; simp at ha; omega

theorem card_set (A : List Nat) (i : Nat) (s idx : List Nat) (h : InB idx (setAt A 1 i s)) :
    ((idxs s).filter (fun o => setAt A 0 i o = idx)).card = sizeAt A i s := by
  induction s generalizing i idx with
  | nil =>
    have : idx = [] := by simpa [setAt] using h
    subst this
    simp [idxs, Finset.filter_singleton, setAt, sizeAt]
  | cons n s ih =>
    rw [idxs_filter_cons]
    cases idx with
    | nil => simp [InB, setAt] at h
    | cons a idx =>
      simp only [setAt, sizeAt, inB_cons, List.cons.injEq] at h ⊢
      by_cases hi : i ∈ A
      · simp only [hi, if_true] at h ⊢
        have ha : a = 0 := by omega
        subst ha
        simp only [true_and]
        rw [Finset.sum_congr rfl (fun j _ => ih (i + 1) idx h.2)]
        simp
      · simp only [hi, if_false, Nat.one_mul] at h ⊢
        rw [Finset.sum_eq_single a]
        · simp only [true_and]; exact ih (i + 1) idx h.2
        · intro b _ hb; simp [hb]
        · intro ha; simp at ha; omega

theorem card_fiber (A : List Nat) (keep : Bool) (s idx : List Nat) (h : InB idx (reducedShape A keep s)) :
    ((idxs s).filter (fun o => reducedIdx A keep o = idx)).card = sizeAt A 0 s := by
  cases keep with
  | false => simpa [reducedIdx] using card_drop A 0 s idx (by simpa [reducedShape] using h)
  | true => simpa [reducedIdx] using card_set A 0 s idx (by simpa [reducedShape] using h)

theorem sizeAt_of_not (A : List Nat) (i : Nat) (s : List Nat) (h : ∀ k ∈ A, k < i) : sizeAt A i s = 1 := by
  induction s generalizing i with
  | nil => rfl
  | cons n s ih =>
    have hi : i ∉ A := fun hi => absurd (h i hi) (by omega)
    simp [sizeAt, hi, ih (i + 1) (fun k hk => Nat.lt_succ_of_lt (h k hk))]

theorem sizeAt_cons (A : List Nat) (k i : Nat) (s : List Nat) (hik : i ≤ k) (hk : k - i < s.length) (hn : k ∉ A) :
    sizeAt (k :: A) i s = s[k - i] * sizeAt A i s := by
  induction s generalizing i with
  | nil => simp at hk
  | cons n s ih =>
    rcases Nat.eq_or_lt_of_le hik with rfl | hlt
    · simp only [sizeAt, List.mem_cons, true_or, if_true, hn, if_false, Nat.one_mul, Nat.sub_self, List.getElem_cons_zero]
      congr 1
      have : ∀ (s : List Nat) (j : Nat), i < j → sizeAt (i :: A) j s = sizeAt A j s := by
        intro s
        induction s with
        | nil => intro j _; rfl
        | cons m s ih =>
          intro j hj
          have : j ≠ i := by omega
          simp [sizeAt, this, ih (j + 1) (by omega)]
      exact this s (i + 1) (by omega)
    · have hne : i ≠ k := by omega
      simp only [sizeAt, List.mem_cons, hne, false_or]
      have hk1 : k - i = (k - (i + 1)) + 1 := by omega
      rw [ih (i + 1) (by omega) (by simp at hk; omega)]
      simp only [hk1, List.getElem_cons_succ]
      ring

theorem reductionLen_spec (s : List Nat) (ks : List Nat) (hnd : ks.Nodup) (hlt : ∀ k ∈ ks, k < s.length) :
    reductionLen s ks = .ok (sizeAt ks 0 s) := by
  induction ks with
  | nil => simp [reductionLen, sizeAt_of_not]
  | cons k ks ih =>
    obtain ⟨hk, hnd'⟩ := List.nodup_cons.1 hnd
    have hkl := hlt k (by simp)
    rw [reductionLen, ih hnd' (fun j hj => hlt j (by simp [hj])), List.getElem?_eq_getElem hkl]
    simp only [unwrap, bind, Except.bind]
    rw [sizeAt_cons ks k 0 s (by omega) (by omega) hk]
    rfl

end Verif.Nd
