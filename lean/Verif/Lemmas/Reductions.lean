import Verif.Lemmas.MaybeReduce
import Verif.Model.Reductions
import Verif.Spec.Reductions

/-!
# Lemmas about the reductions
-/

namespace Verif.Nd
open Finset
variable {R : Type} {α : Type}

theorem normAxes_spec {ndim : Nat} {axes : List Int} {ks : List Nat} (h : List.Forall₂ (AxisIs ndim) axes ks) :
    normAxes ndim axes = .ok ks := by
  induction h with
  | nil => rfl
  | @cons a k as ks hd _ ih =>
    obtain ⟨hk, ha⟩ := hd
    rw [normAxes, ih]
    rcases ha with ha | ha
    · have h1 : ¬ a < 0 := by omega
      have h2 : a.toNat = k := by omega
      simp [h1, h2, bind, Except.bind]
    · have h1 : a < 0 := by omega
      have h3 : ¬ ((ndim : Int) + a < 0) := by omega
      have h2 : ((ndim : Int) + a).toNat = k := by omega
      simp only [h1, h3, h2, if_true, if_false, bind, Except.bind]

theorem axes_lt {ndim : Nat} {axes : List Int} {ks : List Nat} (h : List.Forall₂ (AxisIs ndim) axes ks) : ∀ k ∈ ks, k < ndim := by
  induction h with
  | nil => simp
  | cons hd _ ih => intro k hk; rcases List.mem_cons.1 hk with rfl | hk; exacts [hd.1, ih k hk]

theorem sortAxes_perm (ks : List Nat) : (sortAxes ks).Perm ks := List.mergeSort_perm _ _

theorem sortAxes_sorted (ks : List Nat) : (sortAxes ks).Pairwise (· ≤ ·) := by
  have := List.pairwise_mergeSort (le := fun a b : Nat => decide (a ≤ b)) (by intro a b c; simp; omega) (by intro a b; simp; omega) ks
  simpa [sortAxes] using this

theorem sortAxes_lt {ks : List Nat} (h : ks.Nodup) : (sortAxes ks).Pairwise (· < ·) := by
  have h1 := sortAxes_sorted ks
  have h2 : (sortAxes ks).Pairwise (· ≠ ·) := (sortAxes_perm ks).nodup_iff.2 h
  exact (h1.and h2).imp (fun h => lt_of_le_of_ne h.1 h.2)

theorem dropAt_congr {A B : List Nat} (h : ∀ k, k ∈ A ↔ k ∈ B) (i : Nat) (l : List α) : dropAt A i l = dropAt B i l := by
  induction l generalizing i with
  | nil => rfl
  | cons x l ih => simp [dropAt, h, ih]

theorem setAt_congr {A B : List Nat} (h : ∀ k, k ∈ A ↔ k ∈ B) (v : α) (i : Nat) (l : List α) : setAt A v i l = setAt B v i l := by
  induction l generalizing i with
  | nil => rfl
  | cons x l ih => simp [setAt, h, ih]

theorem dropAt_of_lt {A : List Nat} {i : Nat} (h : ∀ k ∈ A, k < i) (l : List α) : dropAt A i l = l := by
  induction l generalizing i with
  | nil => rfl
  | cons x l ih =>
    have : i ∉ A := fun hi => absurd (h i hi) (by omega)
    simp [dropAt, this, ih (fun k hk => Nat.lt_succ_of_lt (h k hk))]

theorem setAt_of_lt {A : List Nat} {i : Nat} (h : ∀ k ∈ A, k < i) (v : α) (l : List α) : setAt A v i l = l := by
  induction l generalizing i with
  | nil => rfl
  | cons x l ih =>
    have : i ∉ A := fun hi => absurd (h i hi) (by omega)
    simp [setAt, this, ih (fun k hk => Nat.lt_succ_of_lt (h k hk))]

theorem setAt_length (A : List Nat) (v : α) (i : Nat) (l : List α) : (setAt A v i l).length = l.length := by
  induction l generalizing i with
  | nil => rfl
  | cons x l ih => simp [setAt, ih]

theorem dropAt_eraseIdx {A : List Nat} {i k : Nat} (hik : i ≤ k) (h : ∀ r ∈ A, r < k) (l : List α) :
    dropAt A i (l.eraseIdx (k - i)) = dropAt (k :: A) i l := by
  induction l generalizing i with
  | nil => simp [dropAt]
  | cons x l ih =>
    rcases Nat.eq_or_lt_of_le hik with rfl | hlt
    · simp only [Nat.sub_self, List.eraseIdx_zero, List.tail_cons, dropAt, List.mem_cons, true_or, if_true]
      rw [dropAt_of_lt h, dropAt_of_lt]
      intro r hr
      rcases List.mem_cons.1 hr with rfl | hr
      · omega
      · have := h r hr; omega
    · rw [show k - i = (k - (i + 1)) + 1 by omega, List.eraseIdx_cons_succ]
      have hne : i ≠ k := by omega
      simp only [dropAt, List.mem_cons, hne, false_or]
      rw [ih (by omega)]

theorem setAt_set {A : List Nat} {i k : Nat} (hik : i ≤ k) (v : α) (l : List α) :
    setAt A v i (l.set (k - i) v) = setAt (k :: A) v i l := by
  induction l generalizing i with
  | nil => simp [setAt]
  | cons x l ih =>
    rcases Nat.eq_or_lt_of_le hik with rfl | hlt
    · simp only [Nat.sub_self, List.set_cons_zero, setAt, List.mem_cons, true_or, if_true, ite_self]
      congr 1
      clear ih
      have : ∀ j, i < j → setAt A v j l = setAt (i :: A) v j l := by
        induction l with
        | nil => intro j _; rfl
        | cons y l ih =>
          intro j hj
          have hne : j ≠ i := by omega
          simp only [setAt, List.mem_cons, hne, false_or]
          rw [ih (j + 1) (by omega)]
      exact this _ (by omega)
    · rw [show k - i = (k - (i + 1)) + 1 by omega, List.set_cons_succ]
      have hne : i ≠ k := by omega
      simp only [setAt, List.mem_cons, hne, false_or]
      rw [ih (by omega)]

theorem length_dropAt_lt {A : List Nat} {k : Nat} {l : List α} (hk : k < l.length) (h : ∀ r ∈ A, k < r) :
    k < (dropAt A 0 l).length := by
  have : ∀ (i : Nat) (l : List α), (∀ r ∈ A, i + l.length ≤ r) → (dropAt A i l).length = l.length := by
    intro i l
    induction l generalizing i with
    | nil => simp [dropAt]
    | cons x l ih =>
      intro h
      have hn : i ∉ A := fun hi => by have := h i hi; simp at this
      simp only [dropAt, hn, if_false, List.length_cons]
      rw [ih (i + 1) (fun r hr => by have := h r hr; simp at this; omega)]
  have h2 : ∀ (i : Nat) (l₁ l₂ : List α), dropAt A i (l₁ ++ l₂) = dropAt A i l₁ ++ dropAt A (i + l₁.length) l₂ := by
    intro i l₁ l₂
    induction l₁ generalizing i with
    | nil => simp [dropAt]
    | cons x l ih =>
      simp only [List.cons_append, dropAt, ih, List.length_cons]
      split <;> simp [Nat.add_assoc, Nat.add_comm 1]
  have e := h2 0 (l.take (k + 1)) (l.drop (k + 1))
  rw [List.take_append_drop] at e
  rw [e, List.length_append, this 0 (l.take (k + 1)) (fun r hr => by have := h r hr; simp; omega)]
  simp; omega

section Loop
variable {M : Type} [AddCommMonoid M]

/-- Shape and index map produced by the loop, as a composition of steps. -/
def loopMap (keep : Bool) (v : Nat) (ks : List Nat) (l : List Nat) : List Nat :=
  ks.foldl (fun l k => if keep then l.set k v else l.eraseIdx k) l

theorem reduceAxes_spec (keep : Bool) (x : Arr M) (ks : List Nat) (folded : Option (Arr M)) (p : List Nat → List Nat)
    (hdesc : ks.Pairwise (· > ·)) (hlt : ∀ k ∈ ks, k < (folded.getD x).shape.length)
    (hF : FiberSum x (folded.getD x) p) :
    ∃ f', reduceAxes (· + ·) 0 keep x ks folded = .ok f' ∧
      (f'.getD x).shape = loopMap keep 1 ks (folded.getD x).shape ∧
      FiberSum x (f'.getD x) (fun o => loopMap keep 0 ks (p o)) := by
  induction ks generalizing folded p with
  | nil => exact ⟨folded, rfl, rfl, hF⟩
  | cons k ks ih =>
    have hk := hlt k (by simp)
    have hgt : ∀ r ∈ ks, r < k := fun r hr => (List.pairwise_cons.1 hdesc).1 r hr
    obtain ⟨r, hr, hrs, hrst, hrF⟩ := hF.foldAxis hk
    have hlen : r.shape.length = (folded.getD x).shape.length - 1 := by rw [hrs, List.length_eraseIdx_of_lt hk]
    cases keep with
    | false =>
      obtain ⟨f', hf, hfs, hfF⟩ := ih (some r) _ (List.pairwise_cons.1 hdesc).2
        (fun j hj => by simp only [Option.getD_some]; have := hgt j hj; omega) hrF
      refine ⟨f', ?_, ?_, hfF⟩
      · simp only [reduceAxes, hr, bind, Except.bind]; exact hf
      · rw [hfs]; simp [loopMap, hrs]
    | true =>
      obtain ⟨e, he, hes, hest, heF⟩ := hrF.expandDims (k := k) (by rw [hrst]; exact isStandard_cStrides _) (by omega)
      have hes' : e.shape = (folded.getD x).shape.set k 1 := by
        rw [hes, hrs, List.insertIdx_eraseIdx_self (by omega)]
      obtain ⟨f', hf, hfs, hfF⟩ := ih (some e) _ (List.pairwise_cons.1 hdesc).2
        (fun j hj => by simp only [Option.getD_some, hes', List.length_set]; have := hgt j hj; omega) heF
      refine ⟨f', ?_, ?_, hfF.congr fun o ho => ?_⟩
      · simp only [reduceAxes, hr, bind, Except.bind, if_true, he]; exact hf
      · rw [hfs]; simp [loopMap, hes']
      · have hl : k < (p o).length := by rw [inB_length (hF.maps o ho)]; exact hk
        simp only [loopMap, List.foldl_cons, if_true]
        rw [List.insertIdx_eraseIdx_self (by omega)]

theorem loopMap_eq (keep : Bool) (v : Nat) (ks : List Nat) (hdesc : ks.Pairwise (· > ·)) (l : List Nat) :
    loopMap keep v ks l = if keep then setAt ks v 0 l else dropAt ks 0 l := by
  induction ks generalizing l with
  | nil => cases keep <;> simp [loopMap, dropAt_of_lt, setAt_of_lt]
  | cons k ks ih =>
    have hgt : ∀ r ∈ ks, r < k := fun r hr => (List.pairwise_cons.1 hdesc).1 r hr
    have := ih (List.pairwise_cons.1 hdesc).2
    simp only [loopMap, List.foldl_cons] at this ⊢
    rw [this]
    cases keep with
    | false => simpa using dropAt_eraseIdx (i := 0) (by omega) hgt l
    | true => simpa using setAt_set (A := ks) (i := 0) (k := k) (by omega) v l

theorem reduceForward_spec (x : Arr M) (ks : List Nat) (keep : Bool) (hx : x.shape ≠ [0]) (hnd : ks.Nodup)
    (hlt : ∀ k ∈ ks, k < x.shape.length) :
    ∃ y, reduceForward (· + ·) 0 x ks keep = .ok y ∧ y.shape = reducedShape ks keep x.shape ∧
      FiberSum x y (reducedIdx ks keep) := by
  have hempty : ks = [] → ∃ y, Except.ok (ε := Fail) x = .ok y ∧ y.shape = reducedShape ks keep x.shape ∧
      FiberSum x y (reducedIdx ks keep) := by
    rintro rfl
    refine ⟨x, rfl, ?_, (fiberSum_id x).congr fun o _ => ?_⟩
    · cases keep <;> simp [reducedShape, dropAt_of_lt, setAt_of_lt]
    · cases keep <;> simp [reducedIdx, dropAt_of_lt, setAt_of_lt]
  unfold reduceForward
  split
  · rename_i hs
    have hs' : x.shape = [] := by simpa [hx] using isScalarShape_iff.1 hs
    apply hempty
    cases ks with
    | nil => rfl
    | cons k ks => have := hlt k (by simp); simp [hs'] at this
  · split
    · rename_i he
      exact hempty (by simpa using he)
    · have hdesc : (sortAxes ks).reverse.Pairwise (· > ·) := by
        rw [List.pairwise_reverse]; exact sortAxes_lt hnd
      have hmem : ∀ k, k ∈ (sortAxes ks).reverse ↔ k ∈ ks := by
        intro k; rw [List.mem_reverse]; exact (sortAxes_perm ks).mem_iff
      obtain ⟨f', hf, hfs, hfF⟩ := reduceAxes_spec keep x (sortAxes ks).reverse none id hdesc
        (fun k hk => hlt k ((hmem k).1 hk)) (fiberSum_id x)
      refine ⟨f'.getD x, by rw [hf]; rfl, ?_, hfF.congr fun o _ => ?_⟩
      · rw [hfs, loopMap_eq _ _ _ hdesc]
        cases keep
        · simpa [reducedShape] using dropAt_congr hmem 0 x.shape
        · simpa [reducedShape] using setAt_congr hmem 1 0 x.shape
      · rw [loopMap_eq _ _ _ hdesc]
        cases keep
        · simpa [reducedIdx] using dropAt_congr hmem 0 o
        · simpa [reducedIdx] using setAt_congr hmem 0 0 o

end Loop

end Verif.Nd
