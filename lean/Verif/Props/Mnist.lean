import Verif.Lemmas.Mnist
import Mathlib.Algebra.Field.Rat

/-! # Property theorems about the data of the MNIST examples: C77 -/

namespace Verif.Props
open Verif Verif.Nd Verif.Mnist

/-! ## C77 The MNIST examples train on the samples of the files -/

/-- **C77** From files of the IDX format `load` returns the images (one per row, pixels divided by 255) and the labels of both data sets, whatever follows in the files. -/
theorem C77_load {R : Type} [Field R] (short : Short) (f1 f2 f3 f4 : List Byte) (n1 n2 n3 n4 : Nat) (p1 p3 : Nat → Nat → Byte) (l2 l4 : Nat → Byte)
    (h1 : ImageFile f1 n1 p1) (h2 : LabelFile f2 n2 l2) (h3 : ImageFile f3 n3 p3) (h4 : LabelFile f4 n4 l4) :
    ∃ a b c d : Arr R, load short (some f1) (some f2) (some f3) (some f4) = .ok ((a, b), (c, d)) ∧ IsImages a n1 p1 ∧ IsLabels b n2 l2 ∧ IsImages c n3 p3 ∧ IsLabels d n4 l4 := by
  obtain ⟨v1, a1, a2, a3⟩ := imgs_loaded (R := R) short h1
  obtain ⟨v2, b1, b2, b3⟩ := labels_loaded (R := R) short h2
  obtain ⟨v3, c1, c2, c3⟩ := imgs_loaded (R := R) short h3
  obtain ⟨v4, d1, d2, d3⟩ := labels_loaded (R := R) short h4
  obtain ⟨a, e1, e2⟩ := fromShapeVec_images a2 a3
  obtain ⟨b, e3, e4⟩ := fromShapeVec_labels b2 b3
  obtain ⟨c, e5, e6⟩ := fromShapeVec_images c2 c3
  obtain ⟨d, e7, e8⟩ := fromShapeVec_labels d2 d3
  exact ⟨a, b, c, d, by simp only [load, a1, b1, c1, d1, e1, e3, e5, e7, bind, Except.bind], e2, e4, e6, e8⟩

/-- **C77** Files of another format are rejected: if `load_images` returns `n` images and the file is as long as its header says, it is a file of `n` images. -/
theorem C77_only_partial {R : Type} [Field R] (short : Short) (file : List Byte) (v : List R) (n : Nat) :
    (loadImages short (some file) = .ok (v, n) → 16 + n * 784 ≤ file.length → ∃ pixel, ImageFile file n pixel) ∧
      (loadLabels short (some file) = .ok (v, n) → 8 + n ≤ file.length → ∃ label, LabelFile file n label) :=
  ⟨loadImages_inv, loadLabels_inv⟩

/-- A file with 5 images that ends within the second one. -/
def mnShort : List Byte := bigEndian 2051 ++ bigEndian 5 ++ bigEndian 28 ++ bigEndian 28 ++ List.replicate 1000 7

/-- **C77** A file that ends too early is accepted as well (its images are what is left in the buffer), although it holds no images. -/
theorem C77_truncated_violated {R : Type} [Field R] (short : Short) : (∃ v : List R, loadImages short (some mnShort) = .ok (v, 5)) ∧ ∀ n pixel, ¬ ImageFile mnShort n pixel := by
  have h1 : readU32 short mnShort = (2051, bigEndian 5 ++ (bigEndian 28 ++ (bigEndian 28 ++ List.replicate 1000 7))) := by
    rw [mnShort, List.append_assoc, List.append_assoc, List.append_assoc]
    exact readU32_append short (by decide) _
  have h2 := readU32_append short (n := 5) (by decide) (bigEndian 28 ++ (bigEndian 28 ++ List.replicate 1000 7))
  have h3 := readU32_append short (n := 28) (by decide) (bigEndian 28 ++ List.replicate 1000 7)
  have h4 := readU32_append short (n := 28) (by decide) (List.replicate 1000 7)
  constructor
  · exact ⟨_, by simp only [loadImages, unwrap, bind, Except.bind, h1, h2, h3, h4, ne_eq, not_true_eq_false, if_false, and_self, if_true]; rfl⟩
  · rintro n pixel h
    obtain ⟨v, e1, e2, _⟩ := imgs_loaded (R := ℚ) short h
    simp only [loadImages, unwrap, bind, Except.bind, h1, h2, h3, h4, ne_eq, not_true_eq_false, if_false, and_self, if_true] at e1
    have hn : 5 = n := by injection e1 with e; exact (Prod.mk.inj e).2
    obtain ⟨_, body, hb, hp⟩ := h
    have := (List.getElem?_eq_some_iff.1 (hp 4 (by omega) 783 (by omega))).1
    have hl := congrArg List.length hb
    simp only [mnShort, List.length_append, List.length_replicate, show ∀ k, (bigEndian k).length = 4 from fun _ => rfl] at hl
    omega

/-- **C77** Batches. If there are as many labels as samples, no epoch panics, and together the batches of an epoch hold each of the first `batchSize * (n / batchSize)` samples exactly once: there is a list of the
numbers of the samples in each batch, in the order of its rows, such that all lists together are a permutation of these numbers, and each row of a batch is the sample of this number together with its label. -/
theorem C77_epochs_partial {R σ : Type} (shuffle : σ → List Nat → List Nat) (hsh : ∀ s l, (shuffle s l).Perm l) (seed : σ) (batchSize count n c d : Nat) (x y : Arr R)
    (hx : x.shape = [n, c]) (hy : y.shape = [n, d]) :
    ∃ es, epochs shuffle seed batchSize count x y = .ok es ∧ es.length = count ∧
      ∀ bs ∈ es, ∃ ks : List (List Nat), ks.flatten.Perm (List.range (n / batchSize * batchSize)) ∧
        List.Forall₂ (fun k b => b.1.shape = [batchSize, c] ∧ b.2.shape = [batchSize, d] ∧ k.length = batchSize ∧ ∀ r s, k[r]? = some s → SampleAt x y b r s) ks bs := by
  obtain ⟨bs, h1, h2⟩ : ∃ bs, epoch shuffle seed batchSize x y = .ok bs ∧
      List.Forall₂ (fun i (b : Arr R × Arr R) => b.1.shape = [batchSize, c] ∧ b.2.shape = [batchSize, d] ∧ ∀ r, SampleAt x y b r (i * batchSize + r))
        (getPermutation shuffle seed (n / batchSize)) bs := by
    simp only [epoch, hx, unwrap, List.getElem?_cons_zero, bind, Except.bind]
    refine mapM_each fun i hi => ?_
    have hi : i < n / batchSize := List.mem_range.1 ((hsh seed _).mem_iff.1 hi)
    have hle : i * batchSize + batchSize ≤ n := by
      calc i * batchSize + batchSize = (i + 1) * batchSize := by ring
        _ ≤ n / batchSize * batchSize := Nat.mul_le_mul_right _ hi
        _ ≤ n := Nat.div_mul_le_self _ _
    obtain ⟨a, a1, a2, a3⟩ := rows_ok hx hle
    obtain ⟨b, b1, b2, b3⟩ := rows_ok hy hle
    exact ⟨(a, b), by simp only [a1, b1], a2, b2, fun r => ⟨fun j => a3 r j, fun j => b3 r j⟩⟩
  obtain ⟨es, h3, h4⟩ := mapM_each (f := fun (_ : Nat) => epoch shuffle seed batchSize x y) (Q := fun _ b => b = bs) (l := List.range count) fun _ _ => ⟨bs, h1, rfl⟩
  refine ⟨es, h3, by rw [← h4.length_eq]; simp, fun b hb => ?_⟩
  have : b = bs := by
    obtain ⟨k, hk, rfl⟩ := List.mem_iff_getElem.1 hb
    exact (List.forall₂_iff_get.1 h4).2 k (by rw [h4.length_eq]; exact hk) hk
  subst this
  refine ⟨(getPermutation shuffle seed (n / batchSize)).map fun i => (List.range batchSize).map fun r => i * batchSize + r, ?_, ?_⟩
  · rw [← List.flatMap_def]
    exact ((hsh seed _).flatMap_right _).trans (by rw [blocks_perm])
  · rw [List.forall₂_map_left_iff]
    refine h2.imp fun i b ⟨e1, e2, e3⟩ => ⟨e1, e2, by simp, fun r s hr => ?_⟩
    simp only [List.getElem?_map, Option.map_eq_some_iff] at hr
    obtain ⟨a, ha, rfl⟩ := hr
    obtain ⟨hlt, rfl⟩ := List.getElem?_eq_some_iff.1 ha
    rw [List.getElem_range]
    exact e3 r

/-- **C77** The order of the batches is not drawn anew: all epochs are the same list of batches. -/
theorem C77_same_order_violated {R σ : Type} (shuffle : σ → List Nat → List Nat) (seed : σ) (batchSize count : Nat) (x y : Arr R) (es : List (List (Arr R × Arr R)))
    (h : epochs shuffle seed batchSize count x y = .ok es) : ∀ a ∈ es, ∀ b ∈ es, a = b := by
  unfold epochs at h
  cases he : epoch shuffle seed batchSize x y with
  | error e =>
    rw [he] at h
    rw [mapM_error h]
    simp
  | ok b =>
    rw [he, mapM_const] at h
    injection h with h
    intro a ha c hc
    rw [← h] at ha hc
    rw [List.eq_of_mem_replicate ha, List.eq_of_mem_replicate hc]

/-- **C77** With the 60000 samples of MNIST and the batches of 128 of `examples/cnn_mnist.rs` the last 96 samples are never used: what the batches hold does not depend on them. -/
theorem C77_unused_violated {R σ : Type} (shuffle : σ → List Nat → List Nat) (hsh : ∀ s l, (shuffle s l).Perm l) (seed : σ) (count : Nat) (x x' y : Arr R)
    (hx : x.shape = [60000, 784]) (hx' : x'.shape = [60000, 784]) (hy : y.shape = [60000, 1]) (hsame : ∀ k < 59904, ∀ j, x.get [k, j] = x'.get [k, j]) :
    ∃ es es', epochs shuffle seed 128 count x y = .ok es ∧ epochs shuffle seed 128 count x' y = .ok es' ∧
      List.Forall₂ (List.Forall₂ fun b b' : Arr R × Arr R => b.1.shape = [128, 784] ∧ b'.1.shape = [128, 784] ∧ ∀ r < 128, ∀ j, b.1.get [r, j] = b'.1.get [r, j]) es es' := by
  have key : ∃ bs bs', epoch shuffle seed 128 x y = .ok bs ∧ epoch shuffle seed 128 x' y = .ok bs' ∧
      List.Forall₂ (fun b b' : Arr R × Arr R => b.1.shape = [128, 784] ∧ b'.1.shape = [128, 784] ∧ ∀ r < 128, ∀ j, b.1.get [r, j] = b'.1.get [r, j]) bs bs' := by
    simp only [epoch, hx, hx', unwrap, List.getElem?_cons_zero, bind, Except.bind]
    have hmem : ∀ i ∈ getPermutation shuffle seed (60000 / 128), i < 468 := fun i hi => List.mem_range.1 ((hsh seed _).mem_iff.1 hi)
    generalize getPermutation shuffle seed (60000 / 128) = l at hmem
    induction l with
    | nil => exact ⟨[], [], rfl, rfl, .nil⟩
    | cons i l ih =>
      obtain ⟨bs, bs', h1, h2, h3⟩ := ih fun k hk => hmem k (by simp [hk])
      have hi := hmem i (by simp)
      have hle : i * 128 + 128 ≤ 60000 := by omega
      obtain ⟨a, a1, a2, a3⟩ := rows_ok hx hle
      obtain ⟨a', c1, c2, c3⟩ := rows_ok hx' hle
      obtain ⟨b, b1, _, _⟩ := rows_ok hy hle
      refine ⟨(a, b) :: bs, (a', b) :: bs', ?_, ?_, .cons ⟨a2, c2, fun r hr j => ?_⟩ h3⟩
      · rw [List.mapM_cons, h1, a1, b1]; rfl
      · rw [List.mapM_cons, h2, c1, b1]; rfl
      · rw [a3, c3]; exact hsame _ (by omega) j
  obtain ⟨bs, bs', h1, h2, h3⟩ := key
  refine ⟨List.replicate count bs, List.replicate count bs', ?_, ?_, ?_⟩
  · unfold epochs; rw [h1, mapM_const, List.length_range]
  · unfold epochs; rw [h2, mapM_const, List.length_range]
  · induction count with
    | zero => exact .nil
    | succ k ih => exact .cons h3 ih

-- Files with two images and two labels, followed by other bytes.
example : ImageFile (bigEndian 2051 ++ bigEndian 2 ++ bigEndian 28 ++ bigEndian 28 ++ (List.replicate 784 7 ++ List.replicate 784 9 ++ [1])) 2 (fun i _ => if i = 0 then 7 else 9) ∧
    LabelFile (bigEndian 2049 ++ bigEndian 2 ++ [3, 4, 5]) 2 (fun i => if i = 0 then 3 else 4) := by
  refine ⟨⟨by decide, _, rfl, fun i hi j hj => ?_⟩, ⟨by decide, _, rfl, fun i hi => ?_⟩⟩
  · have : i = 0 ∨ i = 1 := by omega
    rcases this with rfl | rfl
    · rw [List.getElem?_append_left (by simp only [List.length_append, List.length_replicate]; omega),
        List.getElem?_append_left (by simp only [List.length_replicate]; omega), List.getElem?_replicate, if_pos (by omega)]
      rfl
    · rw [List.getElem?_append_left (by simp only [List.length_append, List.length_replicate]; omega),
        List.getElem?_append_right (by simp only [List.length_replicate]; omega), List.getElem?_replicate, if_pos (by simp only [List.length_replicate]; omega)]
      rfl
  · have : i = 0 ∨ i = 1 := by omega
    rcases this with rfl | rfl <;> rfl

-- Reversing is a permutation that is not the identity; five samples in batches of two.
example : (∀ (s : Unit) (l : List Nat), ((fun _ l => l.reverse) s l : List Nat).Perm l) ∧
    (epochs (fun (_ : Unit) l => l.reverse) () 2 2 (ofFn [5, 3] fun i => i.getD 0 0) (ofFn [5, 1] fun i => 10 * i.getD 0 0)).toOption.map
      (fun es => es.map fun bs => bs.map fun b => (b.1.get [0, 1], b.2.get [1, 0])) = some [[(2, 30), (0, 10)], [(2, 30), (0, 10)]] :=
  ⟨fun _ l => l.reverse_perm, rfl⟩

end Verif.Props
