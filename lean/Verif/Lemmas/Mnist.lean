import Mathlib.Data.List.Basic
import Mathlib.Data.List.Forall2
import Mathlib.Tactic.Ring
import Verif.Spec.Mnist

/-! Lemmas about the data loading of the MNIST examples. -/

namespace Verif.Mnist
open Verif Verif.Nd

theorem readExact_append (short : Short) {n : Nat} {a b : List Byte} (h : a.length = n) : readExact short n (a ++ b) = (a, b) := by
  unfold readExact
  rw [if_pos (by simp [h]), List.take_left' h, List.drop_left' h]

theorem readExact_length (short : Short) (n : Nat) (file : List Byte) : (readExact short n file).1.length = n := by
  unfold readExact
  split
  · simpa using ‹_›
  · simp

theorem bigEndian_value {n : Nat} (h : n < 2 ^ 32) : (bigEndian n).foldl (fun acc b => acc * 256 + b.val) 0 = n := by
  simp only [bigEndian, List.foldl_cons, List.foldl_nil]
  omega

theorem readU32_append (short : Short) {n : Nat} (h : n < 2 ^ 32) (b : List Byte) : readU32 short (bigEndian n ++ b) = (n, b) := by
  unfold readU32
  rw [readExact_append short (n := 4) (a := bigEndian n) rfl, bigEndian_value h]

theorem bigEndian_of {l : List Byte} (h : l.length = 4) : l = bigEndian (l.foldl (fun acc b => acc * 256 + b.val) 0) ∧ l.foldl (fun acc b => acc * 256 + b.val) 0 < 2 ^ 32 := by
  match l, h with
  | [a, b, c, d], _ =>
    have h1 := a.isLt
    have h2 := b.isLt
    have h3 := c.isLt
    have h4 := d.isLt
    refine ⟨?_, by simp only [List.foldl_cons, List.foldl_nil]; omega⟩
    simp only [bigEndian, List.foldl_cons, List.foldl_nil, List.cons.injEq, and_true]
    refine ⟨Fin.ext ?_, Fin.ext ?_, Fin.ext ?_, Fin.ext ?_⟩ <;> simp only [] <;> omega

/-- Reading a number from a file that is long enough. -/
theorem readU32_inv (short : Short) {file : List Byte} (h : 4 ≤ file.length) :
    file = bigEndian (readU32 short file).1 ++ (readU32 short file).2 ∧ (readU32 short file).1 < 2 ^ 32 ∧ (readU32 short file).2.length = file.length - 4 := by
  unfold readU32 readExact
  rw [if_pos h]
  obtain ⟨h1, h2⟩ := bigEndian_of (l := file.take 4) (by simp; omega)
  refine ⟨?_, h2, by simp⟩
  show file = bigEndian _ ++ file.drop 4
  rw [← h1, List.take_append_drop]

theorem imgs_loaded {R : Type} [Field R] (short : Short) {file : List Byte} {n : Nat} {pixel : Nat → Nat → Byte} (h : ImageFile file n pixel) :
    ∃ v : List R, loadImages short (some file) = .ok (v, n) ∧ v.length = n * 784 ∧ ∀ i < n, ∀ j < 784, v[i * 784 + j]? = some (((pixel i j).val : R) / 255) := by
  obtain ⟨hn, body, rfl, hb⟩ := h
  have hlen : n * 784 ≤ body.length := by
    by_contra hc
    cases n with
    | zero => simp at hc
    | succ m =>
      have := (List.getElem?_eq_some_iff.1 (hb m (by omega) 783 (by omega))).1
      omega
  refine ⟨(body.take (n * 784)).map (fun b => (b.val : R) / 255), ?_, by simpa using hlen, fun i hi j hj => ?_⟩
  · have h1 : readU32 short (bigEndian 2051 ++ bigEndian n ++ bigEndian 28 ++ bigEndian 28 ++ body) = (2051, bigEndian n ++ (bigEndian 28 ++ (bigEndian 28 ++ body))) := by
      rw [List.append_assoc, List.append_assoc, List.append_assoc]
      exact readU32_append short (by decide) _
    have h2 := readU32_append short hn (bigEndian 28 ++ (bigEndian 28 ++ body))
    have h3 := readU32_append short (n := 28) (by decide) (bigEndian 28 ++ body)
    have h4 := readU32_append short (n := 28) (by decide) body
    simp only [loadImages, unwrap, bind, Except.bind, h1, h2, h3, h4, ne_eq, not_true_eq_false, if_false, and_self, if_true]
    rw [Nat.mul_assoc]
    simp only [readExact, if_pos hlen]
  · have : i * 784 + j < n * 784 := by
      have : (i + 1) * 784 ≤ n * 784 := Nat.mul_le_mul_right _ hi
      omega
    rw [List.getElem?_map, List.getElem?_take_of_lt this, hb i hi j hj]
    rfl

theorem labels_loaded {R : Type} [Field R] (short : Short) {file : List Byte} {n : Nat} {label : Nat → Byte} (h : LabelFile file n label) :
    ∃ v : List R, loadLabels short (some file) = .ok (v, n) ∧ v.length = n ∧ ∀ i < n, v[i]? = some ((label i).val : R) := by
  obtain ⟨hn, body, rfl, hb⟩ := h
  have hlen : n ≤ body.length := by
    by_contra hc
    have := (List.getElem?_eq_some_iff.1 (hb body.length (by omega))).1
    omega
  refine ⟨(body.take n).map (fun b => (b.val : R)), ?_, by simpa using hlen, fun i hi => ?_⟩
  · have h1 : readU32 short (bigEndian 2049 ++ bigEndian n ++ body) = (2049, bigEndian n ++ body) := by
      rw [List.append_assoc]
      exact readU32_append short (by decide) _
    have h2 := readU32_append short hn body
    simp only [loadLabels, unwrap, bind, Except.bind, h1, h2, ne_eq, not_true_eq_false, if_false]
    simp only [readExact, if_pos hlen]
  · rw [List.getElem?_map, List.getElem?_take_of_lt hi, hb i hi]
    rfl

theorem fromShapeVec_images {R : Type} [Field R] {v : List R} {n : Nat} {pixel : Nat → Nat → Byte} (h1 : v.length = n * 784)
    (h2 : ∀ i < n, ∀ j < 784, v[i * 784 + j]? = some (((pixel i j).val : R) / 255)) : ∃ a, fromShapeVec [n, 28 * 28] v = .ok a ∧ IsImages a n pixel := by
  refine ⟨_, if_pos (by simp [size, h1]), rfl, fun i hi j hj => ?_⟩
  simp [ofFn, flat, size, List.getD_eq_getElem?_getD, h2 i hi j hj]

theorem fromShapeVec_labels {R : Type} [Field R] {v : List R} {n : Nat} {label : Nat → Byte} (h1 : v.length = n)
    (h2 : ∀ i < n, v[i]? = some ((label i).val : R)) : ∃ a, fromShapeVec [n, 1] v = .ok a ∧ IsLabels a n label := by
  refine ⟨_, if_pos (by simp [size, h1]), rfl, fun i hi => ?_⟩
  simp [ofFn, flat, size, List.getD_eq_getElem?_getD, h2 i hi]

/-- What a file must be like to be accepted. -/
theorem loadImages_inv {R : Type} [Field R] {short : Short} {file : List Byte} {v : List R} {n : Nat} (h : loadImages short (some file) = .ok (v, n))
    (hlen : 16 + n * 784 ≤ file.length) : ∃ pixel, ImageFile file n pixel := by
  simp only [loadImages, unwrap, bind, Except.bind] at h
  split at h
  · cases h
  rename_i hm
  split at h
  swap
  · cases h
  rename_i hrc
  have hn : (readU32 short (readU32 short file).2).1 = n := by injection h with h; exact (Prod.mk.inj h).2
  have hm : (readU32 short file).1 = 2051 := by simpa using hm
  obtain ⟨a1, a2, a3⟩ := readU32_inv short (file := file) (by omega)
  obtain ⟨b1, b2, b3⟩ := readU32_inv short (file := (readU32 short file).2) (by omega)
  obtain ⟨c1, c2, c3⟩ := readU32_inv short (file := (readU32 short (readU32 short file).2).2) (by omega)
  obtain ⟨d1, d2, d3⟩ := readU32_inv short (file := (readU32 short (readU32 short (readU32 short file).2).2).2) (by omega)
  rw [hm] at a1
  rw [hn] at b1 b2
  rw [hrc.1] at c1
  rw [hrc.2] at d1
  generalize (readU32 short (readU32 short (readU32 short (readU32 short file).2).2).2).2 = body at d1 d3
  rw [d1] at c1
  rw [c1] at b1
  rw [b1] at a1
  refine ⟨fun i j => body.getD (i * 784 + j) 0, b2, body, by rw [a1]; simp only [List.append_assoc], fun i hi j hj => ?_⟩
  have : i * 784 + j < body.length := by
    have : (i + 1) * 784 ≤ n * 784 := Nat.mul_le_mul_right _ hi
    omega
  dsimp only
  rw [List.getD_eq_getElem?_getD, List.getElem?_eq_getElem this]
  rfl

theorem loadLabels_inv {R : Type} [Field R] {short : Short} {file : List Byte} {v : List R} {n : Nat} (h : loadLabels short (some file) = .ok (v, n))
    (hlen : 8 + n ≤ file.length) : ∃ label, LabelFile file n label := by
  simp only [loadLabels, unwrap, bind, Except.bind] at h
  split at h
  · cases h
  rename_i hm
  have hn : (readU32 short (readU32 short file).2).1 = n := by injection h with h; exact (Prod.mk.inj h).2
  have hm : (readU32 short file).1 = 2049 := by simpa using hm
  obtain ⟨a1, a2, a3⟩ := readU32_inv short (file := file) (by omega)
  obtain ⟨b1, b2, b3⟩ := readU32_inv short (file := (readU32 short file).2) (by omega)
  rw [hm] at a1
  rw [hn] at b1 b2
  generalize (readU32 short (readU32 short file).2).2 = body at b1 b3
  rw [b1] at a1
  refine ⟨fun i => body.getD i 0, b2, body, by rw [a1]; simp only [List.append_assoc], fun i hi => ?_⟩
  have : i < body.length := by omega
  dsimp only
  rw [List.getD_eq_getElem?_getD, List.getElem?_eq_getElem this]
  rfl

theorem rows_ok {R : Type} {a : Arr R} {n c : Nat} (h : a.shape = [n, c]) {lo len : Nat} (hl : lo + len ≤ n) :
    ∃ b, rows a lo len = .ok b ∧ b.shape = [len, c] ∧ ∀ r j, b.get [r, j] = a.get [lo + r, j] := by
  refine ⟨⟨[len, c], a.strides, fun i => a.get ((lo + i.getD 0 0) :: i.drop 1)⟩, ?_, rfl, fun r j => rfl⟩
  simp only [rows, h, if_pos hl]

theorem mapM_each {α β ε : Type} {f : α → Except ε β} {Q : α → β → Prop} : ∀ {l : List α}, (∀ x ∈ l, ∃ y, f x = .ok y ∧ Q x y) → ∃ ys, l.mapM f = .ok ys ∧ List.Forall₂ Q l ys
  | [], _ => ⟨[], rfl, .nil⟩
  | x :: l, h => by
    obtain ⟨y, h1, h2⟩ := h x (by simp)
    obtain ⟨ys, h3, h4⟩ := mapM_each (l := l) fun z hz => h z (by simp [hz])
    exact ⟨y :: ys, by rw [List.mapM_cons, h1, h3]; rfl, .cons h2 h4⟩

theorem mapM_const {α β ε : Type} (b : β) : ∀ l : List α, (l.mapM fun _ => (.ok b : Except ε β)) = .ok (List.replicate l.length b)
  | [] => rfl
  | x :: l => by rw [List.mapM_cons, mapM_const b l]; rfl

theorem mapM_error {α β ε : Type} {e : ε} {ys : List β} : ∀ {l : List α}, (l.mapM fun _ => (.error e : Except ε β)) = .ok ys → ys = []
  | [], h => by cases h; rfl
  | x :: l, h => by rw [List.mapM_cons] at h; cases h

/-- Blocks of the same length. -/
theorem blocks_perm (m b : Nat) : ((List.range m).flatMap fun i => (List.range b).map fun r => i * b + r) = List.range (m * b) := by
  induction m with
  | zero => simp
  | succ m ih => rw [List.range_succ, List.flatMap_append, ih, Nat.succ_mul, List.range_add]; simp

end Verif.Mnist
