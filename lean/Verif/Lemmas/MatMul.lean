import Verif.Spec.MatMul
import Verif.Lemmas.Softmax
import Verif.Lemmas.CrossEntropy

/-!
# Lemmas about the matrix products
-/

namespace Verif.Nd
open Finset
variable {R : Type}

theorem swapLast_append {α : Type} (l : List α) (a b : α) : swapLast (l ++ [a, b]) = l ++ [b, a] := by
  simp [swapLast]

theorem viewOffset_append (bi is : List Nat) (bs ss : List Int) (h : bi.length = bs.length) :
    viewOffset (bi ++ is) (bs ++ ss) = viewOffset bi bs + viewOffset is ss := by
  induction bi generalizing bs with
  | nil => cases bs with
    | nil => simp [viewOffset]
    | cons _ _ => simp at h
  | cons i bi ih => cases bs with
    | nil => simp at h
    | cons s bs =>
      simp only [List.cons_append, viewOffset]
      rw [ih bs (by simpa using h)]; ring

theorem viewOffset_cStrides (s bi : List Nat) (h : bi.length = s.length) (c : Int) :
    viewOffset bi ((cStrides s).map (· * c)) = flat s bi * c := by
  induction s generalizing bi with
  | nil => cases bi with
    | nil => simp [viewOffset, flat]
    | cons _ _ => simp at h
  | cons n s ih => cases bi with
    | nil => simp at h
    | cons i bi =>
      simp only [cStrides, List.map_cons, viewOffset, flat]
      rw [ih bi (by simpa using h)]; push_cast; ring

theorem gemm_eq [NonUnitalNonAssocSemiring R] (k : Nat) (a : Int → R) (rsa csa : Int) (b : Int → R) (rsb csb : Int) (i j : Nat) :
    gemm k a rsa csa b rsb csb i j = ∑ p ∈ range k, a (i * rsa + p * csa) * b (p * rsb + j * csb) :=
  foldl_add_range k fun p => a (i * rsa + p * csa) * b (p * rsb + j * csb)

/-- A view whose last two axes are the rows and columns of matrices, seen after the swap. -/
theorem view_flag (v : View R) (t : Bool) {batch : List Nat} {r c : Nat} {bst : List Int} {rs cs : Int} (hs : v.shape = matShape batch t r c)
    (hst : v.strides = bst ++ if t then [cs, rs] else [rs, cs]) :
    (if t then v.swapLast else v) = ⟨batch ++ [r, c], bst ++ [rs, cs], v.mem⟩ := by
  cases t
  · simp only [Bool.false_eq_true, if_false, matShape] at *
    cases v; simp_all
  · simp only [if_true, matShape] at *
    rw [View.swapLast, hs, hst, swapLast_append, swapLast_append]

theorem entry_view (v : View R) (t : Bool) {bi : List Nat} {bst : List Int} {rs cs : Int}
    (hst : v.strides = bst ++ if t then [cs, rs] else [rs, cs]) (h : bi.length = bst.length) (i j : Nat) :
    entry v.arr t bi i j = v.mem (viewOffset bi bst + (i * rs + j * cs)) := by
  cases t <;> simp only [entry, View.arr, hst, Bool.false_eq_true, if_false, if_true] <;> rw [viewOffset_append _ _ _ _ h] <;>
    simp only [viewOffset] <;> congr 1 <;> ring

theorem matMul_spec [NonUnitalNonAssocSemiring R] (ta tb : Bool) (a b : View R) (m k n : Nat) (hla : a.strides.length = 2) (hlb : b.strides.length = 2)
    (ha : a.shape = matShape [] ta m k) (hb : b.shape = matShape [] tb k n) :
    ∃ y, matMul ta tb a b = .ok y ∧ IsProduct [] m k n ta tb a.arr b.arr y := by
  obtain ⟨rsa, csa, hsa⟩ : ∃ r c : Int, a.strides = [] ++ if ta then [c, r] else [r, c] := by
    match h : a.strides, hla with
    | [p, q], _ => cases ta <;> simp
  obtain ⟨rsb, csb, hsb⟩ : ∃ r c : Int, b.strides = [] ++ if tb then [c, r] else [r, c] := by
    match h : b.strides, hlb with
    | [p, q], _ => cases tb <;> simp
  refine ⟨⟨[m, n], if rsa == 1 && rsb == 1 then fStrides [m, n] else cStrides [m, n],
    fun i => gemm k a.mem rsa csa b.mem rsb csb (i.getD 0 0) (i.getD 1 0)⟩, ?_, rfl, ?_⟩
  · simp only [matMul, view_flag a ta ha hsa, view_flag b tb hb hsb, List.nil_append, ne_eq, not_true_eq_false, if_false]
  · intro bi hbi i hi j hj
    obtain rfl : bi = [] := by cases hbi; rfl
    have e : ∀ p, entry a.arr ta [] i p = a.mem (i * rsa + p * csa) := fun p => by rw [entry_view a ta hsa rfl]; simp [viewOffset]
    have e' : ∀ p, entry b.arr tb [] p j = b.mem (p * rsb + j * csb) := fun p => by rw [entry_view b tb hsb rfl]; simp [viewOffset]
    simp only [e, e']
    exact gemm_eq _ _ _ _ _ _ _ _ _

theorem sum_idxs_append [AddCommMonoid R] (s t : List Nat) (f : List Nat → R) :
    ∑ o ∈ idxs (s ++ t), f o = ∑ p ∈ idxs s, ∑ q ∈ idxs t, f (p ++ q) := by
  induction s generalizing f with
  | nil => simp [idxs]
  | cons n s ih =>
    rw [List.cons_append, sum_idxs_cons, sum_idxs_cons]
    exact sum_congr rfl fun i _ => ih _

/-- Sum over all entries of a batch of matrices. -/
theorem sum_mat [AddCommMonoid R] (batch : List Nat) (m n : Nat) (f : List Nat → R) :
    ∑ o ∈ idxs (batch ++ [m, n]), f o = ∑ bi ∈ idxs batch, ∑ i ∈ range m, ∑ j ∈ range n, f (bi ++ [i, j]) := by
  rw [sum_idxs_append]
  exact sum_congr rfl fun bi _ => sum_idxs_two m n _

theorem inner_mat [AddCommMonoid R] [Mul R] (batch : List Nat) (m n : Nat) (a b : Arr R) :
    inner' (batch ++ [m, n]) a b = ∑ bi ∈ idxs batch, ∑ i ∈ range m, ∑ j ∈ range n, entry a false bi i j * entry b false bi i j := by
  rw [inner', sum_mat]; rfl

theorem size_pos {s : List Nat} (h : ∀ d ∈ s, 0 < d) : 0 < size s := by
  induction s with
  | nil => simp [size]
  | cons n s ih => exact Nat.mul_pos (h n (by simp)) (ih fun d hd => h d (by simp [hd]))

theorem minStride {batch : List Nat} {r c : Nat} (hb : batch ≠ []) (hp : 0 < size batch) :
    ((cStrides batch).map (· * ((r * c : Nat) : Int))).min? = some ((r * c : Nat) : Int) := by
  rw [List.min?_eq_some_iff]
  constructor
  · induction batch with
    | nil => exact absurd rfl hb
    | cons n s ih =>
      rw [cStrides, List.map_cons, List.mem_cons]
      cases s with
      | nil => left; simp [size]
      | cons n' s => exact .inr (ih (by simp) (Nat.pos_of_mul_pos_left hp))
  · intro b hb'
    rw [List.mem_map] at hb'
    obtain ⟨a, ha, rfl⟩ := hb'
    have : 1 ≤ a := by
      clear hb
      induction batch with
      | nil => simp [cStrides] at ha
      | cons n s ih =>
        have hs : 0 < size s := Nat.pos_of_mul_pos_left hp
        rw [cStrides, List.mem_cons] at ha
        rcases ha with rfl | ha
        · exact_mod_cast hs
        · exact ih hs ha
    have h0 : (0 : Int) ≤ ((r * c : Nat) : Int) := Int.natCast_nonneg _
    nlinarith

theorem requiresCopy_false {batch : List Nat} {r c : Nat} (hb : batch ≠ []) (hp : 0 < size batch) {rs cs : Int} (h1 : rs ≤ ((r * c : Nat) : Int)) (h2 : cs ≤ ((r * c : Nat) : Int)) :
    requiresCopy ((cStrides batch).map (· * ((r * c : Nat) : Int)) ++ [rs, cs]) = .ok false := by
  have hl : ((cStrides batch).map (· * ((r * c : Nat) : Int)) ++ [rs, cs]).length - 2 = ((cStrides batch).map (· * ((r * c : Nat) : Int))).length := by simp
  have hl' : ((cStrides batch).map (· * ((r * c : Nat) : Int)) ++ [rs, cs]).length - 1 = ((cStrides batch).map (· * ((r * c : Nat) : Int))).length + 1 := by simp
  simp only [requiresCopy, hl, hl', List.take_left', minStride hb hp, unwrap, bind, Except.bind]
  have e1 : ((cStrides batch).map (· * ((r * c : Nat) : Int)) ++ [rs, cs]).getD ((cStrides batch).map (· * ((r * c : Nat) : Int))).length 0 = rs := by simp [List.getD]
  have e2 : ((cStrides batch).map (· * ((r * c : Nat) : Int)) ++ [rs, cs]).getD (((cStrides batch).map (· * ((r * c : Nat) : Int))).length + 1) 0 = cs := by simp [List.getD]
  rw [e1, e2]
  rw [decide_eq_false (not_lt.2 h1), decide_eq_false (not_lt.2 h2)]; rfl

theorem BatchRowMajor.flag {batch : List Nat} {t : Bool} {r c : Nat} {st : List Int} (h : BatchRowMajor batch r c st) :
    ∃ rs cs : Int, st = (cStrides batch).map (· * ((r * c : Nat) : Int)) ++ (if t then [cs, rs] else [rs, cs]) ∧ rs ≤ ((r * c : Nat) : Int) ∧ cs ≤ ((r * c : Nat) : Int) := by
  obtain ⟨rs, cs, h1, h2, h3⟩ := h
  cases t
  · exact ⟨rs, cs, h1, h2, h3⟩
  · exact ⟨cs, rs, h1, h3, h2⟩

theorem batchMatMul_spec [NonUnitalNonAssocSemiring R] (ta tb : Bool) (a b : View R) (batch : List Nat) (m k n : Nat) (hb : batch ≠ []) (hpos : 0 < size batch)
    (hm : 0 < m) (hk : 0 < k) (hn : 0 < n) (ha : a.shape = matShape batch ta m k) (hbs : b.shape = matShape batch tb k n)
    (hla : BatchRowMajor batch m k a.strides) (hlb : BatchRowMajor batch k n b.strides) :
    ∃ y, batchMatMul ta tb a b = .ok y ∧ y.strides = cStrides y.shape ∧ IsProduct batch m k n ta tb a.arr b.arr y := by
  obtain ⟨rsa, csa, hsa, ha1, ha2⟩ := hla.flag (t := ta)
  obtain ⟨rsb, csb, hsb, hb1, hb2⟩ := hlb.flag (t := tb)
  have hlen : ∀ c d : Nat, (batch ++ [c, d]).length = batch.length + 2 := fun c d => by simp
  have hra : ¬ a.shape.length < 2 := by rw [ha]; cases ta <;> simp [matShape]
  have hrb : ¬ b.shape.length < 2 := by rw [hbs]; cases tb <;> simp [matShape]
  let A : View R := ⟨batch ++ [m, k], (cStrides batch).map (· * ((m * k : Nat) : Int)) ++ [rsa, csa], a.mem⟩
  let B : View R := ⟨batch ++ [k, n], (cStrides batch).map (· * ((k * n : Nat) : Int)) ++ [rsb, csb], b.mem⟩
  have hA : (if ta then a.swapLast else a) = A := view_flag a ta ha hsa
  have hB : (if tb then b.swapLast else b) = B := view_flag b tb hbs hsb
  have hstep : batchMatMul ta tb a b = bmmSlow A B (batch ++ [m, n]) := by
    simp only [batchMatMul, if_neg hra, if_neg hrb, hA, hB]
    have h1 : A.shape.take (A.shape.length - 2) = batch := by simp [A]
    have h2 : B.shape.take (A.shape.length - 2) = batch := by simp [A, B]
    have h3 : A.shape.getD (A.shape.length - 2) 0 = m := by simp [A, List.getD]
    have h4 : B.shape.getD (A.shape.length - 1) 0 = n := by simp [A, B, List.getD]
    have h5 : A.shape.length = B.shape.length := by simp [A, B]
    rw [h1, h2, h3, h4, if_neg (by simp [h5])]
  have hrank : A.strides.length = batch.length + 2 := by simp [A, cStrides_length]
  have hbatch : A.shape.take (A.strides.length - 2) = batch := by rw [hrank]; simp [A]
  have hK : A.shape.getD (A.strides.length - 1) 0 = k := by rw [hrank]; simp [A, List.getD]
  have hcl : ∀ q : Int, ((cStrides batch).map (· * q)).length = batch.length := fun q => by simp [cStrides_length]
  have g1 : A.strides.getD (A.strides.length - 2) 0 = rsa := by rw [hrank]; simp [A, List.getD, cStrides_length]
  have g2 : A.strides.getD (A.strides.length - 1) 0 = csa := by rw [hrank]; simp [A, List.getD, cStrides_length]
  have g3 : B.strides.getD (A.strides.length - 2) 0 = rsb := by rw [hrank]; simp [B, List.getD, cStrides_length]
  have g4 : B.strides.getD (A.strides.length - 1) 0 = csb := by rw [hrank]; simp [B, List.getD, cStrides_length]
  have hdiv : ∀ c d : Nat, size (batch ++ [c, d]) / size batch = c * d := fun c d => by
    rw [size_append]; simp [size, hpos]
  have hc0 : requiresCopy A.strides = .ok false := requiresCopy_false hb hpos ha1 ha2
  have hc1 : requiresCopy B.strides = .ok false := requiresCopy_false hb hpos hb1 hb2
  have hne : ¬ (m * k = 0 ∨ k * n = 0 ∨ m * n = 0) := by
    simp only [Nat.mul_eq_zero]; omega
  refine ⟨ofFn (batch ++ [m, n]) (fun idx =>
      gemm k (fun o => A.mem ((flat batch (idx.take (A.strides.length - 2)) * (m * k) : Nat) + o)) rsa csa
        (fun o => B.mem ((flat batch (idx.take (A.strides.length - 2)) * (k * n) : Nat) + o)) rsb csb
        (idx.getD (A.strides.length - 2) 0) (idx.getD (A.strides.length - 1) 0)), ?_, rfl, rfl, ?_⟩
  · rw [hstep]
    simp only [bmmSlow, hc0, hc1, bind, Except.bind, Bool.false_eq_true, if_false, hbatch, hK, g1, g2, g3, g4]
    rw [if_neg hpos.ne', show size A.shape / size batch = m * k from hdiv m k, show size B.shape / size batch = k * n from hdiv k n, hdiv m n, if_neg hne]
  · intro bi hbi i hi j hj
    have hbl := inB_length hbi
    have e : ∀ p, entry a.arr ta bi i p = a.mem ((flat batch bi * (m * k) : Nat) + (i * rsa + p * csa)) := fun p => by
      rw [entry_view a ta hsa (by rw [hcl, hbl]), viewOffset_cStrides _ _ hbl]; push_cast; rfl
    have e' : ∀ p, entry b.arr tb bi p j = b.mem ((flat batch bi * (k * n) : Nat) + (p * rsb + j * csb)) := fun p => by
      rw [entry_view b tb hsb (by rw [hcl, hbl]), viewOffset_cStrides _ _ hbl]; push_cast; rfl
    simp only [e, e']
    have t1 : (bi ++ [i, j]).take (A.strides.length - 2) = bi := by rw [hrank, ← hbl]; simp
    have t2 : (bi ++ [i, j]).getD (A.strides.length - 2) 0 = i := by rw [hrank, ← hbl]; simp [List.getD]
    have t3 : (bi ++ [i, j]).getD (A.strides.length - 1) 0 = j := by rw [hrank, ← hbl]; simp [List.getD]
    simp only [entry, ofFn, Bool.false_eq_true, if_false]
    rw [gemm_eq, t1, t2, t3]

/-- The products reported as gradients are the adjoints of the product. -/
theorem product_adjoint_left [CommSemiring R] {batch : List Nat} {m k n : Nat} {b gy da y ga : Arr R}
    (hy : IsProduct batch m k n false false da b y) (hg : IsProduct batch m n k false true gy b ga) :
    inner' (batch ++ [m, n]) gy y = inner' (batch ++ [m, k]) ga da := by
  rw [inner_mat, inner_mat]
  refine sum_congr rfl fun bi hbi => sum_congr rfl fun i hi => ?_
  have hbi := mem_idxs.1 hbi
  have hi := mem_range.1 hi
  have e1 : ∀ j ∈ range n, entry gy false bi i j * entry y false bi i j =
      ∑ p ∈ range k, entry gy false bi i j * (entry da false bi i p * entry b false bi p j) := fun j hj => by
    rw [hy.2 bi hbi i hi j (mem_range.1 hj), mul_sum]
  have e2 : ∀ p ∈ range k, entry ga false bi i p * entry da false bi i p =
      ∑ j ∈ range n, entry gy false bi i j * entry b true bi j p * entry da false bi i p := fun p hp => by
    rw [hg.2 bi hbi i hi p (mem_range.1 hp), sum_mul]
  rw [sum_congr rfl e1, sum_congr rfl e2, sum_comm]
  refine sum_congr rfl fun p _ => sum_congr rfl fun j _ => ?_
  show gy.get _ * (da.get _ * b.get (bi ++ [p, j])) = gy.get _ * b.get (bi ++ [p, j]) * da.get _
  ring

theorem product_adjoint_right [CommSemiring R] {batch : List Nat} {m k n : Nat} {a gy db y gb : Arr R}
    (hy : IsProduct batch m k n false false a db y) (hg : IsProduct batch k m n true false a gy gb) :
    inner' (batch ++ [m, n]) gy y = inner' (batch ++ [k, n]) gb db := by
  rw [inner_mat, inner_mat]
  refine sum_congr rfl fun bi hbi => ?_
  have hbi := mem_idxs.1 hbi
  have e1 : ∀ i ∈ range m, ∑ j ∈ range n, entry gy false bi i j * entry y false bi i j =
      ∑ j ∈ range n, ∑ p ∈ range k, entry gy false bi i j * (entry a false bi i p * entry db false bi p j) := fun i hi =>
    sum_congr rfl fun j hj => by rw [hy.2 bi hbi i (mem_range.1 hi) j (mem_range.1 hj), mul_sum]
  have e2 : ∀ p ∈ range k, ∑ j ∈ range n, entry gb false bi p j * entry db false bi p j =
      ∑ j ∈ range n, ∑ i ∈ range m, entry a true bi p i * entry gy false bi i j * entry db false bi p j := fun p hp =>
    sum_congr rfl fun j hj => by rw [hg.2 bi hbi p (mem_range.1 hp) j (mem_range.1 hj), sum_mul]
  rw [sum_congr rfl e1, sum_congr rfl e2, sum_comm]
  have : ∀ p ∈ range k, ∑ j ∈ range n, ∑ i ∈ range m, entry a true bi p i * entry gy false bi i j * entry db false bi p j =
      ∑ j ∈ range n, ∑ i ∈ range m, entry gy false bi i j * (entry a false bi i p * entry db false bi p j) := fun p _ =>
    sum_congr rfl fun j _ => sum_congr rfl fun i _ => by
      show a.get (bi ++ [i, p]) * _ * _ = _ * (a.get (bi ++ [i, p]) * _)
      ring
  rw [sum_congr rfl this]
  conv_rhs => rw [sum_comm]
  refine sum_congr rfl fun j _ => ?_
  rw [sum_comm]

end Verif.Nd
