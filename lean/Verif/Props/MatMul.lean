import Verif.Lemmas.MatMul

/-!
# C39: matrix products and batched matrix products
-/

namespace Verif.Props
open Verif.Nd Finset

/-- A 2x3 matrix in column-major order. -/
def mmA : View Int := ⟨[2, 3], [1, 2], fun o => o + 1⟩
/-- A 3x2 matrix in row-major order. -/
def mmB : View Int := ⟨[3, 2], [2, 1], fun o => o - 2⟩
/-- A 2x2 matrix with its rows in reverse order (negative stride). -/
def mmG : View Int := ⟨[2, 2], [-2, 1], fun o => 2 * o + 3⟩
/-- A 2x2 matrix. -/
def mmS : View Int := ⟨[2, 2], [2, 1], fun o => o⟩
/-- Two 2x3 matrices. -/
def bmA : View Int := ⟨[2, 2, 3], [6, 3, 1], fun o => o⟩
/-- Two 3x2 matrices. -/
def bmB : View Int := ⟨[2, 3, 2], [6, 2, 1], fun o => 1 - o⟩
/-- Two 2x2 matrices. -/
def bmG : View Int := ⟨[2, 2, 2], [4, 2, 1], fun o => o * o⟩

/-- C39 (matmul): for matrices of any sizes (0 included), in any memory layout and for all flags, the result is the product of the (transposed) operands. -/
theorem C39_matmul {R : Type} [NonUnitalNonAssocSemiring R] (ta tb : Bool) (a b : View R) (m k n : Nat) (hla : a.strides.length = 2) (hlb : b.strides.length = 2)
    (ha : a.shape = if ta then [k, m] else [m, k]) (hb : b.shape = if tb then [n, k] else [k, n]) :
    ∃ y, matMul ta tb a b = .ok y ∧ y.shape = [m, n] ∧ ∀ i < m, ∀ j < n,
      y.get [i, j] = ∑ p ∈ range k, a.arr.get (if ta then [p, i] else [i, p]) * b.arr.get (if tb then [j, p] else [p, j]) := by
  obtain ⟨y, hy, hs, he⟩ := matMul_spec ta tb a b m k n hla hlb ha hb
  exact ⟨y, hy, hs, fun i hi j hj => he [] (by simp) i hi j hj⟩

example : ∃ y, matMul false true mmA (mmB.swapLast) = .ok y ∧ y.shape = [2, 2] ∧ ∀ i < 2, ∀ j < 2,
    y.get [i, j] = ∑ p ∈ range 3, mmA.arr.get [i, p] * mmB.swapLast.arr.get [j, p] :=
  C39_matmul false true mmA mmB.swapLast 2 3 2 rfl rfl rfl rfl

/-- C39 (matmul, shapes): different inner sizes are reported as an error. -/
theorem C39_matmul_inner {R : Type} [NonUnitalNonAssocSemiring R] (ta tb : Bool) (a b : View R) (m k k2 n : Nat) (hla : a.strides.length = 2)
    (hlb : b.strides.length = 2) (ha : a.shape = if ta then [k, m] else [m, k]) (hb : b.shape = if tb then [n, k2] else [k2, n]) (hk : k ≠ k2) :
    matMul ta tb a b = .error .opError := by
  obtain ⟨sa, ta', ma⟩ := a
  obtain ⟨sb, tb', mb⟩ := b
  match ta', hla, tb', hlb with
  | [p, q], _, [r, s], _ => cases ta <;> cases tb <;> simp_all [matMul, View.swapLast, swapLast]

example : matMul false false mmA mmA = .error .opError := C39_matmul_inner false false mmA mmA 2 3 2 3 rfl rfl rfl rfl (by decide)

/-- C39 (matmul, shapes), the code violates the property: operands that are not matrices are not reported as errors, the op panics. -/
theorem C39_matmul_rank_violated {R : Type} [NonUnitalNonAssocSemiring R] (ta tb : Bool) (a b : View R) (h : a.shape.length ≠ 2 ∨ b.shape.length ≠ 2) :
    matMul ta tb a b = .error .panic := by
  have hl : ∀ (t : Bool) (v : View R), (if t then v.swapLast else v).shape.length = v.shape.length := fun t v => by
    cases t
    · rfl
    · simp [View.swapLast, swapLast]
  unfold matMul
  rw [← hl ta a, ← hl tb b] at h
  generalize (if ta then a.swapLast else a) = a' at *
  generalize (if tb then b.swapLast else b) = b' at *
  dsimp only
  split
  · rename_i h1 _ h2 _
    rw [h1, h2] at h
    simp at h
  · rfl

example : matMul false false mmA bmB = .error .panic := C39_matmul_rank_violated false false mmA bmB (.inr (by decide))

/-- C39 (gradients of matmul without flags): for all sizes and memory layouts both gradients have the shape of their operand and are the adjoints of
the change of the product: `da * b` and `a * db`, computed by the op itself, for all changes of the operands. -/
theorem C39_matmul_gradient {R : Type} [CommSemiring R] (a b gy : View R) (m k n : Nat) (hla : a.strides.length = 2) (hlb : b.strides.length = 2)
    (hlg : gy.strides.length = 2) (ha : a.shape = [m, k]) (hb : b.shape = [k, n]) (hg : gy.shape = [m, n]) :
    ∃ ga gb, matMulGradA gy b = .ok ga ∧ matMulGradB a gy = .ok gb ∧ ga.shape = a.shape ∧ gb.shape = b.shape ∧
      (∀ da : View R, da.shape = a.shape → da.strides.length = 2 → ∃ y, matMul false false da b = .ok y ∧
        ∑ o ∈ idxs [m, n], gy.arr.get o * y.get o = ∑ o ∈ idxs a.shape, ga.get o * da.arr.get o) ∧
      (∀ db : View R, db.shape = b.shape → db.strides.length = 2 → ∃ y, matMul false false a db = .ok y ∧
        ∑ o ∈ idxs [m, n], gy.arr.get o * y.get o = ∑ o ∈ idxs b.shape, gb.get o * db.arr.get o) := by
  obtain ⟨ga, e1, s1, p1⟩ := matMul_spec false true gy b m n k hlg hlb hg hb
  obtain ⟨gb, e2, s2, p2⟩ := matMul_spec true false a gy k m n hla hlg ha hg
  refine ⟨ga, gb, e1, e2, s1.trans ha.symm, s2.trans hb.symm, fun da hs hl => ?_, fun db hs hl => ?_⟩
  · obtain ⟨y, e, p⟩ := matMul_spec false false da b m k n hl hlb (hs.trans ha) hb
    refine ⟨y, e, ?_⟩
    rw [ha]
    exact product_adjoint_left p ⟨s1, p1⟩
  · obtain ⟨y, e, p⟩ := matMul_spec false false a db m k n hla hl ha (hs.trans hb)
    refine ⟨y, e, ?_⟩
    rw [hb]
    exact product_adjoint_right p ⟨s2, p2⟩

example : ∃ ga gb, matMulGradA mmG mmB = .ok ga ∧ matMulGradB mmA mmG = .ok gb ∧ ga.shape = [2, 3] ∧ gb.shape = [3, 2] :=
  let ⟨ga, gb, h1, h2, h3, h4, _⟩ := C39_matmul_gradient mmA mmB mmG 2 3 2 rfl rfl rfl rfl rfl rfl
  ⟨ga, gb, h1, h2, h3, h4⟩

/-- C39 (second derivatives of matmul), the code violates the property: the gradient of matmul is `MatMul` with `transpose_b`, and the gradient of that op
ignores the flag. Unless `n = k`, the gradient of its first operand fails for all values, and that of the second operand has the shape `[k, n]`
although the operand has the shape `[n, k]`. -/
theorem C39_flags_violated {R : Type} [NonUnitalNonAssocSemiring R] (a b gy : View R) (m k n : Nat) (hla : a.strides.length = 2) (hlb : b.strides.length = 2)
    (hlg : gy.strides.length = 2) (ha : a.shape = [m, k]) (hb : b.shape = [n, k]) (hg : gy.shape = [m, n]) (hne : n ≠ k) :
    (∃ y, matMul false true a b = .ok y ∧ y.shape = gy.shape) ∧ matMulGradA gy b = .error .opError ∧
      ∃ gb, matMulGradB a gy = .ok gb ∧ gb.shape ≠ b.shape := by
  obtain ⟨y, e, s, _⟩ := C39_matmul false true a b m k n hla hlb ha hb
  obtain ⟨gb, e2, s2, _⟩ := C39_matmul true false a gy k m n hla hlg ha hg
  refine ⟨⟨y, e, s.trans hg.symm⟩, C39_matmul_inner false true gy b m n k n hlg hlb hg hb hne, gb, e2, ?_⟩
  rw [s2, hb]
  simp [Ne.symm hne]

example : matMulGradA mmG mmB.swapLast = .error .opError := (C39_flags_violated mmA mmB.swapLast mmG 2 3 2 rfl rfl rfl rfl rfl rfl (by decide)).2.1

/-- C39 (second derivatives of matmul), the code violates the property: with square matrices the gradients have the right shape and wrong values. -/
theorem C39_flags_square_violated : ∃ (a b gy da db : View Int), a.shape = [2, 2] ∧ b.shape = [2, 2] ∧ gy.shape = [2, 2] ∧ da.shape = [2, 2] ∧ db.shape = [2, 2] ∧
    ∃ ga gb ya yb, matMulGradA gy b = .ok ga ∧ matMulGradB a gy = .ok gb ∧ matMul false true da b = .ok ya ∧ matMul false true a db = .ok yb ∧
      ∑ o ∈ idxs [2, 2], gy.arr.get o * ya.get o ≠ ∑ o ∈ idxs [2, 2], ga.get o * da.arr.get o ∧
      ∑ o ∈ idxs [2, 2], gy.arr.get o * yb.get o ≠ ∑ o ∈ idxs [2, 2], gb.get o * db.arr.get o := by
  refine ⟨mmS, mmS, mmG, mmS, mmS, rfl, rfl, rfl, rfl, rfl, _, _, _, _, rfl, rfl, rfl, rfl, ?_, ?_⟩ <;> decide

/-- C39 (batch_matmul, batch_matmul_t): the batched product for all batch shapes, positive sizes and all flags, when the batch axes are in row-major order
without gaps (for instance a row-major array, also with its last two axes swapped). Missing: the other layouts and empty operands. -/
theorem C39_batch_partial {R : Type} [NonUnitalNonAssocSemiring R] (ta tb : Bool) (a b : View R) (batch : List Nat) (m k n : Nat) (hb : batch ≠ [])
    (hpos : ∀ d ∈ batch, 0 < d) (hm : 0 < m) (hk : 0 < k) (hn : 0 < n) (ha : a.shape = batch ++ if ta then [k, m] else [m, k])
    (hbs : b.shape = batch ++ if tb then [n, k] else [k, n]) (hla : BatchRowMajor batch m k a.strides) (hlb : BatchRowMajor batch k n b.strides) :
    ∃ y, batchMatMul ta tb a b = .ok y ∧ y.shape = batch ++ [m, n] ∧ ∀ bi, InB bi batch → ∀ i < m, ∀ j < n, y.get (bi ++ [i, j]) =
      ∑ p ∈ range k, a.arr.get (bi ++ if ta then [p, i] else [i, p]) * b.arr.get (bi ++ if tb then [j, p] else [p, j]) := by
  obtain ⟨y, hy, _, hs, he⟩ := batchMatMul_spec ta tb a b batch m k n hb (size_pos hpos) hm hk hn ha hbs hla hlb
  exact ⟨y, hy, hs, he⟩

/-- Row-major arrays have the layout asked for. -/
example (batch : List Nat) (r c : Nat) (hr : 0 < r) (hc : 0 < c) : BatchRowMajor batch r c (cStrides (batch ++ [r, c])) := by
  refine ⟨c, 1, ?_, by exact_mod_cast Nat.le_mul_of_pos_left c hr, by exact_mod_cast Nat.mul_pos hr hc⟩
  induction batch with
  | nil => simp [cStrides, size]
  | cons d s ih => simp only [List.cons_append, cStrides, ih, size_append, List.map_cons]; simp [size]

theorem bmA_layout : BatchRowMajor [2] 2 3 bmA.strides := ⟨3, 1, rfl, by decide, by decide⟩
theorem bmB_layout : BatchRowMajor [2] 3 2 bmB.strides := ⟨2, 1, rfl, by decide, by decide⟩
theorem bmG_layout : BatchRowMajor [2] 2 2 bmG.strides := ⟨2, 1, rfl, by decide, by decide⟩

example : ∃ y, batchMatMul false false bmA bmB = .ok y ∧ y.shape = [2, 2, 2] :=
  let ⟨y, h, s, _⟩ := C39_batch_partial false false bmA bmB [2] 2 3 2 (by decide) (by decide) (by decide) (by decide) (by decide) rfl rfl bmA_layout bmB_layout
  ⟨y, h, s⟩

/-- C39 (gradients of batch_matmul, and of batch_matmul_t without flags): as `C39_matmul_gradient`, for the layouts of `C39_batch_partial`. -/
theorem C39_batch_gradient_partial {R : Type} [CommSemiring R] (a b gy : View R) (batch : List Nat) (m k n : Nat) (hb : batch ≠ [])
    (hpos : ∀ d ∈ batch, 0 < d) (hm : 0 < m) (hk : 0 < k) (hn : 0 < n) (ha : a.shape = batch ++ [m, k]) (hbs : b.shape = batch ++ [k, n])
    (hg : gy.shape = batch ++ [m, n]) (hla : BatchRowMajor batch m k a.strides) (hlb : BatchRowMajor batch k n b.strides)
    (hlg : BatchRowMajor batch m n gy.strides) :
    ∃ ga gb, batchMatMulGradA gy b = .ok ga ∧ batchMatMulGradB a gy = .ok gb ∧ ga.shape = a.shape ∧ gb.shape = b.shape ∧
      (∀ da : View R, da.shape = a.shape → BatchRowMajor batch m k da.strides → ∃ y, batchMatMul false false da b = .ok y ∧
        ∑ o ∈ idxs gy.shape, gy.arr.get o * y.get o = ∑ o ∈ idxs a.shape, ga.get o * da.arr.get o) ∧
      (∀ db : View R, db.shape = b.shape → BatchRowMajor batch k n db.strides → ∃ y, batchMatMul false false a db = .ok y ∧
        ∑ o ∈ idxs gy.shape, gy.arr.get o * y.get o = ∑ o ∈ idxs b.shape, gb.get o * db.arr.get o) := by
  have hp := size_pos hpos
  have comm : ∀ {r c : Nat} {st : List Int}, BatchRowMajor batch r c st → BatchRowMajor batch c r st := fun {r c st} h => by
    unfold BatchRowMajor; rw [Nat.mul_comm c r]; exact h
  obtain ⟨ga, e1, _, s1, p1⟩ := batchMatMul_spec false true gy b batch m n k hb hp hm hn hk hg hbs hlg (comm hlb)
  obtain ⟨gb, e2, _, s2, p2⟩ := batchMatMul_spec true false a gy batch k m n hb hp hk hm hn ha hg (comm hla) hlg
  refine ⟨ga, gb, e1, e2, s1.trans ha.symm, s2.trans hbs.symm, fun da hs hl => ?_, fun db hs hl => ?_⟩
  · obtain ⟨y, e, _, p⟩ := batchMatMul_spec false false da b batch m k n hb hp hm hk hn (hs.trans ha) hbs hl hlb
    refine ⟨y, e, ?_⟩
    rw [ha, hg]
    exact product_adjoint_left p ⟨s1, p1⟩
  · obtain ⟨y, e, _, p⟩ := batchMatMul_spec false false a db batch m k n hb hp hm hk hn ha (hs.trans hbs) hla hl
    refine ⟨y, e, ?_⟩
    rw [hbs, hg]
    exact product_adjoint_right p ⟨s2, p2⟩

example : ∃ ga gb, batchMatMulGradA bmG bmB = .ok ga ∧ batchMatMulGradB bmA bmG = .ok gb ∧ ga.shape = [2, 2, 3] ∧ gb.shape = [2, 3, 2] :=
  let ⟨ga, gb, h1, h2, h3, h4, _⟩ := C39_batch_gradient_partial bmA bmB bmG [2] 2 3 2 (by decide) (by decide) (by decide) (by decide) (by decide) rfl rfl rfl
    bmA_layout bmB_layout bmG_layout
  ⟨ga, gb, h1, h2, h3, h4⟩

/-- C39 (batch_matmul, shapes): operands of rank below two, different ranks and different batch axes are reported as errors. -/
theorem C39_batch_shapes {R : Type} [NonUnitalNonAssocSemiring R] (ta tb : Bool) (a b : View R)
    (h : a.shape.length < 2 ∨ b.shape.length < 2 ∨ a.shape.length ≠ b.shape.length ∨ a.shape.take (a.shape.length - 2) ≠ b.shape.take (b.shape.length - 2)) :
    batchMatMul ta tb a b = .error .opError := by
  have hl : ∀ (t : Bool) (v : View R), (if t then v.swapLast else v).shape.length = v.shape.length := fun t v => by
    cases t
    · rfl
    · simp [View.swapLast, swapLast]
  have ht : ∀ (t : Bool) (v : View R), (if t then v.swapLast else v).shape.take (v.shape.length - 2) = v.shape.take (v.shape.length - 2) := fun t v => by
    cases t
    · rfl
    · simp only [if_true, View.swapLast, swapLast]
      rw [List.take_append_of_le_length (by simp), List.take_take, Nat.min_self]
  unfold batchMatMul
  by_cases h0 : a.shape.length < 2
  · rw [if_pos h0]
  · rw [if_neg h0]
    by_cases h1 : b.shape.length < 2
    · rw [if_pos h1]
    · rw [if_neg h1]
      dsimp only
      rw [hl ta a, hl tb b, ht ta a]
      by_cases h2 : a.shape.length = b.shape.length
      · rw [h2, ht tb b, ← h2, if_pos]
        right
        rcases h with h | h | h | h
        · exact absurd h h0
        · exact absurd h h1
        · exact absurd h2 h
        · rw [h2] at h ⊢; exact h
      · rw [if_pos (.inl h2)]

example : batchMatMul true false bmA mmB = .error .opError := C39_batch_shapes true false bmA mmB (by decide)

/-- C39 (batch_matmul, shapes), the code violates the property: matrices (rank two) are accepted by the check and then panic, for all values and sizes. -/
theorem C39_batch_rank_two_violated {R : Type} [NonUnitalNonAssocSemiring R] (ta tb : Bool) (a b : View R) (ha : a.shape.length = 2) (hb : b.shape.length = 2)
    (hla : a.strides.length = 2) : batchMatMul ta tb a b = .error .panic := by
  obtain ⟨sa, ta', ma⟩ := a
  obtain ⟨sb, tb', mb⟩ := b
  match sa, ha, sb, hb, ta', hla with
  | [m, k], _, [k2, n], _, [p, q], _ =>
    cases ta <;> cases tb <;> simp [batchMatMul, bmmSlow, View.swapLast, swapLast, requiresCopy, unwrap, bind, Except.bind]

example : batchMatMul false false mmA mmB = .error .panic := C39_batch_rank_two_violated false false mmA mmB rfl rfl rfl

/-- C39 (batch_matmul, shapes), the code violates the property: different inner sizes are not reported as an error. (The code then reads behind the
end of the second operand.) -/
theorem C39_batch_inner_violated : ∃ (a b : View Int) (y : Arr Int), a.shape = [1, 1, 2] ∧ a.strides = cStrides a.shape ∧ b.shape = [1, 1, 1] ∧
    b.strides = cStrides b.shape ∧ batchMatMul false false a b = .ok y :=
  ⟨⟨[1, 1, 2], [2, 2, 1], fun o => o⟩, ⟨[1, 1, 1], [1, 1, 1], fun o => o⟩, _, rfl, rfl, rfl, rfl, rfl⟩

/-- C39 (batch_matmul, layouts), the code violates the property: for a column-major operand the strides of a row-major copy are applied to the memory of
the original, and the product is wrong. -/
theorem C39_batch_copy_violated : ∃ (a b : View Int) (y : Arr Int), a.shape = [2, 2, 2] ∧ a.strides = fStrides a.shape ∧ b.shape = [2, 2, 2] ∧
    b.strides = cStrides b.shape ∧ batchMatMul false false a b = .ok y ∧
      y.get [0, 0, 0] ≠ ∑ p ∈ range 2, a.arr.get [0, 0, p] * b.arr.get [0, p, 0] :=
  ⟨⟨[2, 2, 2], [1, 2, 4], fun o => o⟩, bmG, _, rfl, rfl, rfl, rfl, rfl, by decide⟩

/-- C39 (batch_matmul, layouts), the code violates the property: batches are assumed to follow each other in memory, so that for an operand with every
second matrix of an array (stride 2) the second product is wrong. -/
theorem C39_batch_gap_violated : ∃ (a b : View Int) (y : Arr Int), a.shape = [2, 1, 1] ∧ a.strides = [2, 1, 1] ∧ b.shape = [2, 1, 1] ∧
    b.strides = cStrides b.shape ∧ batchMatMul false false a b = .ok y ∧ y.get [1, 0, 0] ≠ a.arr.get [1, 0, 0] * b.arr.get [1, 0, 0] :=
  ⟨⟨[2, 1, 1], [2, 1, 1], fun o => o⟩, ⟨[2, 1, 1], [1, 1, 1], fun o => o⟩, _, rfl, rfl, rfl, rfl, rfl, by decide⟩

/-- C39 (gradients of batch_matmul_t), the code violates the property: the gradients ignore the flags. -/
theorem C39_batch_flags_violated : ∃ (a b gy da : View Int), a.shape = [1, 2, 2] ∧ b.shape = [1, 2, 2] ∧ gy.shape = [1, 2, 2] ∧ da.shape = [1, 2, 2] ∧
    a.strides = [4, 2, 1] ∧ b.strides = [4, 2, 1] ∧ gy.strides = [4, 2, 1] ∧ da.strides = [4, 2, 1] ∧
    ∃ ga y, batchMatMulGradA gy b = .ok ga ∧ batchMatMul false true da b = .ok y ∧
      ∑ o ∈ idxs [1, 2, 2], gy.arr.get o * y.get o ≠ ∑ o ∈ idxs [1, 2, 2], ga.get o * da.arr.get o := by
  refine ⟨⟨[1, 2, 2], [4, 2, 1], fun o => o⟩, ⟨[1, 2, 2], [4, 2, 1], fun o => o⟩, ⟨[1, 2, 2], [4, 2, 1], fun o => o + 1⟩, ⟨[1, 2, 2], [4, 2, 1], fun o => o⟩,
    rfl, rfl, rfl, rfl, rfl, rfl, rfl, rfl, _, _, rfl, rfl, ?_⟩
  decide

end Verif.Props
