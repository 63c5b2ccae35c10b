import Verif.Lemmas.CallsJacobian

/-! The derivatives of a product of matrices. -/

namespace Verif.Props
open Verif Verif.Spec Verif.Gradient Verif.Graph Verif.Eval Verif.Nd Verif.Prog

/-- The program of the documentation (src/tensor_ops/mod.rs:165-187). -/
def jcStmts : List Stmt := [.var 0, .var 1, .matmul 0 1]

theorem jc_hyps (A B : Arr ℝ) (m k n : Nat) (hA : A.shape = [m, k]) (hB : B.shape = [k, n]) :
    Scoped jcStmts ∧ DimsOk jcStmts ∧ (∃ val, Denotes [] [A, B] jcStmts val ∧ (val 2).shape = [m, n] ∧ Contig (val 2).shape (val 2).strides ∧
      ∀ s ∈ jcStmts, StmtOk (Fixed jcStmts [0, 1]) (FlatIn jcStmts val) val s ∧ GradGivenFor (Fixed jcStmts [0, 1]) s) ∧
      List.Forall₂ (fun k vid => jcStmts[k]? = some (.var vid)) [0, 1] [0, 1] := by
  have hS : Scoped jcStmts := by
    intro k s hk a ha
    match k, hk with
    | 0, hk => cases hk; simp [Stmt.args] at ha
    | 1, hk => cases hk; simp [Stmt.args] at ha
    | 2, hk => cases hk; simp [Stmt.args] at ha; omega
    | k + 3, hk => cases hk
  have hD : DimsOk jcStmts := by
    intro name d h
    simp [jcStmts] at h
  obtain ⟨y, hy1, hy2, hy3⟩ := matMul_value false false A B m k n hA hB
  refine ⟨hS, hD, ⟨fun j => match j with | 0 => A | 1 => B | _ => y, ?_, hy2, (cont_matMul hy1).1, ?_⟩, .cons rfl (.cons rfl .nil)⟩
  · intro k s hk
    match k, hk with
    | 0, hk => cases hk; rfl
    | 1, hk => cases hk; rfl
    | 2, hk => cases hk; exact hy1
    | k + 3, hk => cases hk
  · intro s hs
    simp only [jcStmts, List.mem_cons, List.not_mem_nil, or_false] at hs
    rcases hs with rfl | rfl | rfl <;> exact ⟨trivial, trivial⟩

theorem jc_entry {A B : Arr ℝ} {m k n : Nat} (hA : A.shape = [m, k]) (hB : B.shape = [k, n]) {val : Nat → Arr ℝ} (h : Denotes [] [A, B] jcStmts val) {i j : Nat} (hi : i < m) (hj : j < n) :
    (val 2).get [i, j] = ∑ p ∈ Finset.range k, A.get [i, p] * B.get [p, j] := by
  have e0 : A = val 0 := Option.some.inj (h 0 _ rfl)
  have e1 : B = val 1 := Option.some.inj (h 1 _ rfl)
  have e2 : POp.run (.matMul false false) [val 0, val 1] = .ok (val 2) := h 2 _ rfl
  obtain ⟨y, y1, _, y2⟩ := matMul_value false false (val 0) (val 1) m k n (e0 ▸ hA) (e1 ▸ hB)
  rw [e2] at y1
  cases y1
  have := y2 [] (by simp [InB]) i hi j hj
  rw [e0, e1]
  exact this

theorem jc_deriv_left {A B : Arr ℝ} {m k n : Nat} (hA : A.shape = [m, k]) (hB : B.shape = [k, n]) {i j r s : Nat} (hi : i < m) (hj : j < n) (hs : s < k) {Vals : ℝ → Nat → Arr ℝ}
    {P : ℝ → Prop} (h : ∀ u, Denotes [] ([A, B].set 0 (nudge A [r, s] u)) jcStmts (Vals u) ∧ P u) :
    HasDerivAt (fun u => (Vals u 2).get [i, j]) (if r = i then B.get [s, j] else 0) 0 := by
  have : (fun u => (Vals u 2).get [i, j]) = fun u => ∑ p ∈ Finset.range k, (if [i, p] = [r, s] then A.get [i, p] + u else A.get [i, p]) * B.get [p, j] := by
    funext u
    exact jc_entry (A := nudge A [r, s] u) hA hB (h u).1 hi hj
  rw [this]
  have hd : HasDerivAt (fun u => ∑ p ∈ Finset.range k, (if [i, p] = [r, s] then A.get [i, p] + u else A.get [i, p]) * B.get [p, j])
      (∑ p ∈ Finset.range k, (if [i, p] = [r, s] then 1 else 0) * B.get [p, j]) 0 := by
    refine HasDerivAt.fun_sum fun p _ => HasDerivAt.mul_const ?_ _
    split
    · exact (hasDerivAt_id (0 : ℝ)).const_add _
    · exact hasDerivAt_const _ _
  refine hd.congr_deriv ?_
  rw [Finset.sum_eq_single s]
  · by_cases hr : r = i
    · simp [hr]
    · simp [hr, Ne.symm hr]
  · intro p _ hp
    simp [hp]
  · intro hn; exact absurd (Finset.mem_range.2 hs) hn

theorem jc_deriv_right {A B : Arr ℝ} {m k n : Nat} (hA : A.shape = [m, k]) (hB : B.shape = [k, n]) {i j r s : Nat} (hi : i < m) (hj : j < n) (hr : r < k) {Vals : ℝ → Nat → Arr ℝ}
    {P : ℝ → Prop} (h : ∀ u, Denotes [] ([A, B].set 1 (nudge B [r, s] u)) jcStmts (Vals u) ∧ P u) :
    HasDerivAt (fun u => (Vals u 2).get [i, j]) (if s = j then A.get [i, r] else 0) 0 := by
  have : (fun u => (Vals u 2).get [i, j]) = fun u => ∑ p ∈ Finset.range k, A.get [i, p] * (if [p, j] = [r, s] then B.get [p, j] + u else B.get [p, j]) := by
    funext u
    exact jc_entry (B := nudge B [r, s] u) hA hB (h u).1 hi hj
  rw [this]
  have hd : HasDerivAt (fun u => ∑ p ∈ Finset.range k, A.get [i, p] * (if [p, j] = [r, s] then B.get [p, j] + u else B.get [p, j]))
      (∑ p ∈ Finset.range k, A.get [i, p] * (if [p, j] = [r, s] then 1 else 0)) 0 := by
    refine HasDerivAt.fun_sum fun p _ => HasDerivAt.const_mul _ ?_
    split
    · exact (hasDerivAt_id (0 : ℝ)).const_add _
    · exact hasDerivAt_const _ _
  refine hd.congr_deriv ?_
  rw [Finset.sum_eq_single r]
  · by_cases hs : s = j
    · simp [hs]
    · simp [hs, Ne.symm hs]
  · intro p _ hp
    simp [hp]
  · intro hn; exact absurd (Finset.mem_range.2 hr) hn

end Verif.Props
