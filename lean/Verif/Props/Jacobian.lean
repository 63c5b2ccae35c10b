import Verif.Lemmas.JacobianMatMul
import Verif.Props.Program

/-! # Property theorems about `jacobians`: C73 -/

namespace Verif.Props
open Verif Verif.Spec Verif.Gradient Verif.Graph Verif.Eval Verif.Nd Verif.Prog

/-! ## C73 `jacobians` returns the Jacobian matrices -/

/-- **C73** For the graph of a program, `jacobians(y, xs, n)` with respect to variables `vids` (used by the calls `xs`), where `n` is at most the number of elements of `y`, in any order of
processing tensors of equal rank and for any memory layout that `concat` chooses, given enough loop iterations, either panics because the graph gets too large (only if the stated bound exceeds
the limit) or returns one tensor for each variable, which evaluates to a matrix with `n` rows and a column for each element of the variable. Its entry in the row of the element `o` of `y` and the column of the
element `q` of the variable (both counted in row-major order) is the derivative of the element `o` of `y` by the element `q` of the variable: when that is changed by `u`, the calls of the
program return the arrays `Vals u k`, and the element `o` of `Vals u y` has this derivative at `u = 0`. Full statement: for all programs (here the hypotheses of C61 hold), and for values of `y` in all memory
layouts (here without gaps; the elements of others cannot be accessed, `C52_panic_violated`). -/
theorem C73_jacobians_partial (l : List Stmt) (hs : Scoped l) (g : Graph POp) (ids : List Nat) (hb : buildCalls l = .ok (g, ids))
    (fs : List (String × Arr ℝ)) (env : List (Arr ℝ)) (val : Nat → Arr ℝ) (hd : Denotes fs env l val)
    (xs vids : List Nat) (hx : List.Forall₂ (fun k vid => l[k]? = some (.var vid)) xs vids) (hnd : vids.Nodup)
    (hok : ∀ s ∈ l, StmtOk (Fixed l vids) (FlatIn l val) val s ∧ GradGivenFor (Fixed l vids) s) (y : Nat) (hy : y < l.length)
    (hc : Contig (val y).shape (val y).strides) (n : Nat) (hn0 : 0 < n) (hn : n ≤ (val y).shape.prod)
    (pick : Graph POp → List Nat → Nat) (hpick : PicksMax pick) (lay : List (Arr ℝ) → List Int) :
    ∃ N, ∀ fuel, N ≤ fuel →
      jacobians pick fuel lay g (ids.getD y 0) (xs.map (fun k => ids.getD k 0)) n = some (.error (.grad (.graph .graphTooLarge))) ∧
        500000 < (n + 1) * (120 * l.length + 10 * xs.length + 95) ∨
      ∃ g' js, jacobians pick fuel lay g (ids.getD y 0) (xs.map (fun k => ids.getD k 0)) n = some (.ok (g', js)) ∧
        List.Forall₂ (fun vid t => ∃ a v : Arr ℝ, env[vid]? = some a ∧ v.shape = [n, a.shape.prod] ∧
          (∃ fuel0, ∀ fuel', fuel0 ≤ fuel' → ∃ res, eval progSem g' fuel' [t] (named fs) env () = some (.ok res) ∧ res.results = [.ok v]) ∧
          ∀ o q, InB o (val y).shape → rowPos (val y).shape o < n → InB q a.shape →
            ∃ Vals : ℝ → Nat → Arr ℝ, (∀ u, Denotes fs (env.set vid (nudge a q u)) l (Vals u) ∧ ∀ k < l.length, (Vals u k).shape = (val k).shape) ∧
              HasDerivAt (fun u => (Vals u y).get o) (v.get [rowPos (val y).shape o, rowPos a.shape q]) 0) vids js := by
  rw [← size_eq_prod] at hn
  obtain ⟨N, hN⟩ := calls_jacobians l hs g ids hb fs env val hd xs vids hx hnd hok y hy hc n hn0 hn pick hpick lay
  refine ⟨N, fun fuel hf => (hN fuel hf).imp id ?_⟩
  rintro ⟨g', js, h1, h2, h3, h4⟩
  refine ⟨g', js, h1, h4.imp fun vid t ⟨a, v, e1, e2, e3, e4⟩ => ⟨a, v, e1, by rw [e2, size_eq_prod], evaluates h2 h3 e3, fun o q ho hlt hq => ?_⟩⟩
  rw [rowPos_eq ho] at hlt ⊢
  obtain ⟨Vals, v1, v2⟩ := e4 _ hlt q hq
  rw [unflat_flat ho] at v2
  rw [rowPos_eq hq]
  exact ⟨Vals, v1, v2⟩

-- The hypotheses hold for the example of the documentation: the product of a 4×2 matrix with a 2×3 matrix.
example (A B : Arr ℝ) (hA : A.shape = [4, 2]) (hB : B.shape = [2, 3]) :
    Scoped jcStmts ∧ (∃ g ids, buildCalls jcStmts = .ok (g, ids)) ∧ (∃ val, Denotes [] [A, B] jcStmts val ∧
      (∀ s ∈ jcStmts, StmtOk (Fixed jcStmts [0, 1]) (FlatIn jcStmts val) val s ∧ GradGivenFor (Fixed jcStmts [0, 1]) s) ∧ Contig (val 2).shape (val 2).strides ∧ 4 * 3 ≤ (val 2).shape.prod ∧
        (val 2).shape = [4, 3]) ∧
      List.Forall₂ (fun k vid => jcStmts[k]? = some (.var vid)) [0, 1] [0, 1] ∧ [0, 1].Nodup ∧ 2 < jcStmts.length ∧ (4 * 3 + 1) * (120 * jcStmts.length + 10 * [0, 1].length + 95) ≤ 500000 ∧
      PicksMax (demoPick (Op := POp)) := by
  obtain ⟨h1, h2, ⟨val, h3, h4, h5, h6⟩, h7⟩ := jc_hyps A B 4 2 3 hA hB
  obtain ⟨g, ids, hb, _⟩ := buildCalls_total h1 h2 (by decide)
  exact ⟨h1, ⟨g, ids, hb⟩, ⟨val, h3, h6, h5, by rw [h4]; decide, h4⟩, h7, by decide, by decide, by decide, demoPick_max⟩

/-- **C73** The example of the documentation, for matrices of all sizes (small enough that the graph stays below the limit): the Jacobian matrices of the product `AB` with respect to `A` and `B`. The
derivative of the entry `(i, j)` of the product by the entry `(r, s)` of `A` is the entry `(s, j)` of `B` if `r = i` and zero otherwise, and similarly for `B`. -/
theorem C73_matmul (A B : Arr ℝ) (m k n : Nat) (hA : A.shape = [m, k]) (hB : B.shape = [k, n]) (h0 : 0 < m * n) (hsmall : m * n ≤ 1000)
    (pick : Graph POp → List Nat → Nat) (hpick : PicksMax pick) (lay : List (Arr ℝ) → List Int) :
    ∃ (g : Graph POp) (a b c : Nat), buildCalls [.var 0, .var 1, .matmul 0 1] = .ok (g, [a, b, c]) ∧
      ∃ N, ∀ fuel, N ≤ fuel → ∃ g' ja jb, jacobians pick fuel lay g c [a, b] (m * n) = some (.ok (g', [ja, jb])) ∧
        ∃ va vb : Arr ℝ, (∃ fuel0, ∀ fuel', fuel0 ≤ fuel' → ∃ res, eval progSem g' fuel' [ja] [] [A, B] () = some (.ok res) ∧ res.results = [.ok va]) ∧
          (∃ fuel0, ∀ fuel', fuel0 ≤ fuel' → ∃ res, eval progSem g' fuel' [jb] [] [A, B] () = some (.ok res) ∧ res.results = [.ok vb]) ∧
          va.shape = [m * n, m * k] ∧ vb.shape = [m * n, k * n] ∧ ∀ i < m, ∀ j < n,
            (∀ r < m, ∀ s < k, va.get [i * n + j, r * k + s] = if r = i then B.get [s, j] else 0) ∧
            (∀ r < k, ∀ s < n, vb.get [i * n + j, r * n + s] = if s = j then A.get [i, r] else 0) := by
  obtain ⟨h1, h2, ⟨val, h3, h4, h5, h6⟩, h7⟩ := jc_hyps A B m k n hA hB
  obtain ⟨g, ids, hb, _⟩ := buildCalls_total h1 h2 (by decide)
  have hl := (built hb h1).length
  obtain ⟨a, b, c, rfl⟩ : ∃ a b c, ids = [a, b, c] := List.length_eq_three.1 hl
  obtain ⟨N, hN⟩ := C73_jacobians_partial jcStmts h1 g [a, b, c] hb [] [A, B] val h3 [0, 1] [0, 1] h7 (by decide) h6 2 (by decide) h5 (m * n) h0 (by rw [h4]; simp) pick hpick lay
  refine ⟨g, a, b, c, hb, N, fun fuel hf => ?_⟩
  rcases hN fuel hf with ⟨_, h⟩ | ⟨g', js, e1, e2⟩
  · simp only [jcStmts, List.length_cons, List.length_nil] at h
    omega
  cases e2 with
  | cons ha e2 =>
  cases e2 with
  | cons hb' e2 =>
  cases e2
  rename_i ja jb
  obtain ⟨A', va, p1, p2, p3, p4⟩ := ha
  obtain ⟨B', vb, q1, q2, q3, q4⟩ := hb'
  cases p1
  cases q1
  refine ⟨g', ja, jb, e1, va, vb, p3, q3, by rw [p2, hA]; simp, by rw [q2, hB]; simp, fun i hi j hj => ⟨fun r hr s hs => ?_, fun r hr s hs => ?_⟩⟩
  · have ho : InB [i, j] (val 2).shape := by rw [h4]; simpa [InB] using ⟨hi, hj⟩
    have hq : InB [r, s] A.shape := by rw [hA]; simpa [InB] using ⟨hr, hs⟩
    have hlt := flat_lt ho
    obtain ⟨Vals, w1, w2⟩ := p4 [i, j] [r, s] ho (by rw [rowPos_eq ho]; simpa [h4, Nd.size] using hlt) hq
    rw [rowPos_eq ho, rowPos_eq hq, h4, hA] at w2
    have := w2.unique (jc_deriv_left hA hB hi hj hs w1)
    simpa [flat, Nd.size] using this
  · have ho : InB [i, j] (val 2).shape := by rw [h4]; simpa [InB] using ⟨hi, hj⟩
    have hq : InB [r, s] B.shape := by rw [hB]; simpa [InB] using ⟨hr, hs⟩
    have hlt := flat_lt ho
    obtain ⟨Vals, w1, w2⟩ := q4 [i, j] [r, s] ho (by rw [rowPos_eq ho]; simpa [h4, Nd.size] using hlt) hq
    rw [rowPos_eq ho, rowPos_eq hq, h4, hB] at w2
    have := w2.unique (jc_deriv_right hA hB hi hj hr w1)
    simpa [flat, Nd.size] using this

-- The sizes of the documentation.
example : 0 < 4 * 3 ∧ 4 * 3 ≤ 1000 ∧ (ofFn [4, 2] (fun _ => (1 : ℝ))).shape = [4, 2] ∧ (ofFn [2, 3] (fun _ => (1 : ℝ))).shape = [2, 3] := ⟨by decide, by decide, rfl, rfl⟩

/-- **C73** is violated for a tensor without elements: its Jacobian matrices have no rows, but `jacobians` panics (`concat` does not accept an empty list). Here `y` is a product of matrices
with `m = 0`. -/
theorem C73_empty_violated (A B : Arr ℝ) (k n : Nat) (hA : A.shape = [0, k]) (hB : B.shape = [k, n]) :
    ∃ (g : Graph POp) (a b c : Nat), buildCalls [.var 0, .var 1, .matmul 0 1] = .ok (g, [a, b, c]) ∧
      (∃ v : Arr ℝ, v.shape.prod = 0 ∧ ∃ fuel0, ∀ fuel', fuel0 ≤ fuel' → ∃ res, eval progSem g fuel' [c] [] [A, B] () = some (.ok res) ∧ res.results = [.ok v]) ∧
      ∀ pick fuel lay, jacobians pick fuel lay g c [a, b] 0 = some (.error .empty) := by
  obtain ⟨h1, h2, ⟨val, h3, h4, h5, h6⟩, h7⟩ := jc_hyps A B 0 k n hA hB
  obtain ⟨g, ids, hb, _⟩ := buildCalls_total h1 h2 (by decide)
  have hB' := built hb h1
  obtain ⟨a, b, c, rfl⟩ : ∃ a b c, ids = [a, b, c] := List.length_eq_three.1 hB'.length
  obtain ⟨_, hv⟩ := buildCalls_values hb h1 (fun s h => stmtOk_weaken (fun _ _ => trivial) (fun _ _ _ => trivial) (h6 s h).1) h3
  exact ⟨g, a, b, c, hb, ⟨val 2, by rw [h4]; simp, evaluates (prog_reach hB'.run) (run_oldRead hB'.run) (hv 2 (by decide))⟩, fun pick fuel lay => rfl⟩

example : (ofFn [0, 2] (fun _ => (1 : ℝ))).shape = [0, 2] ∧ (ofFn [2, 3] (fun _ => (1 : ℝ))).shape = [2, 3] := ⟨rfl, rfl⟩

end Verif.Props
