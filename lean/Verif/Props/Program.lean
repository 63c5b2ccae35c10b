import Verif.Lemmas.GradDemo
import Verif.Lemmas.ProgramBuilds
import Verif.Lemmas.ProgramGradient
import Verif.Lemmas.ProgramTotal
import Verif.Lemmas.GradCount
import Verif.Model.Classifier
import Verif.Props.Eval
import Verif.Props.Gradient

/-! # Property theorems about programs of array ops: C55, C58 -/

namespace Verif.Props
open Verif Verif.Spec Verif.Gradient Verif.Graph Verif.Eval Verif.Nd Verif.Prog

/-! ## C55 Gradients of programs -/

/-- **C55** For every program, in any order of processing tensors of equal rank: the tensors that `grad(ys, xs)` returns for variables and placeholders `xs`
evaluate to arrays `G x` of the shapes of the `xs`, and these are the gradients of the sum of all elements of the `ys`: when the arrays of the `xs` move
along differentiable curves `V x` with velocities `d x`, and all other variables and placeholders keep their values, then all tensors evaluate at each point of
the curve (to arrays of the same shape as before; those that do not depend on the `xs` do not change) and the derivative of the sum of the elements of the `ys` is
the inner product of the `G x` with the `d x`. -/
theorem C55_gradient_of_program_partial (l : List Stmt) (g : Graph POp) (ts : List Nat) (hl : runProgram l = .ok (g, ts))
    (feeds : List (Feed (Arr ℝ))) (env : List (Arr ℝ)) (p : Nat → Arr ℝ) (hv : ∀ n, n < g.nodes.length → Evals (setting feeds env) g n (p n))
    (pick : Graph POp → List Nat → Nat) (hpick : PicksMax pick) (fuel : Nat) (ys xs : List Nat) (hok : ∀ s ∈ l, StmtOk (Still g xs) (Flat g p) p s)
    (hy : ∀ y ∈ ys, y < g.nodes.length) (hxs : xs.Nodup) (hleaf : ∀ x ∈ xs, IsLeaf g x) (r : GradResult POp)
    (h : grad gradOps pick fuel g ys xs = some (.ok r)) :
    ∃ G : Nat → Arr ℝ, List.Forall₂ (fun x t => Evals (setting feeds env) r.g t (G x) ∧ (G x).shape = (p x).shape) xs r.grads ∧
      ∀ (F : ℝ → List (Feed (Arr ℝ))) (N : ℝ → List (Arr ℝ)) (V : Nat → ℝ → Arr ℝ) (d : Nat → List Nat → ℝ),
        (∀ x ∈ xs, Moves (V x) (p x) (d x) ∧ ∀ u, Evals (setting (F u) (N u)) g x (V x u)) →
        (∀ x, IsLeaf g x → x ∉ xs → ∀ u, Evals (setting (F u) (N u)) g x (p x)) →
        ∃ Y : ℝ → Nat → Arr ℝ, (∀ u n, n < g.nodes.length → Evals (setting (F u) (N u)) g n (Y u n) ∧ (Y u n).shape = (p n).shape ∧ (Still g xs n → Y u n = p n)) ∧
          HasDerivAt (fun u => (ys.map (fun y => total (Y u y))).sum) (xs.map (fun x => Prog.inner (p x).shape (G x).get (d x))).sum 0 := by
  exact graph_gradient (progGraph hl hv hok) (stopsStill hl hok) pick hpick fuel ys hy hxs hleaf r h

/-- **C55** In terms of the evaluator: evaluating a gradient tensor with respect to a variable returns (given enough loop iterations) an array `v` of the
shape of the variable, whose element at every index `i` is the partial derivative of the sum of all elements of the `ys`: if the element of the variable at
`i` is changed by `u`, the `ys` evaluate to arrays `Y u y` and the sum of their elements has at `u = 0` the derivative `v.get i`. -/
theorem C55_partial_derivatives_partial (l : List Stmt) (g : Graph POp) (ts : List Nat) (hl : runProgram l = .ok (g, ts))
    (feeds : List (Feed (Arr ℝ))) (env : List (Arr ℝ)) (p : Nat → Arr ℝ) (hv : ∀ n, n < g.nodes.length → Evals (setting feeds env) g n (p n))
    (pick : Graph POp → List Nat → Nat) (hpick : PicksMax pick) (fuel : Nat) (ys xs : List Nat) (hok : ∀ s ∈ l, StmtOk (Still g xs) (Flat g p) p s)
    (hy : ∀ y ∈ ys, y < g.nodes.length) (hxs : xs.Nodup) (hleaf : ∀ x ∈ xs, IsLeaf g x) (r : GradResult POp)
    (h : grad gradOps pick fuel g ys xs = some (.ok r)) (k x t vid : Nat) (hx : xs[k]? = some x) (ht : r.grads[k]? = some t) (hxv : IsVariable g x vid) :
    ∃ a v : Arr ℝ, env[vid]? = some a ∧ v.shape = a.shape ∧
      (∃ fuel0, ∀ fuel', fuel0 ≤ fuel' → ∃ res, eval progSem r.g fuel' [t] feeds env () = some (.ok res) ∧ res.results = [.ok v]) ∧
      ∀ i, InB i a.shape → ∃ Y : ℝ → Nat → Arr ℝ,
        (∀ u, ∀ y ∈ ys, ∃ fuel0, ∀ fuel', fuel0 ≤ fuel' → ∃ res,
          eval progSem g fuel' [y] feeds (env.set vid (nudge a i u)) () = some (.ok res) ∧ res.results = [.ok (Y u y)]) ∧
        HasDerivAt (fun u => (ys.map (fun y => total (Y u y))).sum) (v.get i) 0 := by
  obtain ⟨G, h1, h2⟩ := C55_gradient_of_program_partial l g ts hl feeds env p hv pick hpick fuel ys xs hok hy hxs hleaf r h
  have hP := progGraph hl hv hok
  have hb := grad_builds opGrad_builds h
  obtain ⟨t', ht', hG⟩ := (forall₂_get h1).2 k x hx
  rw [ht] at ht'; cases ht'
  have hxm := List.mem_of_getElem? hx
  have hxl : x < g.nodes.length := by
    obtain ⟨n, hn, _⟩ := hxv
    exact (List.getElem?_eq_some_iff.1 hn).1
  obtain ⟨e1, e2⟩ := variable_evals hxv (hP.evals x hxl)
  refine ⟨p x, G x, e1, hG.2, evaluates (hb.reach (prog_reach hl)) (hb.oldRead (prog_oldRead hP)) hG.1, fun i hi => ?_⟩
  have hlf : ∀ z, IsLeaf g z → z < g.nodes.length := fun z hz => by
    obtain ⟨n, hn, _⟩ := hz
    exact (List.getElem?_eq_some_iff.1 hn).1
  obtain ⟨Y, hY1, hY2⟩ := h2 (fun _ => feeds) (fun u => env.set vid (nudge (p x) i u)) (fun z u => if z = x then nudge (p x) i u else p z)
    (fun z j => if z = x then (if j = i then 1 else 0) else 0)
    (by
      intro z hz
      by_cases hzx : z = x
      · subst hzx
        simp only [if_true]
        exact ⟨nudge_moves (p z) i, fun u => e2 _⟩
      · simp only [hzx, if_false]
        exact ⟨moves_const (p z), fun u => other_evals hP.wf hxv hzx (hleaf z hz) (hP.evals z (hlf z (hleaf z hz))) _⟩)
    (by
      intro z hz hzx u
      exact other_evals hP.wf hxv (by rintro rfl; exact hzx hxm) hz (hP.evals z (hlf z hz)) _)
  refine ⟨Y, fun u y hym => evaluates (prog_reach hl) (prog_oldRead hP) (hY1 u y (hy y hym)).1, ?_⟩
  have hsum : (xs.map (fun z => Prog.inner (p z).shape (G z).get (fun j => if z = x then (if j = i then (1 : ℝ) else 0) else 0))).sum = (G x).get i := by
    rw [← sum_toFinset hxs, Finset.sum_eq_single x]
    · simp only [if_true]
      exact inner_single hi _
    · intro z _ hz
      simp [Prog.inner, hz]
    · intro hn; exact absurd (List.mem_toFinset.2 hxm) hn
  rw [← hsum]
  exact hY2

/-- `sum_all(tanh(matmul(x, w)))` for a variable `w` and a placeholder `x`. -/
def pgStmts : List Stmt := [.var 0, .placeholder "x" [-1, 2], .matmul 1 0, .un .tanh 2, .sumAll 4]

/-- Its graph. -/
noncomputable def pgGraph : Graph POp := match runProgram pgStmts with
  | .ok (g, _) => g
  | .error _ => Graph.empty

-- The hypotheses of both theorems hold for all arrays `w` and `x` of fitting shapes.
example (w x : Arr ℝ) (hw : w.shape = [2, 1]) (hx : x.shape = [3, 2]) : ∃ (ts : List Nat) (p : Nat → Arr ℝ) (r : GradResult POp),
    runProgram pgStmts = .ok (pgGraph, ts) ∧ (∀ n, n < pgGraph.nodes.length → Evals (setting [⟨.name "x", x⟩] [w]) pgGraph n (p n)) ∧
      (∀ s ∈ pgStmts, StmtOk (Still pgGraph [0, 1]) (Flat pgGraph p) p s) ∧ PicksMax (demoPick (Op := POp)) ∧ (∀ y ∈ [5], y < pgGraph.nodes.length) ∧ [0, 1].Nodup ∧ (∀ z ∈ [0, 1], IsLeaf pgGraph z) ∧
      grad gradOps demoPick 50 pgGraph [5] [0, 1] = some (.ok r) ∧ IsVariable pgGraph 0 0 := by
  obtain ⟨y, hy, hp⟩ := matMul_value false false x w 3 2 1 hx hw
  have hs : y.shape = [3, 1] := hp.1
  let p : Nat → Arr ℝ := fun n => match n with
    | 0 => w
    | 1 => x
    | 2 => y
    | 3 => encShape y.shape
    | 4 => Nd.map Real.tanh y
    | _ => Nd.sumAll (Nd.map Real.tanh y)
  refine ⟨_, p, _, rfl, ?_, ?_, demoPick_max, by intro y h; rw [List.mem_singleton.1 h]; decide, by decide, ?_, rfl, ⟨_, rfl, rfl⟩⟩
  · have hfed : FedWith Arr.shape [⟨.name "x", x⟩] 1 (pgGraph.nodes[1]'(by decide)) x :=
      ⟨"x", [-1, 2], rfl, rfl, ⟨[], _, [], rfl, .inr rfl, rfl, by simp⟩, by
        rw [hx]
        refine ⟨rfl, fun k d u h h' => ?_⟩
        match k with
        | 0 => exact .inl (Option.some.inj h).symm
        | 1 => right; rw [← Option.some.inj h, ← Option.some.inj h']; rfl
        | k + 2 => cases h⟩
    have h0 : Evals (setting [⟨.name "x", x⟩] [w]) pgGraph 0 w := ⟨.variable_ rfl rfl rfl, fun n hn _ => by rw [← Option.some.inj hn]; rfl⟩
    have h1 : Evals (setting [⟨.name "x", x⟩] [w]) pgGraph 1 x := ⟨.placeholder rfl rfl hfed, fun n hn h => by rw [← Option.some.inj hn] at h; exact absurd rfl h⟩
    have h2 := evals_run (g := pgGraph) (t := 2) (op := (.matMul false false)) (xs := [1, 0]) ⟨_, rfl, rfl, rfl, rfl, rfl⟩ (.cons h1 (.cons h0 .nil)) hy
    have h3 := evals_run (g := pgGraph) (t := 3) (op := .shape) (xs := [2]) ⟨_, rfl, rfl, rfl, rfl, rfl⟩ (.cons h2 .nil) (rfl : POp.run .shape [y] = _)
    have h4 := evals_run (g := pgGraph) (t := 4) (op := (.un .tanh)) (xs := [2]) ⟨_, rfl, rfl, rfl, rfl, rfl⟩ (.cons h2 .nil) (rfl : POp.run (.un .tanh) [y] = _)
    have h5 := evals_run (g := pgGraph) (t := 5) (op := .sumAll) (xs := [4]) ⟨_, rfl, rfl, rfl, rfl, rfl⟩ (.cons h4 .nil) (rfl : POp.run .sumAll [_] = _)
    intro n hn
    match n, hn with
    | 0, _ => exact h0
    | 1, _ => exact h1
    | 2, _ => exact h2
    | 3, _ => exact h3
    | 4, _ => exact h4
    | 5, _ => exact h5
    | n + 6, hn => exact absurd hn (by show ¬ n + 6 < 6; omega)
  · intro s hs
    simp only [pgStmts, List.mem_cons, List.not_mem_nil, or_false] at hs
    rcases hs with rfl | rfl | rfl | rfl | rfl
    · trivial
    · exact .inl rfl
    · trivial
    · exact .inr ⟨fun i _ => ⟨trivial, (hasDerivAt_tanh _).differentiableAt, fun h => (by cases h)⟩, fun h => (by cases h), fun h => (by cases h)⟩
    · trivial
  · intro z hz
    simp only [List.mem_cons, List.not_mem_nil, or_false] at hz
    rcases hz with rfl | rfl
    · exact ⟨_, rfl, .inr (by intro h; cases h)⟩
    · exact ⟨_, rfl, .inl (by intro h; cases h)⟩

/-! ## C58 `grad` returns -/

/-- **C58** `grad` with respect to variables and placeholders returns one tensor per parameter for every program, given enough loop iterations, unless the graph gets too large: whatever
calls the program consists of, no gradient function panics and no gradient is missing. Required is only that inputs for which no gradients are reported
(axes, target shapes, indices, arguments of `sign`: `GradGivenFor`) do not depend on the `xs`. -/
theorem C58_grad_returns_partial (l : List Stmt) (g : Graph POp) (ts : List Nat) (hl : runProgram l = .ok (g, ts))
    (pick : Graph POp → List Nat → Nat) (hpick : PicksMax pick) (ys xs : List Nat) (hne : ys ≠ []) (hok : ∀ s ∈ l, GradGivenFor (Still g xs) s)
    (hy : ∀ y ∈ ys, y < g.nodes.length) (hleaf : ∀ x ∈ xs, IsLeaf g x) :
    ∃ N, ∀ fuel, N ≤ fuel →
      (∃ r, grad gradOps pick fuel g ys xs = some (.ok r) ∧ r.grads.length = xs.length) ∨ grad gradOps pick fuel g ys xs = some (.error (.graph .graphTooLarge)) :=
  grad_returns (progShape hl hok) hpick hne hy hleaf

-- The hypotheses hold for a classifier: the mean of the cross entropies of `matmul(x, w) + b`, with labels in a placeholder.
example (bot : ℝ) (lay : Arr ℝ → List Int) : ∃ (g : Graph POp) (ts : List Nat), runProgram (classifier bot lay 784 false) = .ok (g, ts) ∧ PicksMax (demoPick (Op := POp)) ∧ [12] ≠ ([] : List Nat) ∧
    (∀ s ∈ classifier bot lay 784 false, GradGivenFor (Still g [0, 1]) s) ∧ (∀ y ∈ [12], y < g.nodes.length) ∧ (∀ x ∈ [0, 1], IsLeaf g x) := by
  refine ⟨_, _, rfl, demoPick_max, by simp, ?_, ?_, ?_⟩
  · intro s hs
    simp only [classifier, List.mem_cons, List.not_mem_nil, or_false] at hs
    rcases hs with rfl | rfl | rfl | rfl | rfl | rfl | rfl | rfl | rfl
    all_goals try trivial
    exact .app (op := .const _) (zs := []) ⟨_, rfl, rfl, rfl, rfl, rfl⟩ (by simp)
  · intro y h
    rw [List.mem_singleton.1 h]
    show 12 < 13
    omega
  · intro z hz
    simp only [List.mem_cons, List.not_mem_nil, or_false] at hz
    rcases hz with rfl | rfl <;> exact ⟨_, rfl, .inr (by intro h; cases h)⟩

/-- **C58** The graph does not get too large for programs of moderate size: `grad` adds at most about thirty tensors for each tensor of the graph, and a program has at most four tensors for
each of its calls. Programs of up to 3900 calls therefore have gradients, without exception. -/
theorem C58_small_returns_partial (l : List Stmt) (g : Graph POp) (ts : List Nat) (hl : runProgram l = .ok (g, ts))
    (pick : Graph POp → List Nat → Nat) (hpick : PicksMax pick) (ys xs : List Nat) (hne : ys ≠ []) (hok : ∀ s ∈ l, GradGivenFor (Still g xs) s)
    (hy : ∀ y ∈ ys, y < g.nodes.length) (hleaf : ∀ x ∈ xs, IsLeaf g x) (hsmall : 32 * (4 * l.length + ys.length + xs.length + 1) ≤ 500000) :
    ∃ N, ∀ fuel, N ≤ fuel → ∃ r, grad gradOps pick fuel g ys xs = some (.ok r) ∧ r.grads.length = xs.length ∧
      r.g.nodes.length ≤ 32 * (4 * l.length + ys.length + xs.length + 1) := by
  have hlen : g.nodes.length ≤ 4 * l.length := by simpa [Graph.empty, glen] using (adds_program (l := l) (g := Graph.empty)).ok _ hl
  obtain ⟨N, hN⟩ := grad_returns_small (progShape hl hok) hpick hne hy hleaf
  refine ⟨N, fun fuel hf => ?_⟩
  rcases hN fuel hf with ⟨r, h1, h2, h3⟩ | ⟨_, h⟩
  · exact ⟨r, h1, h2, h3.trans (by omega)⟩
  · unfold numNodesCritical at h
    omega

-- The bound holds for the program of the last example, whose other hypotheses were checked there.
example (bot : ℝ) (lay : Arr ℝ → List Int) : 32 * (4 * (classifier bot lay 784 false).length + 1 + 2 + 1) ≤ 500000 := by
  show 32 * (4 * 9 + 1 + 2 + 1) ≤ 500000
  omega

/-- **C58** The condition is needed: `grad(sign(x), x)` panics, since `Sign` reports no gradient. -/
theorem C58_sign_violated : ∃ g ts, runProgram [.var 0, .un .sign 0] = .ok (g, ts) ∧ ts = [0, 2] ∧ PicksMax (demoPick (Op := POp)) ∧
    grad gradOps demoPick 50 g [2] [0] = some (.error .noGradient) :=
  ⟨_, _, rfl, rfl, demoPick_max, rfl⟩

end Verif.Props
