import Verif.Lemmas.CallsStop

/-! # Property theorems about `stop_gradient`: C76 -/

namespace Verif.Props
open Verif Verif.Spec Verif.Gradient Verif.Graph Verif.Eval Verif.Nd Verif.Prog

/-! ## C76 `stop_gradient` holds its argument for `grad` -/

/-- **C76** Gradients of programs that call `stop_gradient` on anything. `val k` is the array that the `k`-th call returns (`stop_gradient` returns its argument). `grad(ys, xs)` with respect
to variables `vids` either panics because the graph gets too large (for programs of more than about 3900 calls) or returns tensors that evaluate to the partial derivatives of the sum of all elements of
the `ys`, when the results of the calls of `stop_gradient` are held at their values: when the element at `i` of the variable `vid` is changed by `u`, and each call of `stop_gradient` keeps its value `val k`,
the other calls return `Vals u k`, and the sum of the elements of the `Vals u y` has at `u = 0` the derivative that the gradient array holds at `i`. -/
theorem C76_gradients_partial (l : List Stmt) (hs : Scoped l) (g : Graph POp) (ids : List Nat) (hb : buildCalls l = .ok (g, ids))
    (fs : List (String × Arr ℝ)) (env : List (Arr ℝ)) (val : Nat → Arr ℝ) (hd : Denotes fs env l val)
    (xs vids : List Nat) (hx : List.Forall₂ (fun k vid => l[k]? = some (.var vid)) xs vids) (hnd : vids.Nodup)
    (hok : ∀ s ∈ l, (StmtOk (Fixed l vids) (FlatIn l val) val s ∨ ∃ x, s = .stopGradient x) ∧ GradGivenFor (Fixed l vids) s)
    (ys : List Nat) (hys : ys ≠ []) (hy : ∀ y ∈ ys, y < l.length) (pick : Graph POp → List Nat → Nat) (hpick : PicksMax pick) :
    ∃ N, ∀ fuel, N ≤ fuel →
      grad gradOps pick fuel g (ys.map (fun k => ids.getD k 0)) (xs.map (fun k => ids.getD k 0)) = some (.error (.graph .graphTooLarge)) ∧
        500000 < 32 * (4 * l.length + ys.length + xs.length + 1) ∨
      ∃ r, grad gradOps pick fuel g (ys.map (fun k => ids.getD k 0)) (xs.map (fun k => ids.getD k 0)) = some (.ok r) ∧
        List.Forall₂ (fun vid t => ∃ a v : Arr ℝ, env[vid]? = some a ∧ v.shape = a.shape ∧
          (∃ fuel0, ∀ fuel', fuel0 ≤ fuel' → ∃ res, eval progSem r.g fuel' [t] (named fs) env () = some (.ok res) ∧ res.results = [.ok v]) ∧
          ∀ i, InB i a.shape → ∃ Vals : ℝ → Nat → Arr ℝ,
            (∀ u, DenotesHeld fs (env.set vid (nudge a i u)) l val (Vals u) ∧ ∀ k < l.length, (Vals u k).shape = (val k).shape) ∧
            HasDerivAt (fun u => (ys.map (fun y => total (Vals u y))).sum) (v.get i) 0) vids r.grads := by
  obtain ⟨N, hN⟩ := calls_held l hs g ids hb fs env val hd xs vids hx hnd hok ys hys hy pick hpick
  refine ⟨N, fun fuel hf => (hN fuel hf).imp id ?_⟩
  rintro ⟨r, h1, _, h2, h3, _, h4⟩
  refine ⟨r, h1, h4.imp fun vid t ⟨a, v, e1, e2, e3, e4⟩ => ⟨a, v, e1, e2, evaluates h2 h3 e3, fun i hi => ?_⟩⟩
  obtain ⟨Vals, h5, h6⟩ := e4 i hi
  exact ⟨Vals, fun u => ⟨(h5 u).1, fun k hk => ((h5 u).2 k hk).1⟩, h6⟩

/-- **C76** No gradient passes: if the `ys` depend on the variables only through calls of `stop_gradient` (or through shapes and sizes), the gradients that `grad` returns evaluate to zeros, of the shapes of
the variables. -/
theorem C76_blocked_partial (l : List Stmt) (hs : Scoped l) (g : Graph POp) (ids : List Nat) (hb : buildCalls l = .ok (g, ids))
    (fs : List (String × Arr ℝ)) (env : List (Arr ℝ)) (val : Nat → Arr ℝ) (hd : Denotes fs env l val)
    (xs vids : List Nat) (hx : List.Forall₂ (fun k vid => l[k]? = some (.var vid)) xs vids) (hnd : vids.Nodup)
    (hok : ∀ s ∈ l, (StmtOk (Fixed l vids) (FlatIn l val) val s ∨ ∃ x, s = .stopGradient x) ∧ GradGivenFor (Fixed l vids) s)
    (ys : List Nat) (hys : ys ≠ []) (hy : ∀ y ∈ ys, y < l.length ∧ Fixed l vids y) (pick : Graph POp → List Nat → Nat) (hpick : PicksMax pick) :
    ∃ N, ∀ fuel, N ≤ fuel →
      grad gradOps pick fuel g (ys.map (fun k => ids.getD k 0)) (xs.map (fun k => ids.getD k 0)) = some (.error (.graph .graphTooLarge)) ∧
        500000 < 32 * (4 * l.length + ys.length + xs.length + 1) ∨
      ∃ r, grad gradOps pick fuel g (ys.map (fun k => ids.getD k 0)) (xs.map (fun k => ids.getD k 0)) = some (.ok r) ∧
        List.Forall₂ (fun vid t => ∃ a v : Arr ℝ, env[vid]? = some a ∧ v.shape = a.shape ∧ (∀ i, InB i a.shape → v.get i = 0) ∧
          ∃ fuel0, ∀ fuel', fuel0 ≤ fuel' → ∃ res, eval progSem r.g fuel' [t] (named fs) env () = some (.ok res) ∧ res.results = [.ok v]) vids r.grads := by
  obtain ⟨N, hN⟩ := calls_held l hs g ids hb fs env val hd xs vids hx hnd hok ys hys (fun y h => (hy y h).1) pick hpick
  refine ⟨N, fun fuel hf => (hN fuel hf).imp id ?_⟩
  rintro ⟨r, h1, _, h2, h3, _, h4⟩
  refine ⟨r, h1, h4.imp fun vid t ⟨a, v, e1, e2, e3, e4⟩ => ⟨a, v, e1, e2, fun i hi => ?_, evaluates h2 h3 e3⟩⟩
  obtain ⟨Vals, h5, h6⟩ := e4 i hi
  have : (fun u => (ys.map (fun y => total (Vals u y))).sum) = fun _ => (ys.map (fun y => total (val y))).sum := by
    funext u
    congr 1
    exact List.map_congr_left fun y hym => by rw [((h5 u).2 y (hy y hym).1).2 (hy y hym).2]
  rw [this] at h6
  exact h6.unique (hasDerivAt_const _ _)

/-- `sum_all(x * stop_gradient(x))`, and `sum_all(stop_gradient(x))`. -/
noncomputable def sgStmts : List Stmt := [.var 0, .stopGradient 0, .mul 0 1, .sumAll 2, .sumAll 1]

theorem sgScoped : Scoped sgStmts := by
  intro k s hk a ha
  match k, hk with
  | 0, hk => cases hk; simp [Stmt.args] at ha
  | 1, hk => cases hk; simp [Stmt.args] at ha; omega
  | 2, hk => cases hk; simp [Stmt.args] at ha; omega
  | 3, hk => cases hk; simp [Stmt.args] at ha; omega
  | 4, hk => cases hk; simp [Stmt.args] at ha; omega
  | k + 5, hk => cases hk

theorem sgDims : DimsOk sgStmts := by
  intro name d h
  simp [sgStmts] at h

theorem sgDenotes (a : Arr ℝ) : ∃ val, Denotes [] [a] sgStmts val ∧ val 0 = a ∧ val 1 = a := by
  obtain ⟨y, h1, _⟩ := mulOp_same (x0 := a) (x1 := a) rfl
  refine ⟨fun k => match k with
    | 0 => a
    | 1 => a
    | 2 => y
    | 3 => ofFn [] (fun _ => total y)
    | _ => ofFn [] (fun _ => total a), ?_, rfl, rfl⟩
  intro k s hk
  match k, hk with
  | 0, hk => cases hk; rfl
  | 1, hk => cases hk; rfl
  | 2, hk => cases hk; exact h1
  | 3, hk => cases hk; rfl
  | 4, hk => cases hk; rfl
  | k + 5, hk => cases hk

theorem sgOk {a : Arr ℝ} (ha : ∀ d ∈ a.shape, 0 < d) {val : Nat → Arr ℝ} (h0 : val 0 = a) (h1 : val 1 = a) :
    ∀ s ∈ sgStmts, (StmtOk (Fixed sgStmts [0]) (FlatIn sgStmts val) val s ∨ ∃ x, s = .stopGradient x) ∧ GradGivenFor (Fixed sgStmts [0]) s := by
  intro s hs
  simp only [sgStmts, List.mem_cons, List.not_mem_nil, or_false] at hs
  rcases hs with rfl | rfl | rfl | rfl | rfl
  · exact ⟨.inl trivial, trivial⟩
  · exact ⟨.inr ⟨_, rfl⟩, trivial⟩
  · refine ⟨.inl ?_, trivial⟩
    show Inferable (val 0).shape (val 1).shape
    rw [h0, h1]
    exact ⟨.inr (.inr rfl), ha, ha⟩
  · exact ⟨.inl trivial, trivial⟩
  · exact ⟨.inl trivial, trivial⟩

-- The hypotheses of both theorems hold for all arrays without empty axes; and the gradient of `sum_all(x * stop_gradient(x))` is `x` itself (not twice `x`).
example (a : Arr ℝ) (ha : ∀ d ∈ a.shape, 0 < d) (pick : Graph POp → List Nat → Nat) (hpick : PicksMax pick) :
    ∃ g ids r fuel, buildCalls sgStmts = .ok (g, ids) ∧ grad gradOps pick fuel g [ids.getD 3 0] [ids.getD 0 0] = some (.ok r) ∧
      ∃ t v, r.grads = [t] ∧ v.shape = a.shape ∧ (∀ i, InB i a.shape → v.get i = a.get i) ∧
        ∃ fuel0, ∀ fuel', fuel0 ≤ fuel' → ∃ res, eval progSem r.g fuel' [t] (named []) [a] () = some (.ok res) ∧ res.results = [.ok v] := by
  obtain ⟨g, ids, hb, _⟩ := buildCalls_total sgScoped sgDims (by decide)
  obtain ⟨val, hd, h0, h1⟩ := sgDenotes a
  obtain ⟨N, hN⟩ := C76_gradients_partial sgStmts sgScoped g ids hb [] [a] val hd [0] [0] (.cons rfl .nil) (by decide) (sgOk ha h0 h1) [3] (by decide) (by decide) pick hpick
  rcases hN N le_rfl with ⟨_, h⟩ | ⟨r, hr, hf⟩
  · exact absurd h (by decide)
  refine ⟨g, ids, r, N, hb, hr, ?_⟩
  generalize hgr : r.grads = gs at hf
  cases hf with
  | @cons _ t _ ts h hn =>
  cases hn
  obtain ⟨a', v, e1, e2, e3, e4⟩ := h
  cases e1
  refine ⟨t, v, rfl, e2, fun i hi => ?_, e3⟩
  obtain ⟨Vals, h5, h6⟩ := e4 i hi
  have key : ∀ u, ([3].map (fun y => total (Vals u y))).sum = ∑ j ∈ idxs a.shape, (nudge a i u).get j * a.get j := by
    intro u
    have hden := (h5 u).1
    have v0 : Vals u 0 = nudge a i u := by
      rcases hden 0 _ rfl with ⟨⟨_, h⟩, _⟩ | ⟨_, h⟩
      · cases h
      · exact (Option.some.inj h).symm
    have v1 : Vals u 1 = a := by
      rcases hden 1 _ rfl with ⟨_, h⟩ | ⟨h, _⟩
      · rw [h, h1]
      · exact absurd rfl (h 0)
    have v2 : mulOp (nudge a i u) a = .ok (Vals u 2) := by
      rcases hden 2 _ rfl with ⟨⟨_, h⟩, _⟩ | ⟨_, h⟩
      · cases h
      · rw [← v0]; exact v1 ▸ h
    have v3 : Vals u 3 = ofFn [] (fun _ => total (Vals u 2)) := by
      rcases hden 3 _ rfl with ⟨⟨_, h⟩, _⟩ | ⟨_, h⟩
      · cases h
      · exact h
    obtain ⟨y, m1, m2, m3⟩ := mulOp_same (x0 := nudge a i u) (x1 := a) rfl
    rw [m1] at v2
    have v2 : y = Vals u 2 := by injection v2
    rw [List.map_cons, List.map_nil, List.sum_singleton, v3, ← v2]
    have : total (ofFn [] (fun _ => total y)) = total y := by simp [total, ofFn, idxs]
    rw [this, total, m2]
    exact Finset.sum_congr rfl fun j hj => m3 j (mem_idxs.1 hj)
  rw [funext key] at h6
  have h7 : HasDerivAt (fun u => ∑ j ∈ idxs a.shape, (nudge a i u).get j * a.get j) (∑ j ∈ idxs a.shape, (if j = i then 1 else 0) * a.get j) 0 :=
    HasDerivAt.fun_sum fun j hj => ((nudge_moves a i).deriv j (mem_idxs.1 hj)).mul_const _
  rw [h6.unique h7, Finset.sum_eq_single i]
  · simp
  · intro j _ hj; simp [hj]
  · intro h; exact absurd (mem_idxs.2 hi) h

-- `sum_all(stop_gradient(x))` depends on `x` only through `stop_gradient`.
example : ∀ y ∈ [4], y < sgStmts.length ∧ Fixed sgStmts [0] y := by
  intro y hy
  simp only [List.mem_cons, List.not_mem_nil, or_false] at hy
  subst hy
  refine ⟨by decide, .call rfl (by simp) fun a ha => ?_⟩
  simp only [Stmt.args, List.mem_cons, List.not_mem_nil, or_false] at ha
  subst ha
  exact .stop rfl

end Verif.Props
