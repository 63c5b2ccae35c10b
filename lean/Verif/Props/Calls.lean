import Verif.Lemmas.CallsDeriv

/-! # Property theorems about whole programs: C61 -/

namespace Verif.Props
open Verif Verif.Spec Verif.Gradient Verif.Graph Verif.Eval Verif.Nd Verif.Prog

/-! ## C61 Programs compute what they say, and `grad` differentiates it -/

/-- **C61** Values. Let `val k` be the array that the `k`-th call of a program returns, when each call is applied to the arrays returned by the calls that
are its arguments. Then the graph of the program can be built (if it has at most 125000 calls), and evaluating the tensors of any calls `ks` (different tensors) returns the arrays
`val k`. Required is that recorded shapes are correct (`StmtOk` with no differentiated tensors: arithmetic on shapes from which the shape of the result is inferred correctly,
`add_n` on equal shapes, placeholders with known or leading unknown dimensions). -/
theorem C61_values_partial (l : List Stmt) (hs : Scoped l) (hdim : DimsOk l) (hlen : l.length ≤ 125000) (fs : List (String × Arr ℝ)) (env : List (Arr ℝ)) (val : Nat → Arr ℝ)
    (hd : Denotes fs env l val) (hok : ∀ s ∈ l, StmtOk (fun _ => True) (fun _ _ => True) val s) :
    ∃ g ids, buildCalls l = .ok (g, ids) ∧ ids.length = l.length ∧
      ∀ ks ts : List Nat, List.Forall₂ (fun k t => ids[k]? = some t) ks ts → ts.Nodup →
        ∃ fuel0, ∀ fuel, fuel0 ≤ fuel → ∃ res, eval progSem g fuel ts (named fs) env () = some (.ok res) ∧ res.results = ks.map (fun k => .ok (val k)) := by
  obtain ⟨g, ids, hb, _⟩ := buildCalls_total hs hdim (by show 4 * l.length ≤ 500000; omega)
  have hB := built hb hs
  obtain ⟨hi, hv⟩ := buildCalls_values hb hs hok hd
  refine ⟨g, ids, hb, hB.length, fun ks ts hk hn => ?_⟩
  have : List.Forall₂ (Evals (setting (named fs) env) g) ts (ks.map val) := by
    rw [List.forall₂_map_right_iff]
    refine hk.flip.imp fun t k h => ?_
    obtain ⟨hlt, he⟩ := List.getElem?_eq_some_iff.1 h
    have := hv k (by rw [← hB.length]; exact hlt)
    rwa [List.getD_eq_getElem?_getD, h] at this
  obtain ⟨f0, h⟩ := evaluates_all (prog_reach hB.run) (run_oldRead hB.run) hn this
  refine ⟨f0, fun fuel hf => ?_⟩
  obtain ⟨res, h1, h2⟩ := h fuel hf
  exact ⟨res, h1, by rw [h2, List.map_map]; rfl⟩

/-- **C61** Gradients. For the graph of a program, `grad(ys, xs)` with respect to variables `vids` (used by the calls `xs`), in any order of processing tensors of equal rank, given enough
loop iterations, either panics because the graph gets too large (for programs of more than about 3900 calls) or returns tensors that evaluate to the partial derivatives of the sum of all elements of the `ys`, as functions of
the elements of the variables: when the element at `i` of the variable `vid` is changed by `u`, the calls of the program return the arrays `Vals u k` (of the same shapes), and the sum of the elements
of the `Vals u y` has at `u = 0` the derivative that the gradient array holds at `i`. -/
theorem C61_gradients_partial (l : List Stmt) (hs : Scoped l) (g : Graph POp) (ids : List Nat) (hb : buildCalls l = .ok (g, ids))
    (fs : List (String × Arr ℝ)) (env : List (Arr ℝ)) (val : Nat → Arr ℝ) (hd : Denotes fs env l val)
    (xs vids : List Nat) (hx : List.Forall₂ (fun k vid => l[k]? = some (.var vid)) xs vids) (hnd : vids.Nodup)
    (hok : ∀ s ∈ l, StmtOk (Fixed l vids) (FlatIn l val) val s ∧ GradGivenFor (Fixed l vids) s) (ys : List Nat) (hys : ys ≠ []) (hy : ∀ y ∈ ys, y < l.length)
    (pick : Graph POp → List Nat → Nat) (hpick : PicksMax pick) :
    ∃ N, ∀ fuel, N ≤ fuel →
      grad gradOps pick fuel g (ys.map (fun k => ids.getD k 0)) (xs.map (fun k => ids.getD k 0)) = some (.error (.graph .graphTooLarge)) ∧
        500000 < 32 * (4 * l.length + ys.length + xs.length + 1) ∨
      ∃ r, grad gradOps pick fuel g (ys.map (fun k => ids.getD k 0)) (xs.map (fun k => ids.getD k 0)) = some (.ok r) ∧
        List.Forall₂ (fun vid t => ∃ a v : Arr ℝ, env[vid]? = some a ∧ v.shape = a.shape ∧
          (∃ fuel0, ∀ fuel', fuel0 ≤ fuel' → ∃ res, eval progSem r.g fuel' [t] (named fs) env () = some (.ok res) ∧ res.results = [.ok v]) ∧
          ∀ i, InB i a.shape → ∃ Vals : ℝ → Nat → Arr ℝ, (∀ u, Denotes fs (env.set vid (nudge a i u)) l (Vals u) ∧ ∀ k < l.length, (Vals u k).shape = (val k).shape) ∧
            HasDerivAt (fun u => (ys.map (fun y => total (Vals u y))).sum) (v.get i) 0) vids r.grads := by
  obtain ⟨N, hN⟩ := calls_derivs l hs g ids hb fs env val hd xs vids hx hnd hok ys hys hy pick hpick
  refine ⟨N, fun fuel hf => (hN fuel hf).imp id ?_⟩
  rintro ⟨r, h1, _, h2, h3, _, h4⟩
  exact ⟨r, h1, h4.imp fun vid t ⟨a, v, e1, e2, e3, e4⟩ => ⟨a, v, e1, e2, evaluates h2 h3 e3, e4⟩⟩

/-- An embedding: rows of the table (variable 0) are looked up, `tanh` is applied, and the first column is summed. -/
noncomputable def cpStmts : List Stmt := [.var 0, .placeholder "words" [-1, 1], .gather false 1 0 0, .const (vec [1]), .squeeze 2 3, .un .tanh 4, .slice 5 [0, 0] [-1, 1],
  .const (vec [-1]), .reshape 6 7, .sumAll 8]

-- The hypotheses of both theorems hold for all tables and all words.
example (table words : Arr ℝ) (ht : table.shape = [5, 3]) (hw : words.shape = [2, 1]) (hl : ∀ i, InB i words.shape → ∃ l : Nat, words.get i = l ∧ l < 5) :
    Scoped cpStmts ∧ DimsOk cpStmts ∧ cpStmts.length ≤ 125000 ∧ (∃ g ids, buildCalls cpStmts = .ok (g, ids)) ∧
      (∃ val, Denotes [("words", words)] [table] cpStmts val ∧ (∀ s ∈ cpStmts, StmtOk (fun _ => True) (fun _ _ => True) val s) ∧
        ∀ s ∈ cpStmts, StmtOk (Fixed cpStmts [0]) (FlatIn cpStmts val) val s ∧ GradGivenFor (Fixed cpStmts [0]) s) ∧
      List.Forall₂ (fun k vid => cpStmts[k]? = some (.var vid)) [0] [0] ∧ [0].Nodup ∧ (∀ y ∈ [9], y < cpStmts.length) ∧ PicksMax (demoPick (Op := POp)) := by
  have hS : Scoped cpStmts := by
    intro k s hk a ha
    match k, hk with
    | 0, hk => cases hk; simp [Stmt.args] at ha
    | 1, hk => cases hk; simp [Stmt.args] at ha
    | 2, hk => cases hk; simp [Stmt.args] at ha; omega
    | 3, hk => cases hk; simp [Stmt.args] at ha
    | 4, hk => cases hk; simp [Stmt.args] at ha; omega
    | 5, hk => cases hk; simp [Stmt.args] at ha; omega
    | 6, hk => cases hk; simp [Stmt.args] at ha; omega
    | 7, hk => cases hk; simp [Stmt.args] at ha
    | 8, hk => cases hk; simp [Stmt.args] at ha; omega
    | 9, hk => cases hk; simp [Stmt.args] at ha; omega
    | k + 10, hk => cases hk
  have hD : DimsOk cpStmts := by
    intro name d h
    simp only [cpStmts, List.mem_cons, Stmt.placeholder.injEq, List.not_mem_nil, or_false, reduceCtorEq, false_or] at h
    obtain ⟨_, rfl⟩ := h
    intro d hd
    simp at hd
    rcases hd with rfl | rfl
    · exact .inl rfl
    · exact .inr (by decide)
  obtain ⟨h1, h2, h3⟩ := gather_run (norm := false) (axis := 0) (k := 0) (n := 5) (m := 2) (a := words) (z := table) rfl (by rw [ht]; rfl) (by decide) (.inr hw) hl
  obtain ⟨y2, h4, h5, _⟩ := gather_norm_spec table (truncs words) 0 0 5 (selAt words) ⟨by rw [ht]; decide, .inl rfl⟩ (by rw [ht]; rfl) h3 (fun i hi => (h2 i hi).1)
  have hs2 : y2.shape = [2, 1, 3] := by
    rw [h5, ht, show (truncs words).shape = [2, 1] from hw]; rfl
  obtain ⟨y4, h6, h7, _⟩ := squeeze_spec (x := y2) (ks := [1]) (by decide) (by simp [hs2])
  have hs4 : y4.shape = [2, 3] := by rw [h7, hs2]; rfl
  have hb : AllBounds (Nd.map Real.tanh y4).shape [0, 0] [-1, 1] [0, 0] [2, 1] := by
    show AllBounds y4.shape _ _ _ _
    rw [hs4]
    exact ⟨⟨.inl rfl, .inr ⟨by decide, by decide⟩, by decide, by decide⟩, ⟨.inl rfl, .inl ⟨by decide, rfl⟩, by decide, by decide⟩, trivial⟩
  obtain ⟨y6, h8, hs6, _⟩ := sliceArr_region (x := Nd.map Real.tanh y4) (sliceRegion_ok hb).1
  have hr : ReshapesTo y6.shape (readDims (vec [-1])) [2] := by
    have : readDims (vec [-1]) = [-1] := by simp [readDims, toList_vec, readDim]
    rw [this, hs6]
    refine ⟨by decide, by decide, .cons (.inl rfl) .nil, fun k hk => ?_⟩
    match k, hk with
    | 0, _ => simp
    | k + 1, hk => cases hk
  obtain ⟨y8, h9, hs8, _⟩ := reshape_ok hr
  have hri : readInts (vec [1]) = [1] := by
    have : trunc (1 : ℝ) = 1 := by simpa using trunc_nat (r := 1) (l := 1) (by norm_num)
    simp [readInts, toList_vec, this]
  let val : Nat → Arr ℝ := fun n => match n with
    | 0 => table
    | 1 => words
    | 2 => y2
    | 3 => vec [1]
    | 4 => y4
    | 5 => Nd.map Real.tanh y4
    | 6 => y6
    | 7 => vec [-1]
    | 8 => y8
    | _ => ofFn [] (fun _ => total y8)
  have hden : Denotes [("words", words)] [table] cpStmts val := by
    intro k s hk
    match k, hk with
    | 0, hk => cases hk; rfl
    | 1, hk =>
      cases hk
      refine ⟨⟨[], [], rfl, by simp⟩, ?_⟩
      show ShapeAccepts _ words.shape
      rw [hw]
      refine ⟨rfl, fun k d u h h' => ?_⟩
      match k with
      | 0 => exact .inl (Option.some.inj h).symm
      | 1 => right; rw [← Option.some.inj h, ← Option.some.inj h']; rfl
      | k + 2 => cases h
    | 2, hk => cases hk; exact h1.trans h4
    | 3, hk => cases hk; rfl
    | 4, hk =>
      cases hk
      show Nd.squeeze y2 (readInts (vec [1])) = _
      rw [hri]; exact h6
    | 5, hk => cases hk; rfl
    | 6, hk =>
      cases hk
      show Nd.slice (Nd.map Real.tanh y4) [0, 0] [-1, 1] = .ok y6
      unfold Nd.slice
      exact h8
    | 7, hk => cases hk; rfl
    | 8, hk => cases hk; exact h9
    | 9, hk => cases hk; rfl
    | k + 10, hk => cases hk
  have hf : ∀ k ∈ [1, 3, 7], Fixed cpStmts [0] k := by
    intro k hk
    simp only [List.mem_cons, List.not_mem_nil, or_false] at hk
    rcases hk with rfl | rfl | rfl <;> exact .call rfl (by simp) (by simp [Stmt.args])
  have hok : ∀ s ∈ cpStmts, StmtOk (Fixed cpStmts [0]) (FlatIn cpStmts val) val s ∧ GradGivenFor (Fixed cpStmts [0]) s := by
    intro s hs
    simp only [cpStmts, List.mem_cons, List.not_mem_nil, or_false] at hs
    rcases hs with rfl | rfl | rfl | rfl | rfl | rfl | rfl | rfl | rfl | rfl
    · exact ⟨trivial, trivial⟩
    · exact ⟨.inl rfl, trivial⟩
    · exact ⟨⟨hf 1 (by simp), .inr ⟨0, 5, 2, rfl, by show table.shape[0]? = _; rw [ht]; rfl, by decide, .inr hw, hl⟩⟩, hf 1 (by simp)⟩
    · exact ⟨trivial, trivial⟩
    · exact ⟨⟨hf 3 (by simp), .inr ⟨[1], hri, by decide, by simp [val, hs2]⟩⟩, hf 3 (by simp)⟩
    · exact ⟨.inr ⟨fun i _ => ⟨trivial, (hasDerivAt_tanh _).differentiableAt, fun h => (by cases h)⟩, fun h => (by cases h), fun h => (by cases h)⟩, trivial⟩
    · exact ⟨.inr ⟨_, _, hb⟩, trivial⟩
    · exact ⟨trivial, trivial⟩
    · exact ⟨⟨hf 7 (by simp), .inr ⟨_, hr⟩⟩, hf 7 (by simp)⟩
    · exact ⟨trivial, trivial⟩
  obtain ⟨g, ids, hb, _⟩ := buildCalls_total hS hD (by decide)
  exact ⟨hS, hD, by decide, ⟨g, ids, hb⟩, ⟨val, hden, fun s hs => stmtOk_weaken (fun _ _ => trivial) (fun _ _ _ => trivial) (hok s hs).1, hok⟩, .cons rfl .nil, by decide, by intro y h; rw [List.mem_singleton.1 h]; decide, demoPick_max⟩

/-- The sum of all elements of Aᵀ A, with a hook on Aᵀ. -/
noncomputable def gmStmts : List Stmt := [.var 0, .const (encShape [1, 0]), .transpose 0 1, .hook 2, .matmul 3 0, .sumAll 4]

-- The hypotheses of both theorems hold for all matrices.
example (A : Arr ℝ) (m n : Nat) (hA : A.shape = [m, n]) :
    Scoped gmStmts ∧ DimsOk gmStmts ∧ (∃ g ids, buildCalls gmStmts = .ok (g, ids)) ∧
      (∃ val, Denotes [] [A] gmStmts val ∧ (val 2).shape = [n, m] ∧ (∀ s ∈ gmStmts, StmtOk (fun _ => True) (fun _ _ => True) val s) ∧
        ∀ s ∈ gmStmts, StmtOk (Fixed gmStmts [0]) (FlatIn gmStmts val) val s ∧ GradGivenFor (Fixed gmStmts [0]) s) ∧
      List.Forall₂ (fun k vid => gmStmts[k]? = some (.var vid)) [0] [0] ∧ ∀ y ∈ [5], y < gmStmts.length := by
  have hS : Scoped gmStmts := by
    intro k s hk a ha
    match k, hk with
    | 0, hk => cases hk; simp [Stmt.args] at ha
    | 1, hk => cases hk; simp [Stmt.args] at ha
    | 2, hk => cases hk; simp [Stmt.args] at ha; omega
    | 3, hk => cases hk; simp [Stmt.args] at ha; omega
    | 4, hk => cases hk; simp [Stmt.args] at ha; omega
    | 5, hk => cases hk; simp [Stmt.args] at ha; omega
    | k + 6, hk => cases hk
  have hD : DimsOk gmStmts := by
    intro name d h
    simp [gmStmts] at h
  have hp : ([1, 0] : List Nat).Perm (List.range A.shape.length) := by rw [hA]; exact (by decide : ([1, 0] : List Nat).Perm (List.range 2))
  obtain ⟨B, hB1, hB2, _⟩ := transpose_spec A [1, 0] hp
  have hB : B.shape = [n, m] := by rw [hB2, hA]; rfl
  obtain ⟨y, hy1, hy2, hy3⟩ := matMul_value false false B A n m n hB hA
  let val : Nat → Arr ℝ := fun k => match k with
    | 0 => A
    | 1 => encShape [1, 0]
    | 2 => B
    | 3 => B
    | 4 => y
    | _ => ofFn [] (fun _ => total y)
  have hden : Denotes [] [A] gmStmts val := by
    intro k s hk
    match k, hk with
    | 0, hk => cases hk; rfl
    | 1, hk => cases hk; rfl
    | 2, hk => cases hk; exact (transposeBy_run (readShape_enc _) (by show 2 = A.shape.length; rw [hA]; rfl)).trans hB1
    | 3, hk => cases hk; rfl
    | 4, hk => cases hk; exact hy1
    | 5, hk => cases hk; rfl
    | k + 6, hk => cases hk
  have hf : Fixed gmStmts [0] 1 := .call rfl (by simp) (by simp [Stmt.args])
  have hok : ∀ s ∈ gmStmts, StmtOk (Fixed gmStmts [0]) (FlatIn gmStmts val) val s ∧ GradGivenFor (Fixed gmStmts [0]) s := by
    intro s hs
    simp only [gmStmts, List.mem_cons, List.not_mem_nil, or_false] at hs
    rcases hs with rfl | rfl | rfl | rfl | rfl | rfl
    · exact ⟨trivial, trivial⟩
    · exact ⟨trivial, trivial⟩
    · exact ⟨⟨hf, .inr ⟨by simp [val, hA], [1, 0], readShape_enc _, hp⟩⟩, hf⟩
    all_goals exact ⟨trivial, trivial⟩
  obtain ⟨g, ids, hb, _⟩ := buildCalls_total hS hD (by decide)
  exact ⟨hS, hD, ⟨g, ids, hb⟩, ⟨val, hden, hB, fun s hs => stmtOk_weaken (fun _ _ => trivial) (fun _ _ _ => trivial) (hok s hs).1, hok⟩, .cons rfl .nil, by
    intro y h; rw [List.mem_singleton.1 h]; decide⟩

/-- The sum of the elements of x for which an element of p is not less than one of q. -/
noncomputable def gtStmts : List Stmt := [.var 0, .placeholder "p" [2], .const (vec [2, 2]), .cmp .ge 1 2, .mul 3 0, .sumAll 4]

-- The hypotheses of both theorems hold; p = [2, 1] keeps the first element of x.
example : let X : Arr ℝ := vec [5, 7]
    Scoped gtStmts ∧ DimsOk gtStmts ∧ (∃ g ids, buildCalls gtStmts = .ok (g, ids)) ∧
      (∃ val, Denotes [("p", vec [2, 1])] [X] gtStmts val ∧ (val 3).get [0] = 1 ∧ (val 3).get [1] = 0 ∧ (∀ s ∈ gtStmts, StmtOk (fun _ => True) (fun _ _ => True) val s) ∧
        ∀ s ∈ gtStmts, StmtOk (Fixed gtStmts [0]) (FlatIn gtStmts val) val s ∧ GradGivenFor (Fixed gtStmts [0]) s) ∧
      List.Forall₂ (fun k vid => gtStmts[k]? = some (.var vid)) [0] [0] ∧ ∀ y ∈ [5], y < gtStmts.length := by
  intro X
  have hS : Scoped gtStmts := by
    intro k s hk a ha
    match k, hk with
    | 0, hk => cases hk; simp [Stmt.args] at ha
    | 1, hk => cases hk; simp [Stmt.args] at ha
    | 2, hk => cases hk; simp [Stmt.args] at ha
    | 3, hk => cases hk; simp [Stmt.args] at ha; omega
    | 4, hk => cases hk; simp [Stmt.args] at ha; omega
    | 5, hk => cases hk; simp [Stmt.args] at ha; omega
    | k + 6, hk => cases hk
  have hD : DimsOk gtStmts := by
    intro name d h
    simp only [gtStmts, List.mem_cons, Stmt.placeholder.injEq, List.not_mem_nil, or_false, reduceCtorEq, false_or] at h
    obtain ⟨_, rfl⟩ := h
    intro d hd; simp at hd; subst hd; exact .inr (by decide)
  obtain ⟨C, hC, hCs, hCg⟩ := cmpOp_same (f := fun u v => truth (Compares .ge u v)) (x0 := vec [2, 1]) (x1 := vec [2, 2]) rfl (by show [2] ≠ [0]; decide)
  have c0 : C.get [0] = 1 := by rw [hCg _ (.cons (by decide) .nil)]; simp [truth, Compares, vec, ofFn]
  have c1 : C.get [1] = 0 := by rw [hCg _ (.cons (by decide) .nil)]; simp [truth, Compares, vec, ofFn]
  have hCs : C.shape = [2] := hCs
  obtain ⟨M, hM, hMs, _⟩ := mulOp_same (x0 := C) (x1 := X) hCs
  let val : Nat → Arr ℝ := fun k => match k with
    | 0 => X
    | 1 => vec [2, 1]
    | 2 => vec [2, 2]
    | 3 => C
    | 4 => M
    | _ => ofFn [] (fun _ => total M)
  have hden : Denotes [("p", vec [2, 1])] [X] gtStmts val := by
    intro k s hk
    match k, hk with
    | 0, hk => cases hk; rfl
    | 1, hk => cases hk; exact ⟨⟨[], [], rfl, by simp⟩, rfl, fun i d n hi hn => by
        match i, hi with
        | 0, hi => cases hi; cases hn; exact .inr rfl
        | k + 1, hi => cases hi⟩
    | 2, hk => cases hk; rfl
    | 3, hk => cases hk; exact hC
    | 4, hk => cases hk; exact hM
    | 5, hk => cases hk; rfl
    | k + 6, hk => cases hk
  have f1 : Fixed gtStmts [0] 1 := .call rfl (by simp) (by simp [Stmt.args])
  have f2 : Fixed gtStmts [0] 2 := .call rfl (by simp) (by simp [Stmt.args])
  have hinf : Inferable (val 3).shape (val 0).shape := by
    show Inferable C.shape [2]
    rw [hCs]
    exact ⟨.inr (.inr rfl), by simp, by simp⟩
  have hok : ∀ s ∈ gtStmts, StmtOk (Fixed gtStmts [0]) (FlatIn gtStmts val) val s ∧ GradGivenFor (Fixed gtStmts [0]) s := by
    intro s hs
    simp only [gtStmts, List.mem_cons, List.not_mem_nil, or_false] at hs
    rcases hs with rfl | rfl | rfl | rfl | rfl | rfl
    · exact ⟨trivial, trivial⟩
    · exact ⟨.inr (by simp), trivial⟩
    · exact ⟨trivial, trivial⟩
    · exact ⟨⟨f1, f2⟩, f1, f2⟩
    · exact ⟨hinf, trivial⟩
    · exact ⟨trivial, trivial⟩
  obtain ⟨g, ids, hb, _⟩ := buildCalls_total hS hD (by decide)
  exact ⟨hS, hD, ⟨g, ids, hb⟩, ⟨val, hden, c0, c1, fun s hs => stmtOk_weaken (fun _ _ => trivial) (fun _ _ _ => trivial) (hok s hs).1, hok⟩, .cons rfl .nil, by
    intro y h; rw [List.mem_singleton.1 h]; decide⟩

/-- The sum of the largest elements of the rows of max(A, B). -/
noncomputable def xtStmts : List Stmt := [.var 0, .var 1, .extremum true 0 1, .const (vec [1]), .reduceExt true (-100) 2 3 false, .sumAll 4]

-- The hypotheses of both theorems hold for the matrices [[0, 2], [4, 6]] and [[5, -1], [3, 1]].
example : let A : Arr ℝ := ofFn [2, 2] fun i => 4 * i.getD 0 0 + 2 * i.getD 1 0
    let B : Arr ℝ := ofFn [2, 2] fun i => 5 - 2 * i.getD 0 0 - 6 * i.getD 1 0 + 4 * i.getD 0 0 * i.getD 1 0
    Scoped xtStmts ∧ DimsOk xtStmts ∧ (∃ g ids, buildCalls xtStmts = .ok (g, ids)) ∧
      (∃ val, Denotes [] [A, B] xtStmts val ∧ (val 4).get [0] = 5 ∧ (val 4).get [1] = 6 ∧ (∀ s ∈ xtStmts, StmtOk (fun _ => True) (fun _ _ => True) val s) ∧
        ∀ s ∈ xtStmts, StmtOk (Fixed xtStmts [0, 1]) (FlatIn xtStmts val) val s ∧ GradGivenFor (Fixed xtStmts [0, 1]) s) ∧
      List.Forall₂ (fun k vid => xtStmts[k]? = some (.var vid)) [0, 1] [0, 1] ∧ ∀ y ∈ [5], y < xtStmts.length := by
  intro A B
  have hS : Scoped xtStmts := by
    intro k s hk a ha
    match k, hk with
    | 0, hk => cases hk; simp [Stmt.args] at ha
    | 1, hk => cases hk; simp [Stmt.args] at ha
    | 2, hk => cases hk; simp [Stmt.args] at ha; omega
    | 3, hk => cases hk; simp [Stmt.args] at ha
    | 4, hk => cases hk; simp [Stmt.args] at ha; omega
    | 5, hk => cases hk; simp [Stmt.args] at ha; omega
    | k + 6, hk => cases hk
  have hD : DimsOk xtStmts := by
    intro name d h
    simp [xtStmts] at h
  have four : ∀ {P : List Nat → Prop}, P [0, 0] → P [0, 1] → P [1, 0] → P [1, 1] → ∀ i, InB i [2, 2] → P i := by
    intro P h1 h2 h3 h4 i hi
    have : ∀ i ∈ idxs [2, 2], i = [0, 0] ∨ i = [0, 1] ∨ i = [1, 0] ∨ i = [1, 1] := by decide
    rcases this i (mem_idxs.2 hi) with rfl | rfl | rfl | rfl <;> assumption
  obtain ⟨M, hM, hMs, hMg⟩ := cmpOp_same (f := extFn true) (x0 := A) (x1 := B) rfl (by simp [A, ofFn])
  have hMs : M.shape = [2, 2] := hMs
  have hMg : ∀ o, InB o [2, 2] → M.get o = max (A.get o) (B.get o) := hMg
  have in2 : ∀ a b, a < 2 → b < 2 → InB [a, b] [2, 2] := fun a b h h' => .cons h (.cons h' .nil)
  have m00 : M.get [0, 0] = 5 := by rw [hMg _ (in2 _ _ (by omega) (by omega))]; norm_num [A, B, ofFn]
  have m01 : M.get [0, 1] = 2 := by rw [hMg _ (in2 _ _ (by omega) (by omega))]; norm_num [A, B, ofFn]
  have m10 : M.get [1, 0] = 4 := by rw [hMg _ (in2 _ _ (by omega) (by omega))]; norm_num [A, B, ofFn]
  have m11 : M.get [1, 1] = 6 := by rw [hMg _ (in2 _ _ (by omega) (by omega))]; norm_num [A, B, ofFn]
  have hax : List.Forall₂ (AxisIs M.shape.length) (readAxes (vec [1])) [1] := by
    have h1 : readAxes (vec [1]) = [1] := by have := readAxes_one 1; rwa [Int.cast_one] at this
    rw [h1, hMs]
    exact .cons ⟨by decide, by decide⟩ .nil
  have hex : ExtremumOk A B := by
    refine ⟨rfl, by simp [A, ofFn], four ?_ ?_ ?_ ?_⟩ <;> norm_num [A, B, ofFn]
  have hb : ∀ i, InB i M.shape → if true then (-100 : ℝ) < M.get i else M.get i < -100 := by
    rw [hMs]
    refine four ?_ ?_ ?_ ?_ <;> simp only [m00, m01, m10, m11] <;> norm_num
  have f0 : fibre [1] false M.shape [0] = {[0, 0], [0, 1]} := by rw [hMs]; decide
  have f1 : fibre [1] false M.shape [1] = {[1, 0], [1, 1]} := by rw [hMs]; decide
  have e0 : ∀ q ∈ fibre [1] false M.shape [0], q ≠ [0, 0] → if true then M.get q < M.get [0, 0] else M.get [0, 0] < M.get q := by
    rw [f0]; intro q hq hne
    have hq : q = [0, 1] := by simpa [hne] using hq
    rw [hq, m00, m01]; norm_num
  have e1 : ∀ q ∈ fibre [1] false M.shape [1], q ≠ [1, 1] → if true then M.get q < M.get [1, 1] else M.get [1, 1] < M.get q := by
    rw [f1]; intro q hq hne
    have hq : q = [1, 0] := by simpa [hne] using hq
    rw [hq, m10, m11]; norm_num
  have h0 : M.shape ≠ [0] := by rw [hMs]; decide
  have r2 : ∀ i, InB i (reducedShape [1] false M.shape) → i = [0] ∨ i = [1] := by
    rw [hMs]; intro i hi
    have : ∀ i ∈ idxs (reducedShape [1] false [2, 2]), i = [0] ∨ i = [1] := by decide
    exact this i (mem_idxs.2 hi)
  have hred : ReduceExtOk true (-100) false M (vec [1]) := by
    refine ⟨h0, hb, [1], hax, by decide, fun i hi => ?_⟩
    rcases r2 i hi with rfl | rfl
    · exact ⟨[0, 0], by rw [f0]; decide, e0⟩
    · exact ⟨[1, 1], by rw [f1]; decide, e1⟩
  obtain ⟨R, hR, hRs⟩ := reduceExt_exists true (-100) false h0 hax (by decide)
  have v0 : R.get [0] = 5 := by
    rw [reduceExt_value h0 hax (by decide) hb hR (by rw [hMs]; exact .cons (by decide) .nil) (by rw [f0]; decide) e0, m00]
  have v1 : R.get [1] = 6 := by
    rw [reduceExt_value h0 hax (by decide) hb hR (by rw [hMs]; exact .cons (by decide) .nil) (by rw [f1]; decide) e1, m11]
  let val : Nat → Arr ℝ := fun k => match k with
    | 0 => A
    | 1 => B
    | 2 => M
    | 3 => vec [1]
    | 4 => R
    | _ => ofFn [] (fun _ => total R)
  have hden : Denotes [] [A, B] xtStmts val := by
    intro k s hk
    match k, hk with
    | 0, hk => cases hk; rfl
    | 1, hk => cases hk; rfl
    | 2, hk => cases hk; exact hM
    | 3, hk => cases hk; rfl
    | 4, hk => cases hk; exact hR
    | 5, hk => cases hk; rfl
    | k + 6, hk => cases hk
  have hf : Fixed xtStmts [0, 1] 3 := .call rfl (by simp) (by simp [Stmt.args])
  have hok : ∀ s ∈ xtStmts, StmtOk (Fixed xtStmts [0, 1]) (FlatIn xtStmts val) val s ∧ GradGivenFor (Fixed xtStmts [0, 1]) s := by
    intro s hs
    simp only [xtStmts, List.mem_cons, List.not_mem_nil, or_false] at hs
    rcases hs with rfl | rfl | rfl | rfl | rfl | rfl
    · exact ⟨trivial, trivial⟩
    · exact ⟨trivial, trivial⟩
    · exact ⟨.inr hex, trivial⟩
    · exact ⟨trivial, trivial⟩
    · exact ⟨⟨hf, .inr hred⟩, hf⟩
    · exact ⟨trivial, trivial⟩
  obtain ⟨g, ids, hb, _⟩ := buildCalls_total hS hD (by decide)
  exact ⟨hS, hD, ⟨g, ids, hb⟩, ⟨val, hden, v0, v1, fun s hs => stmtOk_weaken (fun _ _ => trivial) (fun _ _ _ => trivial) (hok s hs).1, hok⟩, .cons rfl (.cons rfl .nil), by
    intro y h; rw [List.mem_singleton.1 h]; decide⟩

end Verif.Props
