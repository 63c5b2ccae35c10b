import Verif.Lemmas.GradProps
import Verif.Props.Graph

/-! # Property theorems about differentiation: C18, C20 - C23

`O` holds the ops that `grad` itself uses and an arbitrary `Op::grad`; `pick` is any way in which the priority queue may resolve ties;
`fuel` bounds the number of loop iterations (`none` means that it did not suffice). `K` is any differential calculus for which the
`Op::grad`s are correct (`GradSound`): what is proved is that the bookkeeping of `grad` then is correct, whatever the graph. Concrete graphs that meet the hypotheses are in `Props/GradWitness.lean`. -/

namespace Verif.Props
open Verif Verif.Spec Verif.Gradient Verif.Graph
variable {Op : Type}

/-! ## The hypothesis on graphs -/

/-- **C18** Graphs made without `depends_on` satisfy the hypothesis `BpDag` of the theorems below, provided custom back-propagation inputs
(only used by the convolution ops) are inputs, or inputs of inputs, and so on. -/
theorem C18_graphs_are_dags (P : Ops Op) (g : Graph Op) (cs : List (Cmd Op)) (ts : List Nat)
    (h : (Graph.empty : Graph Op).execAll P cs = .ok (g, ts)) (hno : NoDependsOn cs)
    (hbp : ∀ (a : Nat) (n : Node Op), g.nodes[a]? = some n → ∀ i ∈ n.bpInputs, ∃ j ∈ n.incoming, DependsOnRefl g j.id i.id) :
    BpDag g := by
  have hc : Closed g := execAll_closed h closed_empty
  obtain ⟨hr, _⟩ := C02_ranks_and_acyclic P g cs ts h hno
  have key : ∀ {a b : Nat}, DependsOnRefl g a b → ∀ n, g.nodes[a]? = some n → ∃ m, g.nodes[b]? = some m ∧ m.topoRank ≤ n.topoRank := by
    intro a b hab
    induction hab using Relation.ReflTransGen.head_induction_on with
    | refl => exact fun n hn => ⟨n, hn, le_refl _⟩
    | head h1 _ ih =>
      intro n hn
      have h1' := h1
      obtain ⟨n', hn', i, hi, rfl⟩ := h1'
      have hlt := hc _ n' hn' i hi
      have h2 := hr _ _ n _ hn h1 (List.getElem?_eq_getElem hlt)
      obtain ⟨m, hm, hle⟩ := ih _ (List.getElem?_eq_getElem hlt)
      exact ⟨m, hm, by omega⟩
  intro a n hn
  refine ⟨fun hin => ?_, fun i hi => ?_⟩
  · refine List.eq_nil_iff_forall_not_mem.2 fun i hi => ?_
    obtain ⟨j, hj, _⟩ := hbp a n hn i hi
    rw [hin] at hj; cases hj
  · obtain ⟨j, hj, hd⟩ := hbp a n hn i hi
    have hlt := hc a n hn j hj
    have h2 := hr a j.id n _ hn ⟨n, hn, j, hj, rfl⟩ (List.getElem?_eq_getElem hlt)
    obtain ⟨m, hm, hle⟩ := key hd _ (List.getElem?_eq_getElem hlt)
    exact ⟨m, hm, by omega⟩

/-! ## C18 Exactness for leaves -/

/-- **C18** `grad_with_default` for leaves `xs` returns gradients `cov` of all leaves: however the leaves move (tangents `t`), the change of the
objectives, weighted with the given output gradients `cy`, is the sum of the gradients applied to the movements of the leaves. -/
theorem C18_grad_with_default_exact (O : GradOps Op) (pick : Graph Op → List Nat → Nat) (fuel : Nat) (g : Graph Op) (ys xs gys : List Nat)
    (r : GradResult Op) (hg : BpDag g) (hpick : PicksMax pick) (hnd : ys.Nodup) (hd : ∀ y ∈ ys, IsDiff g y) (hxs : xs.Nodup)
    (hleaf : ∀ x ∈ xs, IsSource g x ∧ IsDiff g x ∧ x ∉ ys) (h : gradWithDefault O pick fuel g ys xs gys = some (.ok r))
    (K : Calculus Op) (hS : GradSound K g (ReachedFrom g ys) O.addN O.zeros O.shapeOp O.opGrad) (cy : ∀ k, K.T k →+ K.R)
    (hrep : List.Forall₂ (fun y gy => K.Rep g y gy (cy y)) ys gys) :
    ∃ cov : ∀ k, K.T k →+ K.R, List.Forall₂ (fun x t => K.Rep r.g x t (cov x)) xs r.grads ∧
      ∀ t, MovedBy K g xs.toFinset t → (ys.map (fun y => cy y (t y))).sum = (xs.map (fun x => cov x (t x))).sum := by
  have hlt : ∀ x ∈ xs, x < g.nodes.length := fun x hx => by
    obtain ⟨n, hn, _⟩ := (hleaf x hx).1
    exact (List.getElem?_eq_some_iff.1 hn).1
  obtain ⟨_, _, cov, h1, h2⟩ := gradWithDefault_sound hg hpick hnd hd hxs hlt h hS hrep
  refine ⟨cov, h1, fun t ht => ?_⟩
  rw [h2 xs.toFinset (leaf_independent hg (by simp) (by simpa using hleaf)) t ht]
  exact sum_toFinset hxs _

/-- **C18** `grad` for leaves: it adds the tensors `sys` (`sum_all` of each objective) to the graph, giving `g0`. If the calculus is right for
`g0`, `σ y` is what `sum_all` does to tangents of `y` (for arrays: adding up the entries) and the constant one represents the identity on the tangents of
the `sys`, then the returned tensors are gradients of the sum of all entries of all objectives. -/
theorem C18_grad_exact (O : GradOps Op) (pick : Graph Op → List Nat → Nat) (fuel : Nat) (g : Graph Op) (ys xs : List Nat)
    (r : GradResult Op) (hg : BpDag g) (hpick : PicksMax pick) (hy : ∀ y ∈ ys, y < g.nodes.length) (hxs : xs.Nodup)
    (hleaf : ∀ x ∈ xs, IsSource g x ∧ IsDiff g x) (h : grad O pick fuel g ys xs = some (.ok r)) :
    ∃ g0 sys, Summed O.sumAll g ys g0 sys ∧
      ∀ (K : Calculus Op) (cy σ : ∀ k, K.T k →+ K.R), GradSound K g0 (ReachedFrom g0 sys) O.addN O.zeros O.shapeOp O.opGrad → LocalLin K g0 →
        (∀ g1 o, Grows g0 g1 → IsApp g1 o O.one [] → ∀ s ∈ sys, K.Rep g1 s o (cy s)) →
        (∀ s ∈ sys, ∀ y, IsApp g0 s O.sumAll [y] → ∀ t, cy s (K.lin s t) = σ y (t y)) →
        Grows g0 r.g ∧ ∃ cov : ∀ k, K.T k →+ K.R, List.Forall₂ (fun x t => K.Rep r.g x t (cov x)) xs r.grads ∧
          ∀ t, MovedBy K g xs.toFinset t → (ys.map (fun y => σ y (t y))).sum = (xs.map (fun x => cov x (t x))).sum := by
  have hlt : ∀ x ∈ xs, x < g.nodes.length := fun x hx => by
    obtain ⟨n, hn, _⟩ := (hleaf x hx).1
    exact (List.getElem?_eq_some_iff.1 hn).1
  obtain ⟨g0, sys, hs, hall⟩ := grad_sound hg hpick hxs hlt h
  refine ⟨g0, sys, hs, fun K cy σ hS hloc hone hsum => ?_⟩
  obtain ⟨hgr, _, cov, h1, h2⟩ := hall hS hone
  refine ⟨hgr, cov, h1, fun t ht => ?_⟩
  obtain ⟨t', ht', hold, hnew⟩ := moved_extend hs hg hy hloc ht
  have hind : Independent g0 sys xs xs.toFinset := by
    refine leaf_independent (hs.bpDag hg) (by simp) ?_
    intro x hx
    have hx := List.mem_toFinset.1 hx
    obtain ⟨⟨n, a1, a2⟩, ⟨n', b1, b2⟩⟩ := hleaf x hx
    refine ⟨⟨n, hs.grows.1 _ _ a1, a2⟩, ⟨n', hs.grows.1 _ _ b1, b2⟩, fun hm => ?_⟩
    have := ((hs.fresh x).1 hm).1
    have := hlt x hx
    omega
  have := h2 _ hind t' ht'
  rw [sum_toFinset hxs] at this
  have e1 : xs.map (fun x => cov x (t' x)) = xs.map (fun x => cov x (t x)) :=
    List.map_congr_left fun x hx => by rw [hold x (hlt x hx)]
  rw [← e1, ← this]
  have key : ∀ {l l' : List Nat}, (∀ s ∈ l', s ∈ sys) → List.Forall₂ (fun y s => ∃ n, g0.nodes[s]? = some n ∧ n.op = O.sumAll ∧
      n.incoming = [{ id := y }] ∧ n.differentiable = true ∧ n.backpropInputs = none ∧ n.variableId = none ∧ n.placeholderName = none ∧
      n.shape = none) l l' → (l.map (fun y => σ y (t y))).sum = (l'.map (fun s => cy s (t' s))).sum := by
    intro l l' hsub h
    induction h with
    | nil => rfl
    | @cons y s l l' h1 _ ih =>
      rw [List.map_cons, List.map_cons, List.sum_cons, List.sum_cons, ih (fun s hs => hsub s (by simp [hs]))]
      obtain ⟨n, a, b, c, _, _, e, f, _⟩ := h1
      rw [hnew s (hsub s (by simp)), hsum s (hsub s (by simp)) y ⟨n, a, b, by simpa using c, f, e⟩]
  exact key (fun _ h => h) hs.apps

/-- **C18** The statements are not empty: every movement of the leaves (more generally of any set `X` of tensors) extends to a movement of all
tensors. -/
theorem C18_movements_exist (g : Graph Op) (K : Calculus Op) (hg : BpDag g) (hl : LocalLin K g) (X : Finset Nat) (v : ∀ n, K.T n) :
    ∃ t, MovedBy K g X t ∧ ∀ x ∈ X, t x = v x :=
  exists_moved hg hl X v

/-! ## C20 Gradients with respect to intermediate tensors -/

/-- The full claim of **C20**: exactness for all tensors that do not depend on each other, without the restriction that an intermediate tensor
is used only once. -/
def C20_statement (O : GradOps Op) (g : Graph Op) (ys xs gys : List Nat) (r : GradResult Op) (K : Calculus Op) (cy : ∀ k, K.T k →+ K.R) : Prop :=
  GradSound K g (fun _ => True) O.addN O.zeros O.shapeOp O.opGrad → List.Forall₂ (fun y gy => K.Rep g y gy (cy y)) ys gys →
  ∃ cov : Nat → ∀ k, K.T k →+ K.R,
    (∀ (j : Nat) (x t : Nat), xs[j]? = some x → r.grads[j]? = some t → K.Rep r.g x t (cov j x)) ∧
    ∀ X : Finset Nat, (∀ x ∈ X, x ∈ xs ∧ IsDiff g x ∧ x ∉ ys ∧ ∀ x' ∈ X, ¬ Relation.TransGen (BpInput g) x x') →
      ∀ t, MovedBy K g X t → ∀ pos : Nat → Nat, (∀ x ∈ X, xs[pos x]? = some x) →
        (ys.map (fun y => cy y (t y))).sum = ∑ x ∈ X, cov (pos x) x (t x)

/-- **C20** partial: exactness for distinct `xs` and every set `X` of them that do not depend on each other, if those that are not leaves are
used only once. Missing: intermediate tensors that are used more than once and repeated `xs`; there the code is wrong
(`C20_interior_violated`, `C20_repeated_violated`). -/
theorem C20_interior_partial (O : GradOps Op) (pick : Graph Op → List Nat → Nat) (fuel : Nat) (g : Graph Op) (ys xs gys : List Nat)
    (r : GradResult Op) (hg : BpDag g) (hpick : PicksMax pick) (hnd : ys.Nodup) (hd : ∀ y ∈ ys, IsDiff g y) (hxs : xs.Nodup)
    (hlt : ∀ x ∈ xs, x < g.nodes.length) (h : gradWithDefault O pick fuel g ys xs gys = some (.ok r))
    (K : Calculus Op) (hS : GradSound K g (ReachedFrom g ys) O.addN O.zeros O.shapeOp O.opGrad) (cy : ∀ k, K.T k →+ K.R)
    (hrep : List.Forall₂ (fun y gy => K.Rep g y gy (cy y)) ys gys) :
    ∃ cov : ∀ k, K.T k →+ K.R, List.Forall₂ (fun x t => K.Rep r.g x t (cov x)) xs r.grads ∧
      ∀ X : Finset Nat, (∀ x ∈ X, x ∈ xs ∧ IsDiff g x ∧ x ∉ ys ∧ (IsSource g x ∨ UsedOnce g x) ∧
          ∀ x' ∈ X, ¬ Relation.TransGen (BpInput g) x x') →
        ∀ t, MovedBy K g X t → (ys.map (fun y => cy y (t y))).sum = ∑ x ∈ X, cov x (t x) := by
  obtain ⟨_, _, cov, h1, h2⟩ := gradWithDefault_sound hg hpick hnd hd hxs hlt h hS hrep
  refine ⟨cov, h1, fun X hX t ht => h2 X ?_ t ht⟩
  exact ⟨fun x hx => (hX x hx).1, fun x hx => (hX x hx).2.1, fun x hx => (hX x hx).2.2.1, fun x hx => (hX x hx).2.2.2.1,
    fun x hx => (hX x hx).2.2.2.2⟩

/-! ## C21 Zero gradients, totality -/

/-- **C21** `grad_with_default` always finishes. It returns zeros (of the right shape) for every x that the objectives do not reach through
differentiable tensors, and it panics only if the graph gets too large, an `Op::grad` panics, or some differentiable op does not return a gradient
for an input that leads to `xs`. -/
theorem C21_grad_with_default_total_partial (O : GradOps Op) (pick : Graph Op → List Nat → Nat) (g : Graph Op) (ys xs gys : List Nat)
    (hW : GradWellFormed g O.opGrad) (hg : BpDag g) (hpick : PicksMax pick) (hne : ys ≠ []) (hnd : ys.Nodup)
    (hd : ∀ y ∈ ys, IsDiff g y) (hl : ys.length = gys.length) (hgy : ∀ t ∈ gys, t < g.nodes.length)
    (hsh : ∀ (x : Nat) (n : Node Op) s, g.nodes[x]? = some n → n.shape = some s → s < g.nodes.length)
    (hlt : ∀ x ∈ xs, x < g.nodes.length) :
    ∃ N, ∀ fuel, N ≤ fuel → ∃ r, gradWithDefault O pick fuel g ys xs gys = some r ∧
      ((∃ res, r = .ok res ∧ List.Forall₂ (fun x t => ¬ (ReachedFrom g ys x ∧ IsDiff g x) → ZerosLike O.zeros O.shapeOp res.g x t) xs res.grads) ∨
        r = .error (.graph .graphTooLarge) ∨ (∃ p, r = .error p ∧ OpGradPanics O g ys xs p) ∨
        (r = .error .noGradient ∧ ¬ GradGiven g xs O.opGrad)) := by
  obtain ⟨N, hN⟩ := gradWithDefault_total (xs := xs) (gys := gys) hW hg hpick hne hnd hd hl hgy hsh hlt
  refine ⟨N, fun fuel hf => ?_⟩
  obtain ⟨r, h1, h2⟩ := hN fuel hf
  exact ⟨r, h1, ends_cases h2⟩

/-- **C21** The same for `grad`, for any objectives (repeated or not). Missing from the claim: ops that are declared differentiable but return
no gradient; for these the code panics (`C21_no_gradient_violated`). -/
theorem C21_grad_total_partial (O : GradOps Op) (pick : Graph Op → List Nat → Nat) (g : Graph Op) (ys xs : List Nat)
    (hg : BpDag g) (hpick : PicksMax pick) (hne : ys ≠ []) (hy : ∀ y ∈ ys, y < g.nodes.length)
    (hsh : ∀ (x : Nat) (n : Node Op) s, g.nodes[x]? = some n → n.shape = some s → s < g.nodes.length)
    (hlt : ∀ x ∈ xs, x < g.nodes.length) :
    ∃ N, ∀ fuel, N ≤ fuel → grad O pick fuel g ys xs = some (.error (.graph .graphTooLarge)) ∨
      ∃ g0 sys, Summed O.sumAll g ys g0 sys ∧ (GradWellFormed g0 O.opGrad → ∃ r, grad O pick fuel g ys xs = some r ∧
        ((∃ res, r = .ok res ∧ List.Forall₂ (fun x t => ¬ (ReachedFrom g0 sys x ∧ IsDiff g0 x) → ZerosLike O.zeros O.shapeOp res.g x t) xs res.grads) ∨
          r = .error (.graph .graphTooLarge) ∨ (∃ p, r = .error p ∧ OpGradPanics O g0 sys xs p) ∨
          (r = .error .noGradient ∧ ¬ GradGiven g0 xs O.opGrad))) := by
  obtain ⟨N, hN⟩ := grad_total (O := O) (xs := xs) hg hpick hne hy hsh hlt
  refine ⟨N, fun fuel hf => ?_⟩
  rcases hN fuel hf with h | ⟨g0, sys, h1, h2⟩
  · exact .inl h
  · refine .inr ⟨g0, sys, h1, fun hW => ?_⟩
    obtain ⟨r, h3, h4⟩ := h2 hW
    exact ⟨r, h3, ends_cases h4⟩

/-! ## C22 Several objectives -/

/-- **C22** partial (distinct objectives): `grad_with_default` is additive in the objectives and linear in the output gradients. If the
objective of a first run (a list of objectives with output gradients) is the sum of the objectives of two other runs on the same graph, the
gradients of all leaves are the sums of the gradients of these runs. -/
theorem C22_additive_partial (O : GradOps Op) (pick pick1 pick2 : Graph Op → List Nat → Nat) (fuel fuel1 fuel2 : Nat) (g : Graph Op)
    (xs ys gys ys1 gys1 ys2 gys2 : List Nat) (r r1 r2 : GradResult Op) (hg : BpDag g) (hp : PicksMax pick) (hp1 : PicksMax pick1)
    (hp2 : PicksMax pick2) (hnd : ys.Nodup) (hnd1 : ys1.Nodup) (hnd2 : ys2.Nodup) (hd : ∀ y ∈ ys, IsDiff g y) (hd1 : ∀ y ∈ ys1, IsDiff g y)
    (hd2 : ∀ y ∈ ys2, IsDiff g y) (hxs : xs.Nodup) (hleaf : ∀ x ∈ xs, IsSource g x ∧ IsDiff g x ∧ x ∉ ys ∧ x ∉ ys1 ∧ x ∉ ys2)
    (h : gradWithDefault O pick fuel g ys xs gys = some (.ok r)) (h1 : gradWithDefault O pick1 fuel1 g ys1 xs gys1 = some (.ok r1))
    (h2 : gradWithDefault O pick2 fuel2 g ys2 xs gys2 = some (.ok r2))
    (K : Calculus Op) (hl : LocalLin K g) (hS : GradSound K g (fun _ => True) O.addN O.zeros O.shapeOp O.opGrad) (cy cy1 cy2 : ∀ k, K.T k →+ K.R)
    (hrep : List.Forall₂ (fun y gy => K.Rep g y gy (cy y)) ys gys) (hrep1 : List.Forall₂ (fun y gy => K.Rep g y gy (cy1 y)) ys1 gys1)
    (hrep2 : List.Forall₂ (fun y gy => K.Rep g y gy (cy2 y)) ys2 gys2)
    (hsum : ∀ t : ∀ n, K.T n, (ys.map (fun y => cy y (t y))).sum =
      (ys1.map (fun y => cy1 y (t y))).sum + (ys2.map (fun y => cy2 y (t y))).sum) :
    ∃ cov cov1 cov2 : ∀ k, K.T k →+ K.R, List.Forall₂ (fun x t => K.Rep r.g x t (cov x)) xs r.grads ∧
      List.Forall₂ (fun x t => K.Rep r1.g x t (cov1 x)) xs r1.grads ∧ List.Forall₂ (fun x t => K.Rep r2.g x t (cov2 x)) xs r2.grads ∧
      ∀ x ∈ xs, cov x = cov1 x + cov2 x := by
  classical
  obtain ⟨cov, a1, a2⟩ := C18_grad_with_default_exact O pick fuel g ys xs gys r hg hp hnd hd hxs
    (fun x hx => ⟨(hleaf x hx).1, (hleaf x hx).2.1, (hleaf x hx).2.2.1⟩) h K (hS.on fun _ _ => trivial) cy hrep
  obtain ⟨cov1, b1, b2⟩ := C18_grad_with_default_exact O pick1 fuel1 g ys1 xs gys1 r1 hg hp1 hnd1 hd1 hxs
    (fun x hx => ⟨(hleaf x hx).1, (hleaf x hx).2.1, (hleaf x hx).2.2.2.1⟩) h1 K (hS.on fun _ _ => trivial) cy1 hrep1
  obtain ⟨cov2, c1, c2⟩ := C18_grad_with_default_exact O pick2 fuel2 g ys2 xs gys2 r2 hg hp2 hnd2 hd2 hxs
    (fun x hx => ⟨(hleaf x hx).1, (hleaf x hx).2.1, (hleaf x hx).2.2.2.2⟩) h2 K (hS.on fun _ _ => trivial) cy2 hrep2
  refine ⟨cov, cov1, cov2, a1, b1, c1, fun x hx => ?_⟩
  ext v
  obtain ⟨t, ht, hv⟩ := exists_moved hg hl xs.toFinset (fun n => if e : n = x then e ▸ v else 0)
  have htx : t x = v := by rw [hv x (List.mem_toFinset.2 hx)]; simp
  have htz : ∀ z ∈ xs, z ≠ x → t z = 0 := by
    intro z hz hne
    rw [hv z (List.mem_toFinset.2 hz)]; simp [hne]
  have pickOut : ∀ c : ∀ k, K.T k →+ K.R, (xs.map (fun z => c z (t z))).sum = c x v := by
    intro c
    rw [← sum_toFinset hxs, Finset.sum_eq_single x]
    · rw [htx]
    · intro z hz hne
      rw [htz z (List.mem_toFinset.1 hz) hne, map_zero]
    · intro hn; exact absurd (List.mem_toFinset.2 hx) hn
  have := hsum t
  rw [a2 t ht, b2 t ht, c2 t ht, pickOut, pickOut, pickOut] at this
  simpa using this

/-! ## C23 Each op once, consumers first -/

/-- **C23** In a run of `grad_with_default`: `Op::grad` is called at most once for each tensor; it is called only for differentiable tensors that
are reached from the objectives and either are objectives or lead to `xs`; all consumers of a tensor for which it is called at all come before that
tensor; and (if ops give the gradients that are asked for) it is called for *all* tensors in between. -/
theorem C23_once_consumers_first (O : GradOps Op) (pick : Graph Op → List Nat → Nat) (fuel : Nat) (g : Graph Op) (ys xs gys : List Nat)
    (r : GradResult Op) (hW : GradWellFormed g O.opGrad) (hg : BpDag g) (hpick : PicksMax pick) (hnd : ys.Nodup)
    (hd : ∀ y ∈ ys, IsDiff g y) (hgy : ∀ t ∈ gys, t < g.nodes.length)
    (h : gradWithDefault O pick fuel g ys xs gys = some (.ok r)) :
    r.log.Nodup ∧ (∀ k ∈ r.log, IsDiff g k ∧ ReachedFrom g ys k ∧ (k ∈ ys ∨ Leads g xs k)) ∧
    (∀ pre k post, r.log = pre ++ k :: post → ∀ p ∈ r.log, BpInput g p k → p ∈ pre) ∧
    (GradGiven g xs O.opGrad → ∀ k, ¬ IsSource g k → ReachedFrom g ys k → Leads g xs k → k ∈ r.log) := by
  obtain ⟨hl, m, m', s, h1, h2, h3, h4, h5⟩ := gradWithDefault_ok h
  have hylt : ∀ y ∈ ys, y < g.nodes.length := fun y hy => by
    obtain ⟨n, hn, _⟩ := hd y hy
    exact (List.getElem?_eq_some_iff.1 hn).1
  obtain ⟨m0, N, hm0, hin, _, huniq⟩ := initMap_ok (xs := xs) hg hylt
  cases huniq _ _ h1
  have hz := zip_fst hl
  have hst := start_struct (G := GradGiven g xs O.opGrad) (ps := ys.zip gys) (grows_refl g) hm0 (by rw [hz]; exact hnd)
    (by rw [hz]; exact hd) (by rw [hz]; exact hin) (by rw [hz]; exact initMap_reached hd h1)
    (fun p hp => hgy _ (List.of_mem_zip (show (p.1, p.2) ∈ _ from hp)).2) h2
  rw [hz] at hst
  obtain ⟨he, hs⟩ := bpLoop_struct hW (fun h => h) hg hpick hst h3
  obtain ⟨C, hI⟩ := hs.inv
  rw [h5]
  refine ⟨hI.logNodup, fun k hk => ⟨(hI.logIn k hk).1, ?_, (hI.logIn k hk).2⟩, ?_, ?_⟩
  · obtain ⟨info, hm, _⟩ := hs.logGrad k hk
    exact hs.reached k (by simp [hm])
  · intro pre k post e p hp hb
    exact log_consumers_first hg hI.logNodup hI.logSorted e hp hb
  · intro hG k hns hr hl
    obtain ⟨info, hm, hne⟩ := reached_hasGrad (G := GradGiven g xs O.opGrad) @hG hs he hg hr hl
    rcases hI.seen k info hm hne with h | h | h
    · rw [he] at h; cases h
    · exact h
    · exact absurd h hns

/-- **C23** The same for `grad` (its objectives are the `sum_all` tensors `sys` of the graph `g0`, which are always distinct). -/
theorem C23_grad_once_consumers_first (O : GradOps Op) (pick : Graph Op → List Nat → Nat) (fuel : Nat) (g : Graph Op) (ys xs : List Nat)
    (r : GradResult Op) (hg : BpDag g) (hpick : PicksMax pick) (h : grad O pick fuel g ys xs = some (.ok r)) :
    ∃ g0 sys, Summed O.sumAll g ys g0 sys ∧ (GradWellFormed g0 O.opGrad →
      r.log.Nodup ∧ (∀ k ∈ r.log, IsDiff g0 k ∧ ReachedFrom g0 sys k ∧ (k ∈ sys ∨ Leads g0 xs k)) ∧
      (∀ pre k post, r.log = pre ++ k :: post → ∀ p ∈ r.log, BpInput g0 p k → p ∈ pre) ∧
      (GradGiven g0 xs O.opGrad → ∀ k, ¬ IsSource g0 k → ReachedFrom g0 sys k → Leads g0 xs k → k ∈ r.log)) := by
  obtain ⟨g0, sys, g1, one, m, m', s, h0, h1, h2, h3, h4, h5, h6⟩ := grad_ok h
  have hS := sumAlls_ok h0
  have hg0 := hS.bpDag hg
  have hd := hS.isDiff
  have hylt : ∀ y ∈ sys, y < g0.nodes.length := fun y hy => by
    obtain ⟨n, hn, _⟩ := hd y hy
    exact (List.getElem?_eq_some_iff.1 hn).1
  obtain ⟨m0, N, hm0, hin, _, huniq⟩ := initMap_ok (xs := xs) hg0 hylt
  cases huniq _ _ h1
  have hz : (sys.map (fun y => (y, one))).map Prod.fst = sys := map_fst
  obtain ⟨hgr1, n1, hn1, _⟩ := scalarOne_ok h2
  refine ⟨g0, sys, hS, fun hW => ?_⟩
  have hst := start_struct (G := GradGiven g0 xs O.opGrad) (ps := sys.map (fun y => (y, one))) hgr1 hm0 (by rw [hz]; exact hS.nodup)
    (by rw [hz]; exact hd) (by rw [hz]; exact hin) (by rw [hz]; exact initMap_reached hd h1)
    (fun p hp => by
      obtain ⟨y, hy, rfl⟩ := List.mem_map.1 hp
      exact (List.getElem?_eq_some_iff.1 hn1).1) h3
  rw [hz] at hst
  obtain ⟨he, hs⟩ := bpLoop_struct hW (fun h => h) hg0 hpick hst h4
  obtain ⟨C, hI⟩ := hs.inv
  rw [h6]
  refine ⟨hI.logNodup, fun k hk => ⟨(hI.logIn k hk).1, ?_, (hI.logIn k hk).2⟩, ?_, ?_⟩
  · obtain ⟨info, hm, _⟩ := hs.logGrad k hk
    exact hs.reached k (by simp [hm])
  · intro pre k post e p hp hb
    exact log_consumers_first hg0 hI.logNodup hI.logSorted e hp hb
  · intro hG k hns hr hl
    obtain ⟨info, hm, hne⟩ := reached_hasGrad (G := GradGiven g0 xs O.opGrad) @hG hs he hg0 hr hl
    rcases hI.seen k info hm hne with h | h | h
    · rw [he] at h; cases h
    · exact h
    · exact absurd h hns

end Verif.Props
