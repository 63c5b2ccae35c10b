import Verif.Lemmas.RealVary
import Verif.Lemmas.RealDemo
import Verif.Props.GradWitness
import Verif.Props.Eval
import Mathlib.Analysis.Calculus.Deriv.Add

/-! # Property theorems about derivatives of real-valued graphs: C19 -/

namespace Verif.Props
open Verif Verif.Spec Verif.Gradient Verif.Graph Verif.Eval
variable {Op E : Type}

/-- What the ops that `grad` itself uses compute, and the gradient of `sum_all`. -/
structure RealGradOps (S : Setting Op E ℝ) (O : GradOps Op) : Prop where
  addN : ∀ vs, Gives S O.addN vs vs.sum
  zeros : ∀ v, Gives S O.zeros [v] 0
  one : Gives S O.one [] 1
  shapeOp : ∀ v, ∃ u, Gives S O.shapeOp [v] u
  sumAll : ∀ v, ScalarOp S O.opGrad O.sumAll (fun vs => vs.sum) [v] [1]

/-- **C19** For every graph of differentiable real ops (of any size and shape), the tensors that `grad(ys, xs)` returns for leaves `xs` have as values
the partial derivatives of the sum of the objectives: `val u` are the values of all tensors as functions of the value `u` of leaf `x`. -/
theorem C19_grad_is_derivative (O : GradOps Op) (pick : Graph Op → List Nat → Nat) (fuel : Nat) (g : Graph Op) (ys xs : List Nat)
    (r : GradResult Op) (hg : BpDag g) (hpick : PicksMax pick) (hy : ∀ y ∈ ys, y < g.nodes.length) (hxs : xs.Nodup)
    (hleaf : ∀ x ∈ xs, IsSource g x ∧ IsDiff g x) (h : grad O pick fuel g ys xs = some (.ok r))
    (S : Setting Op E ℝ) (φ : Op → List ℝ → ℝ) (d : Op → List ℝ → List ℝ) (p : Nat → ℝ) (hO : RealGradOps S O)
    (hR : RealGraph S g φ d O.opGrad p) :
    List.Forall₂ (fun x t => ∃ v, Evals S r.g t v ∧
      ∀ val, Varying g φ x (p x) val → val (p x) = p → HasDerivAt (fun u => (ys.map (fun y => val u y)).sum) v (p x)) xs r.grads := by
  obtain ⟨g0, sys, hs, hall⟩ := C18_grad_exact O pick fuel g ys xs r hg hpick hy hxs hleaf h
  have hsc := summed_scalar (val := fun _ => p) (u0 := 0) hs hy hR hO.addN hO.zeros hO.shapeOp hO.sumAll
  obtain ⟨_, cov, h1, h2⟩ := hall _ (fun _ => AddMonoidHom.id ℝ) (fun _ => AddMonoidHom.id ℝ) (scalar_sound hsc) scalar_local
    (by
      intro g1 o hg1 ho s _
      exact ⟨1, evals_app ho .nil hO.one, fun τ => (one_mul _).symm⟩)
    (by
      intro s hsm y hs' t
      obtain ⟨n, hn, _, hin, _, _⟩ := hs'
      have hlt : ¬ s < g.nodes.length := by have := ((hs.fresh s).1 hsm).1; omega
      have hbi : n.bpInputs = [{ id := y }] := by
        obtain ⟨n', hn', h1, h2⟩ := summed_bp hs hsm
        rw [hn] at hn'; cases hn'
        rw [h1, hin]; rfl
      show (scalarCalculus S g0 _).lin s t = t y
      simp only [scalarCalculus, hn, hbi, if_neg hlt]
      simp only [chain, List.zip_cons_cons, List.zip_nil_right, List.map_cons, List.map_nil, List.sum_cons, List.sum_nil, add_zero]
      exact one_mul (M := ℝ) (t y))
  have hlt : ∀ x ∈ xs, x < g.nodes.length := fun x hx => by
    obtain ⟨n, hn, _⟩ := (hleaf x hx).1
    exact (List.getElem?_eq_some_iff.1 hn).1
  have hnode : ∀ n, n < g.nodes.length → g0.nodes[n]? = g.nodes[n]? := by
    intro n hn
    rw [List.getElem?_eq_getElem hn]
    exact hs.grows.1 _ _ (List.getElem?_eq_getElem hn)
  have hlin : ∀ (n : Nat) (node : Node Op) (t : Nat → ℝ), g.nodes[n]? = some node → node.differentiable = true → node.incoming ≠ [] →
      (scalarCalculus S g0 (fun n => if n < g.nodes.length then partialsOf g d p n else [1])).lin n t =
        chain node.bpInputs (d node.op (node.incoming.map (fun i => p i.id))) t := by
    intro n node t hn hdf hi
    have hl := (List.getElem?_eq_some_iff.1 hn).1
    simp only [scalarCalculus, hnode n hl, hn, if_pos hl, partialsOf]
    rw [if_pos ⟨hdf, hi⟩]
  refine forall₂_of_mem h1 fun x t hx hrep => ?_
  obtain ⟨v, hv, hc⟩ := hrep
  refine ⟨v, hv, fun val hV hval => ?_⟩
  have hR' : RealGraph S g φ d O.opGrad (val (p x)) := by rw [hval]; exact hR
  obtain ⟨t0, ht0, hv0⟩ : ∃ t0 : Nat → ℝ, MovedBy (scalarCalculus S g0 (fun n => if n < g.nodes.length then partialsOf g d p n else [1]))
      g xs.toFinset t0 ∧ ∀ z ∈ xs.toFinset, t0 z = (if z = x then (1 : ℝ) else 0) :=
    exists_moved hg (scalar_local_sub hs.grows) xs.toFinset (fun n => if n = x then (1 : ℝ) else 0)
  have hd : (ys.map t0).sum = (xs.map (fun z => (cov z : ℝ →+ ℝ) (t0 z))).sum := h2 t0 ht0
  have hone : t0 x = (1 : ℝ) := by rw [hv0 x (by simpa using hx)]; simp
  have hz : ∀ n, n ≠ x → (¬ IsDiff g n ∨ IsSource g n) → t0 n = (0 : ℝ) := by
    intro n hn hc
    by_cases hm : n ∈ xs
    · rw [hv0 n (by simpa using hm), if_neg hn]
    · exact ht0.fixed n (by simpa using hm) hc
  have hop : ∀ n, n ≠ x → IsDiff g n → ¬ IsSource g n → t0 n =
      (scalarCalculus S g0 (fun n => if n < g.nodes.length then partialsOf g d p n else [1])).lin n t0 := by
    intro n hn h1 h2
    refine ht0.op n ?_ h1 h2
    intro hm
    exact h2 (hleaf n (by simpa using hm)).1
  have hder := tangent_deriv (t := t0) hg hR' hV (by rw [hval]; exact hlin) hone hop hz
  have hsum : HasDerivAt (fun u => (ys.map (fun y => val u y)).sum) ((ys.map t0).sum) (p x) := by
    refine hasDerivAt_listSum fun y hym => ?_
    exact hder _ y _ (List.getElem?_eq_getElem (hy y hym)) (le_refl _)
  have hv1 : (ys.map t0).sum = v := by
    rw [hd, ← sum_toFinset hxs, Finset.sum_eq_single x]
    · rw [hone]; exact (hc 1).trans (mul_one v)
    · intro z hz hne
      rw [hv0 z hz, if_neg hne]
      exact (cov z).map_zero
    · intro hn; exact absurd (List.mem_toFinset.2 hx) hn
  rw [← hv1]
  exact hsum

/-- **C19** The statement is not empty: the values of the tensors as functions of one leaf exist, for every leaf. -/
theorem C19_variation_exists (O : GradOps Op) (g : Graph Op) (S : Setting Op E ℝ) (φ : Op → List ℝ → ℝ) (d : Op → List ℝ → List ℝ)
    (p : Nat → ℝ) (x : Nat) (hg : BpDag g) (hR : RealGraph S g φ d O.opGrad p) :
    ∃ val, Varying g φ x (p x) val ∧ val (p x) = p :=
  exists_varying hg p hR

/-- **C19** Evaluating the gradient tensor gives the derivative: `eval` of the returned tensor, in the graph that `grad` leaves behind, returns (given
enough loop iterations) the number `v` that is the derivative of the sum of the objectives. `Q` interprets the ops as `S` does. -/
theorem C19_evaluated_gradient {W : Type} (O : GradOps Op) (pick : Graph Op → List Nat → Nat) (fuel : Nat) (g : Graph Op) (ys xs : List Nat)
    (r : GradResult Op) (hg : BpDag g) (hpick : PicksMax pick) (hy : ∀ y ∈ ys, y < g.nodes.length) (hxs : xs.Nodup)
    (hleaf : ∀ x ∈ xs, IsSource g x ∧ IsDiff g x) (h : grad O pick fuel g ys xs = some (.ok r))
    (S : Setting Op E ℝ) (φ : Op → List ℝ → ℝ) (d : Op → List ℝ → List ℝ) (p : Nat → ℝ) (hO : RealGradOps S O)
    (hR : RealGraph S g φ d O.opGrad p) (P : Ops Op) (Q : Sem Op ℝ E W) (w : W) (hreach : Reachable P r.g) (hac : Acyclic r.g)
    (hQ : Q.shapeOf = S.shapeOf) (k x t : Nat) (hx : xs[k]? = some x) (ht : r.grads[k]? = some t)
    (hpure : NeededPure Q r.g [t] S.f) (hro : NeededReadOnly r.g [t]) (val : ℝ → Nat → ℝ) (hV : Varying g φ x (p x) val)
    (hval : val (p x) = p) :
    ∃ v fuel0, (∀ fuel', fuel0 ≤ fuel' → ∃ res, eval Q r.g fuel' [t] S.feeds S.env w = some (.ok res) ∧ res.results = [.ok v]) ∧
      HasDerivAt (fun u => (ys.map (fun y => val u y)).sum) v (p x) := by
  have h1 := C19_grad_is_derivative O pick fuel g ys xs r hg hpick hy hxs hleaf h S φ d p hO hR
  obtain ⟨t', ht', v, hv, hd⟩ := (forall₂_get h1).2 k x hx
  rw [ht] at ht'; cases ht'
  have htl : t < r.g.size := by
    have : ∃ n, r.g.nodes[t]? = some n := by
      cases hv.1 with
      | placeholder h _ _ => exact ⟨_, h⟩
      | variable_ h _ _ => exact ⟨_, h⟩
      | result h _ => cases h with
        | run h _ _ _ _ => exact ⟨_, h⟩
    obtain ⟨n, hn⟩ := this
    exact (List.getElem?_eq_some_iff.1 hn).1
  obtain ⟨fuel0, h2⟩ := C06_total P Q r.g [t] S.feeds S.env w S.f [.ok v] hreach hac (by simpa using htl) hpure hro
    (by
      intro pre t' mid post e
      have := congrArg List.length e
      simp at this
      omega)
    (.cons (by rw [hQ]; exact hv.1) .nil)
  exact ⟨v, fuel0, h2, hd val hV hval⟩

/-! ## Example: `y = (a * b) * (a * b)` -/

/-- The hypotheses of C19 hold for all values `a`, `b` of the variables. -/
example (a b : ℝ) : RealGradOps (demoSet [a, b]) demoO ∧
    RealGraph (demoSet [a, b]) square demoφ demoD demoO.opGrad (fun n => [a, b, a * b, a * b * (a * b), 1].getD n 0) ∧
    ∃ r, grad demoO demoPick 50 square [3] [0, 1] = some (.ok r) := by
  refine ⟨⟨demo_gives .addN, fun v => demo_gives .zeros [v], demo_gives .one [], fun v => ⟨_, demo_gives .shape [v]⟩, fun v => demo_scalarOp .sumAll [v]⟩,
    ⟨check_closed square_check, check_shape square_check, ?_, fun n node hn hi => (check_leaf square_check n node hn hi).1, check_plain square_check, ?_, ?_⟩, ⟨_, rfl⟩⟩
  · have h0 : Evals (demoSet [a, b]) square 0 a := ⟨.variable_ (vid := 0) rfl rfl rfl, fun n hn _ => by cases hn; rfl⟩
    have h1 : Evals (demoSet [a, b]) square 1 b := ⟨.variable_ (vid := 1) rfl rfl rfl, fun n hn _ => by cases hn; rfl⟩
    have h2 : Evals (demoSet [a, b]) square 2 (a * b) := by
      have := evals_app (S := demoSet [a, b]) (g := square) (t := 2) (op := .mul) (xs := [0, 1]) ⟨_, rfl, rfl, rfl, rfl, rfl⟩ (.cons h0 (.cons h1 .nil))
        (demo_gives _ _)
      simpa [demoφ] using this
    have h3 : Evals (demoSet [a, b]) square 3 (a * b * (a * b)) := by
      have := evals_app (S := demoSet [a, b]) (g := square) (t := 3) (op := .mul) (xs := [2, 2]) ⟨_, rfl, rfl, rfl, rfl, rfl⟩ (.cons h2 (.cons h2 .nil))
        (demo_gives _ _)
      simpa [demoφ] using this
    have h4 : Evals (demoSet [a, b]) square 4 (1 : ℝ) :=
      evals_app (S := demoSet [a, b]) (g := square) (t := 4) (op := .one) (xs := []) ⟨_, rfl, rfl, rfl, rfl, rfl⟩ .nil (demo_gives _ _)
    intro n hn
    match n, hn with
    | 0, _ => exact h0
    | 1, _ => exact h1
    | 2, _ => exact h2
    | 3, _ => exact h3
    | 4, _ => exact h4
  · intro n node hn _ hi
    refine ⟨demo_scalarOp _ _, ?_⟩
    match n, hn with
    | 0, hn => cases hn; exact absurd rfl hi
    | 1, hn => cases hn; exact absurd rfl hi
    | 2, hn => cases hn; exact mul_partials a b
    | 3, hn => cases hn; exact mul_partials (a * b) (a * b)
    | 4, hn => cases hn; exact absurd rfl hi
  · intro n node g' g'' y gy gxs hn hi h
    have := (check_leaf square_check n node hn hi).2
    simp only [List.mem_cons, List.not_mem_nil, or_false] at this
    simp only [demoO, demoGrad, bind, Except.bind] at h
    cases hl : lift (g'.access y) with
    | error p => simp [hl] at h
    | ok m => rcases this with e | e <;> simp [hl, e] at h

/-- The builder calls that make the graph after `grad(&[a * x], &[x])`. -/
def prodGradCmds : List (Cmd DOp) := prodCmds ++ [.build { inNodes := [{ id := 2 }] } .sumAll, .build {} (.const [0]), .build { shape := some 5 } (.const []),
  .build { shape := some 6 } .one, .build { inNodes := [{ id := 7 }, { id := 1 }] } .mul, .build { inNodes := [{ id := 7 }, { id := 0 }] } .mul]

/-- The remaining hypotheses of `C19_evaluated_gradient`: after `grad(&[a * x], &[x])` the graph is one that builder calls make, and acyclic; the ops
needed for the gradient are pure and write no variables. -/
example : ∃ r, grad demoO demoPick 50 prod [2] [1] = some (.ok r) ∧ r.grads[0]? = some 9 ∧ Reachable demoP r.g ∧ Acyclic r.g ∧
    (∀ a b : ℝ, NeededPure (W := Unit) ⟨fun op _ xs => .done () [] [demoφ op (xs.map OpInput.val)] (.ok ()), fun _ => [], false⟩ r.g [9] (demoSet [a, b]).f) ∧
    NeededReadOnly r.g [9] := by
  have h : ∃ l, grad demoO demoPick 50 prod [2] [1] = some (.ok ⟨demoGraph prodGradCmds, [9], l⟩) := ⟨_, rfl⟩
  obtain ⟨l, h⟩ := h
  have hall : ∀ n ∈ (demoGraph prodGradCmds).nodes, ∀ i ∈ n.incoming, i.allowMut = false := by decide
  have hex : ∃ ts, (Graph.empty : Graph DOp).execAll demoP prodGradCmds = .ok (demoGraph prodGradCmds, ts) := ⟨_, rfl⟩
  obtain ⟨ts, hex⟩ := hex
  refine ⟨_, h, rfl, Reachable.all .init hex, (C02_ranks_and_acyclic demoP _ prodGradCmds ts hex ?_).2, ?_, ?_⟩
  · intro x deps h
    simp [prodGradCmds, prodCmds] at h
  · intro a b c n _ _ w xs
    simp [outcomeResult, demoSet]
  · intro a vid _ ⟨n, hn, i, hi, hm, _⟩
    have := hall n (List.mem_of_getElem? hn) i hi
    rw [this] at hm; cases hm

end Verif.Props
