import Verif.Spec.Real
import Verif.Lemmas.Scalar
import Verif.Lemmas.GradTangent
import Mathlib.Analysis.Calculus.Deriv.Comp
import Mathlib.Analysis.Calculus.Deriv.Prod
import Mathlib.Analysis.Calculus.Deriv.Add

/-!
# Gradients of real-valued graphs
-/

namespace Verif.Gradient
open Verif Verif.Graph Verif.Spec Verif.Eval

variable {Op E : Type} {S : Setting Op E ℝ}

theorem chain_eq_sum : ∀ (is : List Incoming) (ds : List ℝ) (t : Nat → ℝ), ds.length = is.length →
    chain is ds t = ∑ j : Fin is.length, ds.getD j 0 * t (is.get j).id := by
  intro is
  induction is with
  | nil => intro ds t _; simp [chain]
  | cons i is ih =>
    intro ds t hl
    cases ds with
    | nil => simp at hl
    | cons a ds =>
      rw [chain_cons, ih ds t (by simpa using hl)]
      exact (Fin.sum_univ_succ (fun j : Fin (is.length + 1) => (a :: ds).getD j 0 * t ((i :: is).get j).id)).symm

/-- Chain rule for ops. -/
theorem hasPartials_chain {φ : List ℝ → ℝ} {is : List Incoming} {ds : List ℝ} {val : ℝ → Nat → ℝ} {t : Nat → ℝ} {u0 : ℝ}
    (hl : ds.length = is.length) (h : HasPartials φ (is.map (fun i => val u0 i.id)) ds)
    (hd : ∀ i ∈ is, HasDerivAt (fun u => val u i.id) (t i.id) u0) :
    HasDerivAt (fun u => φ (is.map (fun i => val u i.id))) (chain is ds t) u0 := by
  have hlen : (is.map (fun i => val u0 i.id)).length = is.length := by simp
  have hcurve : HasDerivAt (fun u => (fun j : Fin (is.map (fun i => val u0 i.id)).length => val u (is.get (j.cast hlen)).id))
      (fun j => t (is.get (j.cast hlen)).id) u0 := by
    rw [hasDerivAt_pi]
    intro j
    exact hd _ (List.get_mem _ _)
  have h' : HasFDerivAt (fun p : Fin (is.map (fun i => val u0 i.id)).length → ℝ => φ (List.ofFn p))
      (∑ j : Fin (is.map (fun i => val u0 i.id)).length,
        (ds.getD j 0) • (ContinuousLinearMap.proj j : (Fin (is.map (fun i => val u0 i.id)).length → ℝ) →L[ℝ] ℝ))
      ((fun u => (fun j : Fin (is.map (fun i => val u0 i.id)).length => val u (is.get (j.cast hlen)).id)) u0) := by
    have e : (fun j : Fin (is.map (fun i => val u0 i.id)).length => val u0 (is.get (j.cast hlen)).id) =
        fun j => (is.map (fun i => val u0 i.id)).get j := by
      funext j; simp
    show HasFDerivAt _ _ (fun j : Fin (is.map (fun i => val u0 i.id)).length => val u0 (is.get (j.cast hlen)).id)
    rw [e]
    exact h
  have := h'.comp_hasDerivAt u0 hcurve
  have e1 : (fun u => φ (is.map (fun i => val u i.id))) = (fun p : Fin (is.map (fun i => val u0 i.id)).length → ℝ => φ (List.ofFn p)) ∘
      (fun u => (fun j : Fin (is.map (fun i => val u0 i.id)).length => val u (is.get (j.cast hlen)).id)) := by
    funext u
    simp only [Function.comp]
    congr 1
    apply List.ext_get
    · simp
    · intro n h1 h2
      simp
  have e2 : chain is ds t = (∑ j : Fin (is.map (fun i => val u0 i.id)).length,
        (ds.getD j 0) • (ContinuousLinearMap.proj j : (Fin (is.map (fun i => val u0 i.id)).length → ℝ) →L[ℝ] ℝ))
        (fun j => t (is.get (j.cast hlen)).id) := by
    rw [chain_eq_sum is ds t hl]
    simp only [_root_.sum_apply, _root_.smul_apply, ContinuousLinearMap.proj_apply, smul_eq_mul]
    exact Fintype.sum_equiv (finCongr hlen.symm) _ _ (fun j => rfl)
  rw [e1, e2]
  exact this

variable {O : GradOps Op} {g : Graph Op} {φ : Op → List ℝ → ℝ} {d : Op → List ℝ → List ℝ} {x : Nat} {u0 : ℝ} {val : ℝ → Nat → ℝ}

theorem plain_bp {g : Graph Op} {n : Nat} {node : Node Op} {l : List Nat} (h : PlainOp g n node l) : node.bpInputs = node.incoming := by
  simp [Node.bpInputs, h.2.2.1]

/-- Partial derivatives of the tensors. -/
noncomputable def partialsOf (g : Graph Op) (d : Op → List ℝ → List ℝ) (val : Nat → ℝ) (n : Nat) : List ℝ :=
  match g.nodes[n]? with
  | some node => if node.differentiable = true ∧ node.incoming ≠ [] then d node.op (node.incoming.map (fun i => val i.id))
      else node.bpInputs.map (fun _ => 0)
  | none => []

theorem realGraph_bp (hR : RealGraph S g φ d O.opGrad (val u0)) {n : Nat} {node : Node Op} (hn : g.nodes[n]? = some node) :
    node.bpInputs = node.incoming := by
  by_cases hi : node.incoming = []
  · simp [Node.bpInputs, hR.leaf n node hn hi]
  · obtain ⟨l, hl⟩ := hR.plain n node hn hi
    exact plain_bp hl

theorem realGraph_bpInputs_lt (hR : RealGraph S g φ d O.opGrad (val u0)) {n : Nat} {node : Node Op} (hn : g.nodes[n]? = some node)
    {i : Incoming} (hi : i ∈ node.bpInputs) : i.id < g.nodes.length := by
  rw [realGraph_bp hR hn] at hi
  exact hR.closed n node hn i hi

/-- The tangents are the derivatives. -/
theorem tangent_deriv (hg : BpDag g) (hR : RealGraph S g φ d O.opGrad (val u0)) (hV : Varying g φ x u0 val)
    {lin : Nat → (Nat → ℝ) → ℝ} (hlin : ∀ n (node : Node Op) t, g.nodes[n]? = some node → node.differentiable = true →
      node.incoming ≠ [] → lin n t = chain node.bpInputs (d node.op (node.incoming.map (fun i => val u0 i.id))) t)
    {t : Nat → ℝ} (hx : t x = 1)
    (hop : ∀ n, n ≠ x → IsDiff g n → ¬ IsSource g n → t n = lin n t)
    (hfix : ∀ n, n ≠ x → (¬ IsDiff g n ∨ IsSource g n) → t n = 0) :
    ∀ (k n : Nat) (node : Node Op), g.nodes[n]? = some node → node.topoRank ≤ k → HasDerivAt (fun u => val u n) (t n) u0 := by
  intro k
  induction k using Nat.strong_induction_on with
  | _ k ih =>
    intro n node hn hk
    by_cases hnx : n = x
    · subst hnx
      rw [hx]
      have : (fun u => val u n) = fun u => u := funext fun u => hV.leaf u
      rw [this]
      exact hasDerivAt_id' u0
    · by_cases hc : node.differentiable = true ∧ node.incoming ≠ []
      · have h1 : IsDiff g n := ⟨node, hn, hc.1⟩
        have h2 : ¬ IsSource g n := by
          rintro ⟨n', a, b⟩
          rw [hn] at a; cases a; exact hc.2 b
        rw [hop n hnx h1 h2, hlin n node t hn hc.1 hc.2]
        have : (fun u => val u n) = fun u => φ node.op (node.incoming.map (fun i => val u i.id)) :=
          funext fun u => hV.op u n node hnx hn hc.1 hc.2
        rw [this, realGraph_bp hR hn]
        obtain ⟨h3, h4⟩ := hR.ops n node hn hc.1 hc.2
        refine hasPartials_chain (by simpa using h3.len) h4 fun i hi => ?_
        obtain ⟨m, hm, hlt⟩ := (hg n node hn).2 i (by rw [realGraph_bp hR hn]; exact hi)
        exact ih m.topoRank (by omega) i.id m hm (le_refl _)
      · have hc' : node.differentiable = false ∨ node.incoming = [] := by
          by_cases h : node.differentiable = true
          · exact .inr (by by_contra h'; exact hc ⟨h, h'⟩)
          · exact .inl (by simpa using h)
        have : t n = 0 := by
          refine hfix n hnx ?_
          rcases hc' with h | h
          · refine .inl ?_
            rintro ⟨n', a, b⟩
            rw [hn] at a; cases a
            rw [h] at b; cases b
          · exact .inr ⟨node, hn, h⟩
        rw [this]
        have : (fun u => val u n) = fun _ => val u0 n := funext fun u => hV.fixed u n node hnx hn hc'
        rw [this]
        exact hasDerivAt_const u0 _

theorem forall₂_evals {g g0 : Graph Op} {v : Nat → ℝ} (h : ∀ n, n < g.nodes.length → Evals S g0 n (v n)) {xs : List Nat}
    {l : List Incoming} (hl : l = xs.map (fun x => ({ id := x } : Incoming))) (hlt : ∀ i ∈ l, i.id < g.nodes.length) :
    List.Forall₂ (Evals S g0) xs (l.map (fun i => v i.id)) := by
  subst hl
  induction xs with
  | nil => exact .nil
  | cons a xs ih =>
    rw [List.map_cons, List.map_cons]
    exact .cons (h a (hlt { id := a } (by simp))) (ih (fun i hi => hlt i (by rw [List.map_cons]; exact List.mem_cons_of_mem _ hi)))

/-- The graph with the `sum_all` tensors is a scalar graph. -/
theorem summed_scalar {ys : List Nat} {g0 : Graph Op} {sys : List Nat} (hs : Summed O.sumAll g ys g0 sys) (hys : ∀ y ∈ ys, y < g.nodes.length)
    (hR : RealGraph S g φ d O.opGrad (val u0))
    (hadd : ∀ vs, Gives S O.addN vs vs.sum) (hz : ∀ v, Gives S O.zeros [v] 0) (hsh : ∀ v, ∃ u, Gives S O.shapeOp [v] u)
    (hsum : ∀ v, ScalarOp S O.opGrad O.sumAll (fun vs => vs.sum) [v] [1]) :
    ScalarGraph S g0 (fun n => if n < g.nodes.length then partialsOf g d (val u0) n else [1]) O.addN O.zeros O.shapeOp O.opGrad := by
  have hc0 : InputsExist g0 := hs.grows.2 hR.closed
  have hnode : ∀ n, n < g.nodes.length → g0.nodes[n]? = g.nodes[n]? := by
    intro n hn
    rw [List.getElem?_eq_getElem hn]
    exact hs.grows.1 _ _ (List.getElem?_eq_getElem hn)
  have hsys : ∀ n (node : Node Op), g0.nodes[n]? = some node → ¬ n < g.nodes.length → ∃ y ∈ ys, PlainOp g0 n node [y] ∧ node.op = O.sumAll ∧
      node.shape = none := by
    intro n node hn hlt
    have hmem : n ∈ sys := (hs.fresh n).2 ⟨by omega, (List.getElem?_eq_some_iff.1 hn).1⟩
    have key : ∀ {l l' : List Nat}, List.Forall₂ (fun y s => ∃ n, g0.nodes[s]? = some n ∧ n.op = O.sumAll ∧ n.incoming = [{ id := y }] ∧
        n.differentiable = true ∧ n.backpropInputs = none ∧ n.variableId = none ∧ n.placeholderName = none ∧ n.shape = none) l l' →
        n ∈ l' → ∃ y ∈ l, PlainOp g0 n node [y] ∧ node.op = O.sumAll ∧ node.shape = none := by
      intro l l' h
      induction h with
      | nil => intro h; cases h
      | @cons y s _ _ h1 _ ih =>
        intro h
        rcases List.mem_cons.1 h with rfl | h
        · obtain ⟨n', a, b, c, e, f1, f2, f3, f4⟩ := h1
          rw [hn] at a; cases a
          exact ⟨y, by simp, ⟨hn, by simpa using c, f1, f3, f2⟩, b, f4⟩
        · obtain ⟨y', a, b⟩ := ih h
          exact ⟨y', by simp [a], b⟩
    exact key hs.apps hmem
  have hv0 : ∀ n, n < g.nodes.length → Evals S g0 n (val u0 n) := fun n hn => Evals.mono hs.grows hR.closed (hR.vals n hn)
  refine ⟨hc0, ?_, ?_, hadd, hz, hsh, ?_, ?_⟩
  · intro x n s hx hns
    by_cases hlt : x < g.nodes.length
    · rw [hnode x hlt] at hx
      exact grows_lt hs.grows (hR.shapes x n s hx hns)
    · obtain ⟨_, _, _, _, h⟩ := hsys x n hx hlt
      rw [h] at hns; cases hns
  · intro n hn
    by_cases hlt : n < g.nodes.length
    · exact ⟨_, hv0 n hlt⟩
    · obtain ⟨y, hy, hp, ho, _⟩ := hsys n _ (List.getElem?_eq_getElem hn) hlt
      refine ⟨_, evals_app ⟨_, hp.1, ho, hp.2.1, hp.2.2.2.1, hp.2.2.2.2⟩ (.cons (hv0 y (hys y hy)) .nil) (hsum _).gives⟩
  · intro n node hn
    by_cases hlt : n < g.nodes.length
    · rw [if_pos hlt]
      have hn' := hn
      rw [hnode n hlt] at hn'
      simp only [partialsOf, hn']
      split
      · rename_i hc
        rw [(hR.ops n node hn' hc.1 hc.2).1.len, realGraph_bp hR hn']
        simp
      · simp
    · rw [if_neg hlt]
      obtain ⟨y, _, hp, _⟩ := hsys n node hn hlt
      rw [plain_bp hp, hp.2.1]; rfl
  · intro n node g1 g' gy gxs v hgr hn hd hv hgx
    by_cases hlt : n < g.nodes.length
    · rw [if_pos hlt]
      have hn' := hn
      rw [hnode n hlt] at hn'
      simp only [partialsOf, hn']
      by_cases hi : node.incoming = []
      · obtain ⟨h1, rfl⟩ := hR.source n node g1 g' n gy gxs hn' hi hgx
        refine ⟨h1, ?_⟩
        rw [if_neg (by simp [hi]), realGraph_bp hR hn', hi]
        exact .nil
      · rw [if_pos ⟨hd, hi⟩]
        obtain ⟨l, hl⟩ := hR.plain n node hn' hi
        refine (hR.ops n node hn' hd hi).1.grad (hgr.2 hc0) (xs := l) ⟨hgr.1 _ _ hn, hl.2⟩ rfl ?_ hv hgx
        exact forall₂_evals (fun m hm => Evals.mono hgr hc0 (hv0 m hm)) hl.2.1 (hR.closed n node hn')
    · rw [if_neg hlt]
      obtain ⟨y, hy, hp, ho, _⟩ := hsys n node hn hlt
      rw [ho] at hgx
      exact (hsum (val u0 y)).grad (hgr.2 hc0) (xs := [y]) ⟨hgr.1 _ _ hn, hp.2⟩ ho
        (.cons (Evals.mono hgr hc0 (hv0 y (hys y hy))) .nil) hv hgx

end Verif.Gradient
