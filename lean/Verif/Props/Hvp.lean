import Verif.Lemmas.Hvp
import Verif.Lemmas.HvpSquare
import Verif.Props.HigherOrder
import Verif.Props.Program

/-! # Property theorems about products of the Hessian with vectors: C63 -/

namespace Verif.Props
open Verif Verif.Spec Verif.Gradient Verif.Graph Verif.Eval Verif.Nd Verif.Prog

/-! ## C63 `_hessian_vector_product` -/

/-- **C63** After any program, `_hessian_vector_product(ys, xs, vs)` for different variables and placeholders `xs` (`ls`) and vectors of their shapes that do not change with them returns one tensor for
each of the `xs`, and evaluating it returns the product of the matrix of the second derivatives (of the sum of all elements of the `ys`) with the vectors. -/
theorem C63_values_partial (pick : Graph POp → List Nat → Nat) (hpick : PicksMax pick) (fuel : Nat) (l : List Call) (g : Graph POp) (ids : List Nat)
    (h : execCalls pick fuel l = some (.ok (g, ids))) (hs : (meaning l).wellScoped) (ys xs vs : List Nat) (ls : List Leaf) (hy : ∀ y ∈ ys, y < ids.length) (hv : ∀ v ∈ vs, v < ids.length)
    (hlen : vs.length = xs.length) (hls : List.Forall₂ (fun x leaf => (meaning l).leaves[x]? = some (some leaf)) xs ls) (hnd : ls.Nodup) (fuel1 : Nat) (r : GradResult POp)
    (hr : hvp pick fuel1 g (ys.map (fun k => ids.getD k 0)) (xs.map (fun k => ids.getD k 0)) (vs.map (fun k => ids.getD k 0)) = some (.ok r))
    (I : Point) (hd : (meaning l).dom I)
    (hsh : List.Forall₂ (fun x v => ((meaning l).at_ I v).shape = ((meaning l).at_ I x).shape ∧ ∀ d ∈ ((meaning l).at_ I x).shape, 0 < d) xs vs)
    (hconst : ∀ v ∈ vs, ∀ leaf ∈ ls, ∀ i u, (meaning l).at_ (I.nudge leaf i u) v = (meaning l).at_ I v) :
    r.grads.length = xs.length ∧ ∀ (k x : Nat) (leaf : Leaf) (t : Nat), xs[k]? = some x → ls[k]? = some leaf → r.grads[k]? = some t →
      ∃ w : Arr ℝ, w.shape = ((meaning l).at_ I x).shape ∧ (∀ i, InB i w.shape → w.get i = (meaning l).hessianVector ys I (ls.zip vs) leaf i) ∧
        ∃ fuel0, ∀ fuel', fuel0 ≤ fuel' → ∃ res, eval progSem r.g fuel' [t] (named I.feeds) I.env () = some (.ok res) ∧ res.results = [.ok w] := by
  have hr0 : RunOk true g ids (meaning l) := runOk_empty.execFrom hpick h hs fun c _ => allowed_all c
  have hn := hr0.leavesOk.len
  obtain ⟨h1, ids', M', h2, h3, h4⟩ := hvp_values hr0 hpick ⟨hs, fun y hy' => by rw [← hn]; exact hy y hy', fun v hv' => by rw [← hn]; exact hv v hv', hlen, hls, hnd⟩ hr hd hsh hconst
  refine ⟨h1, fun k x leaf t hx hl ht => ?_⟩
  obtain ⟨w, h5, h6, h7⟩ := h4 k x leaf t hx hl ht
  exact ⟨w, h6, h7, evaluates h2.leavesOk.reach (h2.inv I h3).old h5⟩

/-- **C63** It returns, given enough iterations of the loops, unless the graph gets too large, which happens only for large graphs; as in C62 the program does not apply `abs` and `sign`. -/
theorem C63_returns_partial (pick : Graph POp → List Nat → Nat) (hpick : PicksMax pick) (fuel : Nat) (l : List Call) (g : Graph POp) (ids : List Nat)
    (h : execCalls pick fuel l = some (.ok (g, ids))) (hs : (meaning l).wellScoped) (hop : ∀ op x, .op (.un op x) ∈ l → op ≠ .abs ∧ op ≠ .sign)
    (ys xs vs : List Nat) (ls : List Leaf) (hney : ys ≠ []) (hnex : xs ≠ []) (hy : ∀ y ∈ ys, y < ids.length) (hv : ∀ v ∈ vs, v < ids.length)
    (hlen : vs.length = xs.length) (hls : List.Forall₂ (fun x leaf => (meaning l).leaves[x]? = some (some leaf)) xs ls) (hnd : ls.Nodup) (I : Point) (hd : (meaning l).dom I)
    (hsh : List.Forall₂ (fun x v => ((meaning l).at_ I v).shape = ((meaning l).at_ I x).shape ∧ ∀ d ∈ ((meaning l).at_ I x).shape, 0 < d) xs vs) :
    ∃ N, ∀ fuel', N ≤ fuel' →
      (∃ r, hvp pick fuel' g (ys.map (fun k => ids.getD k 0)) (xs.map (fun k => ids.getD k 0)) (vs.map (fun k => ids.getD k 0)) = some (.ok r)) ∨
      hvp pick fuel' g (ys.map (fun k => ids.getD k 0)) (xs.map (fun k => ids.getD k 0)) (vs.map (fun k => ids.getD k 0)) = some (.error (.graph .graphTooLarge)) ∧
        500000 < 32 * (32 * (g.nodes.length + ys.length + xs.length + 1) + 6 * xs.length + 1) := by
  have hall : ∀ c ∈ l, c.Allowed false := fun c hc => by
    unfold Call.Allowed
    split
    · exact .inr (hop _ _ hc)
    · trivial
  have hr0 : RunOk false g ids (meaning l) := runOk_empty.execFrom hpick h hs hall
  have hn := hr0.leavesOk.len
  have ha : HvpArgs (meaning l) ys xs vs ls := ⟨hs, fun y hy' => by rw [← hn]; exact hy y hy', fun v hv' => by rw [← hn]; exact hv v hv', hlen, hls, hnd⟩
  have hxin : ∀ x ∈ xs, x < ids.length := fun x hx => by
    obtain ⟨leaf, _, e⟩ := forall₂_mem_left hls hx
    rw [hn]
    exact (List.getElem?_eq_some_iff.1 e).1
  exact hvp_returns hr0 hpick ha hney hnex hd hsh hv hxin

/-- `x`, `x * x * x` and a vector `v`, for two variables. -/
def cubeCalls : List Call := [.op (.var 0), .op (.mul 0 0), .op (.mul 1 0), .op (.var 1)]

set_option maxRecDepth 4000 in
-- The hypotheses of both theorems hold for the sum of the cubes and all arrays of one shape.
example (x v : Arr ℝ) (hx : v.shape = x.shape) (hp : ∀ d ∈ x.shape, 0 < d) : ∃ g ids r, execCalls demoPick 60 cubeCalls = some (.ok (g, ids)) ∧ (meaning cubeCalls).wellScoped ∧
    ids.length = 4 ∧ List.Forall₂ (fun x leaf => (meaning cubeCalls).leaves[x]? = some (some leaf)) [0] [.variable_ 0] ∧
    hvp demoPick 60 g ([2].map (fun k => ids.getD k 0)) ([0].map (fun k => ids.getD k 0)) ([3].map (fun k => ids.getD k 0)) = some (.ok r) ∧ (meaning cubeCalls).dom ⟨[], [x, v]⟩ ∧
    (∀ op x, .op (.un op x) ∈ cubeCalls → op ≠ .abs ∧ op ≠ .sign) ∧
    List.Forall₂ (fun x' v' => ((meaning cubeCalls).at_ ⟨[], [x, v]⟩ v').shape = ((meaning cubeCalls).at_ ⟨[], [x, v]⟩ x').shape ∧
      ∀ d ∈ ((meaning cubeCalls).at_ ⟨[], [x, v]⟩ x').shape, 0 < d) [0] [3] ∧
    ∀ i u, (meaning cubeCalls).at_ ((⟨[], [x, v]⟩ : Point).nudge (.variable_ 0) i u) 3 = (meaning cubeCalls).at_ ⟨[], [x, v]⟩ 3 := by
  have hs : (meaning cubeCalls).wellScoped := by simp [meaning, cubeCalls, Meaning.add, Stmt.args]
  obtain ⟨v, hv⟩ : ∃ v, execCalls demoPick 60 (cubeCalls ++ hvpCalls 4 [2] [0] [3]) = some (.ok v) := ⟨_, rfl⟩
  obtain ⟨g, ids, h1, h2⟩ := execFrom_append hv
  have hl : ids.length = 4 := (runOk_empty.execFrom demoPick_max h1 hs fun c _ => allowed_all c).leavesOk.len
  obtain ⟨e1, e2, _⟩ := hvp_exec (pick := demoPick) (fuel := 60) (g := g) (ids := ids) (ys := [2]) (xs := [0]) (vs := [3]) (by simp [hl]) (by simp [hl]) rfl
  rw [hl] at e1 e2
  obtain ⟨r, hr⟩ : ∃ r, hvp demoPick 60 g ([2].map (fun k => ids.getD k 0)) ([0].map (fun k => ids.getD k 0)) ([3].map (fun k => ids.getD k 0)) = some (.ok r) := by
    cases hh : hvp demoPick 60 g ([2].map (fun k => ids.getD k 0)) ([0].map (fun k => ids.getD k 0)) ([3].map (fun k => ids.getD k 0)) with
    | none => rw [e1.2 hh] at h2; cases h2
    | some r =>
      cases r with
      | error p => rw [(e2 p).2 hh] at h2; cases h2
      | ok r => exact ⟨r, rfl⟩
  refine ⟨g, ids, r, h1, hs, hl, .cons rfl .nil, hr, ?_, ?_, .cons ⟨hx, hp⟩ .nil, fun i u => rfl⟩
  · refine ⟨⟨⟨⟨trivial, Nat.zero_lt_two⟩, joinable_self hp⟩, ?_⟩, Nat.one_lt_two⟩
    show Joinable (joinShape x.shape x.shape) x.shape
    rw [joinShape_self]
    exact joinable_self hp
  · intro op x h
    simp [cubeCalls] at h

set_option maxRecDepth 4000 in
/-- **C63** (vectors that depend on the `xs`), the code violates the property: the vector is differentiated as well. For the vector `x` itself and `x * x` the product of the Hessian with it is `2 * x`,
but the evaluated result is `4 * x`. -/
theorem C63_vectors_violated : ∃ g ids r t, execCalls demoPick 60 squareCalls = some (.ok (g, ids)) ∧ PicksMax (demoPick (Op := POp)) ∧
    hvp demoPick 60 g [ids.getD 1 0] [ids.getD 0 0] [ids.getD 0 0] = some (.ok r) ∧ r.grads = [t] ∧
    ∀ x : Arr ℝ, x.shape = [] → (∃ w : Arr ℝ, w.shape = [] ∧ w.get [] = 4 * x.get [] ∧
      ∃ fuel0, ∀ fuel', fuel0 ≤ fuel' → ∃ res, eval progSem r.g fuel' [t] (named []) [x] () = some (.ok res) ∧ res.results = [.ok w]) ∧
      (meaning squareCalls).hessianVector [1] ⟨[], [x]⟩ [(.variable_ 0, 0)] (.variable_ 0) [] = 2 * x.get [] := by
  have hs : (meaning squareCalls).wellScoped := by simp [meaning, squareCalls, Meaning.add, Stmt.args]
  obtain ⟨v, hv⟩ : ∃ v, execCalls demoPick 60 (squareCalls ++ hvpCalls 2 [1] [0] [0]) = some (.ok v) := ⟨_, rfl⟩
  obtain ⟨g, ids, h1, h2⟩ := execFrom_append hv
  have hl : ids.length = 2 := (runOk_empty.execFrom demoPick_max h1 hs fun c _ => allowed_all c).leavesOk.len
  obtain ⟨e1, e2, e3⟩ := hvp_exec (pick := demoPick) (fuel := 60) (g := g) (ids := ids) (ys := [1]) (xs := [0]) (vs := [0]) (by simp [hl]) (by simp [hl]) rfl
  rw [hl] at e1 e2 e3
  obtain ⟨r, hr⟩ : ∃ r, hvp demoPick 60 g ([1].map (fun k => ids.getD k 0)) ([0].map (fun k => ids.getD k 0)) ([0].map (fun k => ids.getD k 0)) = some (.ok r) := by
    cases hh : hvp demoPick 60 g ([1].map (fun k => ids.getD k 0)) ([0].map (fun k => ids.getD k 0)) ([0].map (fun k => ids.getD k 0)) with
    | none => rw [e1.2 hh] at h2; cases h2
    | some r =>
      cases r with
      | error p => rw [(e2 p).2 hh] at h2; cases h2
      | ok r => exact ⟨r, rfl⟩
  obtain ⟨mid, hmid, hex⟩ := e3 r hr
  have hall : execCalls demoPick 60 (squareCalls ++ hvpCalls 2 [1] [0] [0]) = some (.ok (r.g, ids ++ mid ++ r.grads)) := by
    show Prog.execFrom _ _ _ _ _ = _
    rw [execFrom_append', show Prog.execFrom demoPick 60 squareCalls Graph.empty [] = _ from h1]
    exact hex
  have hlen := (C62_values_partial demoPick demoPick_max 60 _ _ _ hall square_scoped (squarePoint (ofFn [] fun _ => 0)) (square_dom _ rfl)).1
  have hlen : (ids ++ mid ++ r.grads).length = 5 := hlen
  simp only [List.length_append, hl, hmid, List.length_singleton] at hlen
  obtain ⟨t, ht⟩ := List.length_eq_one_iff.1 (show r.grads.length = 1 by omega)
  refine ⟨g, ids, r, t, h1, demoPick_max, hr, ht, fun x hx => ⟨?_, square_hessian x hx⟩⟩
  have hk : (ids ++ mid ++ r.grads)[4]? = some t := by
    rw [List.getElem?_append_right (by simp [hl, hmid]), ht]
    simp [hl, hmid]
  obtain ⟨v, h3, h4⟩ := (C62_values_partial demoPick demoPick_max 60 _ _ _ hall square_scoped (squarePoint x) (square_dom x hx)).2 4 t hk
  have h5 := square_value x hx
  have hsh : v.shape = [] := by rw [h3.1]; exact h5.1.symm
  exact ⟨v, hsh, by rw [h3.2 [] (by rw [hsh]; exact .nil)]; exact (h5.2 [] .nil).symm, h4⟩

end Verif.Props
