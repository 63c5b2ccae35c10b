import Verif.Lemmas.GradApi

/-!
# Existence and extension of tangents
-/

namespace Verif.Gradient
open Verif Verif.Graph Verif.Spec

variable {Op : Type} {O : GradOps Op} {g : Graph Op} {K : Calculus Op}

open Classical in
/-- Tangents computed for tensors of rank below `r`. -/
noncomputable def tangents (K : Calculus Op) (g : Graph Op) (X : Finset Nat) (v : ∀ n, K.T n) : Nat → ∀ n, K.T n
  | 0, n => if n ∈ X then v n else 0
  | r + 1, n => if n ∈ X then v n else if IsDiff g n ∧ ¬ IsSource g n then K.lin n (tangents K g X v r) else 0

theorem tangents_stable (hg : BpDag g) (hl : LocalLin K g) (X : Finset Nat) (v : ∀ n, K.T n) :
    ∀ (k : Nat) (n : Nat) (node : Node Op) (r r' : Nat), g.nodes[n]? = some node → node.topoRank ≤ k → k < r → k < r' →
      tangents K g X v r n = tangents K g X v r' n := by
  intro k
  induction k using Nat.strong_induction_on with
  | _ k ih =>
    intro n node r r' hn hk hr hr'
    obtain ⟨r, rfl⟩ : ∃ a, r = a + 1 := ⟨r - 1, by omega⟩
    obtain ⟨r', rfl⟩ : ∃ a, r' = a + 1 := ⟨r' - 1, by omega⟩
    simp only [tangents]
    split
    · rfl
    · split
      · refine hl n node _ _ hn fun i hi => ?_
        obtain ⟨m, hm, hlt⟩ := (hg n node hn).2 i hi
        exact ih m.topoRank (by omega) i.id m r r' hm (le_refl _) (by omega) (by omega)
      · rfl

/-- All ranks are below some number. -/
theorem rank_bound (g : Graph Op) : ∃ R, ∀ (n : Nat) (node : Node Op), g.nodes[n]? = some node → node.topoRank < R := by
  refine ⟨(g.nodes.map (fun n => n.topoRank)).sum + 1, fun n node hn => ?_⟩
  have key : ∀ l : List (Node Op), ∀ x ∈ l, x.topoRank ≤ (l.map (fun n => n.topoRank)).sum := by
    intro l
    induction l with
    | nil => intro x hx; cases hx
    | cons a l ih =>
      intro x hx
      rw [List.map_cons, List.sum_cons]
      rcases List.mem_cons.1 hx with rfl | hx
      · omega
      · have := ih x hx; omega
  have := key g.nodes node (List.mem_of_getElem? hn)
  omega

theorem exists_moved (hg : BpDag g) (hl : LocalLin K g) (X : Finset Nat) (v : ∀ n, K.T n) :
    ∃ t, MovedBy K g X t ∧ ∀ x ∈ X, t x = v x := by
  obtain ⟨R, hR⟩ := rank_bound g
  refine ⟨tangents K g X v (R + 1), ⟨?_, ?_⟩, ?_⟩
  · intro n hn hd hs
    obtain ⟨node, hnode, _⟩ := id hd
    rw [tangents, if_neg hn, if_pos ⟨hd, hs⟩]
    refine hl n node _ _ hnode fun i hi => ?_
    obtain ⟨m, hm, hlt⟩ := (hg n node hnode).2 i hi
    have := hR n node hnode
    exact tangents_stable hg hl X v m.topoRank i.id m R (R + 1) hm (le_refl _) (by omega) (by omega)
  · intro n hn h
    rw [tangents, if_neg hn, if_neg]
    rintro ⟨h1, h2⟩
    rcases h with h | h
    · exact h h1
    · exact h2 h
  · intro x hx
    rw [tangents, if_pos hx]

theorem moved_extend {ys : List Nat} {g0 : Graph Op} {sys : List Nat} (hs : Summed O.sumAll g ys g0 sys) (hg : BpDag g)
    (hys : ∀ y ∈ ys, y < g.nodes.length) (hl : LocalLin K g0) {X : Finset Nat} {t : ∀ n, K.T n} (ht : MovedBy K g X t) :
    ∃ t', MovedBy K g0 X t' ∧ (∀ n, n < g.nodes.length → t' n = t n) ∧ ∀ s ∈ sys, t' s = K.lin s t := by
  classical
  have hold : ∀ n, n < g.nodes.length → n ∉ sys := fun n hn hm => by have := ((hs.fresh n).1 hm).1; omega
  have hsame : ∀ n, n < g.nodes.length → (if n ∈ sys then K.lin n t else t n) = t n := fun n hn => if_neg (hold n hn)
  have hnode : ∀ n, n < g.nodes.length → g0.nodes[n]? = g.nodes[n]? := by
    intro n hn
    rw [List.getElem?_eq_getElem hn]
    exact hs.grows.1 _ _ (List.getElem?_eq_getElem hn)
  have hsys : ∀ s ∈ sys, ∃ n y, g0.nodes[s]? = some n ∧ n.bpInputs = [{ id := y }] ∧ n.incoming = [{ id := y }] ∧ y ∈ ys ∧
      n.differentiable = true := by
    have key : ∀ {l l' : List Nat}, List.Forall₂ (fun y s => ∃ n, g0.nodes[s]? = some n ∧ n.op = O.sumAll ∧ n.incoming = [{ id := y }] ∧
        n.differentiable = true ∧ n.backpropInputs = none ∧ n.variableId = none ∧ n.placeholderName = none ∧ n.shape = none) l l' →
        ∀ s ∈ l', ∃ n y, g0.nodes[s]? = some n ∧ n.bpInputs = [{ id := y }] ∧ n.incoming = [{ id := y }] ∧ y ∈ l ∧
          n.differentiable = true := by
      intro l l' h
      induction h with
      | nil => intro s hs; cases hs
      | @cons y s l l' h1 _ ih =>
        intro s' hs
        rcases List.mem_cons.1 hs with rfl | hs
        · obtain ⟨n, a, _, b, c, d, _⟩ := h1
          exact ⟨n, y, a, by simp [Node.bpInputs, b, d], b, by simp, c⟩
        · obtain ⟨n, y', a, b, c, d, e⟩ := ih s' hs
          exact ⟨n, y', a, b, c, by simp [d], e⟩
    exact key hs.apps
  refine ⟨fun n => if n ∈ sys then K.lin n t else t n, ⟨?_, ?_⟩, hsame, fun s h => if_pos h⟩
  · intro n hn hd hns
    by_cases hm : n ∈ sys
    · rw [if_pos hm]
      obtain ⟨node, y, a, b, _, c, _⟩ := hsys n hm
      refine hl n node _ _ a fun i hi => ?_
      rw [b] at hi
      obtain rfl := List.mem_singleton.1 hi
      exact (hsame _ (hys y c)).symm
    · rw [if_neg hm]
      obtain ⟨node, a, b⟩ := id hd
      have hlt : n < g.nodes.length := by
        by_contra hge
        exact hm ((hs.fresh n).2 ⟨by omega, (List.getElem?_eq_some_iff.1 a).1⟩)
      have a' := a
      rw [hnode n hlt] at a'
      rw [ht.op n hn ⟨node, a', b⟩ (fun ⟨n', c, d⟩ => hns ⟨n', by rw [hnode n hlt]; exact c, d⟩)]
      refine hl n node _ _ a fun i hi => ?_
      obtain ⟨m, hm', _⟩ := (hg n node a').2 i hi
      exact (hsame _ (List.getElem?_eq_some_iff.1 hm').1).symm
  · intro n hn h
    have hm : n ∉ sys := by
      intro hm
      obtain ⟨node, y, a, b, c, d, e⟩ := hsys n hm
      rcases h with h | ⟨n', h1, h2⟩
      · exact h ⟨node, a, e⟩
      · rw [a] at h1; cases h1; rw [c] at h2; cases h2
    rw [if_neg hm]
    by_cases hlt : n < g.nodes.length
    · refine ht.fixed n hn ?_
      rcases h with h | ⟨n', h1, h2⟩
      · exact .inl fun ⟨n', a, b⟩ => h ⟨n', by rw [hnode n hlt]; exact a, b⟩
      · exact .inr ⟨n', by rw [← hnode n hlt]; exact h1, h2⟩
    · refine ht.fixed n hn (.inl ?_)
      rintro ⟨n', a, _⟩
      exact hlt (List.getElem?_eq_some_iff.1 a).1

end Verif.Gradient
