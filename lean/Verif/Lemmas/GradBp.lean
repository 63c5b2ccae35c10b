import Verif.Lemmas.ProgramMake

/-! `Op::grad` keeps the graph of back-propagation inputs a dag. -/

namespace Verif.Gradient
open Verif Verif.Graph Verif.Spec
variable {Op : Type}

/-- A tensor whose back-propagation inputs do not exceed its inputs in rank keeps the graph a dag. -/
theorem build_bpDag' {g g' : Graph Op} {b : Builder} {op : Op} {id : Nat} {bps : List Incoming} (hb : b.backpropInputs = some bps) (hne : b.inNodes ≠ [])
    (hr : ∀ i ∈ bps, ∃ m, g.nodes[i.id]? = some m ∧ ∃ j ∈ b.inNodes, ∃ m', g.nodes[j.id]? = some m' ∧ m.topoRank ≤ m'.topoRank) (hg : BpDag g)
    (h : g.build b op = .ok (g', id)) : BpDag g' := by
  obtain ⟨_, _, r, hrk, hn⟩ := build_new h
  have hgr := build_grows h
  intro a n ha
  rw [hn, List.getElem?_append] at ha
  split at ha
  · obtain ⟨h1, h2⟩ := hg a n ha
    refine ⟨h1, fun i hi => ?_⟩
    obtain ⟨m, h3, h4⟩ := h2 i hi
    exact ⟨m, hgr.1 _ _ h3, h4⟩
  · cases hk : a - g.nodes.length with
    | succ k => rw [hk] at ha; simp at ha
    | zero =>
      rw [hk] at ha
      simp only [List.getElem?_cons_zero, Option.some.injEq] at ha
      subst ha
      simp only [Node.bpInputs, Builder.toNode, hb, Option.getD_some]
      refine ⟨fun h => absurd h hne, fun i hi => ?_⟩
      obtain ⟨m, h3, j, hj, m', h4, h5⟩ := hr i hi
      obtain ⟨m'', h6, h7⟩ := buildRank_lt hrk j hj
      rw [h4] at h6; cases h6
      exact ⟨m, hgr.1 _ _ h3, by simpa using lt_of_le_of_lt h5 h7⟩

end Verif.Gradient

namespace Verif.Prog
open Verif Verif.Graph Verif.Nd Verif.Hint Verif.Gradient Verif.Spec

/-- The rank of a new tensor exceeds those of its inputs. -/
theorem build_rank {g g' : Graph POp} {b : Builder} {op : POp} {t : Nat} (h : g.build b op = .ok (g', t)) {i : Incoming} (hi : i ∈ b.inNodes) :
    ∃ m n, g'.nodes[i.id]? = some m ∧ g'.nodes[t]? = some n ∧ m.topoRank < n.topoRank := by
  obtain ⟨ht, _, r, hr, hn⟩ := build_new h
  obtain ⟨m, h1, h2⟩ := buildRank_lt hr i hi
  refine ⟨m, b.toNode op r, (build_grows h).1 _ _ h1, ?_, h2⟩
  rw [hn, ht]; simp

theorem gradOf_bpDag {h h' : Graph POp} {y gy : Nat} {n : Node POp} {xs : List Nat} {gxs : List (Option Nat)} (hb : BpDag h) (hn : h.nodes[y]? = some n)
    (h1 : n.incoming = xs.map inp) (h2 : n.bpInputs = n.incoming) (hgy : gy < h.nodes.length) (ho : gradOf h y gy n.op xs = .ok (h', gxs)) : BpDag h' := by
  by_cases hc : ∀ pad stride dil, n.op ≠ .conv2d pad stride dil
  · exact (gradOf_builds (W := False) (.inl hc) ho).bpDag hb
  · simp only [not_forall, not_not] at hc
    obtain ⟨pad, stride, dil, hc⟩ := hc
    rw [hc] at ho
    match xs, h1, ho with
    | [], _, ho => cases ho
    | [_], _, ho => cases ho
    | _ :: _ :: _ :: _, _, ho => cases ho
    | [x, w], h1, ho =>
      have ho : gradCmds [x, w] y gy (convCmds pad stride dil) [some (.t 0), some (.t 2)] h = .ok (h', gxs) := ho
      obtain ⟨ts, ho, _⟩ := gradCmds_ok ho
      simp only [convCmds, runCmds, bind_ok] at ho
      obtain ⟨⟨g1, t0⟩, k1, ⟨g2, t1⟩, k2, ⟨g3, t2⟩, k3, k4⟩ := ho
      obtain ⟨rfl, _⟩ := Prod.mk.inj (Except.ok.inj k4)
      have b1 : BuildsW False h g1 := cmd_builds (.inl rfl) k1
      have b2 : BuildsW False g1 g2 := cmd_builds (.inl rfl) k2
      have hbp := b2.bpDag (b1.bpDag hb)
      have hgr := (b1.trans b2).grows
      obtain ⟨my, mt, r1, r2, r3⟩ := build_rank (i := { id := y, selector := 1 }) (lift_ok.1 k2) (by simp [Ref.id])
      have r1 : g2.nodes[y]? = some my := r1
      rw [hgr.1 _ _ hn] at r1; cases r1
      obtain ⟨mx, q1, q2⟩ := (hbp y n (hgr.1 _ _ hn)).2 (inp x) (by rw [h2, h1]; simp)
      have q1 : g2.nodes[x]? = some mx := q1
      obtain ⟨mg, hmg⟩ : ∃ mg, g2.nodes[gy]? = some mg := ⟨_, List.getElem?_eq_getElem (grows_lt hgr hgy)⟩
      refine build_bpDag' (bps := [inp x, inp gy]) (by simp [Ref.id]) (by simp) ?_ hbp (lift_ok.1 k3)
      intro i hi
      simp only [List.mem_cons, List.not_mem_nil, or_false] at hi
      rcases hi with rfl | rfl
      · refine ⟨mx, q1, inp t1, by simp [Ref.id], mt, r2, by omega⟩
      · exact ⟨mg, hmg, inp gy, by simp [Ref.id], mg, hmg, le_refl _⟩

end Verif.Prog
