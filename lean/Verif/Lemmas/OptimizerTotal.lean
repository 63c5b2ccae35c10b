import Verif.Lemmas.OptimizerGraph
import Verif.Lemmas.GradTotal

/-! `compute_updates` returns. -/

namespace Verif.Opt
open Verif Verif.Spec Verif.Eval Verif.Graph Verif.Gradient
variable {Op A : Type}

theorem build_total {g : Graph Op} {b : Builder} (op : Op) (hb : ∀ i ∈ b.inNodes, i.id < g.nodes.length) (hs : g.nodes.length ≤ numNodesCritical) :
    ∃ g', g.build b op = .ok (g', g.nodes.length) ∧ g'.nodes.length = g.nodes.length + 1 := by
  cases h : g.build b op with
  | ok r =>
    obtain ⟨r1, _, _, h2, _, h3⟩ := build_ok (g' := r.1) (id := r.2) h
    exact ⟨r.1, by rw [← h2], by rw [h3]; simp⟩
  | error p =>
    obtain ⟨r, hr⟩ := buildRank_total hb
    simp only [build, hr, bind, Except.bind, install] at h
    split at h
    · rename_i hc
      have hc : numNodesCritical < g.nodes.length := hc
      omega
    · cases h

theorem variableById_total {g : Graph Op} (op : Op) (v : Nat) (hs : g.nodes.length ≤ numNodesCritical) :
    ∃ r, g.variableById op v = .ok r ∧ r.1.nodes.length ≤ g.nodes.length + 1 := by
  unfold variableById
  split
  · exact ⟨_, rfl, Nat.le_succ _⟩
  · obtain ⟨g', h1, h2⟩ := build_total (g := g) (b := { variableId := some v }) op (by simp) hs
    rw [h1]
    exact ⟨_, rfl, le_of_eq h2⟩

theorem stateTensors_total (varOp : Op) (env : VarEnv A) (ns : Str) : ∀ (names : List Str) (g : Graph Op),
    (∀ name ∈ names, ∃ sv, env.names.get ⟨ns, name⟩ = some sv) → g.nodes.length + names.length ≤ numNodesCritical →
    ∃ r, stateTensors varOp env ns g names = .ok r ∧ r.1.nodes.length ≤ g.nodes.length + names.length
  | [], g, _, _ => ⟨_, rfl, Nat.le_refl _⟩
  | name :: names, g, hn, hs => by
    obtain ⟨sv, h1⟩ := hn name (by simp)
    simp only [List.length_cons] at hs ⊢
    obtain ⟨r, h2, h3⟩ := variableById_total (g := g) varOp sv (by omega)
    obtain ⟨r', h4, h5⟩ := stateTensors_total varOp env ns names r.1 (fun n h => hn n (by simp [h])) (by omega)
    refine ⟨(r'.1, r.2 :: r'.2), ?_, by dsimp only; omega⟩
    simp only [stateTensors, variableByName, h1, h2, h4, bind, Except.bind]

theorem updatesLoop_total {O : Ops Op} (o : Op) (env : VarEnv A) (ns : Str) (stateNames : Nat → List Str) (hlen : ∀ v, (stateNames v).length ≤ 3) :
    ∀ (pgs : List (Nat × Nat)) (g : Graph Op), WF g →
    (∀ pg ∈ pgs, (∃ vid, VarTensor g pg.1 vid ∧ ∀ name ∈ stateNames vid, ∃ sv, env.names.get ⟨ns, name⟩ = some sv) ∧ pg.2 < g.nodes.length) →
    g.nodes.length + 4 * pgs.length ≤ numNodesCritical → ∃ r, updatesLoop O.varOp o env ns stateNames g pgs = .ok r ∧ r.1.nodes.length ≤ g.nodes.length + 4 * pgs.length
  | [], g, _, _, _ => ⟨_, rfl, by simp⟩
  | (p, gr) :: rest, g, hw, h, hs => by
    simp only [List.length_cons] at hs ⊢
    obtain ⟨⟨vid, ⟨n, hn, hv⟩, hnames⟩, hgr⟩ := h (p, gr) (by simp)
    obtain ⟨⟨g1, ss⟩, h1, h2⟩ := stateTensors_total O.varOp env ns (stateNames vid) g hnames (by have := hlen vid; omega)
    obtain ⟨i1, _, svs, _, i4⟩ := stateTensors_ok hw h1
    have hl := hlen vid
    have hsz := i1.size
    dsimp only at h2
    obtain ⟨g2, h3, h4⟩ := build_total (g := g1)
      (b := { inNodes := { id := p, allowMut := true } :: { id := gr } :: ss.map (fun s => ({ id := s, allowMut := true } : Incoming)) }) o (by
        intro i hi
        simp only [List.mem_cons, List.mem_map] at hi
        rcases hi with rfl | rfl | ⟨s, hs, rfl⟩
        · exact Nat.lt_of_lt_of_le (List.getElem?_eq_some_iff.1 hn).1 hsz
        · exact Nat.lt_of_lt_of_le hgr hsz
        · obtain ⟨k, hk, rfl⟩ := List.mem_iff_getElem.1 hs
          obtain ⟨v, _, m, hm, _⟩ := (forall₂_get i4).2 k _ (List.getElem?_eq_getElem hk)
          exact (List.getElem?_eq_some_iff.1 hm).1) (by omega)
    have hgg := i1.trans (Grows.build (O := O) h3)
    obtain ⟨r, h5, h6⟩ := updatesLoop_total (O := O) o env ns stateNames hlen rest g2 (hgg.wf hw) (fun pg hpg => by
        obtain ⟨⟨v, a, b⟩, c⟩ := h pg (by simp [hpg])
        exact ⟨⟨v, hgg.varTensor a, b⟩, Nat.lt_of_lt_of_le c hgg.size⟩) (by omega)
    refine ⟨(r.1, g1.nodes.length :: r.2), ?_, by dsimp only; omega⟩
    simp only [updatesLoop, access_some.2 hn, hv, h1, h3, h5, bind, Except.bind]

theorem sgdLoop_total (o : Op) : ∀ (pgs : List (Nat × Nat)) (g : Graph Op), (∀ pg ∈ pgs, pg.1 < g.nodes.length ∧ pg.2 < g.nodes.length) →
    g.nodes.length + 4 * pgs.length ≤ numNodesCritical → ∃ r, sgdLoop o g pgs = .ok r ∧ r.1.nodes.length ≤ g.nodes.length + 4 * pgs.length
  | [], g, _, _ => ⟨_, rfl, by simp⟩
  | (p, gr) :: rest, g, h, hs => by
    simp only [List.length_cons] at hs ⊢
    obtain ⟨hp, hgr⟩ := h (p, gr) (by simp)
    obtain ⟨g2, h3, h4⟩ := build_total (g := g) (b := { inNodes := [{ id := p, allowMut := true }, { id := gr }] }) o (by
        intro i hi
        simp only [List.mem_cons, List.not_mem_nil, or_false] at hi
        rcases hi with rfl | rfl
        · exact hp
        · exact hgr) (by omega)
    obtain ⟨r, h5, h6⟩ := sgdLoop_total o rest g2 (fun pg hpg => by have := h pg (by simp [hpg]); omega) (by omega)
    refine ⟨(r.1, g.nodes.length :: r.2), ?_, by dsimp only; omega⟩
    simp only [sgdLoop, h3, h5, bind, Except.bind]

end Verif.Opt
