import Verif.Lemmas.RealGrad

/-!
# Real-valued graphs as functions of one leaf
-/

namespace Verif.Gradient
open Verif Verif.Graph Verif.Spec Verif.Eval

variable {Op E : Type} {S : Setting Op E ℝ} {O : GradOps Op} {g : Graph Op} {φ : Op → List ℝ → ℝ} {d : Op → List ℝ → List ℝ} {x : Nat}

theorem evals_unique {g : Graph Op} {t : Nat} {v v' : ℝ} (h : Evals S g t v) (h' : Evals S g t v') : v = v' := by
  have := targetMeans_unique h.1 h'.1
  injection this

theorem summed_bp {ys : List Nat} {g0 : Graph Op} {sys : List Nat} (hs : Summed O.sumAll g ys g0 sys) {s : Nat} (h : s ∈ sys) :
    ∃ n, g0.nodes[s]? = some n ∧ n.bpInputs = n.incoming ∧ ∃ y ∈ ys, n.incoming = [{ id := y }] := by
  have key : ∀ {l l' : List Nat}, List.Forall₂ (fun y s => ∃ n, g0.nodes[s]? = some n ∧ n.op = O.sumAll ∧ n.incoming = [{ id := y }] ∧
      n.differentiable = true ∧ n.backpropInputs = none ∧ n.variableId = none ∧ n.placeholderName = none ∧ n.shape = none) l l' →
      s ∈ l' → ∃ n, g0.nodes[s]? = some n ∧ n.bpInputs = n.incoming ∧ ∃ y ∈ l, n.incoming = [{ id := y }] := by
    intro l l' h
    induction h with
    | nil => intro h; cases h
    | @cons y s' _ _ h1 _ ih =>
      intro h
      rcases List.mem_cons.1 h with rfl | h
      · obtain ⟨n, a, _, b, _, c, _⟩ := h1
        exact ⟨n, a, by simp [Node.bpInputs, c], y, by simp, b⟩
      · obtain ⟨n, a, b, y', c, e⟩ := ih h
        exact ⟨n, a, b, y', by simp [c], e⟩
  exact key hs.apps h

theorem scalar_local_sub {g g0 : Graph Op} (hg : Grows g g0) {d : Nat → List ℝ} : LocalLin (scalarCalculus S g0 d) g :=
  fun n node t t' hn h => scalar_local n node t t' (hg.1 _ _ hn) h

theorem forall₂_of_mem {α β : Type} {P Q : α → β → Prop} {l : List α} {l' : List β} (h : List.Forall₂ P l l')
    (hPQ : ∀ a b, a ∈ l → P a b → Q a b) : List.Forall₂ Q l l' := by
  induction h with
  | nil => exact .nil
  | cons h _ ih => exact .cons (hPQ _ _ (by simp) h) (ih fun a b ha => hPQ a b (by simp [ha]))

theorem hasDerivAt_listSum {ys : List Nat} {val : ℝ → Nat → ℝ} {t : Nat → ℝ} {u0 : ℝ} (h : ∀ y ∈ ys, HasDerivAt (fun u => val u y) (t y) u0) :
    HasDerivAt (fun u => (ys.map (fun y => val u y)).sum) ((ys.map t).sum) u0 := by
  induction ys with
  | nil => simpa using hasDerivAt_const u0 (0 : ℝ)
  | cons y ys ih =>
    simp only [List.map_cons, List.sum_cons]
    exact (h y (by simp)).add (ih fun z hz => h z (by simp [hz]))

open Classical in
/-- Values recomputed for tensors of rank below `r` when leaf `x` has the value `u`. -/
noncomputable def varied (g : Graph Op) (φ : Op → List ℝ → ℝ) (x : Nat) (p : Nat → ℝ) (u : ℝ) : Nat → Nat → ℝ
  | 0, n => if n = x then u else p n
  | r + 1, n => if n = x then u else
      match g.nodes[n]? with
      | some node => if node.differentiable = true ∧ node.incoming ≠ [] then φ node.op (node.incoming.map (fun i => varied g φ x p u r i.id)) else p n
      | none => p n

theorem varied_stable (hg : BpDag g) (hbp : ∀ (n : Nat) (node : Node Op), g.nodes[n]? = some node → node.bpInputs = node.incoming)
    (p : Nat → ℝ) (u : ℝ) :
    ∀ (k n : Nat) (node : Node Op) (r r' : Nat), g.nodes[n]? = some node → node.topoRank ≤ k → k < r → k < r' →
      varied g φ x p u r n = varied g φ x p u r' n := by
  intro k
  induction k using Nat.strong_induction_on with
  | _ k ih =>
    intro n node r r' hn hk hr hr'
    obtain ⟨r, rfl⟩ : ∃ a, r = a + 1 := ⟨r - 1, by omega⟩
    obtain ⟨r', rfl⟩ : ∃ a, r' = a + 1 := ⟨r' - 1, by omega⟩
    simp only [varied, hn]
    split
    · rfl
    · split
      · congr 1
        refine List.map_congr_left fun i hi => ?_
        obtain ⟨m, hm, hlt⟩ := (hg n node hn).2 i (by rw [hbp n node hn]; exact hi)
        exact ih m.topoRank (by omega) i.id m r r' hm (le_refl _) (by omega) (by omega)
      · rfl

/-- Every real graph can be varied. -/
theorem exists_varying (hg : BpDag g) (p : Nat → ℝ) (hR : RealGraph S g φ d O.opGrad p) :
    ∃ val, Varying g φ x (p x) val ∧ val (p x) = p := by
  have hbp : ∀ (n : Nat) (node : Node Op), g.nodes[n]? = some node → node.bpInputs = node.incoming :=
    fun n node hn => realGraph_bp (val := fun _ => p) (u0 := 0) hR hn
  obtain ⟨R, hRk⟩ := rank_bound g
  have hp : ∀ r n, varied g φ x p (p x) r n = p n := by
    intro r
    induction r with
    | zero =>
      intro n
      rw [varied]
      split
      · rename_i h; rw [h]
      · rfl
    | succ r ih =>
      intro n
      rw [varied]
      split
      · rename_i h; rw [h]
      · split
        · rename_i node hn
          split
          · rename_i hc
            simp only [ih]
            obtain ⟨h1, _⟩ := hR.ops n node hn hc.1 hc.2
            obtain ⟨l, hl⟩ := hR.plain n node hn hc.2
            have hev : Evals S g n _ := evals_app ⟨node, hl.1, rfl, hl.2.1, hl.2.2.2.1, hl.2.2.2.2⟩
              (forall₂_evals (fun m hm => hR.vals m hm) hl.2.1 (hR.closed n node hn)) h1.gives
            exact evals_unique hev (hR.vals n (List.getElem?_eq_some_iff.1 hn).1)
          · rfl
        · rfl
  refine ⟨fun u => varied g φ x p u (R + 1), ⟨?_, ?_, ?_⟩, funext fun n => hp _ n⟩
  · intro u; simp [varied]
  · intro u n node hne hn hd hi
    conv_lhs => rw [varied, if_neg hne]
    simp only [hn]
    rw [if_pos ⟨hd, hi⟩]
    congr 1
    refine List.map_congr_left fun i hii => ?_
    obtain ⟨m, hm, hlt⟩ := (hg n node hn).2 i (by rw [hbp n node hn]; exact hii)
    have := hRk n node hn
    exact varied_stable hg hbp p u m.topoRank i.id m R (R + 1) hm (le_refl _) (by omega) (by omega)
  · intro u n node hne hn hc
    rw [hp]
    rw [varied, if_neg hne]
    simp only [hn]
    rw [if_neg]
    rintro ⟨h1, h2⟩
    rcases hc with h | h
    · rw [h] at h1; cases h1
    · exact h2 h

end Verif.Gradient
