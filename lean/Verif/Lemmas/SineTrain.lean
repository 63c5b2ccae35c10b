import Verif.Lemmas.CallsStep
import Verif.Lemmas.Sine
import Verif.Lemmas.StepsLoop

/-! The training loop of the example `sine`. -/

namespace Verif.Prog
open Verif Verif.Spec Verif.Gradient Verif.Graph Verif.Eval Verif.Nd Verif.Hint Verif.Opt Verif.OptState Verif.Props

/-- The calls that read the variables. -/
def sineK (v : Nat) : Nat := [4, 7, 10].getD v 0

/-- The tensors of the gradients. -/
def sineT (v : Nat) : Nat := [86, 75, 64].getD v 0

/-- The variables of which one has to be updated before the given one. -/
def sineS (v : Nat) : List Nat := [[], [0], [0, 1]].getD v []

/-- The links of the graph with the gradients. -/
def sineSkel : Skel :=
  [([], none, false), ([], none, false), ([], none, false), ([], none, false), ([], none, false),
        ([0, 3], none, false), ([1, 4], none, false), ([6], none, false), ([], some 0, true), ([6, 8], none, false),
        ([9], none, false), ([9], none, false), ([], some 1, true), ([11, 12], none, false), ([13], none, false),
        ([13], none, false), ([], some 2, true), ([15, 16], none, false), ([17], none, false), ([18, 5], none, false),
        ([17, 7], none, false), ([20], none, false), ([21], none, false), ([21], none, false), ([22], none, false),
        ([23], none, false), ([24, 25], none, false), ([22, 23], none, false), ([27], none, false), ([], none, false),
        ([], none, false), ([], none, false), ([31, 26], none, false), ([22], none, false), ([23], none, false),
        ([32], none, false), ([23], none, false), ([35, 36], none, false), ([32, 23], none, false), ([22], none, false),
        ([23], none, false), ([23], none, false), ([39], none, false), ([42, 40], none, false), ([39, 41], none, false),
        ([32], none, false), ([43, 45], none, false), ([44, 32], none, false), ([38, 33], none, false),
        ([47, 34], none, false), ([48, 19], none, false), ([], none, false), ([], none, false), ([], none, false),
        ([52, 19], none, false), ([53, 20], none, false), ([50], none, false), ([54, 56], none, false),
        ([55, 50], none, false), ([17], none, false), ([58, 59], none, false), ([58, 5], none, false),
        ([61], none, false), ([60, 16], none, false), ([15, 60], none, false), ([], none, false), ([], none, false),
        ([], none, false), ([15], none, false), ([66, 14], none, false), ([67, 68], none, false), ([63], none, false),
        ([71, 69], none, false), ([63, 70], none, false), ([73, 12], none, false), ([11, 73], none, false),
        ([], none, false), ([], none, false), ([], none, false), ([11], none, false), ([77, 10], none, false),
        ([78, 79], none, false), ([74], none, false), ([82, 80], none, false), ([74, 81], none, false),
        ([84, 8], none, false), ([6, 84], none, false)]

set_option maxRecDepth 20000 in
theorem sine_check (draw : Arr ℝ) : (match buildCalls (sineCalls draw) with
    | .ok (g, ids) => (ids.getD (sineResult draw) 0, stepCheck 60 [0, 1, 2] sineK sineT (sineResult draw) g ids)
    | _ => (0, false, [])) = (27, true, sineSkel) := by cbv

theorem sine_late : lateS sineSkel 27 sineT sineS [0, 1, 2] = true := by decide +kernel

theorem sine_ops : (27 :: [0, 1, 2].map sineT).all (isOpS sineSkel) = true := by decide +kernel

theorem sine_graph (draw : Arr ℝ) : ∃ g ids, buildCalls (sineCalls draw) = .ok (g, ids) ∧ ids.getD (sineResult draw) 0 = 27 ∧ stepCheck 60 [0, 1, 2] sineK sineT (sineResult draw) g ids = (true, sineSkel) := by
  have h := sine_check draw
  revert h
  generalize buildCalls (sineCalls draw) = o
  intro h
  match o, h with
  | .ok (g, ids), h => exact ⟨g, ids, rfl, (Prod.mk.inj h).1, (Prod.mk.inj h).2⟩

theorem sine_stepable {draw : Arr ℝ} (hs : Scoped (sineCalls draw)) {vs : List Nat} (hvs : vs = [1, 2, 0] ∨ vs = [2, 1, 0]) :
    ∃ g ids, buildCalls (sineCalls draw) = .ok (g, ids) ∧ Stepable (sineCalls draw) (sineResult draw) 60 vs (vs.map sineK) g ids := by
  obtain ⟨g, ids, hbc, h27, hc⟩ := sine_graph draw
  refine ⟨g, ids, hbc, step_ready hs hbc hc (S := sineS) (h27 ▸ sine_late) (h27 ▸ sine_ops) (by decide) ?_ (by simp) (by decide) ?_⟩
  · rcases hvs with rfl | rfl <;> decide
  · intro v hv hne
    have hv : v = 0 ∨ v = 1 ∨ v = 2 := by simpa using hv
    rcases hvs with rfl | rfl <;> rcases hv with rfl | rfl | rfl
    · exact absurd rfl hne
    · exact ⟨0, by decide, [], [2], [], rfl⟩
    · exact ⟨0, by decide, [1], [], [], rfl⟩
    · exact absurd rfl hne
    · exact ⟨0, by decide, [2], [], [], rfl⟩
    · exact ⟨0, by decide, [], [1], [], rfl⟩

theorem sine_reads (draw : Arr ℝ) {vs : List Nat} (hvs : vs = [1, 2, 0] ∨ vs = [2, 1, 0]) : List.Forall₂ (fun k vid => (sineCalls draw)[k]? = some (.var vid)) (vs.map sineK) vs := by
  have h0 : (sineCalls draw)[sineK 0]? = some (.var 0) := by cbv
  have h1 : (sineCalls draw)[sineK 1]? = some (.var 1) := by cbv
  have h2 : (sineCalls draw)[sineK 2]? = some (.var 2) := by cbv
  rcases hvs with rfl | rfl
  · exact .cons h1 (.cons h2 (.cons h0 .nil))
  · exact .cons h2 (.cons h1 (.cons h0 .nil))

theorem sine_len (draw : Arr ℝ) : (sineCalls draw).length = 17 := by cbv

/-- The sequences of gradients that are right at the weights `W`, for the batch that is drawn. -/
structure SineGrads (width batch : Nat) (draw : Arr ℝ) (W : SineWeights) (G : Nat → Arr ℝ) : Prop where
  shape : ∀ v < 3, (G v).shape = (W.get v).shape
  deriv : ∀ v < 3, ∀ i, InB i (W.get v).shape → HasDerivAt (fun t => (W.change (fun a => nudge a i t) v).mse width (inputs draw) batch) ((G v).get i) 0

theorem total_scalar {v : Arr ℝ} (h : v.shape = []) : total v = v.get [] := by
  rw [total, h]
  exact Finset.sum_eq_single [] (fun j hj hne => by cases mem_idxs.1 hj; exact absurd rfl hne) fun h => absurd (mem_idxs.2 .nil) h

theorem change_shapes {W : SineWeights} {width : Nat} (hW : W.Shapes width) (i : List Nat) (t : ℝ) (v : Nat) : (W.change (fun a => nudge a i t) v).Shapes width := by
  match v with
  | 0 => exact ⟨hW.w1, hW.w2, hW.w3⟩
  | 1 => exact ⟨hW.w1, hW.w2, hW.w3⟩
  | v + 2 => exact ⟨hW.w1, hW.w2, hW.w3⟩

theorem change_env {env : List (Arr ℝ)} {W : SineWeights} (he : ∀ v < 3, env[v]? = some (W.get v)) {v : Nat} (hv : v < 3) (f : Arr ℝ → Arr ℝ) :
    ∀ w < 3, (env.set v (f (W.get v)))[w]? = some ((W.change f v).get w) := by
  intro w hw
  have h0 := he 0 (by decide)
  have h1 := he 1 (by decide)
  have h2 := he 2 (by decide)
  have hl : 2 < env.length := (List.getElem?_eq_some_iff.1 h2).1
  obtain rfl | rfl | rfl : v = 0 ∨ v = 1 ∨ v = 2 := by omega
  all_goals
    obtain rfl | rfl | rfl : w = 0 ∨ w = 1 ∨ w = 2 := by omega
    all_goals first
      | (rw [List.getElem?_set_self (by omega)]; rfl)
      | (rw [List.getElem?_set_ne (by decide)]; assumption)

/-- One step of the example. -/
theorem sine_step {draw : Arr ℝ} {width batch : Nat} (hd : draw.shape = [batch, 1]) (hb : 0 < batch) {W0 : SineWeights} (hW0 : W0.Shapes width) {u : UOp} {ns uns : Str} {order : List (FullName × Nat)}
    {vs : List Nat} (hvs : vs = [1, 2, 0] ∨ vs = [2, 1, 0]) (hord : idsOf ns order = vs) {e1 : VarEnv (Arr ℝ)} {sv : Nat → List Nat} (hS : StepSetup u uns e1 vs W0.get sv) :
    ∃ N, ∀ fuel, N ≤ fuel → ∀ pick, PicksMax pick → ∀ e gs, StepState u e1 vs sv e gs →
      ∃ e' L G, trainStep (sineCalls draw) (sineResult draw) ns order u uns pick fuel e [] = some (.ok (L, e')) ∧ StepState u e1 vs sv e' (fun v => gs v ++ [G v]) ∧
        ∃ W : SineWeights, W.Shapes width ∧ (∀ v < 3, e.getById v = some (W.get v)) ∧ L.shape = [] ∧ L.get [] = W.mse width (inputs draw) batch ∧ SineGrads width batch draw W G := by
  obtain ⟨_, hG0, hl0⟩ := sine_values (fs := []) (env := [W0.w1, W0.w2, W0.w3]) hd hb hW0 (fun v hv => by
    obtain rfl | rfl | rfl : v = 0 ∨ v = 1 ∨ v = 2 := by omega
    all_goals rfl) vs
  obtain ⟨g, ids, hbc, hc⟩ := sine_stepable (draw := draw) hG0.inScope hvs
  have hlt : sineResult draw < (sineCalls draw).length := hG0.len ▸ hl0.lt
  obtain ⟨N, hN⟩ := calls_step hG0.inScope hbc (sine_reads draw hvs) hlt (by rw [sine_len]; rcases hvs with rfl | rfl <;> decide) hc hord hS
  refine ⟨N, fun fuel hf pick hpick e gs he => ?_⟩
  have hmem : ∀ v < 3, v ∈ vs := fun v hv => by rcases hvs with rfl | rfl <;> (simp; omega)
  have harr : ∀ v < 3, ∃ a, e.arrays[v]? = some a ∧ a.shape = (W0.get v).shape := fun v hv => by
    obtain ⟨a, ss, a1, a2, _, a3⟩ := (hS.ready v (hmem v hv)).after _ _ (he.trained v (hmem v hv))
    exact ⟨a, by cases a1; assumption, a2⟩
  obtain ⟨w1, e1', s1⟩ := harr 0 (by decide)
  obtain ⟨w2, e2', s2⟩ := harr 1 (by decide)
  obtain ⟨w3, e3', s3⟩ := harr 2 (by decide)
  let W : SineWeights := ⟨w1, w2, w3⟩
  have hW : W.Shapes width := ⟨s1.trans hW0.w1, s2.trans hW0.w2, s3.trans hW0.w3⟩
  have hWe : ∀ v < 3, e.arrays[v]? = some (W.get v) := fun v hv => by
    obtain rfl | rfl | rfl : v = 0 ∨ v = 1 ∨ v = 2 := by omega
    all_goals assumption
  obtain ⟨vals, hG, hl⟩ := sine_values (fs := []) hd hb hW hWe vs
  obtain ⟨e', G, t1, t2, t3⟩ := hN fuel hf pick hpick e gs he [] _ hG.den hG.ok (fun v hv a ha => by
    have hv3 : v < 3 := by rcases hvs with rfl | rfl <;> (simp at hv; omega)
    obtain ⟨a', h1, h2⟩ := harr v hv3
    rw [ha] at h1
    cases h1
    exact h2)
  refine ⟨e', _, G, t1, t2, W, hW, hWe, hl.val_eq.1, hl.val_eq.2, ⟨fun v hv => ?_, fun v hv i hi => ?_⟩⟩
  · obtain ⟨a, h1, h2, _⟩ := t3 v (hmem v hv)
    rw [hWe v hv] at h1
    cases h1
    exact h2
  · obtain ⟨a, h1, _, h3⟩ := t3 v (hmem v hv)
    rw [hWe v hv] at h1
    cases h1
    obtain ⟨Vals, hV, hder⟩ := h3 i hi
    have key : ∀ t, total (Vals t (sineResult draw)) = (W.change (fun a => nudge a i t) v).mse width (inputs draw) batch := by
      intro t
      obtain ⟨vals', hG', hl'⟩ := sine_values (fs := []) hd hb (change_shapes hW i t v) (change_env hWe hv (fun a => nudge a i t)) []
      rw [denotes_unique hG'.inScope (hV t) hG'.den _ hlt, total_scalar hl'.val_eq.1, hl'.val_eq.2]
    simpa only [key] using hder

/-- Enough iterations for all batches. -/
theorem sine_steps {width batch : Nat} (hb : 0 < batch) {W0 : SineWeights} (hW0 : W0.Shapes width) {u : UOp} {ns uns : Str} {order : List (FullName × Nat)}
    {vs : List Nat} (hvs : vs = [1, 2, 0] ∨ vs = [2, 1, 0]) (hord : idsOf ns order = vs) {e1 : VarEnv (Arr ℝ)} {sv : Nat → List Nat} (hS : StepSetup u uns e1 vs W0.get sv) : ∀ (draws : List (Arr ℝ)), (∀ d ∈ draws, d.shape = [batch, 1]) →
    ∃ N, ∀ fuel, N ≤ fuel → ∀ pick, PicksMax pick → ∀ draw ∈ draws, ∀ e gs, StepState u e1 vs sv e gs →
      ∃ e' L G, trainStep (sineCalls draw) (sineResult draw) ns order u uns pick fuel e [] = some (.ok (L, e')) ∧ StepState u e1 vs sv e' (fun v => gs v ++ [G v]) ∧
        ∃ W : SineWeights, W.Shapes width ∧ (∀ v < 3, e.getById v = some (W.get v)) ∧ L.shape = [] ∧ L.get [] = W.mse width (inputs draw) batch ∧ SineGrads width batch draw W G
  | [], _ => ⟨0, fun _ _ _ _ _ h => by cases h⟩
  | d :: ds, h => by
    obtain ⟨N1, h1⟩ := sine_step (h d (by simp)) hb hW0 hvs hord hS
    obtain ⟨N2, h2⟩ := sine_steps hb hW0 hvs hord hS ds (fun x hx => h x (by simp [hx]))
    refine ⟨max N1 N2, fun fuel hf pick hpick draw hm => ?_⟩
    rcases List.mem_cons.1 hm with rfl | hm
    · exact h1 fuel (le_trans (le_max_left _ _) hf) pick hpick
    · exact h2 fuel (le_trans (le_max_right _ _) hf) pick hpick draw hm

end Verif.Prog
