import Verif.Lemmas.CallsStep
import Verif.Lemmas.Cnn
import Verif.Lemmas.StepsLoop

/-! The training loop of the example `cnn_mnist`. -/

namespace Verif.Prog
open Verif Verif.Spec Verif.Gradient Verif.Graph Verif.Eval Verif.Nd Verif.Hint Verif.Opt Verif.OptState Verif.Props

/-- The calls after the first; the arguments that depend on the sizes are variables. -/
noncomputable def cnnTail (d d' axes : Arr ℝ) (ρ : ℝ) (r : CnnRun) : List Stmt :=
  [.const d, .reshape 0 1, .var 0, .var 3, .conv2d 1 1 1 2 3, .add 5 4, .un .relu 6, .maxPool r.bot 2 0 2 7, .dropout true ρ r.mask1 8,
    .var 1, .var 4, .conv2d 1 1 1 9 10, .add 12 11, .un .relu 13, .maxPool r.bot 2 0 2 14, .dropout true ρ r.mask2 15,
    .const d', .reshape 16 17, .var 2, .matmul 18 19, .var 5, .add 20 21, .dropout true ρ r.mask3 22,
    .placeholder "y" [-1, 1], .sparseCE r.bot r.lay 23 24, .const axes, .reduceMean 25 26 false]

theorem cnn_calls (z : CnnSize) (r : CnnRun) : cnnCalls z r = .placeholder "x" [-1, (4 * z.side * (4 * z.side) : Nat)] ::
    cnnTail (vec [-1, 1, (4 * z.side : Nat), (4 * z.side : Nat)]) (vec [-1, (z.ch2 * (z.side * z.side) : Nat)]) (vec [0]) (1 / 4) r := by
  simp only [cnnCalls, cnnLoss, cnnLogits, convPool, emit, bind, StateT.bind, pure, StateT.pure, List.length_append, List.length_singleton, List.length_nil, cnnTail, List.append_assoc, List.cons_append, List.nil_append]
  norm_num

theorem cnn_result (z : CnnSize) (r : CnnRun) : cnnResult z r = (27, [3, 10, 19, 4, 11, 21]) := by
  simp only [cnnResult, cnnLoss, cnnLogits, convPool, emit, bind, StateT.bind, pure, StateT.pure, List.length_append, List.length_singleton, List.length_nil]

/-- The graph of the first placeholder. -/
def phGraph (s : List Int) : Graph POp := ⟨[⟨.placeholder, [], 0, none, some "x", true, none, some s, none⟩], fun _ => none⟩

theorem build_ph (d : Nat) (hd : 0 < d) (l : List Stmt) : buildCalls (.placeholder "x" [-1, (d : Int)] :: l) = buildFrom l (phGraph [-1, (d : Int)]) [0] := by
  have hk : knownShapeNew [-1, (d : Int)] = .ok [-1, (d : Int)] := by
    have h1 : ¬ ((d : Int) ≤ -1) := by omega
    simp [knownShapeNew, h1]
    omega
  rw [buildCalls, buildFrom]
  have : construct hintOps Graph.empty ((Stmt.placeholder "x" [-1, (d : Int)]).rename fun k => ([] : List Nat).getD k 0).ctor = .ok (phGraph [-1, (d : Int)], 0) := by
    simp only [Stmt.rename, Stmt.ctor, construct, Graph.placeholder, hk]
    rfl
  rw [this]
  rfl

/-- The calls that read the variables. -/
def cnnK (v : Nat) : Nat := [3, 10, 19, 4, 11, 21].getD v 0

/-- The tensors of the gradients. -/
def cnnT (v : Nat) : Nat := [131, 109, 85, 128, 106, 83].getD v 0

/-- The variables of which one has to be updated before the given one. -/
def cnnS (v : Nat) : List Nat := [[], [0, 3], [0, 1, 3, 4], [], [], []].getD v []

/-- The links of the graph with the gradients. -/
def cnnSkel : Skel :=
  [([], none, true), ([], none, false), ([], none, false), ([0, 2], none, false), ([], some 0, true),
        ([], some 3, true), ([3, 4], none, false), ([6], none, false), ([5], none, false), ([7, 8], none, false),
        ([6, 5], none, false), ([10], none, false), ([11], none, false), ([12], none, false), ([], some 1, true),
        ([], some 4, true), ([13, 14], none, false), ([16], none, false), ([15], none, false), ([17, 18], none, false),
        ([16, 15], none, false), ([20], none, false), ([21], none, false), ([22], none, false), ([], none, false),
        ([], none, false), ([23, 25], none, false), ([], some 2, true), ([26, 27], none, false), ([], some 5, true),
        ([28], none, false), ([29], none, false), ([30, 31], none, false), ([28, 29], none, false), ([33], none, false),
        ([], none, true), ([34, 35], none, false), ([], none, false), ([], none, false), ([36, 38], none, false),
        ([39], none, false), ([], none, false), ([], none, false), ([], none, false), ([39], none, false),
        ([43, 44], none, false), ([36], none, false), ([45, 46, 38], none, false), ([36], none, false),
        ([38, 48], none, false), ([], none, false), ([], none, false), ([49, 51], none, false), ([47], none, false),
        ([52], none, false), ([53, 54], none, false), ([47, 52], none, false), ([36], none, false),
        ([57, 35, 56], none, false), ([57], none, false), ([57], none, false), ([57], none, false),
        ([59, 61], none, false), ([60, 57], none, false), ([], none, false), ([], none, false), ([63, 65], none, false),
        ([59, 55], none, false), ([60, 56], none, false), ([66], none, false), ([57], none, false),
        ([69, 70], none, false), ([66, 57], none, false), ([67, 71], none, false), ([68, 72], none, false),
        ([34], none, false), ([58], none, false), ([75], none, false), ([76, 77], none, false), ([58, 75], none, false),
        ([28], none, false), ([29], none, false), ([79, 80], none, false), ([79, 81], none, false),
        ([82, 27], none, false), ([26, 82], none, false), ([23], none, false), ([84, 86], none, false),
        ([23], none, false), ([87], none, false), ([88], none, false), ([89, 90], none, false), ([87, 88], none, false),
        ([22], none, false), ([92, 93], none, false), ([], none, false), ([], none, false), ([], none, false),
        ([20, 97], none, false), ([98], none, false), ([94], none, false), ([99, 100], none, false),
        ([98, 94], none, false), ([16], none, false), ([15], none, false), ([102, 103], none, false),
        ([102, 104], none, false), ([105, 14], none, false), ([16], none, false), ([108, 105, 14], none, false),
        ([13], none, false), ([107], none, false), ([110], none, false), ([111, 112], none, false),
        ([107, 110], none, false), ([12], none, false), ([114, 115], none, false), ([], none, false), ([], none, false),
        ([], none, false), ([10, 119], none, false), ([120], none, false), ([116], none, false),
        ([121, 122], none, false), ([120, 116], none, false), ([6], none, false), ([5], none, false),
        ([124, 125], none, false), ([124, 126], none, false), ([127, 4], none, false), ([6], none, false),
        ([130, 127, 4], none, false)]

set_option maxRecDepth 20000 in
theorem cnn_check (s : List Int) (d d' axes : Arr ℝ) (ρ : ℝ) (r : CnnRun) : (match buildFrom (cnnTail d d' axes ρ r) (phGraph s) [0] with
    | .ok (g, ids) => (ids.getD 27 0, stepCheck 100 [0, 1, 2, 3, 4, 5] cnnK cnnT 27 g ids)
    | _ => (0, false, [])) = (39, true, cnnSkel) := by cbv

theorem cnn_late : lateS cnnSkel 39 cnnT cnnS [0, 1, 2, 3, 4, 5] = true := by decide +kernel

theorem cnn_ops : (39 :: [0, 1, 2, 3, 4, 5].map cnnT).all (isOpS cnnSkel) = true := by decide +kernel

theorem cnn_graph (z : CnnSize) (hz : 0 < z.side) (r : CnnRun) : ∃ g ids, buildCalls (cnnCalls z r) = .ok (g, ids) ∧ ids.getD 27 0 = 39 ∧ stepCheck 100 [0, 1, 2, 3, 4, 5] cnnK cnnT 27 g ids = (true, cnnSkel) := by
  rw [cnn_calls, build_ph _ (by positivity)]
  have h := cnn_check [-1, (4 * z.side * (4 * z.side) : Nat)] (vec [-1, 1, (4 * z.side : Nat), (4 * z.side : Nat)]) (vec [-1, (z.ch2 * (z.side * z.side) : Nat)]) (vec [0]) (1 / 4) r
  revert h
  generalize buildFrom _ _ _ = o
  intro h
  match o, h with
  | .ok (g, ids), h => exact ⟨g, ids, rfl, (Prod.mk.inj h).1, (Prod.mk.inj h).2⟩

theorem cnn_stepable {z : CnnSize} (hz : 0 < z.side) {r : CnnRun} (hs : Scoped (cnnCalls z r)) {vs : List Nat} (hvs : CnnOrder vs) :
    ∃ g ids, buildCalls (cnnCalls z r) = .ok (g, ids) ∧ Stepable (cnnCalls z r) 27 100 vs (vs.map cnnK) g ids := by
  obtain ⟨g, ids, hbc, h39, hc⟩ := cnn_graph z hz r
  refine ⟨g, ids, hbc, step_ready hs hbc hc (S := cnnS) (h39 ▸ cnn_late) (h39 ▸ cnn_ops) (by decide +kernel) hvs.1 (by simp) (by decide) ?_⟩
  intro v hv hne
  have hv : v = 0 ∨ v = 1 ∨ v = 2 ∨ v = 3 ∨ v = 4 ∨ v = 5 := by simpa using hv
  rcases hv with rfl | rfl | rfl | rfl | rfl | rfl
  · exact absurd rfl hne
  · rcases hvs.2.1 with h | h
    · exact ⟨0, by decide, h⟩
    · exact ⟨3, by decide, h⟩
  · rcases hvs.2.2 with h | h | h | h
    · exact ⟨0, by decide, h⟩
    · exact ⟨1, by decide, h⟩
    · exact ⟨3, by decide, h⟩
    · exact ⟨4, by decide, h⟩
  all_goals exact absurd rfl hne

theorem cnn_reads (z : CnnSize) (r : CnnRun) {vs : List Nat} (hvs : vs.Perm [0, 1, 2, 3, 4, 5]) : List.Forall₂ (fun k vid => (cnnCalls z r)[k]? = some (.var vid)) (vs.map cnnK) vs := by
  rw [List.forall₂_map_left_iff, List.forall₂_same]
  intro v hv
  have hv : v = 0 ∨ v = 1 ∨ v = 2 ∨ v = 3 ∨ v = 4 ∨ v = 5 := by simpa using hvs.mem_iff.1 hv
  rw [cnn_calls]
  rcases hv with rfl | rfl | rfl | rfl | rfl | rfl <;> rfl

theorem cnnWeights_env {W : CnnWeights} {env : List (Arr ℝ)} (h : ∀ v < 6, env[v]? = some (W.get v)) : env = W.env (env.drop 6) := by
  match env, h with
  | a0 :: a1 :: a2 :: a3 :: a4 :: a5 :: rest, h =>
    have h0 := h 0 (by decide)
    have h1 := h 1 (by decide)
    have h2 := h 2 (by decide)
    have h3 := h 3 (by decide)
    have h4 := h 4 (by decide)
    have h5 := h 5 (by decide)
    simp only [List.getElem?_cons_zero, List.getElem?_cons_succ, CnnWeights.get, Option.some.injEq] at h0 h1 h2 h3 h4 h5
    simp [CnnWeights.env, h0, h1, h2, h3, h4, h5]
  | [], h => exact absurd (h 5 (by decide)) (by simp)
  | [_], h => exact absurd (h 5 (by decide)) (by simp)
  | [_, _], h => exact absurd (h 5 (by decide)) (by simp)
  | [_, _, _], h => exact absurd (h 5 (by decide)) (by simp)
  | [_, _, _, _], h => exact absurd (h 5 (by decide)) (by simp)
  | [_, _, _, _, _], h => exact absurd (h 5 (by decide)) (by simp)

theorem cnnWeights_eq {W W' : CnnWeights} {env : List (Arr ℝ)} (h : ∀ v < 6, env[v]? = some (W.get v)) (h' : ∀ v < 6, env[v]? = some (W'.get v)) : W = W' := by
  have e := fun v hv => Option.some.inj ((h v hv).symm.trans (h' v hv))
  have h0 := e 0 (by decide)
  have h1 := e 1 (by decide)
  have h2 := e 2 (by decide)
  have h3 := e 3 (by decide)
  have h4 := e 4 (by decide)
  have h5 := e 5 (by decide)
  cases W
  cases W'
  simp only [CnnWeights.get] at h0 h1 h2 h3 h4 h5
  rw [h0, h1, h2, h3, h4, h5]

theorem cnnChange_shapes {W : CnnWeights} {side ch1 ch2 classes : Nat} (hW : W.Shapes side ch1 ch2 classes) (i : List Nat) (t : ℝ) (v : Nat) : (W.change (fun a => nudge a i t) v).Shapes side ch1 ch2 classes := by
  match v with
  | 0 | 1 | 2 | 3 | 4 | 5 => exact ⟨hW.w1, hW.w2, hW.w3, hW.b1, hW.b2, hW.b3⟩
  | v + 6 => exact hW

theorem cnnChange_env (W : CnnWeights) (rest : List (Arr ℝ)) (f : Arr ℝ → Arr ℝ) {v : Nat} (hv : v < 6) : (W.env rest).set v (f (W.get v)) = (W.change f v).env rest := by
  obtain rfl | rfl | rfl | rfl | rfl | rfl : v = 0 ∨ v = 1 ∨ v = 2 ∨ v = 3 ∨ v = 4 ∨ v = 5 := by omega
  all_goals rfl

theorem total_one {v : Arr ℝ} (h : v.shape = [1]) : total v = v.get [0] := by
  rw [total, h]
  exact Finset.sum_eq_single [0] (fun j hj hne => by
    match j, mem_idxs.1 hj with
    | [k], .cons hk .nil =>
      have : k = 0 := by omega
      subst this
      exact absurd rfl hne) fun h => absurd (mem_idxs.2 (.cons Nat.one_pos .nil)) h

/-- The gradients that are right at the weights `W`. -/
structure CnnGrads (z : CnnSize) (B : CnnBatch) (W : CnnWeights) (G : Nat → Arr ℝ) : Prop where
  shape : ∀ v < 6, (G v).shape = (W.get v).shape
  deriv : ∀ v < 6, ∀ i, InB i (W.get v).shape → HasDerivAt (fun t => B.loss z (W.change (fun a => nudge a i t) v)) ((G v).get i) 0

/-- One step of the example. -/
theorem cnn_step {z : CnnSize} {B : CnnBatch} (hB : B.Valid z) {W0 : CnnWeights} (hW0 : W0.Shapes z.side z.ch1 z.ch2 z.classes) {u : UOp} {ns uns : Str} {order : List (FullName × Nat)} {vs : List Nat}
    (hvs : CnnOrder vs) (hord : idsOf ns order = vs) {e1 : VarEnv (Arr ℝ)} {sv : Nat → List Nat} (hS : StepSetup u uns e1 vs W0.get sv) :
    ∃ N, ∀ fuel, N ≤ fuel → ∀ pick, PicksMax pick → ∀ e gs, StepState u e1 vs sv e gs → (∀ W : CnnWeights, (∀ v < 6, e.getById v = some (W.get v)) → B.ClearAt z W) →
      ∃ e' L G, trainStep (cnnCalls z B.r) 27 ns order u uns pick fuel e (named B.fed) = some (.ok (L, e')) ∧ StepState u e1 vs sv e' (fun v => gs v ++ [G v]) ∧
        ∃ W : CnnWeights, W.Shapes z.side z.ch1 z.ch2 z.classes ∧ (∀ v < 6, e.getById v = some (W.get v)) ∧ L.shape = [1] ∧ L.get [0] = B.loss z W ∧ CnnGrads z B W G := by
  obtain ⟨hbot, hP⟩ := hB
  have hf : FedAs B.fed "x" B.x := ⟨[], [("y", B.y)], rfl, by simp⟩
  have hf' : FedAs B.fed "y" B.y := ⟨[("x", B.x)], [], rfl, by simp⟩
  obtain ⟨_, hG0, hl0, _⟩ := cnn_values (others := []) hbot hP hW0 hf hf' [] (.inl rfl)
  obtain ⟨g, ids, hbc, hc⟩ := cnn_stepable (r := B.r) hP.side_pos hG0.inScope hvs
  have hlt : 27 < (cnnCalls z B.r).length := by rw [cnn_len]; decide
  obtain ⟨N, hN⟩ := calls_step hG0.inScope hbc (cnn_reads z B.r hvs.1) hlt (by rw [cnn_len, List.length_map, hvs.1.length_eq]; decide) hc hord hS
  refine ⟨N, fun fuel hf1 pick hpick e gs he hclear => ?_⟩
  have hmem : ∀ v < 6, v ∈ vs := fun v hv => hvs.1.mem_iff.2 (by simp; omega)
  have hlt6 : ∀ v ∈ vs, v < 6 := fun v hv => by
    have := hvs.1.mem_iff.1 hv
    simp at this
    omega
  have harr : ∀ v < 6, ∃ a, e.arrays[v]? = some a ∧ a.shape = (W0.get v).shape := fun v hv => by
    obtain ⟨a, ss, a1, a2, _, a3⟩ := (hS.ready v (hmem v hv)).after _ _ (he.trained v (hmem v hv))
    exact ⟨a, by cases a1; assumption, a2⟩
  obtain ⟨w1, p1, s1⟩ := harr 0 (by decide)
  obtain ⟨w2, p2, s2⟩ := harr 1 (by decide)
  obtain ⟨w3, p3, s3⟩ := harr 2 (by decide)
  obtain ⟨b1, p4, s4⟩ := harr 3 (by decide)
  obtain ⟨b2, p5, s5⟩ := harr 4 (by decide)
  obtain ⟨b3, p6, s6⟩ := harr 5 (by decide)
  let W : CnnWeights := ⟨w1, w2, w3, b1, b2, b3⟩
  have hW : W.Shapes z.side z.ch1 z.ch2 z.classes := ⟨s1.trans hW0.w1, s2.trans hW0.w2, s3.trans hW0.w3, s4.trans hW0.b1, s5.trans hW0.b2, s6.trans hW0.b3⟩
  have hWe : ∀ v < 6, e.arrays[v]? = some (W.get v) := fun v hv => by
    obtain rfl | rfl | rfl | rfl | rfl | rfl : v = 0 ∨ v = 1 ∨ v = 2 ∨ v = 3 ∨ v = 4 ∨ v = 5 := by omega
    all_goals assumption
  have henv := cnnWeights_env hWe
  obtain ⟨vals, hG, hl, _⟩ := cnn_values (others := e.arrays.drop 6) hbot hP hW hf hf' vs (.inr (hclear W hWe))
  rw [← henv] at hG
  obtain ⟨e', G, t1, t2, t3⟩ := hN fuel hf1 pick hpick e gs he B.fed _ hG.den hG.ok (fun v hv a ha => by
    obtain ⟨a', h1, h2⟩ := harr v (hlt6 v hv)
    rw [ha] at h1
    cases h1
    exact h2)
  have hres : (cnnResult z B.r).1 = 27 := by rw [cnn_result]
  rw [hres] at hl
  refine ⟨e', _, G, t1, t2, W, hW, hWe, hl.val_eq.1, hl.val_eq.2, ⟨fun v hv => ?_, fun v hv i hi => ?_⟩⟩
  · obtain ⟨a, h1, h2, _⟩ := t3 v (hmem v hv)
    rw [hWe v hv] at h1
    cases h1
    exact h2
  · obtain ⟨a, h1, _, h3⟩ := t3 v (hmem v hv)
    rw [hWe v hv] at h1
    cases h1
    obtain ⟨Vals, hV, hder⟩ := h3 i hi
    have key : ∀ t, total (Vals t 27) = B.loss z (W.change (fun a => nudge a i t) v) := by
      intro t
      obtain ⟨vals', hG', hl', _⟩ := cnn_values (others := e.arrays.drop 6) hbot hP (cnnChange_shapes hW i t v) hf hf' [] (.inl rfl)
      rw [hres] at hl'
      have hVt := hV t
      rw [henv, cnnChange_env W _ (fun a => nudge a i t) hv] at hVt
      rw [denotes_unique hG'.inScope hVt hG'.den _ hlt, total_one hl'.val_eq.1, hl'.val_eq.2]
      rfl
    simpa only [key] using hder

/-- Enough iterations for all mini-batches. -/
theorem cnn_steps {z : CnnSize} {W0 : CnnWeights} (hW0 : W0.Shapes z.side z.ch1 z.ch2 z.classes) {u : UOp} {ns uns : Str} {order : List (FullName × Nat)} {vs : List Nat}
    (hvs : CnnOrder vs) (hord : idsOf ns order = vs) {e1 : VarEnv (Arr ℝ)} {sv : Nat → List Nat} (hS : StepSetup u uns e1 vs W0.get sv) : ∀ (Bs : List CnnBatch), (∀ B ∈ Bs, B.Valid z) →
    ∃ N, ∀ fuel, N ≤ fuel → ∀ pick, PicksMax pick → ∀ B ∈ Bs, ∀ e gs, StepState u e1 vs sv e gs → (∀ W : CnnWeights, (∀ v < 6, e.getById v = some (W.get v)) → B.ClearAt z W) →
      ∃ e' L G, trainStep (cnnCalls z B.r) 27 ns order u uns pick fuel e (named B.fed) = some (.ok (L, e')) ∧ StepState u e1 vs sv e' (fun v => gs v ++ [G v]) ∧
        ∃ W : CnnWeights, W.Shapes z.side z.ch1 z.ch2 z.classes ∧ (∀ v < 6, e.getById v = some (W.get v)) ∧ L.shape = [1] ∧ L.get [0] = B.loss z W ∧ CnnGrads z B W G
  | [], _ => ⟨0, fun _ _ _ _ _ h => by cases h⟩
  | B :: Bs, h => by
    obtain ⟨N1, h1⟩ := cnn_step (h B (by simp)) hW0 hvs hord hS
    obtain ⟨N2, h2⟩ := cnn_steps hW0 hvs hord hS Bs (fun x hx => h x (by simp [hx]))
    refine ⟨max N1 N2, fun fuel hf pick hpick B' hm => ?_⟩
    rcases List.mem_cons.1 hm with rfl | hm
    · exact h1 fuel (le_trans (le_max_left _ _) hf) pick hpick
    · exact h2 fuel (le_trans (le_max_right _ _) hf) pick hpick B' hm

end Verif.Prog
