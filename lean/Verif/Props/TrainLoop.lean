import Verif.Lemmas.TrainLoop

/-! # Property theorems about training loops: C60 -/

namespace Verif.Props
open Verif Verif.Spec Verif.Gradient Verif.Graph Verif.Eval Verif.Nd Verif.Prog Verif.Opt Verif.OptState

/-! ## C60 Training the classifier -/

/-- **C60** The training loop of the example `mlp_mnist`, for all data and every optimizer of the crate: with variables `w0`, `b0` of fitting shapes and an optimizer
created for them (and for any other variables), the loop runs through any list of mini-batches without a panic, given enough loop iterations inside `grad` and
the evaluator, and whatever tensor `grad` processes first among those of equal rank. Let `W k` and `b k` be the variables after `k` mini-batches. The gradients used in step `k`
are the partial derivatives of the mean cross entropy of the `k`-th mini-batch at `W k` and `b k`, and every element of `W k` and `b k` results from the update formula of
the optimizer with these gradients. -/
theorem C60_training (bot : ℝ) (lay : Arr ℝ → List Int) (d c : Nat) (column : Bool) (hd : 0 < d) (u : UOp) (ns : Str) (hist : List (VarAction (Arr ℝ)))
    (e0 e1 : VarEnv (Arr ℝ)) (H : VarHist hist e0) (vids : List Nat) (hnew : u.create ns e0 vids = .ok e1) (h0 : 0 ∈ vids) (h1 : 1 ∈ vids) (w0 b0 : Arr ℝ)
    (hw : e0.getById 0 = some w0) (hb : e0.getById 1 = some b0) (hws : w0.shape = [d, c]) (hbs : b0.shape = [1, c]) :
    ∃ N, ∀ fuel, N ≤ fuel → ∀ pick, PicksMax pick → ∀ batches : List Batch,
      (∀ B ∈ batches, Dataset lay d column B.n c B.x B.y B.l ∧ FirstFeed 2 "x" B.feeds B.x ∧ FirstFeed 3 "y" B.feeds B.y) →
      ∃ W b Gw Gb : Nat → Arr ℝ, ∀ k, k ≤ batches.length →
        (∃ e, training (classifier bot lay d column) 12 [0, 1] u ns pick fuel e1 ((batches.take k).map Batch.feeds) = some (.ok e) ∧
          e.getById 0 = some (W k) ∧ e.getById 1 = some (b k)) ∧
        (W k).shape = [d, c] ∧ (b k).shape = [1, c] ∧
        (∀ i < d, ∀ j < c, (W k).get [i, j] = followed u (w0.get [i, j]) (fun m => (Gw m).get [i, j]) k) ∧
        (∀ j < c, (b k).get [0, j] = followed u (b0.get [0, j]) (fun m => (Gb m).get [0, j]) k) ∧
        ∀ B, batches[k]? = some B →
          (∀ i < d, ∀ j < c, HasDerivAt (fun t => meanLoss B.n d c B.x (nudge (W k) [i, j] t) (b k) B.l) ((Gw k).get [i, j]) 0) ∧
          (∀ j < c, HasDerivAt (fun t => meanLoss B.n d c B.x (W k) (nudge (b k) [0, j] t) B.l) ((Gb k).get [0, j]) 0) := by
  obtain ⟨sw, sb, hS⟩ := cl_setup H hnew h0 h1 hw hb hws hbs
  obtain ⟨N, hN⟩ := cl_steps bot lay column hd hS
  refine ⟨N, fun fuel hf pick hpick batches hB => ?_⟩
  obtain ⟨E, Gw, Gb, h2, h3⟩ := cl_train (hN fuel hf pick hpick) hB batches.length (le_refl _)
  have hgrads : ∀ k, k < batches.length → (Gw k).shape = [d, c] ∧ (Gb k).shape = [1, c] := by
    intro k hk
    obtain ⟨_, _, _, _, h⟩ := h3 k _ hk (List.getElem?_eq_getElem hk)
    exact ⟨h.ws, h.bs⟩
  have hvars : ∀ k, k ≤ batches.length → ∃ w b, (E k).getById 0 = some w ∧ (E k).getById 1 = some b ∧ w.shape = [d, c] ∧ b.shape = [1, c] ∧
      (∀ i < d, ∀ j < c, w.get [i, j] = followed u (w0.get [i, j]) (fun m => (Gw m).get [i, j]) k) ∧
      ∀ j < c, b.get [0, j] = followed u (b0.get [0, j]) (fun m => (Gb m).get [0, j]) k := by
    intro k hk
    obtain ⟨_, he⟩ := h2 k hk
    obtain ⟨w, ss, a1, a2, _, a3⟩ := hS.wready.after _ _ he.w
    obtain ⟨b, ss', b1, b2, _, b3⟩ := hS.bready.after _ _ he.b
    have a1 : (E k).getById 0 = some w := by cases a1; assumption
    have b1 : (E k).getById 1 = some b := by cases b1; assumption
    refine ⟨w, b, a1, b1, by rw [a2, hws], by rw [b2, hbs], fun i hi j hj => ?_, fun j hj => ?_⟩
    · have hI : InB [i, j] [d, c] := .cons hi (.cons hj .nil)
      have := a3 [i, j] _ (by rw [hws]; exact hI) (gradAt_same hI fun m hm => (hgrads m (by omega)).1)
      simpa using this
    · have hI : InB [0, j] [1, c] := .cons Nat.zero_lt_one (.cons hj .nil)
      have := b3 [0, j] _ (by rw [hbs]; exact hI) (gradAt_same hI fun m hm => (hgrads m (by omega)).2)
      simpa using this
  refine ⟨fun k => ((E k).getById 0).getD w0, fun k => ((E k).getById 1).getD b0, Gw, Gb, fun k hk => ?_⟩
  obtain ⟨w, b, v1, v2, v3, v4, v5, v6⟩ := hvars k hk
  simp only [v1, v2, Option.getD_some]
  refine ⟨⟨E k, (h2 k hk).1, v1, v2⟩, v3, v4, v5, v6, fun B hB' => ?_⟩
  obtain ⟨w', b', x1, x2, x3⟩ := h3 k B (List.getElem?_eq_some_iff.1 hB').1 hB'
  rw [v1] at x1
  rw [v2] at x2
  cases x1
  cases x2
  exact ⟨x3.dw, x3.db⟩

-- Variables of three features and two classes, each of the four optimizers, and two mini-batches of different sizes.
noncomputable def tlW : Arr ℝ := ofFn [3, 2] (fun i => (i.getD 0 0 : ℝ) - i.getD 1 0)
noncomputable def tlB : Arr ℝ := ofFn [1, 2] (fun i => (i.getD 1 0 : ℝ))
noncomputable def tlEnv : VarEnv (Arr ℝ) := (((VarEnv.new : VarEnv (Arr ℝ)).register [] ['w'] tlW).1.register [] ['b'] tlB).1

noncomputable def tlBatch (n : Nat) : Batch :=
  let x := ofFn [n, 3] (fun i => (i.getD 0 0 + i.getD 1 0 : ℝ))
  let y := ofFn [n, 1] (fun i => ((i.getD 0 0 % 2 : Nat) : ℝ))
  ⟨n, x, y, fun i => i % 2, [⟨.id 3, y⟩, ⟨.name "x", x⟩]⟩

example (u : UOp) : VarHist [.register [] ['w'] tlW, .register [] ['b'] tlB] tlEnv ∧ (∃ e1, u.create ['o'] tlEnv [1, 0] = .ok e1) ∧ 0 ∈ [1, 0] ∧ 1 ∈ [1, 0] ∧
    tlEnv.getById 0 = some tlW ∧ tlEnv.getById 1 = some tlB ∧ tlW.shape = [3, 2] ∧ tlB.shape = [1, 2] ∧ PicksMax (demoPick (Op := POp)) ∧
    ∀ B ∈ [tlBatch 4, tlBatch 3], Dataset (fun a => cStrides [a.shape.getD 0 0]) 3 true B.n 2 B.x B.y B.l ∧ FirstFeed 2 "x" B.feeds B.x ∧ FirstFeed 3 "y" B.feeds B.y := by
  refine ⟨VarHist.register [] ['b'] tlB (VarHist.register [] ['w'] tlW VarHist.new), by cases u <;> exact ⟨_, rfl⟩, by simp, by simp, rfl, rfl, rfl, rfl, demoPick_max, ?_⟩
  have key : ∀ n, 0 < n → Dataset (fun a => cStrides [a.shape.getD 0 0]) 3 true (tlBatch n).n 2 (tlBatch n).x (tlBatch n).y (tlBatch n).l ∧
      FirstFeed 2 "x" (tlBatch n).feeds (tlBatch n).x ∧ FirstFeed 3 "y" (tlBatch n).feeds (tlBatch n).y := by
    intro n hn
    refine ⟨⟨hn, by decide, by decide, rfl, rfl, fun i _ => ⟨rfl, Nat.mod_lt _ (by decide)⟩, fun a ha => ?_⟩, ?_, ?_⟩
    · rw [ha]; exact contig_cStrides _
    · refine ⟨[⟨.id 3, _⟩], _, [], rfl, .inr rfl, rfl, ?_⟩
      intro f hf
      rw [List.mem_singleton.1 hf]
      rintro (h | h) <;> simp at h
    · exact ⟨[], _, [⟨.name "x", _⟩], rfl, .inl rfl, rfl, by simp⟩
  intro B hB
  simp only [List.mem_cons, List.not_mem_nil, or_false] at hB
  rcases hB with rfl | rfl <;> exact key _ (by decide)

end Verif.Props
