import Verif.Lemmas.CnnExample
import Verif.Props.Calls

/-! # Property theorems about the example of a convolutional network: C69 -/

namespace Verif.Props
open Verif Verif.Spec Verif.Gradient Verif.Graph Verif.Eval Verif.Nd Verif.Prog

/-! ## C69 The example `cnn_mnist` computes the loss of the network, its gradients and its accuracy -/

/-- **C69** Loss and gradients. The program of the example `cnn_mnist`, for any number of images, image size (a multiple of four), numbers of channels and classes, can be built. `grad(&[loss], vars)`, in any
order of processing tensors of equal rank, given enough loop iterations, returns one tensor for each of the six weights. One evaluation of any of these tensors and the loss, in which the `dropout` ops
draw the arrays of `r`, returns the mean loss of the network as given by its equations, with the drawn arrays as factors, and its partial derivatives with respect to the elements of the weights;
at weights where the network is differentiable because no rectified number is zero and no positive maximum of a window is attained twice. -/
theorem C69_gradients_partial (z : CnnSize) (r : CnnRun) (hbot : r.bot < 0) (batch : Nat) (x y : Arr ℝ) (label : Nat → Nat) (hP : Pictures r.lay z.side z.ch1 z.ch2 z.classes batch x y label)
    (W : CnnWeights) (hW : W.Shapes z.side z.ch1 z.ch2 z.classes) (others : List (Arr ℝ)) (hc1 : Clear batch z.ch1 (4 * z.side) (W.pre1 z.side x))
    (hc2 : Clear batch z.ch2 (2 * z.side) (W.pre2 z.side z.ch1 (drawn z r batch) x)) (pick : Graph POp → List Nat → Nat) (hpick : PicksMax pick) :
    ∃ g ids, buildCalls (cnnCalls z r) = .ok (g, ids) ∧ ∃ loss xs, ids[(cnnResult z r).1]? = some loss ∧ List.Forall₂ (fun k x => ids[k]? = some x) (cnnResult z r).2 xs ∧ ∃ N, ∀ fuel, N ≤ fuel →
      ∃ G, grad gradOps pick fuel g [loss] xs = some (.ok G) ∧ ∃ val : Nat → Arr ℝ,
        (∀ ts : List Nat, ts.Nodup → (∀ t ∈ ts, t ∈ loss :: G.grads) → ∃ fuel0, ∀ fuel', fuel0 ≤ fuel' →
          ∃ res, eval progSem G.g fuel' ts (named [("x", x), ("y", y)]) (W.env others) () = some (.ok res) ∧ res.results = ts.map (fun t => .ok (val t))) ∧
        (val loss).shape = [1] ∧ (val loss).get [0] = W.loss z.side z.ch1 (drawn z r batch) x z.ch2 z.classes batch label ∧
        List.Forall₂ (fun vid t => ∃ a : Arr ℝ, (W.env others)[vid]? = some a ∧ (val t).shape = a.shape ∧ ∀ i, InB i a.shape →
          HasDerivAt (fun u => (W.change (fun a => nudge a i u) vid).loss z.side z.ch1 (drawn z r batch) x z.ch2 z.classes batch label) ((val t).get i) 0) [0, 1, 2, 3, 4, 5] G.grads := by
  have hf : FedAs [("x", x), ("y", y)] "x" x := ⟨[], [("y", y)], rfl, by simp⟩
  have hf' : FedAs [("x", x), ("y", y)] "y" y := ⟨[("x", x)], [], rfl, by simp⟩
  obtain ⟨vals, hG, hl, hx⟩ := cnn_values (others := others) hbot hP hW hf hf' [0, 1, 2, 3, 4, 5] (.inr ⟨hc1, hc2⟩)
  have hlen := cnn_len z r
  obtain ⟨g, ids, hb, hids, _⟩ := C61_values_partial _ hG.inScope hG.dims (by simp [hlen]) _ _ _ hG.den (fun c hc => stmtOk_weaken (fun _ _ => trivial) (fun _ _ _ => trivial) (hG.ok c hc).1)
  have hget : ∀ k < (cnnCalls z r).length, ids[k]? = some (ids.getD k 0) := fun k hk => by
    rw [List.getD_eq_getElem?_getD, List.getElem?_eq_getElem (by rw [hids]; exact hk), Option.getD_some]
  have hy : (cnnResult z r).1 < (cnnCalls z r).length := hG.len ▸ hl.lt
  refine ⟨g, ids, hb, ids.getD (cnnResult z r).1 0, (cnnResult z r).2.map (fun k => ids.getD k 0), hget _ hy, ?_, ?_⟩
  · rw [List.forall₂_map_right_iff, List.forall₂_same]
    intro k hk
    obtain ⟨vid, _, hv⟩ := varCalls_mem hx hk
    exact hget k (List.getElem?_eq_some_iff.1 hv).1
  obtain ⟨N, hN⟩ := calls_derivs _ hG.inScope g ids hb _ _ _ hG.den _ _ hx (by decide) hG.ok [(cnnResult z r).1] (by simp) (by simpa using hy) pick hpick
  refine ⟨N, fun fuel hfuel => ?_⟩
  rcases hN fuel hfuel with ⟨_, h⟩ | ⟨G, h1, hbl, hrr, hor, _, h2⟩
  · rw [hx.length_eq, hlen] at h
    simp at h
  refine ⟨G, h1, ?_⟩
  have hB := built hb hG.inScope
  obtain ⟨_, hv⟩ := buildCalls_values hb hG.inScope (fun c hc => stmtOk_weaken (fun _ _ => trivial) (fun _ _ _ => trivial) (hG.ok c hc).1) hG.den
  have hloss := Evals.mono hbl.grows (prog_reach hB.run).wf.closed (hv _ hy)
  have : ∀ t, ∃ v, t ∈ ids.getD (cnnResult z r).1 0 :: G.grads → Evals (setting (named [("x", x), ("y", y)]) (W.env others)) G.g t v := fun t => by
    by_cases ht : t ∈ ids.getD (cnnResult z r).1 0 :: G.grads
    · rcases List.mem_cons.1 ht with rfl | ht
      · exact ⟨_, fun _ => hloss⟩
      · obtain ⟨vid, _, a, v, _, _, he, _⟩ := forall₂_mem_right h2 ht
        exact ⟨v, fun _ => he⟩
    · exact ⟨noArr, fun h => absurd h ht⟩
  choose val hval using this
  have hvl : val (ids.getD (cnnResult z r).1 0) = St.val ⟨cnnCalls z r, vals⟩ (cnnResult z r).1 := evals_unique' (hval _ (by simp)) hloss
  refine ⟨val, fun ts hnd hts => ?_, ?_, ?_, ?_⟩
  · have hE : List.Forall₂ (Evals (setting (named [("x", x), ("y", y)]) (W.env others)) G.g) ts (ts.map val) := by
      rw [List.forall₂_map_right_iff, List.forall₂_same]
      exact fun t ht => hval t (hts t ht)
    obtain ⟨f0, h⟩ := evaluates_all hrr hor hnd hE
    refine ⟨f0, fun fuel' hf' => ?_⟩
    obtain ⟨res, e1, e2⟩ := h fuel' hf'
    exact ⟨res, e1, by rw [e2, List.map_map]; rfl⟩
  · rw [hvl]; exact hl.val_eq.1
  · rw [hvl]; exact hl.val_eq.2
  · refine forall₂_of_both h2 fun vid t hvid ht ⟨a, v, ha, hs, he, hd⟩ => ?_
    have hvt : val t = v := evals_unique' (hval t (by simp [ht])) he
    refine ⟨a, ha, by rw [hvt]; exact hs, fun i hi => ?_⟩
    obtain ⟨Vals, hV, hder⟩ := hd i hi
    have key : ∀ u, total (Vals u (cnnResult z r).1) = (W.change (fun a => nudge a i u) vid).loss z.side z.ch1 (drawn z r batch) x z.ch2 z.classes batch label := by
      intro u
      have henv : (W.env others).set vid (nudge a i u) = (W.change (fun a => nudge a i u) vid).env others := by
        simp only [List.mem_cons, List.not_mem_nil, or_false] at hvid
        rcases hvid with rfl | rfl | rfl | rfl | rfl | rfl <;> (cases ha; rfl)
      have hW' : (W.change (fun a => nudge a i u) vid).Shapes z.side z.ch1 z.ch2 z.classes := by
        simp only [List.mem_cons, List.not_mem_nil, or_false] at hvid
        rcases hvid with rfl | rfl | rfl | rfl | rfl | rfl <;> exact ⟨hW.w1, hW.w2, hW.w3, hW.b1, hW.b2, hW.b3⟩
      obtain ⟨vals', hG', hl', _⟩ := cnn_values (others := others) hbot hP hW' hf hf' [] (.inl rfl)
      have hVu := (hV u).1
      rw [henv] at hVu
      rw [denotes_unique hG'.inScope hVu hG'.den _ hy, total, hl'.val_eq.1, ← hl'.val_eq.2]
      exact Finset.sum_eq_single [0] (fun j hj hne => by
        match j, mem_idxs.1 hj with
        | [k], .cons hk .nil =>
          have : k = 0 := by omega
          subst this
          exact absurd rfl hne) fun h => absurd (mem_idxs.2 (.cons Nat.one_pos .nil)) h
    rw [hvt]
    simpa only [List.map_cons, List.map_nil, List.sum_cons, List.sum_nil, add_zero, key] using hder

-- The hypotheses hold for a network with images of four rows and columns, in which both layers are rectified at numbers of both signs.
example : tinyRun.bot < 0 ∧ Pictures tinyRun.lay tinySize.side tinySize.ch1 tinySize.ch2 tinySize.classes 1 tinyX (ofFn [1, 1] fun _ => 1) (fun _ => 1) ∧
    tinyWeights.Shapes tinySize.side tinySize.ch1 tinySize.ch2 tinySize.classes ∧ Clear 1 tinySize.ch1 (4 * tinySize.side) (tinyWeights.pre1 tinySize.side tinyX) ∧
    Clear 1 tinySize.ch2 (2 * tinySize.side) (tinyWeights.pre2 tinySize.side tinySize.ch1 (drawn tinySize tinyRun 1) tinyX) ∧ PicksMax (demoPick (Op := POp)) :=
  ⟨by simp [tinyRun], tiny_pictures, tiny_shapes, tiny_clear.1, tiny_clear.2, demoPick_max⟩

/-- **C69** Loss, at all weights. -/
theorem C69_loss_partial (z : CnnSize) (r : CnnRun) (hbot : r.bot < 0) (batch : Nat) (x y : Arr ℝ) (label : Nat → Nat) (hP : Pictures r.lay z.side z.ch1 z.ch2 z.classes batch x y label)
    (W : CnnWeights) (hW : W.Shapes z.side z.ch1 z.ch2 z.classes) (others : List (Arr ℝ)) :
    ∃ g ids t v, buildCalls (cnnCalls z r) = .ok (g, ids) ∧ ids[(cnnResult z r).1]? = some t ∧
      (∃ fuel0, ∀ fuel, fuel0 ≤ fuel → ∃ res, eval progSem g fuel [t] (named [("x", x), ("y", y)]) (W.env others) () = some (.ok res) ∧ res.results = [.ok v]) ∧
      v.shape = [1] ∧ v.get [0] = W.loss z.side z.ch1 (drawn z r batch) x z.ch2 z.classes batch label := by
  have hf : FedAs [("x", x), ("y", y)] "x" x := ⟨[], [("y", y)], rfl, by simp⟩
  have hf' : FedAs [("x", x), ("y", y)] "y" y := ⟨[("x", x)], [], rfl, by simp⟩
  obtain ⟨vals, hG, hl, hx⟩ := cnn_values (others := others) hbot hP hW hf hf' [] (.inl rfl)
  obtain ⟨g, ids, hb, hids, hv⟩ := C61_values_partial _ hG.inScope hG.dims (by simp [cnn_len]) _ _ _ hG.den (fun c hc => stmtOk_weaken (fun _ _ => trivial) (fun _ _ _ => trivial) (hG.ok c hc).1)
  have hk : (cnnResult z r).1 < ids.length := by rw [hids, ← hG.len]; exact hl.lt
  obtain ⟨f0, h⟩ := hv [(cnnResult z r).1] [ids[(cnnResult z r).1]] (.cons (List.getElem?_eq_getElem hk) .nil) (by simp)
  exact ⟨g, ids, _, _, hb, List.getElem?_eq_getElem hk, ⟨f0, h⟩, hl.val_eq⟩

-- The hypotheses hold for the sizes of the example, any images and weights of these shapes, and any labels.
example (r : CnnRun) (hbot : r.bot < 0) (hlay : ∀ a, r.lay a = [1]) (x : Nat → ℝ) (label : Nat → Nat) (hl : ∀ n, label n < 10) : r.bot < 0 ∧
    Pictures r.lay 7 32 64 10 128 (ofFn [128, 28 * 28] fun i => x (i.getD 1 0)) (ofFn [128, 1] fun i => label (i.getD 0 0)) label :=
  ⟨hbot, by decide, by decide, by decide, by decide, by decide, by decide, rfl, rfl, fun n _ => ⟨rfl, hl n⟩, fun a _ => by rw [hlay]; decide⟩

/-- **C69** Accuracy. The test program of the example can be built, and evaluating its result returns the number of images whose label is the class with the greatest score (the first, if there are several), divided
by the number of images; the scores are those of the network in which all three `dropout` ops multiply with 3/4. All scores are assumed not to be below the least float. -/
theorem C69_accuracy_partial (z : CnnSize) (r : CnnRun) (hbot : r.bot < 0) (batch : Nat) (x y : Arr ℝ) (label : Nat → Nat) (hP : Pictures r.lay z.side z.ch1 z.ch2 z.classes batch x y label)
    (hcopy : ∀ a : Arr ℝ, a.shape = [batch, z.classes] → (r.copy a).length = 2 ∧ Contig [batch, z.classes] (r.copy a)) (W : CnnWeights) (hW : W.Shapes z.side z.ch1 z.ch2 z.classes) (others : List (Arr ℝ))
    (hlow : ∀ n < batch, ∀ c < z.classes, r.bot ≤ W.score z.side z.ch1 undrawn x z.ch2 n c) (predicted : Nat → Nat) (hpred : ∀ n < batch, W.Predicts z.side z.ch1 undrawn x z.ch2 z.classes n (predicted n)) :
    ∃ g ids t v, buildCalls (cnnTestCalls z r) = .ok (g, ids) ∧ ids[cnnTestResult z r]? = some t ∧
      (∃ fuel0, ∀ fuel, fuel0 ≤ fuel → ∃ res, eval progSem g fuel [t] (named [("x", x), ("y", y)]) (W.env others) () = some (.ok res) ∧ res.results = [.ok v]) ∧
      v.shape = [] ∧ v.get [] = ((Finset.range batch).filter (fun n => predicted n = label n)).card / (batch : ℝ) := by
  have hf : FedAs [("x", x), ("y", y)] "x" x := ⟨[], [("y", y)], rfl, by simp⟩
  have hf' : FedAs [("x", x), ("y", y)] "y" y := ⟨[("x", x)], [], rfl, by simp⟩
  obtain ⟨vals, hG, hl⟩ := cnnTest_values (others := others) hbot hP hW hf hf' hcopy hlow predicted hpred
  obtain ⟨g, ids, hb, hids, hv⟩ := C61_values_partial _ hG.inScope hG.dims (by simp [cnnTest_len]) _ _ _ hG.den (fun c hc => stmtOk_weaken (fun _ _ => trivial) (fun _ _ _ => trivial) (hG.ok c hc).1)
  have hk : cnnTestResult z r < ids.length := by rw [hids, ← hG.len]; exact hl.lt
  obtain ⟨f0, h⟩ := hv [cnnTestResult z r] [ids[cnnTestResult z r]] (.cons (List.getElem?_eq_getElem hk) .nil) (by simp)
  exact ⟨g, ids, _, _, hb, List.getElem?_eq_getElem hk, ⟨f0, h⟩, hl.val_eq⟩

example : tinyRun.bot < 0 ∧ Pictures tinyRun.lay tinySize.side tinySize.ch1 tinySize.ch2 tinySize.classes 1 tinyX (ofFn [1, 1] fun _ => 1) (fun _ => 1) ∧
    (∀ a : Arr ℝ, a.shape = [1, tinySize.classes] → (tinyRun.copy a).length = 2 ∧ Contig [1, tinySize.classes] (tinyRun.copy a)) ∧ tinyWeights.Shapes tinySize.side tinySize.ch1 tinySize.ch2 tinySize.classes ∧
    (∀ n < 1, ∀ c < tinySize.classes, tinyRun.bot ≤ tinyWeights.score tinySize.side tinySize.ch1 undrawn tinyX tinySize.ch2 n c) ∧
    ∃ predicted : Nat → Nat, ∀ n < 1, tinyWeights.Predicts tinySize.side tinySize.ch1 undrawn tinyX tinySize.ch2 tinySize.classes n (predicted n) := by
  refine ⟨by simp [tinyRun], tiny_pictures, fun _ _ => ⟨rfl, (by decide : Contig [1, 2] [2, 1])⟩, tiny_shapes, fun n _ c _ => le_trans (by simp [tinyRun]) (tiny_scores n c), ?_⟩
  obtain ⟨c, hc⟩ := predicts_exists tinyWeights tinySize.side tinySize.ch1 undrawn tinyX tinySize.ch2 tinySize.classes 0 (by decide)
  exact ⟨fun _ => c, fun n hn => by obtain rfl : n = 0 := by omega
                                    exact hc⟩

end Verif.Props
