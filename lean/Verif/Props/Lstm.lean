import Verif.Lemmas.Lstm
import Verif.Props.Calls

/-! # Property theorems about the LSTM example: C64 -/

namespace Verif.Props
open Verif Verif.Spec Verif.Gradient Verif.Graph Verif.Eval Verif.Nd Verif.Prog

/-! ## C64 The LSTM example computes the loss of an LSTM and its gradients -/

/-- **C64** Loss. The program of the example `lstm_lm`, for any number of sentences, of words (up to 5000), of words in the vocabulary, and any size of the vectors, can be built, and
evaluating its loss returns, for each sentence, the loss of the LSTM language model as given by its equations. -/
theorem C64_loss_partial (bot : ℝ) (lay : Arr ℝ → List Int) (n dim vocab words : Nat) (word : Nat → Nat → Nat) (s : Arr ℝ) (hS : Sentences lay n dim vocab words s word)
    (W : LstmWeights) (hW : W.Shapes dim vocab) (unused : Arr ℝ) (hwords : words ≤ 5000) :
    ∃ g ids t v, buildCalls (lstmCalls bot lay dim words) = .ok (g, ids) ∧ ids[(lstmResult bot lay dim words).1]? = some t ∧
      (∃ fuel0, ∀ fuel, fuel0 ≤ fuel → ∃ res, eval progSem g fuel [t] (named [("sents", s)]) (W.env unused) () = some (.ok res) ∧ res.results = [.ok v]) ∧
      v.shape = [n, 1] ∧ ∀ r < n, v.get [r, 0] = W.loss dim vocab words word r := by
  have hf : FedAs [("sents", s)] "sents" s := ⟨[], [], rfl, by simp⟩
  obtain ⟨vals, hG, hl, _⟩ := lstm_values (bot := bot) (unused := unused) hS hW hf []
  have hlen := lstm_len bot lay dim words
  obtain ⟨g, ids, hb, hids, hv⟩ := C61_values_partial _ hG.inScope hG.dims (le_trans hlen (by omega)) _ _ _ hG.den (fun c hc => stmtOk_weaken (fun _ _ => trivial) (fun _ _ _ => trivial) (hG.ok c hc).1)
  have hk : (lstmResult bot lay dim words).1 < ids.length := by rw [hids, ← hG.len]; exact hl.lt
  obtain ⟨f0, h⟩ := hv [(lstmResult bot lay dim words).1] [ids[(lstmResult bot lay dim words).1]] (.cons (List.getElem?_eq_getElem hk) .nil) (by simp)
  exact ⟨g, ids, _, _, hb, List.getElem?_eq_getElem hk, ⟨f0, h⟩, hl.val_eq.1, fun r hr => hl.val_eq.2 r hr 0 Nat.one_pos⟩

/-- **C64** Gradients. `grad(&[loss], vars)`, in any order of processing tensors of equal rank, given enough loop iterations, either panics because the graph gets too large, which happens
only for sentences of more than 160 words, or returns one tensor for each of the five weights, which evaluates to the partial derivatives of the sum of the losses of all sentences with
respect to the elements of the weight. -/
theorem C64_gradients_partial (bot : ℝ) (lay : Arr ℝ → List Int) (n dim vocab words : Nat) (word : Nat → Nat → Nat) (s : Arr ℝ) (hS : Sentences lay n dim vocab words s word)
    (W : LstmWeights) (hW : W.Shapes dim vocab) (unused : Arr ℝ) (hwords : words ≤ 5000) (pick : Graph POp → List Nat → Nat) (hpick : PicksMax pick) :
    ∃ g ids, buildCalls (lstmCalls bot lay dim words) = .ok (g, ids) ∧ ∃ y xs, ids[(lstmResult bot lay dim words).1]? = some y ∧
      List.Forall₂ (fun k x => ids[k]? = some x) (lstmResult bot lay dim words).2 xs ∧ ∃ N, ∀ fuel, N ≤ fuel →
      grad gradOps pick fuel g [y] xs = some (.error (.graph .graphTooLarge)) ∧ 160 < words ∨
      ∃ r, grad gradOps pick fuel g [y] xs = some (.ok r) ∧
        List.Forall₂ (fun vid t => ∃ a v : Arr ℝ, (W.env unused)[vid]? = some a ∧ v.shape = a.shape ∧
          (∃ fuel0, ∀ fuel', fuel0 ≤ fuel' → ∃ res, eval progSem r.g fuel' [t] (named [("sents", s)]) (W.env unused) () = some (.ok res) ∧ res.results = [.ok v]) ∧
          ∀ i, InB i a.shape → HasDerivAt (fun u => ∑ r ∈ Finset.range n, (W.change (fun a => nudge a i u) vid).loss dim vocab words word r) (v.get i) 0) [2, 3, 4, 1, 5] r.grads := by
  have hf : FedAs [("sents", s)] "sents" s := ⟨[], [], rfl, by simp⟩
  obtain ⟨vals, hG, hl, hx⟩ := lstm_values (bot := bot) (unused := unused) hS hW hf [2, 3, 4, 1, 5]
  have hlen := lstm_len bot lay dim words
  obtain ⟨g, ids, hb, hids, _⟩ := C61_values_partial _ hG.inScope hG.dims (le_trans hlen (by omega)) _ _ _ hG.den (fun c hc => stmtOk_weaken (fun _ _ => trivial) (fun _ _ _ => trivial) (hG.ok c hc).1)
  have hget : ∀ k < (lstmCalls bot lay dim words).length, ids[k]? = some (ids.getD k 0) := fun k hk => by
    rw [List.getD_eq_getElem?_getD, List.getElem?_eq_getElem (by rw [hids]; exact hk), Option.getD_some]
  have hy : (lstmResult bot lay dim words).1 < (lstmCalls bot lay dim words).length := hG.len ▸ hl.lt
  refine ⟨g, ids, hb, ids.getD (lstmResult bot lay dim words).1 0, (lstmResult bot lay dim words).2.map (fun k => ids.getD k 0), hget _ hy, ?_, ?_⟩
  · rw [List.forall₂_map_right_iff, List.forall₂_same]
    intro k hk
    obtain ⟨vid, _, hv⟩ := varCalls_mem hx hk
    exact hget k (List.getElem?_eq_some_iff.1 hv).1
  obtain ⟨N, hN⟩ := C61_gradients_partial _ hG.inScope g ids hb _ _ _ hG.den _ _ hx (by decide) hG.ok [(lstmResult bot lay dim words).1] (by simp) (by simpa using hy) pick hpick
  refine ⟨N, fun fuel hfuel => ?_⟩
  rcases hN fuel hfuel with ⟨h1, h2⟩ | ⟨r, h1, h2⟩
  · refine .inl ⟨h1, ?_⟩
    rw [hx.length_eq] at h2
    simp at h2
    omega
  refine .inr ⟨r, h1, ?_⟩
  refine forall₂_of_mem h2 fun vid t hvid ⟨a, v, ha, hs, he, hd⟩ => ⟨a, v, ha, hs, he, fun i hi => ?_⟩
  obtain ⟨Vals, hV, hder⟩ := hd i hi
  have key : ∀ u, total (Vals u (lstmResult bot lay dim words).1) = ∑ r ∈ Finset.range n, (W.change (fun a => nudge a i u) vid).loss dim vocab words word r := by
    intro u
    have henv : (W.env unused).set vid (nudge a i u) = (W.change (fun a => nudge a i u) vid).env unused := by
      simp only [List.mem_cons, List.not_mem_nil, or_false] at hvid
      rcases hvid with rfl | rfl | rfl | rfl | rfl <;> (cases ha; rfl)
    have hW' : (W.change (fun a => nudge a i u) vid).Shapes dim vocab := by
      simp only [List.mem_cons, List.not_mem_nil, or_false] at hvid
      rcases hvid with rfl | rfl | rfl | rfl | rfl <;> exact ⟨hW.wx, hW.wh, hW.b, hW.table, hW.pred⟩
    obtain ⟨vals', hG', hl', _⟩ := lstm_values (bot := bot) (unused := unused) hS hW' hf []
    have hVu := (hV u).1
    rw [henv] at hVu
    have e := denotes_unique hG'.inScope hVu hG'.den _ hy
    rw [e, total_column hl'.val_eq.1]
    exact Finset.sum_congr rfl fun r hr => hl'.val_eq.2 r (Finset.mem_range.1 hr) 0 Nat.one_pos
  simpa only [List.map_cons, List.map_nil, List.sum_cons, List.sum_nil, add_zero, key] using hder

/-- The sentences of the example (examples/lstm_lm.rs:127). -/
def lsWord (r t : Nat) : Nat := (([[2, 3, 1], [3, 0, 1]] : List (List Nat)).getD r []).getD t 0

-- The hypotheses hold for the sizes and the data of the example and any weights.
example : Sentences (fun _ => [1]) 2 4 5 2 (ofFn [2, 3] fun i => (lsWord (i.getD 0 0) (i.getD 1 0) : ℝ)) lsWord ∧
    (∃ W : LstmWeights, W.Shapes 4 5 ∧ W.wx.get [1, 2] = 3) ∧ PicksMax (demoPick (Op := POp)) := by
  refine ⟨⟨by decide, by decide, by decide, rfl, fun r hr t ht => ⟨rfl, ?_⟩, fun a _ => ?_⟩,
    ⟨⟨ofFn [4, 16] fun _ => 3, ofFn [4, 16] fun _ => 1, ofFn [1, 16] fun _ => 0, ofFn [5, 4] fun _ => 1, ofFn [4, 5] fun _ => 2⟩, ⟨rfl, rfl, rfl, rfl, rfl⟩, rfl⟩, demoPick_max⟩
  · interval_cases r <;> interval_cases t <;> decide
  · decide

end Verif.Props
