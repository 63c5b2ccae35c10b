import Mathlib.Data.List.Forall2
import Mathlib.Data.List.Permutation
import Verif.Lemmas.Cnn
import Verif.Lemmas.CallsGraph
import Verif.Lemmas.Mnist
import Verif.Model.MlpMnist
import Verif.Spec.Classifier
import Verif.Spec.MlpMnist
import Verif.Spec.Training

/-! # The test of the example `mlp_mnist`, and its batches -/

namespace Verif.Prog
open Verif Verif.Nd Verif.Spec Verif.Gradient Verif.Graph Verif.Eval Verif.Mnist Verif.Hint

/-! ## Feeds -/

section feeds
variable {Op E V : Type} {f : Op → List (OpInput V) → Option (Except E (List V))} {shapeOf : V → List Nat} {g : Graph Op} {F F' : List (Feed V)} {env : List V}

/-- Every placeholder of the graph gets the same array from both feeds. -/
def SameFeeds (g : Graph Op) (F F' : List (Feed V)) : Prop :=
  ∀ id n name v, g.nodes[id]? = some n → n.placeholderName = some name → FirstFeed id name F v → FirstFeed id name F' v

theorem SameFeeds.fed (h : SameFeeds g F F') {id : Nat} {n : Node Op} {v : V} (hn : g.nodes[id]? = some n) : FedWith shapeOf F id n v → FedWith shapeOf F' id n v :=
  fun ⟨name, d, h1, h2, h3, h4⟩ => ⟨name, d, h1, h2, h _ _ _ _ hn h1 h3, h4⟩

theorem SameFeeds.input (h : SameFeeds g F F') {cv : Nat → Except E (List V)} {i : Incoming} {r} (hi : InputIs shapeOf g F env cv i r) : InputIs shapeOf g F' env cv i r := by
  cases hi with
  | placeholder hn hf => exact .placeholder hn (h.fed hn hf)
  | variable_ a b c d => exact .variable_ a b c d
  | result a b c => exact .result a b c
  | failed a b => exact .failed a b

theorem SameFeeds.inputs (h : SameFeeds g F F') {cv : Nat → Except E (List V)} {is : List Incoming} {r} (hi : InputsAre shapeOf g F env cv is r) : InputsAre shapeOf g F' env cv is r := by
  induction hi with
  | nil => exact .nil
  | cons a _ ih => exact .cons (h.input a) ih
  | later a _ ih => exact .later (h.input a) ih
  | first a => exact .first (h.input a)

theorem SameFeeds.means (h : SameFeeds g F F') {id : Nat} {r : Except E (List V)} (hm : Means f shapeOf g F env id r) : Means f shapeOf g F' env id r := by
  induction hm with
  | run hn ho _ hin hf ih => exact .run hn ho ih (h.inputs hin) hf
  | fail hn ho _ hin ih => exact .fail hn ho ih (h.inputs hin)

theorem SameFeeds.target (h : SameFeeds g F F') {t : Nat} {r : Except E V} (hm : TargetMeans f shapeOf g F env t r) : TargetMeans f shapeOf g F' env t r := by
  cases hm with
  | placeholder hn hv hf => exact .placeholder hn hv (h.fed hn hf)
  | variable_ a b c => exact .variable_ a b c
  | result a b => exact .result (h.means a) b
  | failed a => exact .failed (h.means a)

end feeds

/-- `evaluates_all` for one tensor, with a bound that depends only on the graph. -/
theorem evaluates_within {g : Graph POp} (hr : Props.Reachable hintOps.toOps g) (ho : OldRead g) {F : List (Feed (Arr ℝ))} {N : List (Arr ℝ)} {t : Nat} {v : Arr ℝ}
    (h : Evals (setting F N) g t v) {fuel : Nat} (hf : 2 * (1 + edgeCount g) ≤ fuel) : ∃ res, eval progSem g fuel [t] F N () = some (.ok res) ∧ res.results = [.ok v] := by
  have hpure : ∀ (a : Nat) (n : Node POp), Needed g [t] a → g.nodes[a]? = some n → Computes progSem n.op (POp.sem n.op) := fun a n _ _ => progSem_computes n.op
  have hro : ∀ a vid, Needed g [t] a → ¬ MayWrite g a vid := by
    rintro a vid _ ⟨n, hn, i, hi, hm, _⟩
    rw [(ho a n hn i hi).2] at hm
    cases hm
  have hlt : ∀ t' ∈ [t], t' < g.size := fun t' ht' => by rw [List.mem_singleton.1 ht']; exact evals_lt h
  obtain ⟨res, hres⟩ := eval_pure_total (w := ()) hr.wf ho.acyclic hlt hpure hro (by
    intro pre t' mid post e
    have := congrArg List.length e
    simp at this
    omega) (fun t' ht' => by rw [List.mem_singleton.1 ht']; exact ⟨_, h.1⟩) (feeds := F) (env := N) (by simpa using hf)
  refine ⟨res, hres, ?_⟩
  have h1 := (eval_pure_partial hr.wf hlt hpure hro hres).1
  cases hrs : res.results with
  | nil => rw [hrs] at h1; cases h1
  | cons a l =>
    rw [hrs] at h1
    cases h1 with
    | cons h2 h3 =>
      cases h3
      rw [targetMeans_unique h2 h.1]

/-! ## The test -/

theorem mlpTest_len (bot : ℝ) (copy : Arr ℝ → List Int) : (mlpTest bot copy).length = 10 := by
  simp only [mlpTest, mlpAccuracy, emit, bind, StateT.bind, pure, StateT.pure, List.length_append, List.length_singleton, List.length_nil]

/-- The placeholders of the graph of the test. -/
theorem mlpTest_placeholders (bot : ℝ) (copy : Arr ℝ → List Int) : ∀ g ids, buildCalls (mlpTest bot copy) = .ok (g, ids) → ∀ (id : Nat) (n : Node POp) (name : String), g.nodes[id]? = some n →
    n.placeholderName = some name → id = 2 ∧ name = "x" ∨ id = 3 ∧ name = "y" := by
  have h : (match buildCalls (mlpTest bot copy) with
      | .ok (g, _) => g.nodes.map Node.placeholderName
      | .error _ => []) = [none, none, some "x", some "y", none, none, none, none, none, none, none, none, none, none] := by rfl
  intro g ids hb id n name hn hp
  rw [hb] at h
  have h : g.nodes.map Node.placeholderName = _ := h
  have : (g.nodes.map Node.placeholderName)[id]? = some (some name) := by rw [List.getElem?_map, hn, Option.map_some, hp]
  rw [h] at this
  match id, this with
  | 2, h => exact .inl ⟨rfl, (Option.some.inj (Option.some.inj h)).symm⟩
  | 3, h => exact .inr ⟨rfl, (Option.some.inj (Option.some.inj h)).symm⟩
  | 0, h => cases h
  | 1, h => cases h
  | 4, h => cases h
  | 5, h => cases h
  | 6, h => cases h
  | 7, h => cases h
  | 8, h => cases h
  | 9, h => cases h
  | 10, h => cases h
  | 11, h => cases h
  | 12, h => cases h
  | 13, h => cases h
  | k + 14, h => cases h

section test
variable {fs : List (String × Arr ℝ)} {bot : ℝ} {copy : Arr ℝ → List Int} {n : Nat} {x y w b : Arr ℝ} {label : Nat → Nat} {others : List (Arr ℝ)}

theorem mlpAccuracy_wp {σ : St} (hn : 0 < n) (hx : x.shape = [n, 784]) (hy : y.shape = [n, 1]) (hl : ∀ i < n, y.get [i, 0] = label i) (hw : w.shape = [784, 10]) (hb : b.shape = [1, 10])
    (hf : FedAs fs "x" x) (hf' : FedAs fs "y" y) (hcopy : ∀ a : Arr ℝ, a.shape = [n, 10] → (copy a).length = 2 ∧ Contig [n, 10] (copy a))
    (hlow : ∀ i < n, ∀ c < 10, bot ≤ score 784 x w b i c) (predicted : Nat → Nat)
    (hpred : ∀ i < n, predicted i < 10 ∧ (∀ c < 10, score 784 x w b i c ≤ score 784 x w b i (predicted i)) ∧ ∀ c < predicted i, score 784 x w b i c < score 784 x w b i (predicted i)) :
    Wp fs (w :: b :: others) [] (mlpAccuracy bot copy) σ (fun τ k => τ.Has k (fun v => v.shape = [] ∧ v.get [] = ((Finset.range n).filter (fun i => predicted i = label i)).card / (n : ℝ))) := by
  unfold mlpAccuracy
  refine wp_var (vid := 0) rfl hw fun σa w' ea la ha => ?_
  refine wp_var (vid := 1) rfl hb fun σb b' eb lb hb' => ?_
  refine wp_bind (wp_emit (by simp [Stmt.args]) (v := x) ⟨hf, ?_⟩ (.inl rfl) trivial ?_ fun σc ec lc hc => ?_)
  · rw [hx]
    refine ⟨rfl, fun k d u h h' => ?_⟩
    match k with
    | 0 => exact .inl (Option.some.inj h).symm
    | 1 => right; rw [← Option.some.inj h, ← Option.some.inj h']; rfl
    | k + 2 => cases h
  · intro name d hd
    cases hd
    simp
  have hx' : σc.Has σb.l.length (IsMat n 784 fun i j => x.get [i, j]) := new_has hc ⟨hx, fun _ _ _ _ => rfl⟩
  refine wp_bind (wp_emit (by simp [Stmt.args]) (v := y) ⟨hf', ?_⟩ (.inl rfl) trivial ?_ fun σd ed ld hd => ?_)
  · rw [hy]
    refine ⟨rfl, fun k d u h h' => ?_⟩
    match k with
    | 0 => exact .inl (Option.some.inj h).symm
    | 1 => right; rw [← Option.some.inj h, ← Option.some.inj h']; rfl
    | k + 2 => cases h
  · intro name d hd
    cases hd
    simp
  have hy0 : σd.Has σc.l.length (IsMat n 1 fun i j => y.get [i, j]) := new_has hd ⟨hy, fun _ _ _ _ => rfl⟩
  refine wp_matmul (hx'.mono ed) (ha.mono ((eb.trans ec).trans ed)) fun σe m ee he => ?_
  refine wp_addRow he (hb'.mono ((ec.trans ed).trans ee)) hn (by decide) fun σ1 logits e1 h1 => ?_
  have h1' : σ1.Has logits (IsMat n 10 fun i c => score 784 x w b i c) := h1
  have hs := h1'.val_eq.1
  obtain ⟨p, p1, p2, p3⟩ := Verif.Props.C28_argmax_partial bot (σ1.val logits) (copy (σ1.val logits)) (-1) 1 10 true ⟨by rw [hs]; exact Nat.one_lt_two, .inr (by rw [hs]; rfl)⟩ (by rw [hs]; rfl) (by decide)
    (by rw [hs]; exact (hcopy _ hs).1) (.inr ⟨by rw [hs]; exact le_refl 2, by rw [hs]; exact (hcopy _ hs).2⟩) (by
      intro o ho
      rw [hs] at ho
      match o, ho with
      | [i, c], .cons hi (.cons hc .nil) => rw [h1'.val_eq.2 i hi c hc]; exact hlow i hi c hc)
  rw [hs] at p2 p3
  have p2 : p.shape = [n, 1] := p2
  refine wp_good fun hg1 => ?_
  refine wp_call (by simp [Stmt.args, h1'.lt]) (v := p) p1 (still_nil hg1 h1'.lt) (still_nil hg1 h1'.lt) (by simp) fun σ2 predictions e2 _ h2 => ?_
  have h2' : σ2.Has predictions (IsMat n 1 fun i _ => (predicted i : ℝ)) := new_has h2 ⟨p2, fun i hi j hj => by
    have : j = 0 := by omega
    subst this
    obtain ⟨c, c1, c2, c3, c4⟩ := p3 [i] (.cons hi .nil)
    have c2 : p.get [i, 0] = (c : ℝ) := c2
    rw [c2]
    obtain ⟨d1, d2, d3⟩ := hpred i hi
    have hv : ∀ k < 10, (σ1.val logits).get ([i].insertIdx 1 k) = score 784 x w b i k := fun k hk => h1'.val_eq.2 i hi k hk
    congr 1
    rcases lt_trichotomy c (predicted i) with h | h | h
    · have := d3 c h
      have h' := c3 (predicted i) d1
      rw [hv _ d1, hv _ c1] at h'
      exact absurd this (not_lt.2 h')
    · exact h
    · have := c4 (predicted i) h
      rw [hv _ d1, hv _ c1] at this
      exact absurd this (not_lt.2 (d2 c c1))⟩
  have hy3 := hy0.mono ((ee.trans e1).trans e2)
  obtain ⟨q, q1, q2, q3⟩ := cmpOp_same (f := fun u v => truth (Compares .eq u v)) (x0 := σ2.val predictions) (x1 := σ2.val σc.l.length) (h2'.val_eq.1.trans hy3.val_eq.1.symm) (by rw [h2'.val_eq.1]; simp)
  refine wp_good fun hg3 => ?_
  refine wp_call (by simp [Stmt.args, h2'.lt, hy3.lt]) (v := q) q1 ⟨still_nil hg3 h2'.lt, still_nil hg3 hy3.lt⟩ ⟨still_nil hg3 h2'.lt, still_nil hg3 hy3.lt⟩ (by simp) fun σ4 eq e4 _ h4 => ?_
  have h4' : σ4.Has eq (IsMat n 1 fun i _ => if predicted i = label i then 1 else 0) := new_has h4 ⟨by rw [q2, h2'.val_eq.1], fun i hi j hj => by
    have : j = 0 := by omega
    subst this
    show q.get [i, 0] = if predicted i = label i then (1 : ℝ) else 0
    rw [q3 _ (by rw [h2'.val_eq.1]; exact .cons hi (.cons Nat.one_pos .nil)), h2'.val_eq.2 i hi 0 Nat.one_pos, show (σ2.val σc.l.length).get [i, 0] = y.get [i, 0] from hy3.val_eq.2 i hi 0 Nat.one_pos, hl i hi]
    simp only [truth, Compares, Nat.cast_inj]⟩
  refine wp_call (by simp [Stmt.args]) (v := vec [0, 1]) rfl trivial trivial (by simp) fun σ5 axes e5 l5 h5 => ?_
  have hk : σ5.Has axes (fun v => v = vec [0, 1]) := new_has h5 rfl
  have ha5 := h4'.mono e5
  have hax : readAxes (vec [0, 1]) = [0, 1] := by
    simp [readAxes, toList_vec]
  have hF : List.Forall₂ (AxisIs (σ5.val eq).shape.length) (readAxes (vec [0, 1])) [0, 1] := by
    rw [hax, ha5.val_eq.1]
    exact .cons ⟨Nat.zero_lt_two, .inl rfl⟩ (.cons ⟨Nat.one_lt_two, .inl rfl⟩ .nil)
  obtain ⟨m, m1, m2, m3⟩ := reduceMean_spec (σ5.val eq) (readAxes (vec [0, 1])) [0, 1] false hF (by rw [ha5.val_eq.1]; intro h; cases h) (by simp)
  have hms : m.shape = [] := by rw [m2, ha5.val_eq.1]; rfl
  refine wp_good fun hg5 => ?_
  refine wp_emit (by simp [Stmt.args, ha5.lt, hk.lt]) (v := m) ?_ ⟨still_nil hg5 hk.lt, .inl (still_nil hg5 ha5.lt)⟩ (still_nil hg5 hk.lt) (fun name d h => by cases h) fun σ6 e6 _ h6 => new_has h6 ⟨hms, ?_⟩
  · show Nd.reduceMean (σ5.val eq) (readAxes (σ5.val axes)) false = _
    rw [hk.val_eq]; exact m1
  · rw [m3 [] (by rw [hms]; exact .nil), ha5.val_eq.1]
    have e : ∑ o ∈ (idxs [n, 1]).filter (fun o => reducedIdx [0, 1] false o = []), (σ5.val eq).get o = ∑ i ∈ Finset.range n, if predicted i = label i then (1 : ℝ) else 0 := by
      rw [Finset.filter_true_of_mem, sum_idxs_two]
      · exact Finset.sum_congr rfl fun i hi => by simp [ha5.val_eq.2 i (Finset.mem_range.1 hi) 0 Nat.one_pos]
      · intro o ho
        have := mem_idxs.1 ho
        match o, this with
        | [i, j], _ => rfl
    rw [e, Finset.sum_boole]
    simp [sizeAt, div_eq_mul_inv]

end test

/-- The graph of the test, and its value with any feeds and variables of the right shapes. -/
theorem mlpTest_values (bot : ℝ) (copy : Arr ℝ → List Int) {n : Nat} (hn : 0 < n) (hcopy : ∀ a : Arr ℝ, a.shape = [n, 10] → (copy a).length = 2 ∧ Contig [n, 10] (copy a)) {x y : Arr ℝ} {label : Nat → Nat}
    (hx : x.shape = [n, 784]) (hy : y.shape = [n, 1]) (hl : ∀ i < n, y.get [i, 0] = label i) :
    ∃ N, ∀ fuel, N ≤ fuel → ∀ (w b : Arr ℝ) (others : List (Arr ℝ)) (predicted : Nat → Nat), w.shape = [784, 10] → b.shape = [1, 10] → (∀ i < n, ∀ c < 10, bot ≤ score 784 x w b i c) →
      (∀ i < n, predicted i < 10 ∧ (∀ c < 10, score 784 x w b i c ≤ score 784 x w b i (predicted i)) ∧ ∀ c < predicted i, score 784 x w b i c < score 784 x w b i (predicted i)) →
      ∃ g ids res v, buildCalls (mlpTest bot copy) = .ok (g, ids) ∧ eval progSem g fuel [ids.getD (mlpTestResult bot copy) 0] (mlpFeeds (x, y)) (w :: b :: others) () = some (.ok res) ∧
        res.results = [.ok v] ∧ v.shape = [] ∧ v.get [] = ((Finset.range n).filter (fun i => predicted i = label i)).card / (n : ℝ) := by
  have hf : FedAs [("x", x), ("y", y)] "x" x := ⟨[], [("y", y)], rfl, by simp⟩
  have hf' : FedAs [("x", x), ("y", y)] "y" y := ⟨[("x", x)], [], rfl, by simp⟩
  refine ⟨match buildCalls (mlpTest bot copy) with
    | .ok (g, _) => 2 * (1 + edgeCount g)
    | .error _ => 0, fun fuel hfuel w b others predicted hw hb hlow hpred => ?_⟩
  obtain ⟨vals, hG, _, hL⟩ := mlpAccuracy_wp (σ := ⟨[], []⟩) (others := others) hn hx hy hl hw hb hf hf' hcopy hlow predicted hpred
    ⟨rfl, fun k c hk => (by cases hk), fun name d hm => (by cases hm), fun k c hk => (by cases hk), fun c hc => (by cases hc)⟩
  have hG : St.Good [("x", x), ("y", y)] (w :: b :: others) [] ⟨mlpTest bot copy, vals⟩ := hG
  have hL : St.Has ⟨mlpTest bot copy, vals⟩ (mlpTestResult bot copy) (fun v => v.shape = [] ∧ v.get [] = ((Finset.range n).filter (fun i => predicted i = label i)).card / (n : ℝ)) := hL
  obtain ⟨g, ids, hbl, _⟩ := buildCalls_total hG.inScope hG.dims (by show 4 * (mlpTest bot copy).length ≤ 500000; rw [mlpTest_len]; omega)
  rw [hbl] at hfuel
  have hB := built hbl hG.inScope
  obtain ⟨hi, hv⟩ := buildCalls_values hbl hG.inScope (fun c hc => stmtOk_weaken (fun _ _ => trivial) (fun _ _ _ => trivial) (hG.ok c hc).1) hG.den
  have hk : mlpTestResult bot copy < (mlpTest bot copy).length := by rw [← hG.len]; exact hL.lt
  have he := hv _ hk
  have hsame : SameFeeds g (named [("x", x), ("y", y)]) (mlpFeeds (x, y)) := by
    intro id nd name v hnd hp hfst
    have hne : ("x" : String) ≠ "y" := by decide
    rcases mlpTest_placeholders bot copy g ids hbl id nd name hnd hp with ⟨rfl, rfl⟩ | ⟨rfl, rfl⟩
    · have h0 : FirstFeed 2 "x" (named [("x", x), ("y", y)]) x := ⟨[], _, _, rfl, .inr rfl, rfl, by simp⟩
      rw [firstFeed_unique hfst h0]
      exact ⟨[], _, _, rfl, .inl rfl, rfl, by simp⟩
    · have h0 : FirstFeed 3 "y" (named [("x", x), ("y", y)]) y := ⟨[⟨.name "x", x⟩], _, [], rfl, .inr rfl, rfl, by
        intro f hf
        rw [List.mem_singleton.1 hf]
        rintro (h | h) <;> simp at h⟩
      rw [firstFeed_unique hfst h0]
      refine ⟨[⟨.id 2, x⟩], _, [], rfl, .inl rfl, rfl, ?_⟩
      intro f hf
      rw [List.mem_singleton.1 hf]
      rintro (h | h) <;> simp at h
  have he' : Evals (setting (mlpFeeds (x, y)) (w :: b :: others)) g (ids.getD (mlpTestResult bot copy) 0) _ := ⟨hsame.target he.1, he.2⟩
  obtain ⟨res, r1, r2⟩ := evaluates_within (prog_reach hB.run) (run_oldRead hB.run) he' hfuel
  exact ⟨g, ids, res, _, hbl, r1, r2, hL.val_eq⟩

/-! ## The batches -/

theorem sum_list {f : Nat → ℝ} (ks : List Nat) : (ks.map f).sum = ∑ r ∈ Finset.range ks.length, f (ks.getD r 0) := by
  induction ks with
  | nil => simp
  | cons k ks ih =>
    rw [List.map_cons, List.sum_cons, ih, List.length_cons, Finset.sum_range_succ', add_comm]
    simp

theorem choose_list {α β : Type} {P : β → α → Prop} {l : List α} (h : ∀ a ∈ l, ∃ b, P b a) : ∃ l', List.Forall₂ P l' l := by
  induction l with
  | nil => exact ⟨[], .nil⟩
  | cons a l ih =>
    obtain ⟨b, hb⟩ := h a (by simp)
    obtain ⟨l', hl⟩ := ih fun a ha => h a (by simp [ha])
    exact ⟨b :: l', .cons hb hl⟩

/-- The batch holds the samples `ks`. -/
structure HoldsSamples (pixel : Nat → Nat → Byte) (label : Nat → Byte) (ks : List Nat) (B : Batch) : Prop where
  n : B.n = ks.length
  x : ∀ r < ks.length, ∀ j < 784, B.x.get [r, j] = ((pixel (ks.getD r 0) j).val : ℝ) / 255
  l : ∀ r, B.l r = (label (ks.getD r 0)).val

theorem HoldsSamples.loss {pixel : Nat → Nat → Byte} {label : Nat → Byte} {ks : List Nat} {B : Batch} (h : HoldsSamples pixel label ks B) (W b : Arr ℝ) :
    meanLoss B.n 784 10 B.x W b B.l = samplesLoss pixel label ks W b := by
  have hs : ∀ r < ks.length, ∀ c, score 784 B.x W b r c = classScore pixel W b (ks.getD r 0) c := by
    intro r hr c
    unfold score classScore
    rw [Finset.sum_congr rfl fun j hj => by rw [h.x r hr j (Finset.mem_range.1 hj)]]
  unfold meanLoss samplesLoss
  rw [h.n, sum_list]
  refine congrArg (fun z : ℝ => z / (ks.length : ℝ)) (Finset.sum_congr rfl fun r hr => ?_)
  have hr := Finset.mem_range.1 hr
  rw [hs r hr, h.l, Finset.sum_congr rfl fun c _ => by rw [hs r hr c]]

/-- The arrays of a list of batches as batches of samples. -/
theorem batches_of {lay : Arr ℝ → List Int} (hlay : ∀ a : Arr ℝ, a.shape = [200, 10] → Contig [200] (lay a)) {pixel : Nat → Nat → Byte} {label : Nat → Byte} {n : Nat} {x y : Arr ℝ}
    (hx : IsImages x n pixel) (hy : IsLabels y n label) (hl : ∀ i < n, (label i).val < 10) {kss : List (List Nat)} {bs : List (Arr ℝ × Arr ℝ)}
    (h : List.Forall₂ (fun k b => b.1.shape = [200, 784] ∧ b.2.shape = [200, 1] ∧ k.length = 200 ∧ (∀ r s, k[r]? = some s → SampleAt x y b r s) ∧ ∀ s ∈ k, s < n) kss bs) :
    ∃ Bs : List Batch, Bs.map Batch.feeds = bs.map mlpFeeds ∧ List.Forall₂ (HoldsSamples pixel label) kss Bs ∧
      ∀ B ∈ Bs, Dataset lay 784 true B.n 10 B.x B.y B.l ∧ FirstFeed 2 "x" B.feeds B.x ∧ FirstFeed 3 "y" B.feeds B.y := by
  induction h with
  | nil => exact ⟨[], rfl, .nil, by simp⟩
  | @cons k b kss bs h _ ih =>
    obtain ⟨Bs, h1, h2, h3⟩ := ih
    obtain ⟨c1, c2, c3, c4, c5⟩ := h
    have hget : ∀ r < 200, k[r]? = some (k.getD r 0) ∧ k.getD r 0 < n := by
      intro r hr
      have e : k[r]? = some (k.getD r 0) := by
        rw [List.getD_eq_getElem?_getD, List.getElem?_eq_getElem (by omega)]
        rfl
      exact ⟨e, c5 _ (List.mem_of_getElem? e)⟩
    refine ⟨⟨200, b.1, b.2, fun r => (label (k.getD r 0)).val, mlpFeeds b⟩ :: Bs, by rw [List.map_cons, h1]; rfl, .cons ⟨c3.symm, ?_, fun _ => rfl⟩ h2, ?_⟩
    · intro r hr j hj
      obtain ⟨e1, e2⟩ := hget r (by omega)
      exact ((c4 r _ e1).1 j).trans (hx.2 _ e2 j hj)
    · intro B hB
      rcases List.mem_cons.1 hB with rfl | hB
      · refine ⟨⟨Nat.zero_lt_succ 199, by decide, by decide, c1, c2, fun i hi => ?_, hlay⟩, ⟨[], _, _, rfl, .inl rfl, rfl, by simp⟩, ⟨[⟨.id 2, b.1⟩], _, [], rfl, .inl rfl, rfl, ?_⟩⟩
        · obtain ⟨e1, e2⟩ := hget i hi
          exact ⟨((c4 i _ e1).2 0).trans (hy.2 _ e2), hl _ e2⟩
        · intro f hf
          rw [List.mem_singleton.1 hf]
          rintro (h | h) <;> simp at h
      · exact h3 B hB

/-- The optimizer can be created. -/
theorem mlpAdam_created {nameW nameB : Str} (hne : nameW ≠ nameB) (w0 : Arr ℝ) {order : List (FullName × Nat)} (ho : order.Perm (mlpVars nameW nameB w0).names) :
    (∃ e1, mlpAdam.create "adam".toList (mlpVars nameW nameB w0) (VarEnv.currentVarIds order []) = .ok e1) ∧ 0 ∈ VarEnv.currentVarIds order [] ∧ 1 ∈ VarEnv.currentVarIds order [] := by
  have h : (VarEnv.currentVarIds order []).Perm [0, 1] ∨ (VarEnv.currentVarIds order []).Perm [1, 0] := by
    have h1 : (VarEnv.currentVarIds order []).Perm (VarEnv.currentVarIds (mlpVars nameW nameB w0).names []) := ho.filterMap _
    have h2 : (mlpVars nameW nameB w0).names = [(⟨[], nameB⟩, 1), (⟨[], nameW⟩, 0)] ∨ (mlpVars nameW nameB w0).names = [(⟨[], nameW⟩, 0), (⟨[], nameB⟩, 1)] := by
      simp [mlpVars, VarEnv.register, VarEnv.new, HMap.insert, hne, Ne.symm hne]
    rcases h2 with h2 | h2
    · right; rw [h2] at h1; exact h1
    · left; rw [h2] at h1; exact h1
  have h : VarEnv.currentVarIds order [] = [0, 1] ∨ VarEnv.currentVarIds order [] = [1, 0] := by
    rcases h with h | h
    · exact List.perm_pair.1 h
    · exact (List.perm_pair.1 h).symm
  rcases h with h | h
  · rw [h]; exact ⟨⟨_, rfl⟩, by simp, by simp⟩
  · rw [h]; exact ⟨⟨_, rfl⟩, by simp, by simp⟩

end Verif.Prog
