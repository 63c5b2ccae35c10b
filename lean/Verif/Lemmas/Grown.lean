import Verif.Lemmas.ProgramGradient

/-! The gradient of one element of a tensor of a program, in a graph with further tensors. -/

namespace Verif.Prog
open Verif Verif.Spec Verif.Gradient Verif.Graph Verif.Eval Verif.Nd Verif.Hint

section
variable {F : List (Feed (Arr ℝ))} {N : List (Arr ℝ)} {g0 : Graph POp} {Z : Nat → Prop} {p : Nat → Arr ℝ}

theorem accessElem_ok {x : Arr ℝ} {i : Nat} (hi : i < Nd.size x.shape) (hc : Contig x.shape x.strides) : ∃ v, accessElem x i = .ok v ∧ v.shape = [] := by
  obtain ⟨f, hf⟩ : ∃ f, intoShape x [Nd.size x.shape] = some f := by
    unfold intoShape
    rw [if_pos (by simp [Nd.size])]
    rcases hc with h | ⟨h1, h2⟩
    · rw [if_pos h]; exact ⟨_, rfl⟩
    · split
      · exact ⟨_, rfl⟩
      · rw [if_pos (by simp [h1, h2])]; exact ⟨_, rfl⟩
  refine ⟨ofFn [] (fun _ => f.get [i]), ?_, rfl⟩
  have ha : absIndex (Nd.size x.shape) (i : Int) = some i := by simp [absIndex]
  rw [accessElem, hf]
  simp only [unwrap, bind, Except.bind, ha, if_pos hi]

/-- The gradient of an element. -/
theorem grad_index {x i : Nat} {yv gv : Arr ℝ} {g g' : Graph POp} {y gy : Nat} {gxs : List (Option Nat)}
    (hi : i < Nd.size (p x).shape) (hys : yv.shape = []) (hctx : GradCtx F N Z p (.index i) [x] g y gy yv gv)
    (h : gradCmds [x] y gy (indexCmds i) [some (.t 0)] g = .ok (g', gxs)) :
    Grows g g' ∧ Contr (setting F N) g0 Z p g' ([x].map inp) gxs (fun t => inner yv.shape gv.get (fun _ => t x (unflat (p x).shape i))) := by
  have hgs := hctx.shape.trans hys
  have ha : absIndex (Nd.size (p x).shape) (i : Int) = some i := by simp [absIndex]
  have hg : accessElemGrad (p x).shape i gv = .ok (ofFn (p x).shape (fun o => if flat (p x).shape o = i then gv.get [] else 0)) := by
    simp only [accessElemGrad, ha, if_pos hi, scalarElem, if_pos hgs, bind, Except.bind]
  obtain ⟨G, ts, rfl, E⟩ := cmds_evals hctx h (.some ⟨[p x, gv], .cons rfl (.cons rfl .nil), hg⟩ .nil)
  refine ⟨G, (contr_one (E 0 _ rfl) rfl (cont_ofFn _ _)).congr fun t _ => ?_⟩
  have hin := inB_unflat hi
  rw [hys]
  have e : idxs [] = {[]} := rfl
  simp only [inner, e, Finset.sum_singleton]
  rw [Finset.sum_eq_single (unflat (p x).shape i)]
  · simp only [ofFn]
    rw [if_pos (flat_unflat hi)]
  · intro o ho hne
    simp only [ofFn]
    rw [if_neg, zero_mul]
    rintro rfl
    exact hne (unflat_flat (mem_idxs.1 ho)).symm
  · intro hn
    exact absurd (mem_idxs.2 hin) hn

/-- The calculus of a program with other linearisations. -/
noncomputable def withLin (S : Setting POp Unit (Arr ℝ)) (Z : Nat → Prop) (p : Nat → Arr ℝ) (lin : Nat → (Nat → List Nat → ℝ) → List Nat → ℝ) : Calculus POp where
  T := fun _ => List Nat → ℝ
  R := ℝ
  lin := lin
  Rep := fun g n t c => (Z n ∧ c = 0) ∨
    (¬ Z n ∧ ∃ v, Evals S g t v ∧ v.shape = (p n).shape ∧ Cont v ∧ ∀ τ : List Nat → ℝ, c τ = inner (p n).shape v.get τ)

theorem contribs_withLin {S : Setting POp Unit (Arr ℝ)} {Z' : Nat → Prop} {p' : Nat → Arr ℝ} {lin : Nat → (Nat → List Nat → ℝ) → List Nat → ℝ} {g : Graph POp}
    {is : List Incoming} {gxs : List (Option Nat)} {φ : (∀ m, (arrCalc S g0 Z p).T m) → (arrCalc S g0 Z p).R} (h : Contribs (arrCalc S g0 Z p) g is gxs φ)
    (hs : ∀ i ∈ is, (Z i.id ↔ Z' i.id) ∧ p i.id = p' i.id) : Contribs (withLin S Z' p' lin) g is gxs φ := by
  induction h with
  | nil => exact .nil
  | @some i is gx gxs c φ h1 _ ih =>
    refine .some (K := withLin S Z' p' lin) (c := c) ?_ (ih fun j hj => hs j (by simp [hj]))
    obtain ⟨e1, e2⟩ := hs i (by simp)
    show (Z' i.id ∧ c = 0) ∨ (¬ Z' i.id ∧ ∃ v, Evals S g gx v ∧ v.shape = (p' i.id).shape ∧ Cont v ∧ ∀ τ : List Nat → ℝ, c τ = inner (p' i.id).shape v.get τ)
    rw [← e1, ← e2]
    exact h1
  | none _ ih => exact .none (ih fun j hj => hs j (by simp [hj]))

end

/-- Tensor `e` is the element `i` of tensor `y`. -/
def IsElem (g : Graph POp) (e y i : Nat) : Prop :=
  ∃ nd, g.nodes[e]? = some nd ∧ nd.op = .index i ∧ nd.incoming = [inp y] ∧ nd.bpInputs = nd.incoming ∧ nd.placeholderName = none ∧ nd.variableId = none ∧ nd.differentiable = true ∧
    nd.shape = none

theorem IsElem.mono {g g' : Graph POp} {e y i : Nat} (h : IsElem g e y i) (hg : Grows g g') : IsElem g' e y i := by
  obtain ⟨nd, a, b⟩ := h
  exact ⟨nd, hg.1 _ _ a, b⟩

theorem IsElem.app {g : Graph POp} {e y i : Nat} (h : IsElem g e y i) : IsApp g e (.index i) [y] := by
  obtain ⟨nd, a, b, c, _, d, e, _⟩ := h
  exact ⟨nd, a, b, c, d, e⟩

section
variable {g : Graph POp} {xs : List Nat} {feeds : List (Feed (Arr ℝ))} {env : List (Arr ℝ)} {p : Nat → Arr ℝ}

/-- `grad` of an element computes its derivative, whatever else has been added to the graph of the program. -/
theorem grown_gradient (hP : ProgGraph g xs feeds env p) (hns : StopsStill g xs) {G : Graph POp} (hgr : Grows g G) (hbp : BpDag G) {e y i : Nat} (he : IsElem G e y i) (hem : g.nodes.length ≤ e)
    (hy : y < g.nodes.length) (hi : i < Nd.size (p y).shape) (hc : Contig (p y).shape (p y).strides)
    (pick : Graph POp → List Nat → Nat) (hpick : PicksMax pick) (fuel : Nat) (hxs : xs.Nodup) (hleaf : ∀ x ∈ xs, IsLeaf g x) (r : GradResult POp)
    (h : grad gradOps pick fuel G [e] xs = some (.ok r)) :
    ∃ D : Nat → Arr ℝ, List.Forall₂ (fun x t => Evals (setting feeds env) r.g t (D x) ∧ (D x).shape = (p x).shape) xs r.grads ∧
      ∀ (F : ℝ → List (Feed (Arr ℝ))) (N : ℝ → List (Arr ℝ)) (V : Nat → ℝ → Arr ℝ) (d : Nat → List Nat → ℝ),
        (∀ x ∈ xs, Moves (V x) (p x) (d x) ∧ ∀ u, Evals (setting (F u) (N u)) g x (V x u)) →
        (∀ x, IsLeaf g x → x ∉ xs → ∀ u, Evals (setting (F u) (N u)) g x (p x)) →
        ∃ Y : ℝ → Nat → Arr ℝ, (∀ u n, n < g.nodes.length → Evals (setting (F u) (N u)) g n (Y u n) ∧ (Y u n).shape = (p n).shape ∧ (Still g xs n → Y u n = p n)) ∧
          HasDerivAt (fun u => (Y u y).get (unflat (p y).shape i)) (xs.map (fun x => Prog.inner (p x).shape (D x).get (d x))).sum 0 := by
  have hcl : InputsExist G := hgr.2 hP.closed
  have hleaf' : ∀ x ∈ xs, IsSource G x ∧ IsDiff G x := fun x hx => by
    obtain ⟨n, hn, hl⟩ := hleaf x hx
    obtain ⟨h1, h2⟩ := hP.leaf x n hn hl
    exact ⟨⟨n, hgr.1 _ _ hn, h2⟩, n, hgr.1 _ _ hn, h1⟩
  have heG : e < G.nodes.length := by obtain ⟨nd, a, _⟩ := he; exact (List.getElem?_eq_some_iff.1 a).1
  obtain ⟨G0, sys, hs, hall⟩ := Verif.Props.C18_grad_exact gradOps pick fuel G [e] xs r hbp hpick (by simpa using heG) hxs hleaf' h
  obtain ⟨s, hsn, rfl⟩ : ∃ s, (∃ n, G0.nodes[s]? = some n ∧ n.op = .sumAll ∧ n.incoming = [inp e] ∧ n.differentiable = true ∧ n.backpropInputs = none ∧
      n.variableId = none ∧ n.placeholderName = none ∧ n.shape = none) ∧ sys = [s] := by
    have := hs.apps
    match sys, this with
    | [s], .cons h1 .nil => exact ⟨s, h1, rfl⟩
  obtain ⟨ns, hsn, hso, hsi, hsd, hsb, hsv, hsp, hss⟩ := hsn
  have hsG : G.nodes.length ≤ s := ((hs.fresh s).1 (by simp)).1
  have hgr0 : Grows g G0 := hgr.trans hs.grows
  have hcl0 : InputsExist G0 := hgr0.2 hP.closed
  have hmG : ∀ n, n < g.nodes.length → n < G.nodes.length := fun n hn => grows_lt hgr hn
  obtain ⟨ev, hev, hevs⟩ := accessElem_ok hi hc
  have n1 : ¬ e < g.nodes.length := by omega
  have n2 : ¬ s < g.nodes.length := by omega
  have n3 : s ≠ e := by omega
  -- what is known of the values
  obtain ⟨pp, hpl, hpe, hps⟩ : ∃ pp : Nat → Arr ℝ, (∀ n, n < g.nodes.length → pp n = p n) ∧ pp e = ev ∧ pp s = Nd.sumAll ev :=
    ⟨fun n => if n < g.nodes.length then p n else if n = e then ev else Nd.sumAll ev, fun n hn => if_pos hn, (if_neg n1).trans (if_pos rfl),
      (if_neg n2).trans (if_neg n3)⟩
  obtain ⟨Z, hZl, hZe, hZs, hZo⟩ : ∃ Z : Nat → Prop, (∀ n, n < g.nodes.length → (Still g xs n ↔ Z n)) ∧ ¬ Z e ∧ ¬ Z s ∧ ∀ n, g.nodes.length ≤ n → n ≠ e → n ≠ s → Z n :=
    ⟨fun n => Still g xs n ∨ (g.nodes.length ≤ n ∧ n ≠ e ∧ n ≠ s), fun n hn => ⟨.inl, fun h => h.resolve_right fun h => by omega⟩,
      fun h => h.elim (fun h => by have := still_lt h; omega) (fun h => h.2.1 rfl), fun h => h.elim (fun h => by have := still_lt h; omega) (fun h => h.2.2 rfl),
      fun n h1 h2 h3 => .inr ⟨h1, h2, h3⟩⟩
  have hGd := summed_good hP summed_nil (by simp)
  have hlow : ∀ n, n < g.nodes.length → withSums g p g n = p n := fun n hn => if_pos hn
  obtain ⟨lin, hll, hle, hls, hlo⟩ : ∃ lin : Nat → (Nat → List Nat → ℝ) → List Nat → ℝ,
      (∀ n, n < g.nodes.length → ∀ t, lin n t = (arrCalc (setting feeds env) g (Still g xs) (withSums g p g)).lin n t) ∧
      (∀ t, lin e t = fun _ => mask Z t y (unflat (p y).shape i)) ∧ (∀ t, lin s t = fun _ => t e []) ∧ ∀ n t, g.nodes.length ≤ n → n ≠ e → n ≠ s → lin n t = 0 := by
    classical
    refine ⟨fun n t => if n < g.nodes.length then (arrCalc (setting feeds env) g (Still g xs) (withSums g p g)).lin n t
      else if n = e then fun _ => mask Z t y (unflat (p y).shape i) else if n = s then fun _ => t e [] else 0, fun n hn t => if_pos hn, ?_, ?_, ?_⟩
    · intro t
      exact (if_neg n1).trans (if_pos rfl)
    · intro t
      exact (if_neg n2).trans ((if_neg n3).trans (if_pos rfl))
    · intro n t h1 h2 h3
      exact (if_neg (by omega)).trans ((if_neg h2).trans (if_neg h3))
  have he0 := he.mono hs.grows
  have hEe : Evals (setting feeds env) G0 e ev := evals_run he0.app (.cons (Evals.mono hgr0 hP.closed (hP.evals y hy)) .nil) hev
  have hsa : IsApp G0 s .sumAll [e] := ⟨ns, hsn, hso, hsi, hsp, hsv⟩
  have hEs : Evals (setting feeds env) G0 s (Nd.sumAll ev) := evals_run hsa (.cons hEe .nil) rfl
  have hnode : ∀ (n : Nat) (nd : Node POp), G0.nodes[n]? = some nd → n < g.nodes.length → g.nodes[n]? = some nd := by
    intro n nd hn hlt
    have := hgr0.1 _ _ (List.getElem?_eq_getElem hlt)
    rw [hn] at this; cases this
    exact List.getElem?_eq_getElem hlt
  have hbpn : ∀ (n : Nat) (nd : Node POp), g.nodes[n]? = some nd → ∀ j ∈ nd.bpInputs, j.id < g.nodes.length := by
    intro n nd hn j hj
    obtain ⟨m, hm, _⟩ := (hP.bpDag n nd hn).2 j hj
    exact (List.getElem?_eq_some_iff.1 hm).1
  have hebp : ∀ nd, G0.nodes[e]? = some nd → nd.bpInputs = [inp y] ∧ nd.op = .index i ∧ nd.incoming = [inp y] := by
    intro nd hn
    obtain ⟨nd', a, b, c, d, _⟩ := he0
    rw [hn] at a; cases a
    exact ⟨d.trans c, b, c⟩
  have hsbp : ∀ nd, G0.nodes[s]? = some nd → nd.bpInputs = [inp e] := by
    intro nd hn
    rw [hsn] at hn; cases hn
    simp [Node.bpInputs, hsb, hsi]
  have hreach : ∀ n, ReachedFrom G0 [s] n → n < g.nodes.length ∨ n = e ∨ n = s := by
    intro n hn
    induction hn with
    | here h => exact .inr (.inr (by simpa using h))
    | step _ _ hb ih =>
      obtain ⟨nd, hn, j, hj, rfl⟩ := hb
      rcases ih with ih | rfl | rfl
      · exact .inl (hbpn _ nd (hnode _ nd hn ih) j hj)
      · rw [(hebp nd hn).1] at hj
        simp at hj
        subst hj
        exact .inl hy
      · rw [hsbp nd hn] at hj
        simp at hj
        subst hj
        exact .inr (.inl rfl)
  have hloc : LocalLin (withLin (setting feeds env) Z pp lin) G0 := by
    intro n nd (t : Nat → List Nat → ℝ) (t' : Nat → List Nat → ℝ) hn ht
    show lin n t = lin n t'
    by_cases hlt : n < g.nodes.length
    · rw [hll n hlt, hll n hlt]
      exact good_local hGd n nd t t' (hnode n nd hn hlt) ht
    · by_cases h1 : n = e
      · subst h1
        have := ht (inp y) (by rw [(hebp nd hn).1]; simp)
        rw [hle, hle]
        have hm : mask Z t y = mask Z t' y := by
          by_cases hz : Z y
          · rw [mask_pos hz, mask_pos hz]
          · rw [mask_neg hz, mask_neg hz]; exact this
        rw [hm]
      · by_cases h2 : n = s
        · subst h2
          have := ht (inp e) (by rw [hsbp nd hn]; simp)
          rw [hls, hls]
          exact funext fun _ => congrFun this []
        · rw [hlo n t (by omega) h1 h2, hlo n t' (by omega) h1 h2]
  have hsound : GradSound (withLin (setting feeds env) Z pp lin) G0 (ReachedFrom G0 [s]) gradOps.addN gradOps.zeros gradOps.shapeOp gradOps.opGrad := by
    refine ⟨?_, ?_, ?_, ?_, ?_⟩
    · rintro h h' n t c hg hg' (h0 | ⟨hz, v, h1, h2⟩)
      · exact .inl h0
      · exact .inr ⟨hz, v, Evals.mono hg' (hg.2 hcl0) h1, h2⟩
    · intro h n s ts cs hg hl ha hts
      exact rep_addN (g0 := G0) (Z := Z) (p := pp) hl ha hts
    · intro h x nx z sh hg hx hz hsh
      refine rep_zeros (g0 := G0) (Z := Z) (p := pp) (fun hzx => ?_) (hg.1 _ _ hx) hz hsh
      by_cases hlt : x < g.nodes.length
      · rw [hpl x hlt]
        exact ⟨Evals.mono (hgr0.trans hg) hP.closed (hP.evals x hlt), Hinted.grows (hgr0.trans hg) hP.closed hlt (hP.hint x hlt)⟩
      · by_cases h1 : x = e
        · subst h1
          rw [hpe]
          refine ⟨Evals.mono hg hcl0 hEe, fun nd t hn ht => ?_⟩
          obtain ⟨nd', a, _, _, _, _, _, _, b⟩ := he0.mono hg
          rw [hn] at a; cases a
          rw [b] at ht; cases ht
        · by_cases h2 : x = s
          · subst h2
            rw [hps]
            refine ⟨Evals.mono hg hcl0 hEs, fun nd t hn ht => ?_⟩
            rw [hg.1 _ _ hsn] at hn; cases hn
            rw [hss] at ht; cases ht
          · exact absurd (hZo x (by omega) h1 h2) hzx
    · intro n nd (t : Nat → List Nat → ℝ) hn ht
      refine (hloc n nd t (fun _ => (0 : List Nat → ℝ)) hn ht).trans ?_
      show lin n (fun _ => 0) = 0
      by_cases hlt : n < g.nodes.length
      · rw [hll n hlt]
        exact (good_sound (D := fun _ => True) hGd).lin_zero (hnode n nd hn hlt) fun j hj => rfl
      · by_cases h1 : n = e
        · subst h1
          rw [hle]
          funext _
          by_cases hz : Z y
          · rw [mask_pos hz]; rfl
          · rw [mask_neg hz]; rfl
        · by_cases h2 : n = s
          · subst h2; rw [hls]; rfl
          · exact hlo n _ (by omega) h1 h2
    · intro n nd h h' gy gxs c hD hg hn hd hrep hgx
      rcases hreach n hD with hlt | rfl | rfl
      · have hn' := hnode n nd hn hlt
        obtain ⟨k1, φ, k2, k3⟩ := (good_sound (D := fun _ => True) hGd).opGrad (c := c) trivial (hgr0.trans hg) hn' hd (by
          show (Still g xs n ∧ c = 0) ∨ (¬ Still g xs n ∧ ∃ v, Evals (setting feeds env) h gy v ∧ v.shape = (withSums g p g n).shape ∧ Cont v ∧
            ∀ τ : List Nat → ℝ, c τ = inner (withSums g p g n).shape v.get τ)
          rw [hZl n hlt, hlow n hlt, ← hpl n hlt]
          exact hrep) hgx
        refine ⟨k1, φ, contribs_withLin k2 fun j hj => ?_, fun (t : Nat → List Nat → ℝ) => ?_⟩
        · have := hbpn n nd hn' j hj
          exact ⟨hZl _ this, by rw [hlow _ this, hpl _ this]⟩
        · show c (lin n t) = φ t
          rw [hll n hlt]
          exact k3 t
      · obtain ⟨e1, e2, e3⟩ := hebp nd hn
        simp only [gradOps, POp.opGrad, bind_ok, lift_ok] at hgx
        obtain ⟨nd', hnd, hgx⟩ := hgx
        rw [access_some] at hnd
        rw [hg.1 _ _ hn] at hnd; cases hnd
        rw [e2, e3] at hgx
        obtain ⟨hz, v, h1, h2, h3, h4⟩ := hrep.resolve_left fun h => hZe h.1
        rw [hpe] at h2 h4
        have hppy := hpl y hy
        obtain ⟨f1, φ, f2, f3⟩ := grad_index (g0 := G0) (Z := Z) (F := feeds) (N := env) (p := pp) (x := y) (i := i) (yv := ev) (gv := v) (by rw [hppy]; exact hi) hevs
          ⟨by rw [List.map_cons, List.map_nil, hppy]; exact hev, hg.2 hcl0,
            by
              intro x hx
              have : x = y := by simpa using hx
              subst this
              rw [hppy]; exact Evals.mono (hgr0.trans hg) hP.closed (hP.evals _ hy),
            by
              intro x hx
              have : x = y := by simpa using hx
              subst this
              rw [hppy]; exact Hinted.grows (hgr0.trans hg) hP.closed hy (hP.hint _ hy),
            (he0.mono hg).app, Evals.mono hg hcl0 hEe, h1, h2, h3, by simp [fixedIn]⟩ hgx
        refine ⟨f1, φ, ?_, fun (t : Nat → List Nat → ℝ) => ?_⟩
        · rw [e1]
          exact contribs_withLin f2 fun j _ => ⟨Iff.rfl, rfl⟩
        · show c (lin _ t) = φ t
          rw [hle, ← f3 t, hppy]
          exact h4 _
      · have e1 := hsbp nd hn
        rw [hsn] at hn; cases hn
        simp only [gradOps, POp.opGrad, bind_ok, lift_ok] at hgx
        obtain ⟨nd', hnd, hgx⟩ := hgx
        rw [access_some] at hnd
        rw [hg.1 _ _ hsn] at hnd; cases hnd
        rw [hso, hsi] at hgx
        obtain ⟨hz, v, h1, h2, h3, h4⟩ := hrep.resolve_left fun h => hZs h.1
        rw [hps] at h2 h4
        obtain ⟨f1, φ, f2, f3⟩ := op_grad (g0 := G0) (Z := Z) (F := feeds) (N := env) (p := pp) (op := .sumAll) (xs := [e]) (yv := Nd.sumAll ev) (gv := v) (flat := fun _ _ => True) trivial
          ⟨by rw [List.map_cons, List.map_nil, hpe]; rfl, hg.2 hcl0,
            by
              intro x hx
              have : x = e := by simpa using hx
              subst this
              rw [hpe]; exact Evals.mono hg hcl0 hEe,
            by
              intro x hx
              have : x = e := by simpa using hx
              subst this
              intro nd t hn ht
              obtain ⟨nd', a, _, _, _, _, _, _, b⟩ := he0.mono hg
              rw [hn] at a; cases a
              rw [b] at ht
              exact absurd ht (by simp),
            isApp_mono hg hsa, Evals.mono hg hcl0 hEs, h1, h2, h3, by simp [fixedIn]⟩ hgx
        refine ⟨f1, φ, ?_, fun (t : Nat → List Nat → ℝ) => ?_⟩
        · rw [e1]
          exact contribs_withLin f2 fun j _ => ⟨Iff.rfl, rfl⟩
        · show c (lin _ t) = φ t
          rw [hls, ← f3 t]
          refine (h4 _).trans ?_
          congr 1
          show _ = fun _ => ∑ j ∈ idxs (pp e).shape, mask Z t e j
          rw [hpe, hevs, mask_neg hZe]
          have e' : idxs [] = {[]} := rfl
          funext _
          simp [e']
  obtain ⟨_, cov, hcov, hmov⟩ := hall (withLin (setting feeds env) Z pp lin) (fun _ => innerHom [] (fun _ => 1)) (fun _ => innerHom [] (fun _ => 1)) hsound hloc
    (by
      intro g1 o hg1 ho s' hsm
      have : s' = s := by simpa using hsm
      subst this
      refine .inr ⟨hZs, ofFn [] (fun _ => 1), evals_run ho .nil rfl, by rw [hps]; rfl, cont_ofFn _ _, fun τ => ?_⟩
      rw [hps]
      rfl)
    (by
      intro s' hsm y' happ (t : Nat → List Nat → ℝ)
      have : s' = s := by simpa using hsm
      subst this
      have : y' = e := by simpa using (app_unique happ hsa).2
      subst this
      show Prog.inner [] (fun _ => 1) (lin s' t) = Prog.inner [] (fun _ => 1) (t y')
      rw [hls]
      rfl)
  have hxl : ∀ x ∈ xs, x < g.nodes.length := fun x hx => by
    obtain ⟨n, hn, _⟩ := hleaf x hx
    exact (List.getElem?_eq_some_iff.1 hn).1
  obtain ⟨D, hD1⟩ := forall₂_choose (P := fun x t v => Evals (setting feeds env) r.g t v ∧ v.shape = (p x).shape ∧
    ∀ τ : List Nat → ℝ, cov x τ = Prog.inner (p x).shape v.get τ) (ofFn [] (fun _ => 0)) hxs (forall₂_of_mem hcov fun x t hx hr => by
      obtain ⟨v, h1, h2, _, h3⟩ := (hr.resolve_left fun h => not_still (hleaf x hx) hx ((hZl x (hxl x hx)).2 h.1)).2
      rw [hpl x (hxl x hx)] at h2 h3
      exact ⟨v, h1, h2, h3⟩)
  have hDx : ∀ x ∈ xs, ∀ τ : List Nat → ℝ, cov x τ = Prog.inner (p x).shape (D x).get τ := fun x hx => by
    obtain ⟨k, hk⟩ := List.mem_iff_getElem?.1 hx
    obtain ⟨t, _, ht⟩ := (forall₂_get hD1).2 k x hk
    exact ht.2.2
  refine ⟨D, hD1.imp fun x t h => ⟨h.1, h.2.1⟩, fun F N V d hV hfix => ?_⟩
  obtain ⟨t0, Y, ht0, htd, hst, hY⟩ := graph_moves_sums hP hleaf summed_nil (by simp) F N V d (held_self hns) hV hfix
  have hmem : ∀ x, x ∈ xs.toFinset ↔ x ∈ xs := fun x => List.mem_toFinset
  refine ⟨fun u y => Y y u, fun u n hn => ⟨(hY n hn).1 u, (hY n hn).2.1.shape u, fun h => (hY n hn).2.2 h u⟩, ?_⟩
  obtain ⟨t1, h1l, h1e, h1o⟩ : ∃ t1 : Nat → List Nat → ℝ, (∀ n, n < g.nodes.length → t1 n = t0 n) ∧ (t1 e = fun _ => t0 y (unflat (p y).shape i)) ∧
      ∀ n, g.nodes.length ≤ n → n ≠ e → t1 n = 0 := by
    classical
    refine ⟨fun n => if n < g.nodes.length then t0 n else if n = e then fun _ => t0 y (unflat (p y).shape i) else 0, fun n hn => if_pos hn, ?_, ?_⟩
    · exact (if_neg n1).trans (if_pos rfl)
    · intro n h1 h2
      exact (if_neg (by omega)).trans (if_neg h2)
  have hmy : mask Z t1 y = t0 y := by
    by_cases hz : Z y
    · rw [mask_pos hz, hst y ((hZl y hy).2 hz)]
    · rw [mask_neg hz, h1l y hy]
  have hsrc : ∀ n, n < g.nodes.length → (IsDiff G n ↔ IsDiff g n) ∧ (IsSource G n ↔ IsSource g n) := by
    intro n hn
    have h1 := List.getElem?_eq_getElem hn
    have h2 := hgr.1 _ _ h1
    exact ⟨by simp [IsDiff, h1, h2], by simp [IsSource, h1, h2]⟩
  have hM : MovedBy (withLin (setting feeds env) Z pp lin) G xs.toFinset t1 := by
    constructor
    · intro n hnx hd hns
      show t1 n = lin n t1
      by_cases hlt : n < g.nodes.length
      · obtain ⟨a, b⟩ := hsrc n hlt
        rw [h1l n hlt, hll n hlt]
        refine (ht0.op n hnx (a.1 hd) fun h => hns (b.2 h)).trans ?_
        refine good_local hGd n g.nodes[n] t0 t1 (List.getElem?_eq_getElem hlt) fun j hj => ?_
        exact (h1l _ (hbpn n _ (List.getElem?_eq_getElem hlt) j hj)).symm
      · by_cases h1 : n = e
        · subst h1
          rw [h1e, hle, hmy]
        · obtain ⟨nd, hn, _⟩ := hd
          have : n < G.nodes.length := (List.getElem?_eq_some_iff.1 hn).1
          rw [h1o n (by omega) h1, hlo n t1 (by omega) h1 (by omega)]
    · intro n hnx hor
      show t1 n = 0
      by_cases hlt : n < g.nodes.length
      · obtain ⟨a, b⟩ := hsrc n hlt
        rw [h1l n hlt]
        exact ht0.fixed n hnx (by rwa [a, b] at hor)
      · by_cases h1 : n = e
        · subst h1
          exfalso
          obtain ⟨nd, a, _, b, _, _, _, c, _⟩ := he
          rcases hor with h | ⟨nd', a', b'⟩
          · exact h ⟨nd, a, c⟩
          · rw [a] at a'; cases a'
            rw [b] at b'; cases b'
        · exact h1o n (by omega) h1
  have h1 : ([e].map (fun y => (innerHom [] (fun _ => 1) : (List Nat → ℝ) →+ ℝ) (t1 y))).sum = (xs.map (fun x => (cov x : (List Nat → ℝ) →+ ℝ) (t1 x))).sum := hmov t1 hM
  have hd : t0 y (unflat (p y).shape i) = (xs.map (fun x => Prog.inner (p x).shape (D x).get (d x))).sum := by
    have e0 : ([e].map (fun y => (innerHom [] (fun _ => 1) : (List Nat → ℝ) →+ ℝ) (t1 y))).sum = t0 y (unflat (p y).shape i) := by
      have e' : idxs [] = {[]} := rfl
      have e2 : (innerHom [] (fun _ => 1) : (List Nat → ℝ) →+ ℝ) (t1 e) = t0 y (unflat (p y).shape i) := by
        rw [h1e]
        show Prog.inner [] (fun _ => 1) (fun _ => t0 y (unflat (p y).shape i)) = _
        simp [Prog.inner, e']
      simpa using e2
    rw [← e0, h1]
    congr 1
    refine List.map_congr_left fun x hx => ?_
    rw [h1l x (hxl x hx), htd x ((hmem x).2 hx)]
    exact hDx x hx (d x)
  rw [← hd]
  exact (hY y hy).2.1.deriv _ (inB_unflat hi)

end

end Verif.Prog
