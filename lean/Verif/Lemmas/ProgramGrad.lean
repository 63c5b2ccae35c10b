import Verif.Lemmas.ProgramConv
import Verif.Lemmas.ProgramEntropy
import Verif.Lemmas.ProgramExtremum
import Verif.Lemmas.ProgramMean
import Verif.Lemmas.ProgramRearrange
import Verif.Lemmas.ProgramReduceTo

/-! The tensors built by the gradient functions of the ops of a program represent the adjoints of `jvp`. -/

namespace Verif.Prog
open Verif Verif.Graph Verif.Nd Verif.Hint Verif.Gradient Verif.Spec Verif.Eval

section
variable {F : List (Feed (Arr ℝ))} {N : List (Arr ℝ)} {g0 : Graph POp} {Z : Nat → Prop} {p : Nat → Arr ℝ}

/-- The gradients built for the inputs of a tensor represent the adjoint of `jvp`. -/
theorem op_grad {flat : Nat → List Nat → Prop} {op : POp} {xs : List Nat} {yv gv : Arr ℝ} {g g' : Graph POp} {y gy : Nat} {gxs : List (Option Nat)} (hok : OpOk flat p op xs)
    (hctx : GradCtx F N Z p op xs g y gy yv gv) (h : gradOf g y gy op xs = .ok (g', gxs)) :
    Grows g g' ∧ Contr (setting F N) g0 Z p g' (xs.map inp) gxs (fun t => inner yv.shape gv.get (jvp p t op xs)) := by
  have hctx' := hctx
  obtain ⟨hr, hc, hx, hh, happ, hy, hg, hgs, hgc, hfix⟩ := hctx'
  unfold OpOk at hok
  split at hok
  · cases h; exact ⟨grows_refl _, contr_nil.congr fun t _ => by simp [jvp, inner]⟩
  · cases h; exact ⟨grows_refl _, contr_nil.congr fun t _ => by simp [jvp, inner]⟩
  · cases h; exact ⟨grows_refl _, (contr_none _ _ rfl).congr fun t _ => by simp [jvp, inner]⟩
  · cases h; exact ⟨grows_refl _, (contr_none _ _ rfl).congr fun t _ => by simp [jvp, inner]⟩
  · cases h; exact ⟨grows_refl _, (contr_none _ _ rfl).congr fun t _ => by simp [jvp, inner]⟩
  · rename_i x y' zs
    cases h
    have hs : ∀ z ∈ x :: y' :: zs, (p z).shape = (p x).shape := fun z hz => by
      rcases List.mem_cons.1 hz with rfl | hz
      · rfl
      · exact hok z hz
    obtain ⟨w, hw, hws, _⟩ := addN_value ((x :: y' :: zs).map p) (p x).shape (by simp) (by
      intro w hw; obtain ⟨z, hz, rfl⟩ := List.mem_map.1 hw; exact hs z hz)
    have hr' : Nd.addN ((x :: y' :: zs).map p) = .ok yv := hr
    rw [hw] at hr'; cases hr'
    exact ⟨grows_refl _, (contr_all hg hgc (p x).shape (hgs.trans hws) _ hs).congr fun t _ => by rw [hws]; rfl⟩
  · rename_i a b
    obtain ⟨hcs, hpos, hra, hrb⟩ := inferable_common (.inl hr) hok
    rw [← hgs] at hcs hpos hra hrb
    obtain ⟨r0, e0, s0, f0⟩ := maybeReduce_spec gv hcs.1 hra hpos
    obtain ⟨r1, e1, s1, f1⟩ := maybeReduce_spec gv hcs.2.1 hrb hpos
    have xa := hx a (by simp); have xb := hx b (by simp)
    simp only [gradOf, bind_ok] at h
    obtain ⟨⟨g1, i1⟩, h1, ⟨g2, i2⟩, h2, ⟨g3, i3⟩, h3, ⟨g4, i4⟩, h4, h⟩ := h
    cases h
    obtain ⟨G1, C1, E1⟩ := mkShape_evals h1 hc xa (hh a (by simp))
    obtain ⟨G2, C2, E2⟩ := mkShape_evals h2 C1 (Evals.mono G1 hc xb) ((hh b (by simp)).grows G1 hc (evals_lt xb))
    have G12 := G1.trans G2
    obtain ⟨G3, C3, E3⟩ := mk_evals h3 C2 .maybeReduce [gy, i1] [gv, encShape (p a).shape] r0 rfl
      (.cons (Evals.mono G12 hc hg) (.cons (Evals.mono G2 C1 E1) .nil)) (run_maybeReduce e0)
    have G13 := G12.trans G3
    obtain ⟨G4, C4, E4⟩ := mk_evals h4 C3 .maybeReduce [gy, i2] [gv, encShape (p b).shape] r1 rfl
      (.cons (Evals.mono G13 hc hg) (.cons (Evals.mono G3 C2 E2) .nil)) (run_maybeReduce e1)
    refine ⟨G13.trans G4, (contr_two (Evals.mono G4 C3 E3) s0 (cont_maybeReduce hgc e0) E4 s1 (cont_maybeReduce hgc e1)).congr fun t _ => ?_⟩
    rw [← hgs]
    have j0 := f0.adjoint (t a); have j1 := f1.adjoint (t b)
    rw [s0] at j0; rw [s1] at j1
    simp only [inner, j0, j1, jvp, mul_add, Finset.sum_add_distrib]
  · rename_i a b
    obtain ⟨hcs, hpos, hra, hrb⟩ := inferable_common (.inr (.inl hr)) hok
    rw [← hgs] at hcs hpos hra hrb
    obtain ⟨r0, e0, s0, f0⟩ := maybeReduce_spec gv hcs.1 hra hpos
    obtain ⟨r1, e1, s1, f1⟩ := maybeReduce_spec gv hcs.2.1 hrb hpos
    have xa := hx a (by simp); have xb := hx b (by simp)
    simp only [gradOf, bind_ok] at h
    obtain ⟨⟨g1, i1⟩, h1, ⟨g2, i2⟩, h2, ⟨g3, i3⟩, h3, ⟨g4, i4⟩, h4, ⟨g5, i5⟩, h5, h⟩ := h
    cases h
    obtain ⟨G1, C1, E1⟩ := mkShape_evals h1 hc xa (hh a (by simp))
    obtain ⟨G2, C2, E2⟩ := mkShape_evals h2 C1 (Evals.mono G1 hc xb) ((hh b (by simp)).grows G1 hc (evals_lt xb))
    have G12 := G1.trans G2
    obtain ⟨G3, C3, E3⟩ := mk_evals h3 C2 .maybeReduce [gy, i1] [gv, encShape (p a).shape] r0 rfl
      (.cons (Evals.mono G12 hc hg) (.cons (Evals.mono G2 C1 E1) .nil)) (run_maybeReduce e0)
    have G13 := G12.trans G3
    obtain ⟨G4, C4, E4⟩ := mk_evals h4 C3 .maybeReduce [gy, i2] [gv, encShape (p b).shape] r1 rfl
      (.cons (Evals.mono G13 hc hg) (.cons (Evals.mono G3 C2 E2) .nil)) (run_maybeReduce e1)
    obtain ⟨G5, C5, E5⟩ := mk_evals h5 C4 (.un .neg) [i4] [r1] (EOp.neg.compute r1) rfl (.cons E4 .nil) rfl
    refine ⟨(G13.trans G4).trans G5, (contr_two (Evals.mono (G4.trans G5) C3 E3) s0 (cont_maybeReduce hgc e0) E5 s1 (cont_map (cont_maybeReduce hgc e1) _)).congr fun t _ => ?_⟩
    rw [← hgs]
    have j0 := f0.adjoint (t a); have j1 := f1.adjoint (t b)
    rw [s0] at j0; rw [s1] at j1
    have j2 : inner (p b).shape (EOp.neg.compute r1).get (t b) = -∑ idx ∈ idxs gv.shape, gv.get idx * t b (bIdx (p b).shape idx) := by
      rw [← j1, ← Finset.sum_neg_distrib]
      exact Finset.sum_congr rfl fun i _ => neg_mul _ _
    rw [j2]
    simp only [inner, j0, jvp, mul_sub, Finset.sum_sub_distrib]
    exact sub_eq_add_neg _ _
  · rename_i a b
    obtain ⟨hcs, hpos, hra, hrb⟩ := inferable_common (.inr (.inr (.inl hr))) hok
    rw [← hgs] at hcs hpos hra hrb
    obtain ⟨a0, d0, b0⟩ := mulOp_spec (x0 := gv) (x1 := p b) (commonShape_left hcs.2.1) hpos
    obtain ⟨a1, d1, b1⟩ := mulOp_spec (x0 := gv) (x1 := p a) (commonShape_left hcs.1) hpos
    obtain ⟨r0, e0, s0, f0⟩ := maybeReduce_spec a0 (s := (p a).shape) (by rw [b0.1]; exact hcs.1) (by rw [b0.1]; exact hra) (by rw [b0.1]; exact hpos)
    obtain ⟨r1, e1, s1, f1⟩ := maybeReduce_spec a1 (s := (p b).shape) (by rw [b1.1]; exact hcs.2.1) (by rw [b1.1]; exact hrb) (by rw [b1.1]; exact hpos)
    have xa := hx a (by simp); have xb := hx b (by simp)
    simp only [gradOf, bind_ok] at h
    obtain ⟨⟨g1, i1⟩, h1, ⟨g2, i2⟩, h2, ⟨g3, i3⟩, h3, ⟨g4, i4⟩, h4, ⟨g5, i5⟩, h5, ⟨g6, i6⟩, h6, h⟩ := h
    cases h
    obtain ⟨G1, C1, E1⟩ := mkShape_evals h1 hc xa (hh a (by simp))
    obtain ⟨G2, C2, E2⟩ := mkShape_evals h2 C1 (Evals.mono G1 hc xb) ((hh b (by simp)).grows G1 hc (evals_lt xb))
    have G12 := G1.trans G2
    obtain ⟨G3, C3, E3⟩ := mk_evals h3 C2 .mul [gy, b] [gv, p b] a0 rfl (.cons (Evals.mono G12 hc hg) (.cons (Evals.mono G12 hc xb) .nil)) d0
    have G13 := G12.trans G3
    obtain ⟨G4, C4, E4⟩ := mk_evals h4 C3 .mul [gy, a] [gv, p a] a1 rfl (.cons (Evals.mono G13 hc hg) (.cons (Evals.mono G13 hc xa) .nil)) d1
    obtain ⟨G5, C5, E5⟩ := mk_evals h5 C4 .maybeReduce [i3, i1] [a0, encShape (p a).shape] r0 rfl
      (.cons (Evals.mono G4 C3 E3) (.cons (Evals.mono ((G2.trans G3).trans G4) C1 E1) .nil)) (run_maybeReduce e0)
    obtain ⟨G6, C6, E6⟩ := mk_evals h6 C5 .maybeReduce [i4, i2] [a1, encShape (p b).shape] r1 rfl
      (.cons (Evals.mono G5 C4 E4) (.cons (Evals.mono ((G3.trans G4).trans G5) C2 E2) .nil)) (run_maybeReduce e1)
    refine ⟨((G13.trans G4).trans G5).trans G6, (contr_two (Evals.mono G6 C5 E5) s0 (cont_maybeReduce (cont_bin hgc hcs.2.1 d0) e0) E6 s1 (cont_maybeReduce (cont_bin hgc hcs.1 d1) e1)).congr fun t _ => ?_⟩
    rw [← hgs]
    have j0 := f0.adjoint (t a); have j1 := f1.adjoint (t b)
    rw [s0, b0.1] at j0; rw [s1, b1.1] at j1
    simp only [inner, j0, j1, jvp, ← Finset.sum_add_distrib]
    refine Finset.sum_congr rfl fun i hi => ?_
    have hi := mem_idxs.1 hi
    rw [b0.2 i hi, b1.2 i hi, bIdx_self hi]
    ring
  · rename_i a b
    obtain ⟨hcs, hpos, hra, hrb⟩ := inferable_common (.inr (.inr (.inr hr))) hok.1
    rw [← hgs] at hcs hpos hra hrb
    obtain ⟨a0, d0, b0⟩ := divOp_spec (x0 := gv) (x1 := p b) (commonShape_left hcs.2.1) (ne_zero_shape hpos) (fun _ => hok.2.1)
    obtain ⟨c, dc, bc⟩ := mulOp_spec (x0 := EOp.neg.compute (p a)) (x1 := EOp.compute (.pow (-2)) (p b)) (t := gv.shape) hcs hpos
    obtain ⟨a1, d1, b1⟩ := mulOp_spec (x0 := c) (x1 := gv) (t := gv.shape) (by rw [bc.1]; exact commonShape_left (broadcastsTo_self _)) hpos
    obtain ⟨r0, e0, s0, f0⟩ := maybeReduce_spec a0 (s := (p a).shape) (by rw [b0.1]; exact hcs.1) (by rw [b0.1]; exact hra) (by rw [b0.1]; exact hpos)
    obtain ⟨r1, e1, s1, f1⟩ := maybeReduce_spec a1 (s := (p b).shape) (by rw [b1.1]; exact hcs.2.1) (by rw [b1.1]; exact hrb) (by rw [b1.1]; exact hpos)
    have xa := hx a (by simp); have xb := hx b (by simp)
    simp only [gradOf, bind_ok] at h
    obtain ⟨⟨g1, i1⟩, h1, ⟨g2, i2⟩, h2, ⟨g3, i3⟩, h3, ⟨g4, i4⟩, h4, ⟨g5, i5⟩, h5, ⟨g6, i6⟩, h6, ⟨g7, i7⟩, h7, ⟨g8, i8⟩, h8, ⟨g9, i9⟩, h9, h⟩ := h
    cases h
    obtain ⟨G1, C1, E1⟩ := mkShape_evals h1 hc xa (hh a (by simp))
    obtain ⟨G2, C2, E2⟩ := mkShape_evals h2 C1 (Evals.mono G1 hc xb) ((hh b (by simp)).grows G1 hc (evals_lt xb))
    have G12 := G1.trans G2
    obtain ⟨G3, C3, E3⟩ := mk_evals h3 C2 .div [gy, b] [gv, p b] a0 rfl (.cons (Evals.mono G12 hc hg) (.cons (Evals.mono G12 hc xb) .nil)) d0
    have G13 := G12.trans G3
    obtain ⟨G4, C4, E4⟩ := mk_evals h4 C3 (.un .neg) [a] [p a] _ rfl (.cons (Evals.mono G13 hc xa) .nil) rfl
    have G14 := G13.trans G4
    obtain ⟨G5, C5, E5⟩ := mk_evals h5 C4 (.un (.pow (-2))) [b] [p b] _ rfl (.cons (Evals.mono G14 hc xb) .nil) rfl
    have G15 := G14.trans G5
    obtain ⟨G6, C6, E6⟩ := mk_evals h6 C5 .mul [i4, i5] [_, _] c rfl (.cons (Evals.mono G5 C4 E4) (.cons E5 .nil)) dc
    have G16 := G15.trans G6
    obtain ⟨G7, C7, E7⟩ := mk_evals h7 C6 .mul [i6, gy] [c, gv] a1 rfl (.cons E6 (.cons (Evals.mono G16 hc hg) .nil)) d1
    have G37 := ((G4.trans G5).trans G6).trans G7
    have G27 := G3.trans G37
    obtain ⟨G8, C8, E8⟩ := mk_evals h8 C7 .maybeReduce [i3, i1] [a0, encShape (p a).shape] r0 rfl
      (.cons (Evals.mono G37 C3 E3) (.cons (Evals.mono (G2.trans G27) C1 E1) .nil)) (run_maybeReduce e0)
    obtain ⟨G9, C9, E9⟩ := mk_evals h9 C8 .maybeReduce [i7, i2] [a1, encShape (p b).shape] r1 rfl
      (.cons (Evals.mono G8 C7 E7) (.cons (Evals.mono (G27.trans G8) C2 E2) .nil)) (run_maybeReduce e1)
    refine ⟨((G12.trans G27).trans G8).trans G9, (contr_two (Evals.mono G9 C8 E8) s0 (cont_maybeReduce (cont_div hgc hcs.2.1 d0) e0) E9 s1 (cont_maybeReduce (cont_bin_right hgc (by rw [bc.1]; exact broadcastsTo_self _) d1) e1)).congr fun t _ => ?_⟩
    rw [← hgs]
    have j0 := f0.adjoint (t a); have j1 := f1.adjoint (t b)
    rw [s0, b0.1] at j0; rw [s1, b1.1] at j1
    simp only [inner, j0, j1, jvp, ← Finset.sum_add_distrib]
    refine Finset.sum_congr rfl fun i hi => ?_
    have hi := mem_idxs.1 hi
    have hne := hok.2.2 _ (inB_bIdx hcs.2.1 hi)
    have ec : c.get i = -(p a).get (bIdx (p a).shape i) * (1 / ((p b).get (bIdx (p b).shape i) * (p b).get (bIdx (p b).shape i))) := by
      rw [bc.2 i hi, ← pow_neg_two]; rfl
    have ei : bIdx c.shape i = i := by rw [bc.1, bIdx_self hi]
    rw [b0.2 i hi, b1.2 i hi, bIdx_self hi, ei, ec]
    field_simp
    ring
  · rename_i op x
    have xx := hx x (by simp)
    have hv : yv = op.compute (p x) := (Except.ok.inj hr).symm
    subst hv
    have hgs : gv.shape = (p x).shape := hgs
    cases he : op.grad with
    | none =>
      simp only [gradOf, he] at h
      cases h
      refine ⟨grows_refl _, (contr_none _ _ rfl).congr fun t _ => ?_⟩
      refine Finset.sum_eq_zero fun i hi => ?_
      have hi : InB i (p x).shape := mem_idxs.1 hi
      have := (Verif.Props.C36_no_gradient op he _ (hok.1 i hi).2.1).deriv
      simp only [jvp, this, zero_mul, mul_zero]
    | some e =>
      obtain ⟨ho, hf⟩ := grad_ok he hok.2.1
      obtain ⟨r, hr', hrs, hrg⟩ := eval_rep (p x).shape (x := p x) (y := op.compute (p x)) (g := gv) rfl rfl hgs e ho
      rw [hf] at hrs
      simp only [gradOf, he, bind_ok] at h
      obtain ⟨⟨g1, i1⟩, h1, h⟩ := h
      cases h
      obtain ⟨G1, C1, E1⟩ := buildE_evals e h1 hc xx hy hg hr'
      refine ⟨G1, (contr_one (rest := []) E1 hrs (cont_eval (y := op.compute (p x)) he ho rfl rfl hgs hgc hok.2.2 hr')).congr fun t _ => ?_⟩
      refine Finset.sum_congr rfl fun i hi => ?_
      have hi : InB i (p x).shape := mem_idxs.1 hi
      have hi' := hrg i hi
      rw [hrs] at hi'
      have hi' : r.get i = e.val ((p x).get i) ((op.compute (p x)).get i) (gv.get i) := (congrArg r.get (bIdx_self hi).symm).trans hi'
      obtain ⟨d, hd1, hd2⟩ := (scalar_grad op e he ((p x).get i) (gv.get i) (hok.1 i hi).1 (hok.1 i hi).2.1 (hok.1 i hi).2.2).deriv
      rw [hi']
      have : e.val ((p x).get i) ((op.compute (p x)).get i) (gv.get i) = gv.get i * d := hd2
      rw [this]
      simp only [jvp, hd1.deriv]
      ring
  · rename_i ta tb a b
    obtain ⟨rfl, rfl⟩ := hok
    obtain ⟨m, k, n, ha, hb⟩ := matMul_run hr
    obtain ⟨w, hw, hws, hwg⟩ := matMul_value false false (p a) (p b) m k n ha hb
    have hr' : POp.run (.matMul false false) [p a, p b] = .ok yv := hr
    rw [hw] at hr'; cases hr'
    have hgs' : gv.shape = [m, n] := hgs.trans hws
    obtain ⟨ga, d0, q0⟩ := matMul_value false true gv (p b) m n k hgs' hb
    obtain ⟨gb, d1, q1⟩ := matMul_value true false (p a) gv k m n ha hgs'
    have xa := hx a (by simp); have xb := hx b (by simp)
    simp only [gradOf, bind_ok] at h
    obtain ⟨⟨g1, i1⟩, h1, ⟨g2, i2⟩, h2, h⟩ := h
    cases h
    obtain ⟨G1, C1, E1⟩ := mk_evals h1 hc (.matMul false true) [gy, b] [gv, p b] ga rfl (.cons hg (.cons xb .nil)) d0
    obtain ⟨G2, C2, E2⟩ := mk_evals h2 C1 (.matMul true false) [a, gy] [p a, gv] gb rfl
      (.cons (Evals.mono G1 hc xa) (.cons (Evals.mono G1 hc hg) .nil)) d1
    refine ⟨G1.trans G2, (contr_two (Evals.mono G2 C1 E1) (q0.1.trans ha.symm) (cont_matMul d0) E2 (q1.1.trans hb.symm) (cont_matMul d1)).congr fun t _ => ?_⟩
    rw [hws]
    obtain ⟨y0, _, z0⟩ := matMul_value false false (ofFn (p a).shape (t a)) (p b) m k n ha hb
    obtain ⟨y1, _, z1⟩ := matMul_value false false (p a) (ofFn (p b).shape (t b)) m k n ha hb
    have j0 := product_adjoint_left z0 q0
    have j1 := product_adjoint_right z1 q1
    have e0 : inner (p a).shape ga.get (t a) = inner' ([] ++ [m, n]) gv y0 := by rw [j0, ha]; rfl
    have e1 : inner (p b).shape gb.get (t b) = inner' ([] ++ [m, n]) gv y1 := by rw [j1, hb]; rfl
    rw [e0, e1]
    simp only [inner, inner', ← Finset.sum_add_distrib, List.nil_append]
    refine Finset.sum_congr rfl fun i hi => ?_
    have hi := mem_idxs.1 hi
    match i, hi with
    | [i, j], hi =>
      have hi : i < m ∧ j < n := by simpa [InB] using hi
      have hk : (p a).shape.getD 1 0 = k := by rw [ha]; rfl
      have u0 : y0.get [i, j] = ∑ q ∈ Finset.range k, t a [i, q] * (p b).get [q, j] := z0.2 [] (by simp) i hi.1 j hi.2
      have u1 : y1.get [i, j] = ∑ q ∈ Finset.range k, (p a).get [i, q] * t b [q, j] := z1.2 [] (by simp) i hi.1 j hi.2
      rw [u0, u1, ← mul_add, ← Finset.sum_add_distrib]
      simp only [jvp, hk]
      rfl
  · rename_i x
    have xx := hx x (by simp)
    have hv : yv = Nd.sumAll (p x) := (Except.ok.inj hr).symm
    subst hv
    simp only [gradOf, bind_ok] at h
    obtain ⟨⟨g1, i1⟩, h1, ⟨g2, i2⟩, h2, h⟩ := h
    cases h
    obtain ⟨G1, C1, E1⟩ := mkShape_evals h1 hc xx (hh x (by simp))
    obtain ⟨G2, C2, E2⟩ := mk_evals h2 C1 .sumAllGrad [gy, i1] [gv, encShape (p x).shape] (Nd.sumAllGrad (p x).shape gv) rfl
      (.cons (Evals.mono G1 hc hg) (.cons E1 .nil)) (by simp only [POp.run, readShape_enc, bind, Except.bind])
    refine ⟨G1.trans G2, (contr_one (rest := []) E2 rfl (cont_ofFn _ _)).congr fun t _ => ?_⟩
    show inner [] gv.get (fun _ => ∑ i ∈ idxs (p x).shape, t x i) = ∑ i ∈ idxs (p x).shape, gv.get [] * t x i
    rw [← Finset.mul_sum]
    exact Finset.sum_singleton _ _
  · rename_i keep x a
    obtain ⟨h0, ks, ha, hnd⟩ := hok
    have xx := hx x (by simp); have xa := hx a (by simp)
    obtain ⟨w, hw, hws, _⟩ := reduceForward_spec (p x) ks keep h0 hnd (axes_lt ha)
    have hr' : Nd.reduceSum (p x) (readAxes (p a)) keep = .ok yv := hr
    rw [Nd.reduceSum, normAxes_spec ha] at hr'
    have hr' := hw.symm.trans hr'
    cases hr'
    have hgs' := hgs.trans hws
    obtain ⟨r, e0, hrs, hrg⟩ := reduceGradCommon_any ha hnd h0 hgs' (.inr (.inr hgc.1))
    simp only [gradOf, bind_ok] at h
    obtain ⟨⟨g1, i1⟩, h1, ⟨g2, i2⟩, h2, h⟩ := h
    cases h
    obtain ⟨G1, C1, E1⟩ := mkShape_evals h1 hc xx (hh x (by simp))
    obtain ⟨G2, C2, E2⟩ := mk_evals h2 C1 (.reduceGrad (!keep)) [gy, i1, a] [gv, encShape (p x).shape, p a] r rfl
      (.cons (Evals.mono G1 hc hg) (.cons E1 (.cons (Evals.mono G1 hc xa) .nil)))
      (by simp only [POp.run, readShape_enc, bind, Except.bind, e0])
    refine ⟨G1.trans G2, (contr_some E2 hrs (cont_reduceGrad hgc e0) (contr_skip contr_nil)).congr fun t _ => ?_⟩
    rw [add_zero, ← hgs]
    have : inner (p x).shape r.get (t x) = ∑ o ∈ idxs (p x).shape, gv.get (reducedIdx ks keep o) * t x o :=
      Finset.sum_congr rfl fun o ho => by rw [hrg o (mem_idxs.1 ho)]
    rw [this, pullback_adjoint (reducedIdx ks keep) (t := gv.shape) (fun o ho => by rw [hgs']; exact inB_reduced ks keep ho) gv.get (t x)]
    simp only [inner, jvp, axesOf_eq ha, fibre]
  · exact grad_reduceMean hok hctx h
  · obtain ⟨k, hok⟩ := hok
    exact grad_softmax hok hctx h
  · exact grad_logSoftmax hok hctx h
  · exact grad_sigmoidCE hok hctx h
  · exact grad_sparseCE hok hctx h
  · cases h; exact ⟨grows_refl _, (contr_none _ _ rfl).congr fun t _ => by simp [jvp, inner]⟩
  · cases h; exact ⟨grows_refl _, (contr_none _ _ rfl).congr fun t _ => by simp [jvp, inner]⟩
  · rename_i x
    cases h
    have he : yv = p x := (Except.ok.inj hr).symm
    subst he
    exact ⟨grows_refl _, contr_one hg hgs hgc⟩
  · obtain ⟨los, his, hok⟩ := hok
    exact grad_slice hok hctx h
  · exact grad_squeeze hok hctx h
  · obtain ⟨rfl, hok⟩ := hok
    exact grad_transpose hok hctx h
  · obtain ⟨s, hok⟩ := hok
    exact grad_reshape hok hctx h
  · exact grad_gather hok hctx h
  · exact grad_conv2d hok hctx h
  · exact grad_maxPool hok hctx h
  · exact grad_dropout hok hctx h
  · exact grad_maybeReduce (flat := flat) hok hctx h
  · exact grad_maybeBroadcast (flat := flat) hok hctx h
  · exact grad_sumAllGrad (flat := flat) hok hctx h
  · exact grad_extremum hok hctx h
  · exact grad_reduceExt hok hctx h
  · cases h; exact ⟨grows_refl _, (contr_none _ _ rfl).congr fun t _ => by simp [jvp, inner]⟩
  · exact hok.elim

end

end Verif.Prog
