import Verif.Lemmas.ProgramContr
import Verif.Lemmas.ProgramMean

/-! `MaybeReduceSum`, `MaybeBroadcast` and `ReduceSumToScalarGrad` in programs: how the values vary, and what the gradients represent. -/

namespace Verif.Prog
open Verif Verif.Graph Verif.Nd Verif.Hint Verif.Gradient Verif.Spec Verif.Eval

theorem broadcast_ne_zero {s t : List Nat} (hb : BroadcastsTo s t) (hr : ScalarOrRank s t) (hpos : ∀ d ∈ t, 0 < d) : s = [0] → t = [0] := by
  rintro rfl
  rcases hr with h | h
  · cases h
  · match t, h with
    | [d], _ =>
      have := hpos d (by simp)
      have h2 := hb.2 0 (by simp) (by simp)
      simp at h2
      simp [← h2]

theorem cont_maybeBroadcast {x y : Arr ℝ} {t : List Nat} (hx : Cont x) (h : Nd.maybeBroadcast x t = .ok y) : Cont y := by
  unfold Nd.maybeBroadcast at h
  split at h
  · cases h; exact hx
  · dsimp only at h
    split at h
    · simp only [bind_ok] at h
      obtain ⟨i, hi, h⟩ := h
      split at h
      · rename_i hb
        cases h; exact neat_toOwned (cont_intoShape (unwrap_ok.1 hi)) hb
      · cases h
    · simp only [bind_ok] at h
      obtain ⟨i, hi, h⟩ := h
      cases hi
      split at h
      · rename_i hb
        cases h; exact neat_toOwned hx hb
      · cases h

theorem run_maybeBroadcast {v r : Arr ℝ} {s : List Nat} (h : Nd.maybeBroadcast v s = .ok r) : POp.run .maybeBroadcast [v, encShape s] = .ok r := by
  simp only [POp.run, readShape_enc, bind, Except.bind, h]

section
variable {p : Nat → Arr ℝ} {x a : Nat} {v : Arr ℝ} {Y : Nat → ℝ → Arr ℝ} {t : Nat → List Nat → ℝ}

theorem vary_maybeReduce {flat : Nat → List Nat → Prop} (hok : OpOk flat p .maybeReduce [x, a]) (hr : POp.run .maybeReduce [p x, p a] = .ok v) (hx : Moves (Y x) (p x) (t x)) (hfix : ∀ u, Y a u = p a) :
    ∃ Z, (∀ u, POp.run .maybeReduce [Y x u, Y a u] = .ok (Z u)) ∧ Moves Z v (jvp p t .maybeReduce [x, a]) := by
  obtain ⟨s, hs, hb, hk, hpos⟩ := hok
  have hval : ∀ z : Arr ℝ, z.shape = (p x).shape → ∃ y, POp.run .maybeReduce [z, p a] = .ok y ∧ y.shape = s ∧
      ∀ i, InB i s → y.get i = ∑ o ∈ (idxs (p x).shape).filter (fun o => bIdx s o = i), z.get o := fun z hz => by
    obtain ⟨y, e1, e2, e3⟩ := maybeReduce_spec z (s := s) (by rw [hz]; exact hb) (by rw [hz]; exact hk) (by rw [hz]; exact hpos)
    refine ⟨y, by rw [hs]; exact run_maybeReduce e1, e2, fun i hi => ?_⟩
    rw [e3.sum i (by rw [e2]; exact hi), hz]
  obtain ⟨w, hw, hws, _⟩ := hval (p x) rfl
  have e := hw.symm.trans hr
  cases e
  simp only [hfix]
  refine moves_of (op := .maybeReduce) (W := fun u => [Y x u, p a]) (fun u i => ∑ o ∈ (idxs (p x).shape).filter (fun o => bIdx s o = i), (Y x u).get o)
    (by rw [hx.start]; exact hr) (fun u => ?_) (fun i hi => ?_)
  · obtain ⟨y, e1, e2, e3⟩ := hval (Y x u) (hx.shape u)
    exact ⟨y, e1, e2.trans hws.symm, fun i hi => e3 i (by rw [← hws]; exact hi)⟩
  · simp only [jvp, hs, shapeIn_enc]
    exact HasDerivAt.fun_sum fun o ho => hx.deriv o (mem_idxs.1 (Finset.mem_filter.1 ho).1)

theorem vary_maybeBroadcast {flat : Nat → List Nat → Prop} (hok : OpOk flat p .maybeBroadcast [x, a]) (hr : POp.run .maybeBroadcast [p x, p a] = .ok v) (hx : Moves (Y x) (p x) (t x))
    (hfix : ∀ u, Y a u = p a) :
    ∃ Z, (∀ u, POp.run .maybeBroadcast [Y x u, Y a u] = .ok (Z u)) ∧ Moves Z v (jvp p t .maybeBroadcast [x, a]) := by
  obtain ⟨s, hs, hb, hk, hpos⟩ := hok
  have hval : ∀ z : Arr ℝ, z.shape = (p x).shape → ∃ y, POp.run .maybeBroadcast [z, p a] = .ok y ∧ y.shape = s ∧
      ∀ i, InB i s → y.get i = z.get (bIdx (p x).shape i) := fun z hz => by
    obtain ⟨y, e1, e2, e3⟩ := maybeBroadcast_spec (x := z) (t := s) (by rw [hz]; exact hb) (by rw [hz]; exact broadcast_ne_zero hb hk hpos)
    rw [hz] at e3
    exact ⟨y, by rw [hs]; exact run_maybeBroadcast e1, e2, e3⟩
  obtain ⟨w, hw, hws, _⟩ := hval (p x) rfl
  have e := hw.symm.trans hr
  cases e
  simp only [hfix]
  refine moves_of (op := .maybeBroadcast) (W := fun u => [Y x u, p a]) (fun u i => (Y x u).get (bIdx (p x).shape i))
    (by rw [hx.start]; exact hr) (fun u => ?_) (fun i hi => ?_)
  · obtain ⟨y, e1, e2, e3⟩ := hval (Y x u) (hx.shape u)
    exact ⟨y, e1, e2.trans hws.symm, fun i hi => e3 i (by rw [← hws]; exact hi)⟩
  · exact hx.deriv _ (inB_bIdx hb (by rw [← hws]; exact hi))

theorem vary_sumAllGrad {flat : Nat → List Nat → Prop} (hok : OpOk flat p .sumAllGrad [x, a]) (hr : POp.run .sumAllGrad [p x, p a] = .ok v) (hx : Moves (Y x) (p x) (t x)) (hfix : ∀ u, Y a u = p a) :
    ∃ Z, (∀ u, POp.run .sumAllGrad [Y x u, Y a u] = .ok (Z u)) ∧ Moves Z v (jvp p t .sumAllGrad [x, a]) := by
  obtain ⟨hsx, s, hs⟩ := hok
  have hval : ∀ z : Arr ℝ, POp.run .sumAllGrad [z, p a] = .ok (Nd.sumAllGrad s z) := fun z => by
    rw [hs]; simp only [POp.run, readShape_enc, bind, Except.bind]
  have e := (hval (p x)).symm.trans hr
  cases e
  simp only [hfix]
  refine moves_of (op := .sumAllGrad) (W := fun u => [Y x u, p a]) (fun u _ => (Y x u).get [])
    (by rw [hx.start]; exact hr) (fun u => ⟨_, hval _, rfl, fun i _ => rfl⟩) (fun i hi => ?_)
  exact hx.deriv _ (by rw [hsx]; exact .nil)

end

section
variable {F : List (Feed (Arr ℝ))} {N : List (Arr ℝ)} {g0 : Graph POp} {Z : Nat → Prop} {p : Nat → Arr ℝ} {x a : Nat} {yv gv : Arr ℝ} {g g' : Graph POp} {y gy : Nat}
  {gxs : List (Option Nat)}

theorem grad_maybeReduce {flat : Nat → List Nat → Prop} (hok : OpOk flat p .maybeReduce [x, a]) (hctx : GradCtx F N Z p .maybeReduce [x, a] g y gy yv gv)
    (h : gradOf g y gy .maybeReduce [x, a] = .ok (g', gxs)) :
    Grows g g' ∧ Contr (setting F N) g0 Z p g' ([x, a].map inp) gxs (fun t => inner yv.shape gv.get (jvp p t .maybeReduce [x, a])) := by
  obtain ⟨hr, hc, hx, hh, happ, hy, hg, hgs, hgc, hfix⟩ := hctx
  obtain ⟨s, hs, hb, hk, hpos⟩ := hok
  obtain ⟨w, w1, w2, w3⟩ := maybeReduce_spec (p x) hb hk hpos
  have hr' : POp.run .maybeReduce [p x, p a] = .ok yv := hr
  rw [hs] at hr'
  have e := (run_maybeReduce w1).symm.trans hr'
  cases e
  have hgs' : gv.shape = s := hgs.trans w2
  obtain ⟨r, e1, e2, e3⟩ := maybeBroadcast_spec (x := gv) (t := (p x).shape) (by rw [hgs']; exact hb) (by rw [hgs']; exact broadcast_ne_zero hb hk hpos)
  rw [hgs'] at e3
  have xx := hx x (by simp)
  simp only [gradOf, bind_ok] at h
  obtain ⟨⟨g1, i1⟩, h1, ⟨g2, i2⟩, h2, h⟩ := h
  cases h
  obtain ⟨G1, C1, E1⟩ := mkShape_evals h1 hc xx (hh x (by simp))
  obtain ⟨G2, C2, E2⟩ := mk_evals h2 C1 .maybeBroadcast [gy, i1] [gv, encShape (p x).shape] r rfl
    (.cons (Evals.mono G1 hc hg) (.cons E1 .nil)) (run_maybeBroadcast e1)
  refine ⟨G1.trans G2, (contr_some E2 e2 (cont_maybeBroadcast hgc e1) (contr_skip contr_nil)).congr fun t _ => ?_⟩
  have hm : ∀ o, InB o (p x).shape → InB (bIdx s o) s := fun o ho => inB_bIdx hb ho
  rw [add_zero, w2]
  have : inner (p x).shape r.get (t x) = ∑ o ∈ idxs (p x).shape, gv.get (bIdx s o) * t x o :=
    Finset.sum_congr rfl fun o ho => by rw [e3 o (mem_idxs.1 ho)]
  rw [this, pullback_adjoint (bIdx s) (t := s) hm gv.get (t x)]
  simp only [inner, jvp, hs, shapeIn_enc]

theorem grad_maybeBroadcast {flat : Nat → List Nat → Prop} (hok : OpOk flat p .maybeBroadcast [x, a]) (hctx : GradCtx F N Z p .maybeBroadcast [x, a] g y gy yv gv)
    (h : gradOf g y gy .maybeBroadcast [x, a] = .ok (g', gxs)) :
    Grows g g' ∧ Contr (setting F N) g0 Z p g' ([x, a].map inp) gxs (fun t => inner yv.shape gv.get (jvp p t .maybeBroadcast [x, a])) := by
  obtain ⟨hr, hc, hx, hh, happ, hy, hg, hgs, hgc, hfix⟩ := hctx
  obtain ⟨s, hs, hb, hk, hpos⟩ := hok
  obtain ⟨w, w1, w2, w3⟩ := maybeBroadcast_spec (x := p x) (t := s) hb (broadcast_ne_zero hb hk hpos)
  have hr' : POp.run .maybeBroadcast [p x, p a] = .ok yv := hr
  rw [hs] at hr'
  have e := (run_maybeBroadcast w1).symm.trans hr'
  cases e
  have hgs' : gv.shape = s := hgs.trans w2
  obtain ⟨r, e1, e2, e3⟩ := maybeReduce_spec gv (s := (p x).shape) (by rw [hgs']; exact hb) (by rw [hgs']; exact hk) (by rw [hgs']; exact hpos)
  have xx := hx x (by simp)
  simp only [gradOf, bind_ok] at h
  obtain ⟨⟨g1, i1⟩, h1, ⟨g2, i2⟩, h2, h⟩ := h
  cases h
  obtain ⟨G1, C1, E1⟩ := mkShape_evals h1 hc xx (hh x (by simp))
  obtain ⟨G2, C2, E2⟩ := mk_evals h2 C1 .maybeReduce [gy, i1] [gv, encShape (p x).shape] r rfl
    (.cons (Evals.mono G1 hc hg) (.cons E1 .nil)) (run_maybeReduce e1)
  refine ⟨G1.trans G2, (contr_some E2 e2 (cont_maybeReduce hgc e1) (contr_skip contr_nil)).congr fun t _ => ?_⟩
  rw [add_zero, ← hgs]
  have := e3.adjoint (t x)
  rw [e2] at this
  exact this.symm

theorem grad_sumAllGrad {flat : Nat → List Nat → Prop} (hok : OpOk flat p .sumAllGrad [x, a]) (hctx : GradCtx F N Z p .sumAllGrad [x, a] g y gy yv gv)
    (h : gradOf g y gy .sumAllGrad [x, a] = .ok (g', gxs)) :
    Grows g g' ∧ Contr (setting F N) g0 Z p g' ([x, a].map inp) gxs (fun t => inner yv.shape gv.get (jvp p t .sumAllGrad [x, a])) := by
  obtain ⟨hr, hc, hx, hh, happ, hy, hg, hgs, hgc, hfix⟩ := hctx
  obtain ⟨hsx, s, hs⟩ := hok
  simp only [gradOf, bind_ok] at h
  obtain ⟨⟨g1, i1⟩, h1, h⟩ := h
  cases h
  obtain ⟨G1, C1, E1⟩ := mk_evals h1 hc .sumAll [gy] [gv] (Nd.sumAll gv) rfl (.cons hg .nil) rfl
  refine ⟨G1, (contr_some E1 hsx.symm (cont_ofFn _ _) (contr_skip contr_nil)).congr fun t _ => ?_⟩
  rw [add_zero, hsx, ← hgs]
  simp only [inner, jvp]
  rw [← Finset.sum_mul, ← sum_toList]
  exact (Finset.sum_singleton _ _).symm

end

end Verif.Prog
