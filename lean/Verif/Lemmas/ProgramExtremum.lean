import Mathlib.Topology.Order.OrderClosed
import Verif.Lemmas.Compare
import Verif.Lemmas.ProgramContr
import Verif.Lemmas.ReduceRel

/-! `maximum`, `minimum`, `reduce_max` and `reduce_min` in programs: how the values vary, and what the gradients represent. -/

namespace Verif.Prog
open Verif Verif.Graph Verif.Nd Verif.Hint Verif.Gradient Verif.Spec Verif.Eval
open scoped Topology

theorem extFn_left {mx : Bool} {a b : ℝ} (h : if mx then b < a else a < b) : extFn mx a b = a := by
  cases mx
  · simp only [Bool.false_eq_true, if_false] at h; simp [extFn, h.le]
  · simp only [if_true] at h; simp [extFn, h.le]

theorem extFn_right {mx : Bool} {a b : ℝ} (h : if mx then a < b else b < a) : extFn mx a b = b := by
  cases mx
  · simp only [Bool.false_eq_true, if_false] at h; simp [extFn, h.le]
  · simp only [if_true] at h; simp [extFn, h.le]

theorem ne_cases (mx : Bool) {a b : ℝ} (h : a ≠ b) : (if mx then b < a else a < b) ∨ (if mx then a < b else b < a) := by
  cases mx
  · simpa using lt_or_gt_of_ne h
  · simpa using (lt_or_gt_of_ne h).symm

theorem eventually_beyond {mx : Bool} {f g : ℝ → ℝ} (hf : ContinuousAt f 0) (hg : ContinuousAt g 0) (h : if mx then f 0 < g 0 else g 0 < f 0) :
    ∀ᶠ u in 𝓝 (0 : ℝ), if mx then f u < g u else g u < f u := by
  cases mx
  · simp only [Bool.false_eq_true, if_false] at h ⊢; exact hg.eventually_lt hf h
  · simp only [if_true] at h ⊢; exact hf.eventually_lt hg h

theorem extFn_deriv {mx : Bool} {f g : ℝ → ℝ} {f' g' : ℝ} (hf : HasDerivAt f f' 0) (hg : HasDerivAt g g' 0) (h : f 0 ≠ g 0) :
    HasDerivAt (fun u => extFn mx (f u) (g u)) (if extFn mx (f 0) (g 0) = f 0 then f' else g') 0 := by
  rcases ne_cases mx h with h1 | h1
  · rw [if_pos (extFn_left h1)]
    exact hf.congr_of_eventuallyEq ((eventually_beyond hg.continuousAt hf.continuousAt h1).mono fun u hu => extFn_left hu)
  · rw [if_neg (by rw [extFn_right h1]; exact h.symm)]
    exact hg.congr_of_eventuallyEq ((eventually_beyond hf.continuousAt hg.continuousAt h1).mono fun u hu => extFn_right hu)

theorem vary_extremum {p : Nat → Arr ℝ} {mx : Bool} {a b : Nat} {v : Arr ℝ} (hok : ExtremumOk (p a) (p b))
    (hr : POp.run (.extremum mx) [p a, p b] = .ok v) {Y : Nat → ℝ → Arr ℝ} {t : Nat → List Nat → ℝ} (ha : Moves (Y a) (p a) (t a)) (hb : Moves (Y b) (p b) (t b)) :
    ∃ Z, (∀ u, POp.run (.extremum mx) [Y a u, Y b u] = .ok (Z u)) ∧ Moves Z v (jvp p t (.extremum mx) [a, b]) := by
  obtain ⟨hs, h0, hne⟩ := hok
  obtain ⟨y, hy, hys, _⟩ := cmpOp_same (f := extFn mx) hs h0
  have hr' : cmpOp (extFn mx) (p a) (p b) = .ok v := hr
  rw [hy] at hr'; cases hr'
  refine moves_of (op := .extremum mx) (W := fun u => [Y a u, Y b u]) (fun u i => extFn mx ((Y a u).get i) ((Y b u).get i))
    (by rw [ha.start, hb.start]; exact hr) (fun u => ?_) (fun i hi => ?_)
  · obtain ⟨z, hz, hzs, hzg⟩ := cmpOp_same (f := extFn mx) (x0 := Y a u) (x1 := Y b u) (by rw [ha.shape, hb.shape, hs]) (by rw [ha.shape]; exact h0)
    rw [ha.shape] at hzs hzg
    exact ⟨z, hz, hzs.trans hys.symm, fun i hi => hzg i (by rw [← hys]; exact hi)⟩
  · rw [hys] at hi
    have := extFn_deriv (mx := mx) (ha.deriv i hi) (hb.deriv i (by rw [← hs]; exact hi)) (by rw [ha.start, hb.start]; exact hne i hi)
    rw [ha.start, hb.start] at this
    exact this

theorem reduceExt_exists (mx : Bool) (lim : ℝ) {x : Arr ℝ} {axes : List Int} {ks : List Nat} (keep : Bool) (hx : x.shape ≠ [0])
    (ha : List.Forall₂ (AxisIs x.shape.length) axes ks) (hnd : ks.Nodup) :
    ∃ y, reduceExtOp mx lim x axes keep = .ok y ∧ y.shape = reducedShape ks keep x.shape := by
  have key : ∀ f : ℝ → ℝ → ℝ, (∃ y, reduceForward f lim (⟨x.shape, x.strides, fun _ => lim⟩ : Arr ℝ) ks keep = .ok y ∧ y.shape = reducedShape ks keep x.shape) →
      ∃ y, reduceForward f lim x ks keep = .ok y ∧ y.shape = reducedShape ks keep x.shape := by
    rintro f ⟨y, hy, hys⟩
    have := reduceForward_rel (P := fun _ _ => True) (x := x) (x' := (⟨x.shape, x.strides, fun _ => lim⟩ : Arr ℝ)) ⟨rfl, rfl, fun _ _ => trivial⟩
      (f := f) (f' := f) (i := lim) (i' := lim) trivial (fun _ _ _ _ _ _ => trivial) keep ks
    rw [hy] at this
    cases hz : reduceForward f lim x ks keep with
    | error e => rw [hz] at this; exact this.elim
    | ok z => rw [hz] at this; exact ⟨z, rfl, this.1.trans hys⟩
  cases mx
  · obtain ⟨y, hy, hys, _⟩ := reduceForward_min lim (⟨x.shape, x.strides, fun _ => lim⟩ : Arr ℝ) ks keep (fun _ _ => le_refl _) hx hnd (axes_lt ha)
    obtain ⟨z, hz, hzs⟩ := key _ ⟨y, hy, hys⟩
    exact ⟨z, by rw [reduceExtOp, if_neg (by simp), Nd.reduceMin, normAxes_spec ha]; exact hz, hzs⟩
  · obtain ⟨y, hy, hys, _⟩ := reduceForward_max lim (⟨x.shape, x.strides, fun _ => lim⟩ : Arr ℝ) ks keep (fun _ _ => le_refl _) hx hnd (axes_lt ha)
    obtain ⟨z, hz, hzs⟩ := key _ ⟨y, hy, hys⟩
    exact ⟨z, by rw [reduceExtOp, if_pos rfl, Nd.reduceMax, normAxes_spec ha]; exact hz, hzs⟩

theorem reduceExt_value {mx : Bool} {lim : ℝ} {x y : Arr ℝ} {axes : List Int} {ks : List Nat} {keep : Bool} (hx : x.shape ≠ [0])
    (ha : List.Forall₂ (AxisIs x.shape.length) axes ks) (hnd : ks.Nodup) (hb : ∀ i, InB i x.shape → if mx then lim < x.get i else x.get i < lim)
    (hy : reduceExtOp mx lim x axes keep = .ok y) {i o : List Nat} (hi : InB i (reducedShape ks keep x.shape)) (ho : o ∈ fibre ks keep x.shape i)
    (hext : ∀ q ∈ fibre ks keep x.shape i, q ≠ o → if mx then x.get q < x.get o else x.get o < x.get q) : y.get i = x.get o := by
  cases mx
  · simp only [Bool.false_eq_true, if_false] at hb hext
    obtain ⟨z, hz, hzs, hzv⟩ := reduceForward_min lim x ks keep (fun o ho => (hb o ho).le) hx hnd (axes_lt ha)
    rw [reduceExtOp, if_neg (by simp), Nd.reduceMin, normAxes_spec ha] at hy
    have hy : reduceForward min lim x ks keep = .ok y := hy
    rw [hz] at hy; cases hy
    obtain ⟨h1, h2⟩ := hzv i (by rw [hzs]; exact hi)
    obtain ⟨q, hq, he⟩ := h2 ⟨o, ho⟩
    by_cases hqo : q = o
    · rw [he, hqo]
    · have := hext q hq hqo
      have := h1 o ho
      linarith
  · simp only [if_true] at hb hext
    obtain ⟨z, hz, hzs, hzv⟩ := reduceForward_max lim x ks keep (fun o ho => (hb o ho).le) hx hnd (axes_lt ha)
    rw [reduceExtOp, if_pos rfl, Nd.reduceMax, normAxes_spec ha] at hy
    have hy : reduceForward max lim x ks keep = .ok y := hy
    rw [hz] at hy; cases hy
    obtain ⟨h1, h2⟩ := hzv i (by rw [hzs]; exact hi)
    obtain ⟨q, hq, he⟩ := h2 ⟨o, ho⟩
    by_cases hqo : q = o
    · rw [he, hqo]
    · have := hext q hq hqo
      have := h1 o ho
      linarith

theorem reduceExt_layout {mx : Bool} {lim : ℝ} {x y : Arr ℝ} {axes : List Int} {ks : List Nat} {keep : Bool} (hx : x.shape ≠ [0])
    (ha : List.Forall₂ (AxisIs x.shape.length) axes ks) (hy : reduceExtOp mx lim x axes keep = .ok y) : keep = true ∨ ks = [] ∨ Contig y.shape y.strides := by
  by_cases hk : keep = true
  · exact .inl hk
  by_cases hn : ks = []
  · exact .inr (.inl hn)
  have hk' : keep = false := by simpa using hk
  subst hk'
  have hs : isScalarShape x.shape = false := by
    rw [Bool.eq_false_iff]
    intro h
    rcases isScalarShape_iff.1 h with h | h
    · obtain ⟨k, hk⟩ := List.exists_mem_of_ne_nil ks hn
      have := axes_lt ha k hk
      simp [h] at this
    · exact hx h
  refine .inr (.inr ?_)
  cases mx
  · rw [reduceExtOp, if_neg (by simp), Nd.reduceMin, normAxes_spec ha] at hy
    exact reduceForward_standard _ _ _ _ _ hn hs hy
  · rw [reduceExtOp, if_pos rfl, Nd.reduceMax, normAxes_spec ha] at hy
    exact reduceForward_standard _ _ _ _ _ hn hs hy

theorem vary_reduceExt {p : Nat → Arr ℝ} {mx : Bool} {lim : ℝ} {keep : Bool} {x a : Nat} {v : Arr ℝ} (hok : ReduceExtOk mx lim keep (p x) (p a))
    (hr : POp.run (.reduceExt mx lim keep) [p x, p a] = .ok v) {Y : Nat → ℝ → Arr ℝ} {t : Nat → List Nat → ℝ} (hx : Moves (Y x) (p x) (t x))
    (hfix : ∀ u, Y a u = p a) :
    ∃ Z, (∀ u, POp.run (.reduceExt mx lim keep) [Y x u, Y a u] = .ok (Z u)) ∧ Moves Z v (jvp p t (.reduceExt mx lim keep) [x, a]) := by
  obtain ⟨h0, hb, ks, ha, hnd, hext⟩ := hok
  have hr' : reduceExtOp mx lim (p x) (readAxes (p a)) keep = .ok v := hr
  have hvs : v.shape = reducedShape ks keep (p x).shape := by
    obtain ⟨y, hy, hys⟩ := reduceExt_exists mx lim keep h0 ha hnd
    rw [hr'] at hy; cases hy; exact hys
  have hex : ∀ u, ∃ y, reduceExtOp mx lim (Y x u) (readAxes (p a)) keep = .ok y ∧ y.shape = reducedShape ks keep (p x).shape := fun u => by
    have := reduceExt_exists mx lim (x := Y x u) (axes := readAxes (p a)) (ks := ks) keep (by rw [hx.shape]; exact h0) (by rw [hx.shape]; exact ha) hnd
    rwa [hx.shape] at this
  choose Z hZ hZs using hex
  refine ⟨Z, fun u => by rw [hfix]; exact hZ u, ?_, fun u => (hZs u).trans hvs.symm, fun i hi => ?_⟩
  · have := hZ 0
    rw [hx.start, hr'] at this
    exact (Except.ok.inj this).symm
  · rw [hvs] at hi
    obtain ⟨o, ho, hoe⟩ := hext i hi
    have hin : ∀ q ∈ fibre ks keep (p x).shape i, InB q (p x).shape := fun q hq => mem_idxs.1 (Finset.mem_filter.1 hq).1
    have hcont : ∀ q, InB q (p x).shape → ContinuousAt (fun u => (Y x u).get q) 0 := fun q hq => (hx.deriv q hq).continuousAt
    have e1 : ∀ᶠ u in 𝓝 (0 : ℝ), ∀ q ∈ idxs (p x).shape, if mx then lim < (Y x u).get q else (Y x u).get q < lim := by
      rw [Filter.eventually_all_finset]
      intro q hq
      exact eventually_beyond (f := fun _ => lim) continuousAt_const (hcont q (mem_idxs.1 hq)) (by rw [hx.start]; exact hb q (mem_idxs.1 hq))
    have e2 : ∀ᶠ u in 𝓝 (0 : ℝ), ∀ q ∈ (fibre ks keep (p x).shape i).erase o, if mx then (Y x u).get q < (Y x u).get o else (Y x u).get o < (Y x u).get q := by
      rw [Filter.eventually_all_finset]
      intro q hq
      obtain ⟨hqo, hq⟩ := Finset.mem_erase.1 hq
      exact eventually_beyond (hcont q (hin q hq)) (hcont o (hin o ho)) (by rw [hx.start]; exact hoe q hq hqo)
    have hval : v.get i = (p x).get o := reduceExt_value h0 ha hnd hb hr' hi ho hoe
    have hj : jvp p t (.reduceExt mx lim keep) [x, a] i = t x o := by
      simp only [jvp, hr, linAt, axesOf_eq ha, hval]
      rw [Finset.sum_eq_single o (fun q hq hqo => if_neg fun e => ?_) (fun h => absurd ho h), if_pos rfl]
      have := hoe q hq hqo
      rw [e] at this
      cases mx <;> simp at this
    rw [hj]
    refine (hx.deriv o (hin o ho)).congr_of_eventuallyEq ((e1.and e2).mono fun u hu => ?_)
    exact reduceExt_value (ks := ks) (by rw [hx.shape]; exact h0) (by rw [hx.shape]; exact ha) hnd (fun q hq => hu.1 q (mem_idxs.2 (by rw [← hx.shape u]; exact hq))) (hZ u)
      (by rw [hx.shape]; exact hi) (by rw [hx.shape]; exact ho) (fun q hq hqo => hu.2 q (Finset.mem_erase.2 ⟨hqo, by rw [← hx.shape u]; exact hq⟩))

section
variable {F : List (Feed (Arr ℝ))} {N : List (Arr ℝ)} {g0 : Graph POp} {Z : Nat → Prop} {p : Nat → Arr ℝ}

theorem grad_extremum {mx : Bool} {a b : Nat} {yv gv : Arr ℝ} {g g' : Graph POp} {y gy : Nat} {gxs : List (Option Nat)}
    (hok : ExtremumOk (p a) (p b)) (hctx : GradCtx F N Z p (.extremum mx) [a, b] g y gy yv gv)
    (h : gradCmds [a, b] y gy extremumCmds [some (.t 2), some (.t 3)] g = .ok (g', gxs)) :
    Grows g g' ∧ Contr (setting F N) g0 Z p g' ([a, b].map inp) gxs (fun t => inner yv.shape gv.get (jvp p t (.extremum mx) [a, b])) := by
  obtain ⟨hs, h0, hne⟩ := hok
  have hr : cmpOp (extFn mx) (p a) (p b) = .ok yv := hctx.run
  obtain ⟨w, hw, hws, hwg⟩ := cmpOp_same (f := extFn mx) hs h0
  rw [hw] at hr; cases hr
  have hgs : gv.shape = (p a).shape := hctx.shape.trans hws
  obtain ⟨e0, he0, hes0, heg0⟩ := cmpOp_same (f := equalFn) (x0 := p a) (x1 := yv) hws.symm h0
  obtain ⟨e1, he1, hes1, heg1⟩ := cmpOp_same (f := equalFn) (x0 := p b) (x1 := yv) (by rw [hws, hs]) (by rw [← hs]; exact h0)
  obtain ⟨r0, hr0, hrs0, hrg0⟩ := mulOp_same (x0 := e0) (x1 := gv) (by rw [hes0, hgs])
  obtain ⟨r1, hr1, hrs1, hrg1⟩ := mulOp_same (x0 := e1) (x1 := gv) (by rw [hes1, hgs, hs])
  obtain ⟨G, ts, rfl, E⟩ := cmds_evals hctx h (.some (v := e0) ⟨[p a, yv], .cons rfl (.cons rfl .nil), he0⟩ <|
    .some (v := e1) ⟨[p b, yv], .cons rfl (.cons rfl .nil), he1⟩ <| .some (v := r0) ⟨e0, gv, rfl, rfl, hr0⟩ <| .some (v := r1) ⟨e1, gv, rfl, rfl, hr1⟩ .nil)
  refine ⟨G, (contr_some (E 2 r0 rfl) (hrs0.trans hes0) (cont_bin_right hctx.cont (by rw [hes0, hgs]; exact broadcastsTo_self _) hr0)
    (contr_some (E 3 r1 rfl) (hrs1.trans hes1) (cont_bin_right hctx.cont (by rw [hes1, hgs, hs]; exact broadcastsTo_self _) hr1) contr_nil)).congr fun t _ => ?_⟩
  rw [add_zero, ← hs, hws]
  simp only [inner]
  rw [← Finset.sum_add_distrib]
  refine Finset.sum_congr rfl fun i hi => ?_
  have hi := mem_idxs.1 hi
  have hib : InB i (p b).shape := by rw [← hs]; exact hi
  rw [hrg0 i (by rw [hes0]; exact hi), hrg1 i (by rw [hes1]; exact hib), heg0 i hi, heg1 i hib, hwg i hi]
  simp only [equalFn, jvp]
  rcases ne_cases mx (hne i hi) with h1 | h1
  · rw [extFn_left h1, if_pos rfl, if_neg (hne i hi).symm, if_pos rfl]; ring
  · rw [extFn_right h1, if_neg (hne i hi), if_pos rfl, if_neg (hne i hi).symm]; ring

theorem grad_reduceExt {mx : Bool} {lim : ℝ} {keep : Bool} {x a : Nat} {yv gv : Arr ℝ} {g g' : Graph POp} {y gy : Nat} {gxs : List (Option Nat)}
    (hok : ReduceExtOk mx lim keep (p x) (p a)) (hctx : GradCtx F N Z p (.reduceExt mx lim keep) [x, a] g y gy yv gv)
    (h : gradCmds [x, a] y gy (reduceExtCmds keep) [some (.t 4), none] g = .ok (g', gxs)) :
    Grows g g' ∧ Contr (setting F N) g0 Z p g' ([x, a].map inp) gxs (fun t => inner yv.shape gv.get (jvp p t (.reduceExt mx lim keep) [x, a])) := by
  obtain ⟨h0, _, ks, ha, hnd, _⟩ := hok
  have hr : reduceExtOp mx lim (p x) (readAxes (p a)) keep = .ok yv := hctx.run
  have hys : yv.shape = reducedShape ks keep (p x).shape := by
    obtain ⟨y, hy, hys⟩ := reduceExt_exists mx lim keep h0 ha hnd
    rw [hr] at hy; cases hy; exact hys
  have hgs := hctx.shape.trans hys
  obtain ⟨y1, hy1, hys1, hyg1⟩ := reduceGradCommon_any ha hnd h0 hys (reduceExt_layout h0 ha hr)
  obtain ⟨g1, hg1, hgs1, hgg1⟩ := reduceGradCommon_any ha hnd h0 hgs (.inr (.inr hctx.cont.1))
  obtain ⟨e, he, hes, heg⟩ := cmpOp_same (f := equalFn) (x0 := p x) (x1 := y1) hys1.symm h0
  obtain ⟨r, hr', hrs, hrg⟩ := mulOp_same (x0 := e) (x1 := g1) (by rw [hes, hgs1])
  obtain ⟨G, ts, rfl, E⟩ := cmds_evals hctx h (.some (v := encShape (p x).shape) ⟨0, p x, rfl, rfl, rfl⟩ <|
    .some (v := y1) ⟨[yv, encShape (p x).shape, p a], .cons rfl (.cons rfl (.cons rfl .nil)), by simp only [POp.run, readShape_enc, bind, Except.bind, hy1]⟩ <|
    .some (v := g1) ⟨[gv, encShape (p x).shape, p a], .cons rfl (.cons rfl (.cons rfl .nil)), by simp only [POp.run, readShape_enc, bind, Except.bind, hg1]⟩ <|
    .some (v := e) ⟨[p x, y1], .cons rfl (.cons rfl .nil), he⟩ <| .some (v := r) ⟨e, g1, rfl, rfl, hr'⟩ .nil)
  refine ⟨G, (contr_some (E 4 r rfl) (hrs.trans hes) (cont_bin_right (cont_reduceGrad hctx.cont hg1) (by rw [hes, hgs1]; exact broadcastsTo_self _) hr')
    (contr_skip contr_nil)).congr fun t _ => ?_⟩
  rw [add_zero, ← hctx.shape]
  have : inner (p x).shape r.get (t x) =
      ∑ o ∈ idxs (p x).shape, gv.get (reducedIdx ks keep o) * (if (p x).get o = yv.get (reducedIdx ks keep o) then t x o else 0) :=
    Finset.sum_congr rfl fun o ho => by
      have ho := mem_idxs.1 ho
      rw [hrg o (by rw [hes]; exact ho), heg o ho, hyg1 o ho, hgg1 o ho, equalFn]
      split <;> ring
  rw [this, pullback_adjoint (reducedIdx ks keep) (t := gv.shape) (fun o ho => by rw [hgs]; exact inB_reduced ks keep ho) gv.get]
  have hrun : POp.run (.reduceExt mx lim keep) [p x, p a] = .ok yv := hctx.run
  simp only [inner, jvp, axesOf_eq ha, hrun, linAt, fibre]
  refine Finset.sum_congr rfl fun i _ => ?_
  congr 1
  refine Finset.sum_congr rfl fun o ho => ?_
  rw [(Finset.mem_filter.1 ho).2]

end

end Verif.Prog
