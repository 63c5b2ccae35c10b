import Verif.Lemmas.ProgramContr

/-! Softmax and log_softmax in programs: how the values vary, and what the gradients represent. -/

namespace Verif.Prog
open Verif Verif.Graph Verif.Nd Verif.Hint Verif.Gradient Verif.Spec Verif.Eval

theorem hasDerivAt_expLine {V : ℝ → Arr ℝ} {v : Arr ℝ} {τ : List Nat → ℝ} (h : Moves V v τ) {k : Nat} {o : List Nat} (ho : InB o v.shape) (hk : k < v.shape.length) :
    HasDerivAt (fun u => lineSum k v.shape (fun q => Real.exp ((V u).get q)) o) (lineSum k v.shape (fun q => Real.exp (v.get q) * τ q) o) 0 := by
  unfold lineSum
  refine HasDerivAt.fun_sum fun j hj => ?_
  have hj := Finset.mem_range.1 hj
  rw [List.getD_eq_getElem?_getD, List.getElem?_eq_getElem hk, Option.getD_some] at hj
  have := (h.deriv (o.set k j) (inB_set ho hk hj)).exp
  rwa [h.start] at this

theorem lineSum_sm (x : Arr ℝ) (k : Nat) (τ : List Nat → ℝ) (o : List Nat) : lineSum k x.shape (fun q => smAt x k q * τ q) o =
    lineSum k x.shape (fun q => Real.exp (x.get q) * τ q) o / lineSum k x.shape (fun q => Real.exp (x.get q)) o := by
  have : ∀ j, lineSum k x.shape (fun p => Real.exp (x.get p)) (o.set k j) = lineSum k x.shape (fun p => Real.exp (x.get p)) o := fun j => lineSum_set _ _ _ _ _
  unfold smAt
  simp only [lineSum] at this ⊢
  simp only [this, Finset.sum_div]
  exact Finset.sum_congr rfl fun j _ => by ring

theorem hasDerivAt_logLine {V : ℝ → Arr ℝ} {v : Arr ℝ} {τ : List Nat → ℝ} (h : Moves V v τ) {k : Nat} {o : List Nat} (ho : InB o v.shape) (hk : k < v.shape.length) :
    HasDerivAt (fun u => Real.log (lineSum k v.shape (fun q => Real.exp ((V u).get q)) o)) (lineSum k v.shape (fun q => smAt v k q * τ q) o) 0 := by
  have hL := fun u => (exp_line_pos (k := k) (o := o) (V u).get (getD_pos ho hk)).ne'
  refine ((hasDerivAt_expLine h ho hk).log (hL 0)).congr_deriv ?_
  rw [lineSum_sm, h.start]

theorem hasDerivAt_sm {V : ℝ → Arr ℝ} {v : Arr ℝ} {τ : List Nat → ℝ} (h : Moves V v τ) {k : Nat} {o : List Nat} (ho : InB o v.shape) (hk : k < v.shape.length) :
    HasDerivAt (fun u => smAt (V u) k o) (smAt v k o * (τ o - lineSum k v.shape (fun q => smAt v k q * τ q) o)) 0 := by
  have hL := fun u => (exp_line_pos (k := k) (o := o) (V u).get (getD_pos ho hk)).ne'
  have := ((h.deriv o ho).exp.div (hasDerivAt_expLine h ho hk) (hL 0)).congr_deriv (g' := smAt v k o * (τ o - lineSum k v.shape (fun q => smAt v k q * τ q) o)) (by
    have h0 := hL 0
    rw [h.start] at h0 ⊢
    rw [lineSum_sm, smAt]
    field_simp)
  refine this.congr_of_eventuallyEq (.of_forall fun u => ?_)
  show smAt (V u) k o = _ / _
  rw [smAt, h.shape]

theorem vary_softmax {p : Nat → Arr ℝ} {bot : ℝ} {lay : Arr ℝ → List Int} {axis : Int} {k x : Nat} {v : Arr ℝ} (hok : SoftmaxOk lay axis k (p x))
    (hr : POp.run (.softmax bot lay axis) [p x] = .ok v) {Y : Nat → ℝ → Arr ℝ} {t : Nat → List Nat → ℝ} (hx : Moves (Y x) (p x) (t x)) :
    ∃ Z, (∀ u, POp.run (.softmax bot lay axis) [Y x u] = .ok (Z u)) ∧ Moves Z v (jvp p t (.softmax bot lay axis) [x]) := by
  obtain ⟨ha, hst⟩ := hok
  have hval : ∀ z : Arr ℝ, z.shape = (p x).shape → ∃ y, POp.run (.softmax bot lay axis) [z] = .ok y ∧ y.shape = (p x).shape ∧
      ∀ i, InB i (p x).shape → y.get i = smAt z k i := fun z hz => by
    obtain ⟨y, h1, h2, h4⟩ := softmaxImpl_spec bot (lay z) z axis (k := k) (by rw [hz]; exact ha) (by rw [hz]; exact hst z hz)
    exact ⟨y, h1, h2.trans hz, fun i hi => h4 i (by rw [hz]; exact hi)⟩
  obtain ⟨y, hy, hys, _⟩ := hval (p x) rfl
  rw [hy] at hr; cases hr
  refine moves_of (op := .softmax bot lay axis) (W := fun u => [Y x u]) (fun u i => smAt (Y x u) k i) (by rw [hx.start]; exact hy) (fun u => ?_) (fun i hi => ?_)
  · obtain ⟨y', h1, h2, h3⟩ := hval (Y x u) (hx.shape u)
    exact ⟨y', h1, h2.trans hys.symm, fun i hi => h3 i (by rw [← hys]; exact hi)⟩
  · rw [hys] at hi
    simp only [jvp, axisNat_eq ha]
    exact hasDerivAt_sm hx hi ha.1

theorem vary_logSoftmax {p : Nat → Arr ℝ} {bot : ℝ} {lay : Arr ℝ → List Int} {axis : Int} {x : Nat} {v : Arr ℝ} (hok : SoftmaxOk lay axis 1 (p x))
    (hr : POp.run (.logSoftmax bot lay axis) [p x] = .ok v) {Y : Nat → ℝ → Arr ℝ} {t : Nat → List Nat → ℝ} (hx : Moves (Y x) (p x) (t x)) :
    ∃ Z, (∀ u, POp.run (.logSoftmax bot lay axis) [Y x u] = .ok (Z u)) ∧ Moves Z v (jvp p t (.logSoftmax bot lay axis) [x]) := by
  obtain ⟨ha, hst⟩ := hok
  have hval : ∀ z : Arr ℝ, z.shape = (p x).shape → ∃ y, POp.run (.logSoftmax bot lay axis) [z] = .ok y ∧ y.shape = (p x).shape ∧
      ∀ i, InB i (p x).shape → y.get i = z.get i - Real.log (lineSum 1 (p x).shape (fun q => Real.exp (z.get q)) i) := fun z hz => by
    obtain ⟨y, h1, h2, h4⟩ := logSoftmax_spec bot (lay z) z axis (k := 1) (by rw [hz]; exact ha) (by rw [hz]; exact hst z hz)
    refine ⟨y, h1, h2.trans hz, fun i hi => ?_⟩
    rw [h4 i (by rw [hz]; exact hi), hz, Real.log_div (Real.exp_pos _).ne' (exp_line_pos _ (getD_pos hi ha.1)).ne', Real.log_exp]
  obtain ⟨y, hy, hys, _⟩ := hval (p x) rfl
  rw [hy] at hr; cases hr
  refine moves_of (op := .logSoftmax bot lay axis) (W := fun u => [Y x u]) (fun u i => (Y x u).get i - Real.log (lineSum 1 (p x).shape (fun q => Real.exp ((Y x u).get q)) i))
    (by rw [hx.start]; exact hy) (fun u => ?_) (fun i hi => ?_)
  · obtain ⟨y', h1, h2, h3⟩ := hval (Y x u) (hx.shape u)
    exact ⟨y', h1, h2.trans hys.symm, fun i hi => h3 i (by rw [← hys]; exact hi)⟩
  · rw [hys] at hi
    exact (hx.deriv i hi).sub (hasDerivAt_logLine hx hi ha.1)

theorem readAxes_one (a : Int) : readAxes (vec [(a : ℝ)]) = [a] := by
  simp [readAxes, toList_vec]

section
variable {F : List (Feed (Arr ℝ))} {N : List (Arr ℝ)} {g0 : Graph POp} {Z : Nat → Prop} {p : Nat → Arr ℝ}

theorem cont_softmax {bot : ℝ} {st : List Int} {x y : Arr ℝ} {axis : Int} (h : softmaxImpl bot st x axis = .ok y) : Cont y := by
  simp only [softmaxImpl, shiftByMax, assignOp, bind_ok] at h
  obtain ⟨k, _, ⟨tmp, _⟩, ⟨m, _, m', _, d, hd, e⟩, s, _, s', _, b, _, h⟩ := h
  cases e
  cases h
  exact cont_map (cont_zip hd) Real.exp

theorem grad_softmax {bot : ℝ} {lay : Arr ℝ → List Int} {axis : Int} {k x : Nat} {yv gv : Arr ℝ} {g g' : Graph POp} {y gy : Nat} {gxs : List (Option Nat)}
    (hok : SoftmaxOk lay axis k (p x)) (hctx : GradCtx F N Z p (.softmax bot lay axis) [x] g y gy yv gv)
    (h : gradCmds [x] y gy (softmaxCmds axis) [some (.t 4)] g = .ok (g', gxs)) :
    Grows g g' ∧ Contr (setting F N) g0 Z p g' ([x].map inp) gxs (fun t => inner yv.shape gv.get (jvp p t (.softmax bot lay axis) [x])) := by
  obtain ⟨ha, hst⟩ := hok
  have hr : POp.run (.softmax bot lay axis) [p x] = .ok yv := hctx.run
  obtain ⟨w, hw, hws, hwv⟩ := softmaxImpl_spec bot (lay (p x)) (p x) axis ha (hst _ rfl)
  have hr := hw.symm.trans hr
  cases hr
  obtain ⟨r, hr, hrs, hrv⟩ := softmaxGrad_spec (y := yv) (gy := gv) (axis := axis) (k := k) (by rw [hws]; exact ha) hctx.shape
  simp only [softmaxGrad, bind_ok] at hr
  obtain ⟨a, h1, b, h2, c, h3, h4⟩ := hr
  obtain ⟨G, ts, rfl, E⟩ := cmds_evals hctx h (.some (v := a) ⟨yv, gv, rfl, rfl, h1⟩ <| .some (v := vec [(axis : ℝ)]) rfl <|
    .some (v := b) ⟨[a, vec [(axis : ℝ)]], .cons rfl (.cons rfl .nil), by rw [← h2, ← readAxes_one axis]; rfl⟩ <|
    .some (v := c) ⟨gv, b, rfl, rfl, h3⟩ <| .some (v := r) ⟨c, yv, rfl, rfl, h4⟩ .nil)
  refine ⟨G, (contr_one (rest := []) (E 4 r rfl) (hrs.trans hws) (cont_bin_right (cont_softmax hw) (by rw [← hrs]; exact (arithmetic_common (.inr (.inr (.inl h4)))).1) h4)).congr fun t _ => ?_⟩
  simp only [jvp, axisNat_eq ha, inner]
  rw [hws]
  rw [hws] at hrv
  have e : ∀ o ∈ idxs (p x).shape, r.get o * t x o = gv.get o * smAt (p x) k o * t x o -
      smAt (p x) k o * t x o * lineSum k (p x).shape (fun q => gv.get q * smAt (p x) k q) o := fun o ho => by
    have ho := mem_idxs.1 ho
    rw [hrv o ho, lineSum_congr (f := fun q => yv.get q * gv.get q) (g := fun q => gv.get q * smAt (p x) k q) (fun q hq => by rw [hwv q hq, mul_comm]; rfl) ho ha.1, hwv o ho]
    simp only [smAt]; ring
  rw [Finset.sum_congr rfl e, Finset.sum_sub_distrib, line_swap ha.1 (fun o => smAt (p x) k o * t x o) (fun q => gv.get q * smAt (p x) k q), ← Finset.sum_sub_distrib]
  exact Finset.sum_congr rfl fun o _ => by ring

theorem grad_logSoftmax {bot : ℝ} {lay : Arr ℝ → List Int} {axis : Int} {x : Nat} {yv gv : Arr ℝ} {g g' : Graph POp} {y gy : Nat} {gxs : List (Option Nat)}
    (hok : SoftmaxOk lay axis 1 (p x)) (hctx : GradCtx F N Z p (.logSoftmax bot lay axis) [x] g y gy yv gv)
    (h : gradCmds [x] y gy logSoftmaxCmds [some (.t 4)] g = .ok (g', gxs)) :
    Grows g g' ∧ Contr (setting F N) g0 Z p g' ([x].map inp) gxs (fun t => inner yv.shape gv.get (jvp p t (.logSoftmax bot lay axis) [x])) := by
  obtain ⟨ha, hst⟩ := hok
  have hk := ha.1
  have hne : (p x).shape ≠ [0] := fun h => by rw [h] at hk; simp at hk
  have hr : POp.run (.logSoftmax bot lay axis) [p x] = .ok yv := hctx.run
  obtain ⟨w, hw, hws, hwv⟩ := logSoftmax_spec bot (lay (p x)) (p x) axis ha (hst _ rfl)
  have hr := hw.symm.trans hr
  cases hr
  have hgs := hctx.shape.trans hws
  obtain ⟨r, hr, hrs, hrv⟩ := reduceSum_line gv (axis := 1) (k := 1) ⟨by rw [hgs]; exact hk, .inl rfl⟩ (by rw [hgs]; exact hne)
  rw [hgs] at hrs hrv
  obtain ⟨m, hm, hms, hmv⟩ := mulOp_set (x0 := EOp.exp.compute yv) (x1 := r) (k := 1) (by show r.shape = yv.shape.set 1 1; rw [hrs, hws]) (by show yv.shape ≠ _; rw [hws]; exact hne)
  rw [show (EOp.exp.compute yv).shape = (p x).shape from hws] at hms hmv
  obtain ⟨c, hg, hcs, hcv⟩ := subOp_same (x0 := gv) (x1 := m) (by rw [hms, hgs])
  rw [hgs] at hcs hcv
  obtain ⟨G, ts, rfl, E⟩ := cmds_evals hctx h (.some (v := EOp.exp.compute yv) ⟨yv, rfl, rfl⟩ <| .some (v := vec [1]) rfl <|
    .some (v := r) ⟨[gv, vec [1]], .cons rfl (.cons rfl .nil), by rw [← hr, ← readAxes_one 1, Int.cast_one]; rfl⟩ <|
    .some (v := m) ⟨_, r, rfl, rfl, hm⟩ <| .some (v := c) ⟨gv, m, rfl, rfl, hg⟩ .nil)
  refine ⟨G, (contr_one (rest := []) (E 4 c rfl) hcs (cont_sub (by rw [hms, hgs]; exact broadcastsTo_self _) hg)).congr fun t _ => ?_⟩
  simp only [jvp, inner]
  rw [hws]
  have hS : ∀ q, InB q (p x).shape → (EOp.exp.compute yv).get q = smAt (p x) 1 q := fun q hq => by
    show Real.exp (yv.get q) = _
    rw [hwv q hq, Real.exp_log (div_pos (Real.exp_pos _) (exp_line_pos _ (getD_pos hq hk)))]; rfl
  simp only [mul_sub]
  rw [Finset.sum_sub_distrib, line_swap hk gv.get (fun q => smAt (p x) 1 q * t x q), ← Finset.sum_sub_distrib]
  refine Finset.sum_congr rfl fun o ho => ?_
  have ho := mem_idxs.1 ho
  rw [hcv o ho, hmv o ho, hrv o ho, hS o ho]
  ring

end

end Verif.Prog
