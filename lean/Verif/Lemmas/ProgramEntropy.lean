import Verif.Lemmas.ProgramSoftmax

/-! Cross entropies in programs: how the values vary, and what the gradients represent. -/

namespace Verif.Prog
open Verif Verif.Graph Verif.Nd Verif.Hint Verif.Gradient Verif.Spec Verif.Eval

theorem sigmoidCE_shapes {x t v : Arr ℝ} (h : Nd.sigmoidCE x t = .ok v) : x.shape = t.shape := by
  unfold Nd.sigmoidCE at h
  by_contra hn
  rw [if_neg hn] at h
  cases h

theorem vary_sigmoidCE {p : Nat → Arr ℝ} {x l : Nat} {v : Arr ℝ} (hr : POp.run .sigmoidCE [p x, p l] = .ok v) {Y : Nat → ℝ → Arr ℝ}
    {t : Nat → List Nat → ℝ} (hx : Moves (Y x) (p x) (t x)) (hl : ∀ u, Y l u = p l) :
    ∃ Z, (∀ u, POp.run .sigmoidCE [Y x u, Y l u] = .ok (Z u)) ∧ Moves Z v (jvp p t .sigmoidCE [x, l]) := by
  have hs := sigmoidCE_shapes hr
  obtain ⟨y, hy, hys, _⟩ := sigmoidCE_spec (p x) (p l) hs
  have hr := hy.symm.trans hr
  cases hr
  refine moves_of (op := .sigmoidCE) (W := fun u => [Y x u, Y l u]) (fun u i => Real.log (1 + Real.exp ((Y x u).get i)) - (p l).get i * (Y x u).get i)
    (by rw [hx.start, hl]; exact hy) (fun u => ?_) (fun i hi => ?_)
  · rw [hl]
    obtain ⟨y', h1, h2, h3⟩ := sigmoidCE_spec (Y x u) (p l) ((hx.shape u).trans hs)
    exact ⟨y', h1, (h2.trans (hx.shape u)).trans hys.symm, fun i hi => h3 i (by rw [hx.shape u, ← hys]; exact hi)⟩
  · rw [hys] at hi
    have hd := hx.deriv i hi
    have hp : 1 + Real.exp ((Y x 0).get i) ≠ 0 := (add_pos one_pos (Real.exp_pos _)).ne'
    refine (((hd.exp.const_add 1).log hp).sub (hd.const_mul ((p l).get i))).congr_deriv ?_
    rw [hx.start]
    simp only [jvp]
    ring

theorem labelAt_spec {lay : Arr ℝ → List Int} {x t : Arr ℝ} (h : SparseOk lay x t) : ∃ b c, x.shape = [b, c] ∧ (∀ a : Arr ℝ, a.shape = x.shape → Contig [b] (lay a)) ∧
    (t.shape = [b] ∨ t.shape = [b, 1]) ∧ ∀ i < b, t.get (if t.shape = [b] then [i] else [i, 0]) = labelAt t i ∧ labelAt t i < c := by
  obtain ⟨b, c, h1, h2, h3, h4⟩ := h
  refine ⟨b, c, h1, h2, h3, fun i hi => ?_⟩
  obtain ⟨l, e, hl⟩ := h4 i hi
  have : (t.shape.length = 1) = (t.shape = [b]) := by rcases h3 with h | h <;> simp [h]
  have hll : labelAt t i = l := by
    unfold labelAt
    simp only [this, e, Nat.floor_natCast]
  rw [hll]
  exact ⟨e, hl⟩

theorem run_sparseCE {bot : ℝ} {lay : Arr ℝ → List Int} {x t y logx : Arr ℝ} (h : Nd.sparseCE bot (lay x) x t = .ok (y, logx)) :
    POp.run (.sparseCE bot lay) [x, t] = .ok y := by
  simp only [POp.run, h, bind, Except.bind]

theorem lineSum_row (b c i : Nat) (f : List Nat → ℝ) (j : Nat) : lineSum 1 [b, c] f [i, j] = ∑ k ∈ Finset.range c, f [i, k] := by simp [lineSum]

theorem vary_sparseCE {p : Nat → Arr ℝ} {bot : ℝ} {lay : Arr ℝ → List Int} {x l : Nat} {v : Arr ℝ} (hok : SparseOk lay (p x) (p l))
    (hr : POp.run (.sparseCE bot lay) [p x, p l] = .ok v) {Y : Nat → ℝ → Arr ℝ} {t : Nat → List Nat → ℝ} (hx : Moves (Y x) (p x) (t x))
    (hl : ∀ u, Y l u = p l) :
    ∃ Z, (∀ u, POp.run (.sparseCE bot lay) [Y x u, Y l u] = .ok (Z u)) ∧ Moves Z v (jvp p t (.sparseCE bot lay) [x, l]) := by
  obtain ⟨b, c, hs, hst, hts, hlab⟩ := labelAt_spec hok
  have hval : ∀ z : Arr ℝ, z.shape = (p x).shape → ∃ y, POp.run (.sparseCE bot lay) [z, p l] = .ok y ∧ y.shape = [b, 1] ∧
      ∀ i, InB i [b, 1] → y.get i = Real.log (∑ k ∈ Finset.range c, Real.exp (z.get [i.getD 0 0, k])) - z.get [i.getD 0 0, labelAt (p l) (i.getD 0 0)] := fun z hz => by
    obtain ⟨y, lx, h1, _, h3, h4⟩ := sparseCE_spec bot (lay z) z (p l) (labelAt (p l)) (hz.trans hs) (hst z hz) hts hlab
    refine ⟨y, run_sparseCE h1, h3, fun i hi => ?_⟩
    match i, hi with
    | [i, j], hi =>
      obtain ⟨hb, hj⟩ : i < b ∧ j = 0 := by simpa [InB] using hi
      subst hj
      rw [h4 i hb, neg_sub]; rfl
  obtain ⟨y, hy, hys, _⟩ := hval (p x) rfl
  rw [hy] at hr
  cases hr
  refine moves_of (op := .sparseCE bot lay) (W := fun u => [Y x u, Y l u])
    (fun u i => Real.log (∑ k ∈ Finset.range c, Real.exp ((Y x u).get [i.getD 0 0, k])) - (Y x u).get [i.getD 0 0, labelAt (p l) (i.getD 0 0)])
    (by rw [hx.start, hl]; exact hy) (fun u => ?_) (fun i hi => ?_)
  · rw [hl]
    obtain ⟨y', h1, h2, h3⟩ := hval (Y x u) (hx.shape u)
    exact ⟨y', h1, h2.trans hys.symm, fun i hi => h3 i (by rw [← hys]; exact hi)⟩
  · rw [hys] at hi
    match i, hi with
    | [i, j], hi =>
      obtain ⟨hb, hj⟩ : i < b ∧ j = 0 := by simpa [InB] using hi
      subst hj
      have hc := (hlab i hb).2
      have hin : ∀ k < c, InB [i, k] (p x).shape := fun k hk => by rw [hs]; exact .cons hb (.cons hk .nil)
      have h1 := hasDerivAt_logLine (k := 1) hx (hin _ hc) (by rw [hs]; simp)
      simp only [hs, lineSum_row] at h1
      refine (h1.sub (hx.deriv _ (hin _ hc))).congr_deriv ?_
      simp only [jvp, hs]
      rfl

theorem cont_assign {f : ℝ → ℝ → ℝ} {a b r : Arr ℝ} (ha : Cont a) (h : assignOp f a b = .ok r) : Cont r := by
  simp only [assignOp, bind_ok] at h
  obtain ⟨_, _, h⟩ := h
  cases h; exact ha

theorem cont_sparseCEGradX {logx t gy r : Arr ℝ} (hx : Cont logx) (h : sparseCEGradX logx t gy = .ok r) : Cont r := by
  unfold sparseCEGradX at h
  split at h
  · rename_i hs
    simp only [bind_ok] at h
    obtain ⟨ls, _, h⟩ := h
    refine cont_assign ?_ h
    have := cont_map hx Real.exp
    simp only [Cont, Nd.map, hs] at this ⊢
    exact this
  · cases h

theorem intoShape_shape {a r : Arr ℝ} {s : List Nat} (h : intoShape a s = some r) : r.shape = s := by
  unfold intoShape at h
  split at h
  · split at h
    · cases h; rfl
    · split at h
      · cases h; rfl
      · cases h
  · cases h

theorem cont_logSoftmax {bot : ℝ} {st : List Int} {x y : Arr ℝ} {axis : Int} (h : Nd.logSoftmax bot st x axis = .ok y) : Cont y := by
  simp only [Nd.logSoftmax, bind_ok] at h
  obtain ⟨l, _, h⟩ := h
  exact cont_zip h

theorem logSoftmax_shape {bot : ℝ} {st : List Int} {x y : Arr ℝ} {axis : Int} (h : Nd.logSoftmax bot st x axis = .ok y) : y.shape = x.shape := by
  simp only [Nd.logSoftmax, logsumexp, assignOp, bind_ok, unwrap_ok, if_true] at h
  obtain ⟨l, ⟨k, _, m, _, s, _, s', hs, b, _, hl⟩, h⟩ := h
  cases hl
  have hs' : (Arr.mk (Nd.map Real.log s').shape (Nd.map Real.log s').strides (fun i => (Nd.map Real.log s').get i + b.get i)).shape = x.shape.set k 1 := by
    show s'.shape = _
    exact intoShape_shape hs
  obtain ⟨y', e, hy⟩ := zipOp_spec (f := (· - ·)) (x0 := x) (x1 := Arr.mk (Nd.map Real.log s').shape (Nd.map Real.log s').strides (fun i => (Nd.map Real.log s').get i + b.get i)) (t := x.shape)
    (by rw [hs']; exact commonShape_left (broadcastsTo_set _ _))
  rw [e] at h
  cases h
  exact hy.1

theorem sigmoidCE_shape {x t y : Arr ℝ} (h : Nd.sigmoidCE x t = .ok y) : y.shape = x.shape := by
  obtain ⟨y', e, hy, _⟩ := sigmoidCE_spec x t (sigmoidCE_shapes h)
  rw [e] at h
  cases h
  exact hy

section
variable {F : List (Feed (Arr ℝ))} {N : List (Arr ℝ)} {g0 : Graph POp} {Z : Nat → Prop} {p : Nat → Arr ℝ}

theorem grad_sigmoidCE {x l : Nat} {yv gv : Arr ℝ} {g g' : Graph POp} {y gy : Nat} {gxs : List (Option Nat)}
    (hok : (p x).shape ≠ [0] ∧ (p x).shape ≠ [1]) (hctx : GradCtx F N Z p .sigmoidCE [x, l] g y gy yv gv)
    (h : gradCmds [x, l] y gy sigmoidCECmds [some (.t 5), some (.t 7)] g = .ok (g', gxs)) :
    Grows g g' ∧ Contr (setting F N) g0 Z p g' ([x, l].map inp) gxs (fun t => inner yv.shape gv.get (jvp p t .sigmoidCE [x, l])) := by
  have hr : Nd.sigmoidCE (p x) (p l) = .ok yv := hctx.run
  have hs := sigmoidCE_shapes hr
  obtain ⟨w, hw, hws, _⟩ := sigmoidCE_spec (p x) (p l) hs
  have hr' := hw.symm.trans hr
  cases hr'
  obtain ⟨r, hr', hrs, hrv⟩ := sigmoidCEGradX_spec hs.symm (hctx.shape.trans hws) hok.1 hok.2
  simp only [sigmoidCEGradX, bind_ok] at hr'
  obtain ⟨s, h1, q, h2, d, h3, h4⟩ := hr'
  obtain ⟨G, ts, rfl, E⟩ := cmds_evals hctx h (.some (v := EOp.exp.compute (p x)) ⟨p x, rfl, rfl⟩ <| .some (v := ofFn [] (fun _ => 1)) rfl <|
    .some (v := s) ⟨_, _, rfl, rfl, h1⟩ <| .some (v := q) ⟨_, _, rfl, rfl, h2⟩ <| .some (v := d) ⟨_, p l, rfl, rfl, h3⟩ <| .some (v := r) ⟨_, gv, rfl, rfl, h4⟩ <|
    .none <| .none .nil)
  refine ⟨G, (contr_some (E 5 r rfl) hrs (cont_bin_right hctx.cont (by rw [hctx.shape, hws, ← hrs]; exact (arithmetic_common (.inr (.inr (.inl h4)))).1) h4) (contr_still (hctx.fixed l (by simp [fixedIn])) contr_nil)).congr fun t _ => ?_⟩
  rw [add_zero, hws]
  refine Finset.sum_congr rfl fun o ho => ?_
  rw [hrv o (mem_idxs.1 ho)]
  simp only [jvp]
  ring

theorem grad_sparseCE {bot : ℝ} {lay : Arr ℝ → List Int} {x l : Nat} {yv gv : Arr ℝ} {g g' : Graph POp} {y gy : Nat} {gxs : List (Option Nat)}
    (hok : SparseOk lay (p x) (p l)) (hctx : GradCtx F N Z p (.sparseCE bot lay) [x, l] g y gy yv gv)
    (h : gradCmds [x, l] y gy sparseCECmds [some (.t 1), some (.t 8)] g = .ok (g', gxs)) :
    Grows g g' ∧ Contr (setting F N) g0 Z p g' ([x, l].map inp) gxs (fun t => inner yv.shape gv.get (jvp p t (.sparseCE bot lay) [x, l])) := by
  obtain ⟨b, c, hs, hst, hts, hlab⟩ := labelAt_spec hok
  obtain ⟨w, lx, hw, hlx, hws, _⟩ := sparseCE_spec bot (lay (p x)) (p x) (p l) (labelAt (p l)) hs (hst _ rfl) hts hlab
  have hr' := (run_sparseCE hw).symm.trans hctx.run
  cases hr'
  obtain ⟨lx', hlx', hls, hlv⟩ := logSoftmax_rows bot (lay (p x)) (p x) hs (hst _ rfl)
  have := hlx.symm.trans hlx'
  cases this
  obtain ⟨r, hr, hrs, hrv⟩ := sparseCEGradX_spec (gy := gv) (labelAt (p l)) hls hts hlab (hctx.shape.trans hws)
  have hex : POp.extra (.sparseCE bot lay) [p x, p l] = [lx] := by simp only [POp.extra, hw]
  obtain ⟨G, ts, rfl, E⟩ := cmds_evals hctx h (.some (v := lx) ⟨rfl, by simp [hex]⟩ <| .some (v := r) ⟨[lx, p l, gv], .cons rfl (.cons rfl (.cons rfl .nil)), hr⟩ <|
    .none <| .none <| .none <| .none <| .none <| .none <| .none .nil)
  refine ⟨G, (contr_some (E 1 r rfl) (hrs.trans hs.symm) (cont_sparseCEGradX (cont_logSoftmax hlx) hr) (contr_still (hctx.fixed l (by simp [fixedIn])) contr_nil)).congr fun t _ => ?_⟩
  rw [add_zero, hws]
  simp only [inner, jvp, hs, sum_idxs_two]
  refine Finset.sum_congr rfl fun i hi => ?_
  have hi := Finset.mem_range.1 hi
  have hc := (hlab i hi).2
  simp only [Finset.range_one, Finset.sum_singleton, List.getD_cons_zero, List.getD_cons_succ]
  have hpos : 0 < ∑ k ∈ Finset.range c, Real.exp ((p x).get [i, k]) := Finset.sum_pos (fun _ _ => Real.exp_pos _) ⟨_, Finset.mem_range.2 hc⟩
  have e : ∀ j ∈ Finset.range c, r.get [i, j] * t x [i, j] =
      gv.get [i, 0] * (smAt (p x) 1 [i, j] * t x [i, j]) - gv.get [i, 0] * (if labelAt (p l) i = j then t x [i, j] else 0) := fun j hj => by
    rw [hrv i hi j (Finset.mem_range.1 hj), hlv i hi j (Finset.mem_range.1 hj), Real.exp_sub, Real.exp_log hpos, smAt, hs, lineSum_row]
    split <;> ring
  rw [Finset.sum_congr rfl e, Finset.sum_sub_distrib, ← Finset.mul_sum, ← Finset.mul_sum, Finset.sum_ite_eq, if_pos (Finset.mem_range.2 hc), ← mul_sub]

end

end Verif.Prog
