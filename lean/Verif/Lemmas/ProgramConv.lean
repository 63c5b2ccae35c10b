import Mathlib.Analysis.Calculus.Deriv.Mul
import Verif.Lemmas.Conv
import Verif.Lemmas.MaxPool
import Verif.Lemmas.ProgramContr

/-! `conv2d`, `max_pool2d` and `dropout` in programs: how the values vary, and what the gradients represent. -/

namespace Verif.Prog
open Verif Verif.Graph Verif.Nd Verif.Hint Verif.Gradient Verif.Spec Verif.Eval

theorem inB4 {a b c d a' b' c' d' : Nat} (h : InB [a, b, c, d] [a', b', c', d']) : a < a' ∧ b < b' ∧ c < c' ∧ d < d' := by simpa [InB] using h

/-! ## Convolution -/

theorem convAt_zero_left {pad stride dil : Nat} {xs ws : List Nat} {x w : Arr ℝ} (h : x.get = 0) (i : List Nat) : convAt pad stride dil xs ws x w i = 0 := by
  simp [convAt, padGet, h]

theorem convAt_zero_right {pad stride dil : Nat} {xs ws : List Nat} {x w : Arr ℝ} (h : w.get = 0) (i : List Nat) : convAt pad stride dil xs ws x w i = 0 := by
  simp [convAt, h]

theorem run_conv2d {pad stride dil : Nat} {x w y cols : Arr ℝ} (h : Nd.conv2d x w pad stride dil = .ok (y, cols)) :
    POp.run (.conv2d pad stride dil) [x, w] = .ok y := by simp only [POp.run, h, bind, Except.bind]

/-- Images of the same shape, filters of the same shape: the convolution is `convAt`. -/
theorem conv_value {pad stride dil : Nat} {x0 w0 : Arr ℝ} (hok : ConvOk pad stride dil x0 w0) : ∃ batch xch xh xw ych kh kw, x0.shape = [batch, xch, xh, xw] ∧
    w0.shape = [ych, xch, kh, kw] ∧ 0 < batch ∧ ∀ x w : Arr ℝ, x.shape = x0.shape → w.shape = w0.shape →
      ∃ y cols, Nd.conv2d x w pad stride dil = .ok (y, cols) ∧ IsConv batch xch xh xw ych kh kw pad stride dil x w y ∧ IsCols batch xch xh xw kh kw pad stride dil x cols ∧
        y.shape = [batch, ych, outSize xh (extent kh dil) pad stride, outSize xw (extent kw dil) pad stride] ∧
        ∀ i, InB i y.shape → y.get i = convAt pad stride dil x0.shape w0.shape x w i := by
  obtain ⟨batch, xch, xh, xw, ych, kh, kw, hx, hw, hpos, hst, ⟨h1, h2, h3⟩, h4, h5, h6⟩ := hok
  simp only [hx, hw, List.cons_append, List.nil_append, List.mem_cons, List.not_mem_nil, or_false, forall_eq_or_imp, forall_eq] at hpos
  obtain ⟨p1, p2, p3, p4, p5, _, p6, p7⟩ := hpos
  refine ⟨batch, xch, xh, xw, ych, kh, kw, hx, hw, p1, fun x w hxs hws => ?_⟩
  obtain ⟨y, cols, e, hy, hc⟩ := conv2d_spec x w batch xch xh xw ych kh kw pad stride dil (hxs.trans hx) (hws.trans hw) p2 p3 p4 p5 p6 p7 hst h1 h4 h2 h5
  refine ⟨y, cols, e, hy, hc, hy.1, fun i hi => ?_⟩
  rw [hy.1] at hi
  match i, hi with
  | [b, o, i, j], hi =>
    have hi := inB4 hi
    rw [hy.2 b hi.1 o hi.2.1 i hi.2.2.1 j hi.2.2.2, convAt, hx, hw]
    rfl

theorem vary_conv2d {p : Nat → Arr ℝ} {pad stride dil : Nat} {x w : Nat} {v : Arr ℝ} (hok : ConvOk pad stride dil (p x) (p w))
    (hr : POp.run (.conv2d pad stride dil) [p x, p w] = .ok v) {Y : Nat → ℝ → Arr ℝ} {t : Nat → List Nat → ℝ} (hx : Moves (Y x) (p x) (t x)) (hw : Moves (Y w) (p w) (t w)) :
    ∃ Z, (∀ u, POp.run (.conv2d pad stride dil) [Y x u, Y w u] = .ok (Z u)) ∧ Moves Z v (jvp p t (.conv2d pad stride dil) [x, w]) := by
  obtain ⟨batch, xch, xh, xw, ych, kh, kw, hxs, hws, -, hval⟩ := conv_value hok
  obtain ⟨y, cols, e, -, -, hys, -⟩ := hval (p x) (p w) rfl rfl
  have e' := (run_conv2d e).symm.trans hr
  cases e'
  refine moves_of (op := .conv2d pad stride dil) (W := fun u => [Y x u, Y w u]) (fun u i => convAt pad stride dil (p x).shape (p w).shape (Y x u) (Y w u) i)
    (by rw [hx.start, hw.start]; exact hr) (fun u => ?_) (fun i hi => ?_)
  · obtain ⟨y', cols', e1, -, -, e2, e3⟩ := hval (Y x u) (Y w u) (hx.shape u) (hw.shape u)
    exact ⟨y', run_conv2d e1, e2.trans hys.symm, fun i hi => e3 i (by rw [e2, ← hys]; exact hi)⟩
  · rw [hys] at hi
    match i, hi with
    | [b, o, i, j], hi =>
      have hi := inB4 hi
      have hpad : ∀ c h l, c < xch → HasDerivAt (fun u => padGet (Y x u) xh xw pad b c h l) (padGet (ofFn (p x).shape (t x)) xh xw pad b c h l) 0 := by
        intro c h l hc
        by_cases hin : (pad ≤ h ∧ h < pad + xh) ∧ (pad ≤ l ∧ l < pad + xw)
        · simp only [padGet, if_pos hin]
          exact hx.deriv [b, c, h - pad, l - pad] (by rw [hxs]; exact inB_four hi.1 hc (by omega) (by omega))
        · simp only [padGet, if_neg hin]
          exact hasDerivAt_const _ _
      simp only [jvp, convAt, hxs, hws, ← Finset.sum_add_distrib, List.getD_cons_zero, List.getD_cons_succ]
      refine HasDerivAt.fun_sum fun c hc => HasDerivAt.fun_sum fun a ha => HasDerivAt.fun_sum fun e he => ?_
      have hc := Finset.mem_range.1 hc
      have ha := Finset.mem_range.1 ha
      have he := Finset.mem_range.1 he
      refine ((hw.deriv [o, c, a, e] (by rw [hws]; exact inB_four hi.2.1 hc ha he)).mul (hpad c _ _ hc)).congr_deriv ?_
      simp only [hx.start, hw.start, hxs]
      exact add_comm _ _

section
variable {F : List (Feed (Arr ℝ))} {N : List (Arr ℝ)} {g0 : Graph POp} {Z : Nat → Prop} {p : Nat → Arr ℝ}

theorem cont_conv2dTranspose {debug : Bool} {gy w y : Arr ℝ} {pad stride dil : Nat} (h : conv2dTranspose debug gy w pad stride dil = .ok (some y)) : Cont y := by
  unfold conv2dTranspose at h
  split at h
  · simp only [bind_ok] at h
    obtain ⟨_, _, _, _, h⟩ := h
    repeat' split at h
    all_goals try cases h
    simp only [bind_ok] at h
    obtain ⟨_, _, _, _, h⟩ := h
    split at h
    · cases h; exact cont_ofFn _ _
    · cases h
  · split at h <;> cases h

theorem cont_convFilterGrad {cols gy w y : Arr ℝ} (h : Nd.convFilterGrad cols gy w = .ok (some y)) : Cont y := by
  unfold Nd.convFilterGrad at h
  split at h
  · split at h
    · cases h
    · cases h; exact cont_ofFn _ _
  · cases h

theorem grad_conv2d {pad stride dil : Nat} {x w : Nat} {yv gv : Arr ℝ} {g g' : Graph POp} {y gy : Nat} {gxs : List (Option Nat)}
    (hok : ConvOk pad stride dil (p x) (p w)) (hctx : GradCtx F N Z p (.conv2d pad stride dil) [x, w] g y gy yv gv)
    (h : gradCmds [x, w] y gy (convCmds pad stride dil) [some (.t 0), some (.t 2)] g = .ok (g', gxs)) :
    Grows g g' ∧ Contr (setting F N) g0 Z p g' ([x, w].map inp) gxs (fun t => inner yv.shape gv.get (jvp p t (.conv2d pad stride dil) [x, w])) := by
  have hok' := hok
  obtain ⟨batch, xch, xh, xw, ych, kh, kw, hxs, hws, hbatch, hval⟩ := conv_value hok
  obtain ⟨yv', cols, e, hconv, hcols, hys, -⟩ := hval (p x) (p w) rfl rfl
  have e' := (run_conv2d e).symm.trans hctx.run
  cases e'
  have hgs := hctx.shape.trans hys
  obtain ⟨gx, ex, sx, ax⟩ : ∃ gx, conv2dTranspose false gv (p w) pad stride dil = .ok (some gx) ∧ gx.shape = (p x).shape ∧
      ∀ dx dy : Arr ℝ, dx.shape = (p x).shape → IsConv batch xch xh xw ych kh kw pad stride dil dx (p w) dy → inner' dy.shape gv dy = inner' dx.shape gx dx := by
    obtain ⟨batch', xch', xh', xw', ych', kh', kw', hx, hw, hpos, hst, ⟨h1, h2, h3⟩, h4, h5, h6⟩ := hok'
    rw [hxs] at hx; rw [hws] at hw
    simp only [List.cons.injEq, and_true] at hx hw
    obtain ⟨rfl, rfl, rfl, rfl⟩ := hx
    obtain ⟨rfl, -, rfl, rfl⟩ := hw
    simp only [hxs, hws, List.cons_append, List.nil_append, List.mem_cons, List.not_mem_nil, or_false, forall_eq_or_imp, forall_eq] at hpos
    obtain ⟨p1, p2, p3, p4, p5, _, p6, p7⟩ := hpos
    obtain ⟨gx, ex, sx, ax⟩ := conv2dTranspose_spec false gv (p w) batch xch xh xw ych kh kw pad stride dil hgs hws p1 p2 p3 p4 p5 p6 p7 hst h1 h4 h2 h5
      (convIn_out p6 h1 h2 h3 (by simp)) (convIn_out p7 h4 h5 h6 (by simp))
    exact ⟨gx, ex, sx.trans hxs.symm, fun dx dy hdx hdy => ax dx dy (hdx.trans hxs) hdy⟩
  obtain ⟨gw, ew, sw, aw⟩ := convFilterGrad_spec (p x) cols gv (p w) batch xch xh xw ych kh kw pad stride dil hws hcols hgs hbatch
  have hex : POp.extra (.conv2d pad stride dil) [p x, p w] = [cols] := by simp only [POp.extra, e]
  obtain ⟨G, ts, rfl, E⟩ := cmds_evals hctx h (.some (v := gx) ⟨[gv, p w], .cons rfl (.cons rfl .nil), by simp only [POp.run, ex, defined]⟩ <|
    .some (v := cols) ⟨rfl, by simp [hex]⟩ <| .some (v := gw) ⟨[cols, gv, p w], .cons rfl (.cons rfl (.cons rfl .nil)), by simp only [POp.run, ew, defined]⟩ .nil)
  refine ⟨G, (contr_two (E 0 gx rfl) sx (cont_conv2dTranspose ex) (E 2 gw rfl) sw (cont_convFilterGrad ew)).congr fun t _ => ?_⟩
  obtain ⟨d1, c1, e1, i1, -, s1, v1⟩ := hval (ofFn (p x).shape (t x)) (p w) rfl rfl
  obtain ⟨d2, c2, e2, i2, -, s2, v2⟩ := hval (p x) (ofFn (p w).shape (t w)) rfl rfl
  have k1 := ax (ofFn (p x).shape (t x)) d1 rfl i1
  have k2 := conv_adjoint_filter i2 aw
  rw [s1, ← hys] at k1
  rw [s2, ← hys, ← hws] at k2
  have : inner yv.shape gv.get (jvp p t (.conv2d pad stride dil) [x, w]) = inner' yv.shape gv d1 + inner' yv.shape gv d2 := by
    simp only [inner, inner', ← Finset.sum_add_distrib]
    refine Finset.sum_congr rfl fun i hi => ?_
    have hi := mem_idxs.1 hi
    rw [v1 i (by rw [s1, ← hys]; exact hi), v2 i (by rw [s2, ← hys]; exact hi), ← mul_add]
    rfl
  rw [this, k1, k2]
  rfl

end

/-! ## Max pooling -/

/-- A function that near zero always agrees with one of finitely many functions, which have the same value and the same derivative at zero. -/
theorem hasDerivAt_select {ι : Type} (A : Finset ι) (f : ι → ℝ → ℝ) {Φ : ℝ → ℝ} {M d : ℝ} (h0 : Φ 0 = M) (hf : ∀ a ∈ A, f a 0 = M ∧ HasDerivAt (f a) d 0)
    (hΦ : ∀ᶠ u in nhds (0 : ℝ), ∃ a ∈ A, Φ u = f a u) : HasDerivAt Φ d 0 := by
  rw [hasDerivAt_iff_isLittleO, Asymptotics.isLittleO_iff]
  intro c hc
  have hall : ∀ᶠ u in nhds (0 : ℝ), ∀ a ∈ A, ‖f a u - f a 0 - (u - 0) • d‖ ≤ c * ‖u - 0‖ := by
    rw [Filter.eventually_all_finset]
    intro a ha
    have := (hf a ha).2
    rw [hasDerivAt_iff_isLittleO, Asymptotics.isLittleO_iff] at this
    exact this hc
  filter_upwards [hΦ, hall] with u ⟨a, ha, e⟩ h
  have := h a ha
  rwa [(hf a ha).1, ← h0, ← e] at this

theorem maxPool_ok {m : ℝ} (x : Arr ℝ) {batch ch xh xw k stride : Nat} (hx : x.shape = [batch, ch, xh, xw])
    (hst : 0 < stride) (hh : k ≤ xh) (hw : k ≤ xw) (hbh : xh + k < 2 ^ 63) (hbw : xw + k < 2 ^ 63) :
    ∃ y ind, Nd.maxPool false m x k 0 stride = .ok (y, ind) ∧ y.shape = [batch, ch, outSize xh k 0 stride, outSize xw k 0 stride] := by
  obtain ⟨hb, hhb, Hh⟩ := mapM_range (outSize xh k 0 stride) (poolBounds false xh k 0 stride) (BoundsOk xh k 0 stride) (0, 0)
    fun i hi => poolBounds_ok false xh k 0 stride i (out_le (by omega) hi) (by omega) (by simp)
  obtain ⟨wb, hwb, Hw⟩ := mapM_range (outSize xw k 0 stride) (poolBounds false xw k 0 stride) (BoundsOk xw k 0 stride) (0, 0)
    fun i hi => poolBounds_ok false xw k 0 stride i (out_le (by omega) hi) (by omega) (by simp)
  unfold Nd.maxPool
  rw [hx]
  simp only [poolOut_ok (show k ≤ xh + 2 * 0 by omega) hst, poolOut_ok (show k ≤ xw + 2 * 0 by omega) hst, hhb, hwb, bind, Except.bind]
  by_cases h0 : batch * ch = 0
  · simp only [h0, if_true]
    exact ⟨_, _, rfl, rfl⟩
  · simp only [h0, if_false]
    exact ⟨_, _, rfl, rfl⟩

theorem run_maxPool {bot : ℝ} {k pad stride : Nat} {x y : Arr ℝ} {ind : Arr Nat} (h : Nd.maxPool false bot x k pad stride = .ok (y, ind)) :
    POp.run (.maxPool bot k pad stride) [x] = .ok y := by simp only [POp.run, h, bind, Except.bind]

/-- The result at an image with values above `bot`, element by element, and the positions of the maxima. -/
theorem pool_value {bot : ℝ} {x : Arr ℝ} {batch ch xh xw k stride : Nat} (hx : x.shape = [batch, ch, xh, xw]) (hk : 0 < k)
    (hst : 0 < stride) (hh : k ≤ xh) (hw : k ≤ xw) (hbh : xh + k < 2 ^ 63) (hbw : xw + k < 2 ^ 63) (hm : ∀ i, InB i x.shape → bot < x.get i) :
    ∃ y ind, Nd.maxPool false bot x k 0 stride = .ok (y, ind) ∧ y.shape = [batch, ch, outSize xh k 0 stride, outSize xw k 0 stride] ∧ ind.shape = y.shape ∧
      ∀ o, InB o y.shape → ∃ q, IsArgMax x xh xw k 0 stride o q ∧ InB q x.shape ∧ y.get o = x.get q ∧ ind.get o = flat x.shape q := by
  obtain ⟨y, ind, e, s, si, H⟩ := maxPool_spec false bot x batch ch xh xw k 0 stride hx hst hk (by omega) (by omega) (by omega) (by omega) (fun _ => rfl) hm
  refine ⟨y, ind, e, s, si, fun o ho => ?_⟩
  rw [s] at ho
  match o, ho with
  | [b, c, i, j], ho =>
    have ho := inB4 ho
    exact (H b ho.1 c ho.2.1 i ho.2.2.1 j ho.2.2.2).1 (Nat.zero_le _) (Nat.zero_le _)

theorem vary_maxPool {p : Nat → Arr ℝ} {flt : List Nat → Prop} {bot : ℝ} {k pad stride : Nat} {x : Nat} {v : Arr ℝ} (hok : PoolOk flt bot k pad stride (p x))
    (hr : POp.run (.maxPool bot k pad stride) [p x] = .ok v) {Y : Nat → ℝ → Arr ℝ} {t : Nat → List Nat → ℝ} (hx : Moves (Y x) (p x) (t x))
    (hflat : ∀ i, InB i (p x).shape → flt i → t x i = 0) :
    ∃ Z, (∀ u, POp.run (.maxPool bot k pad stride) [Y x u] = .ok (Z u)) ∧ Moves Z v (jvp p t (.maxPool bot k pad stride) [x]) := by
  obtain ⟨rfl, hk, hst, hm, batch, ch, xh, xw, hxs, ⟨h1, h2, h3⟩, ⟨h4, h5, h6⟩, huniq⟩ := hok
  obtain ⟨v', ind, e, hvs, his, hv⟩ := pool_value hxs hk hst h1 h4 h2 h5 hm
  have e' := (run_maxPool e).symm.trans hr
  cases e'
  have hall : ∀ u, ∃ y, POp.run (.maxPool bot k 0 stride) [Y x u] = .ok y ∧ y.shape = v.shape := fun u => by
    obtain ⟨y, ind', e1, e2⟩ := maxPool_ok (m := bot) (Y x u) ((hx.shape u).trans hxs) hst h1 h4 h2 h5
    exact ⟨y, run_maxPool e1, e2.trans hvs.symm⟩
  choose V hV hVs using hall
  refine moves_of (op := .maxPool bot k 0 stride) (W := fun u => [Y x u]) (fun u i => (V u).get i) (by rw [hx.start]; exact hr)
    (fun u => ⟨V u, hV u, hVs u, fun i _ => rfl⟩) (fun o ho => ?_)
  obtain ⟨q0, hq0, hb0, hval0, hind⟩ := hv o ho
  have hjvp : jvp p t (.maxPool bot k 0 stride) [x] o = t x q0 := by
    simp only [jvp, e, posAt, hind, unflat_flat hb0]
  rw [hjvp]
  -- values stay above `bot`
  have habove : ∀ᶠ u in nhds (0 : ℝ), ∀ i ∈ idxs (p x).shape, bot < (Y x u).get i := by
    rw [Filter.eventually_all_finset]
    intro i hi
    have hi := mem_idxs.1 hi
    have hc := (hx.deriv i hi).continuousAt
    refine hc.eventually (lt_mem_nhds ?_)
    simp only [hx.start]; exact hm i hi
  -- elements below the maximum stay below it
  have hbelow : ∀ᶠ u in nhds (0 : ℝ), ∀ i ∈ idxs (p x).shape, (p x).get i < (p x).get q0 → (Y x u).get i < (Y x u).get q0 := by
    rw [Filter.eventually_all_finset]
    intro i hi
    have hi := mem_idxs.1 hi
    by_cases hlt : (p x).get i < (p x).get q0
    · have hc := (hx.deriv i hi).continuousAt
      have hc0 := (hx.deriv q0 hb0).continuousAt
      have := hc.eventually_lt hc0 (by simp only [hx.start]; exact hlt)
      filter_upwards [this] with u hu _ using hu
    · exact Filter.Eventually.of_forall fun u h => absurd h hlt
  obtain ⟨b, c, i, j, a0, l0, rfl, rfl, w1, w2, hmax⟩ := hq0
  have hbc : b < batch ∧ c < ch := by
    rw [hvs] at ho
    have ho := inB4 ho
    exact ⟨ho.1, ho.2.1⟩
  classical
  let A := (idxs (p x).shape).filter (fun q => IsArgMax (p x) xh xw k 0 stride [b, c, i, j] q)
  refine hasDerivAt_select A (fun q u => (Y x u).get q) (M := (p x).get [b, c, a0, l0]) ?_ (fun q hq => ?_) ?_
  · have : V 0 = v := by have := hV 0; rw [hx.start, hr] at this; exact (Except.ok.inj this).symm
    rw [this]; exact hval0
  · obtain ⟨hqb, hq⟩ := Finset.mem_filter.1 hq
    have hqb := mem_idxs.1 hqb
    constructor
    · rw [hx.start]
      obtain ⟨b', c', i', j', a, l, e1, rfl, w3, w4, hmax'⟩ := hq
      simp only [List.cons.injEq, and_true] at e1
      obtain ⟨rfl, rfl, rfl, rfl⟩ := e1
      exact le_antisymm (hmax a l w3 w4) (hmax' a0 l0 w1 w2)
    · have : t x [b, c, a0, l0] = t x q := by
        rcases huniq _ q [b, c, a0, l0] hqb hb0 hq ⟨b, c, i, j, a0, l0, rfl, rfl, w1, w2, hmax⟩ with h | ⟨f1, f2⟩
        · rw [h]
        · rw [hflat _ hb0 f2, hflat _ hqb f1]
      rw [this]
      exact hx.deriv q hqb
  · filter_upwards [habove, hbelow] with u ha hb
    obtain ⟨y, ind', e1, s1, -, H⟩ := pool_value (x := Y x u) (bot := bot) ((hx.shape u).trans hxs) hk hst h1 h4 h2 h5
      (fun i hi => ha i (mem_idxs.2 (by rw [← hx.shape u]; exact hi)))
    have e2 := (run_maxPool e1).symm.trans (hV u)
    have e2 := Except.ok.inj e2
    subst e2
    obtain ⟨q, hq, hqb, hqv, -⟩ := H [b, c, i, j] (by rw [s1, ← hvs]; exact ho)
    rw [hx.shape u] at hqb
    refine ⟨q, Finset.mem_filter.2 ⟨mem_idxs.2 hqb, ?_⟩, hqv⟩
    obtain ⟨b', c', i', j', a, l, e3, rfl, w3, w4, hmax'⟩ := hq
    simp only [List.cons.injEq, and_true] at e3
    obtain ⟨rfl, rfl, rfl, rfl⟩ := e3
    refine ⟨b, c, i, j, a, l, rfl, rfl, w3, w4, fun h' l' w5 w6 => ?_⟩
    have hge : (p x).get [b, c, a0, l0] ≤ (p x).get [b, c, a, l] := by
      by_contra hlt
      exact absurd (hmax' a0 l0 w1 w2) (not_le.2 (hb _ (mem_idxs.2 hqb) (not_le.1 hlt)))
    exact (hmax h' l' w5 w6).trans hge

section
variable {F : List (Feed (Arr ℝ))} {N : List (Arr ℝ)} {g0 : Graph POp} {Z : Nat → Prop} {p : Nat → Arr ℝ}

theorem cont_maxPoolGrad {debug : Bool} {gy y : Arr ℝ} {ind : Arr Nat} {k pad stride : Nat} (h : Nd.maxPoolGrad debug gy ind k pad stride = .ok (some y)) : Cont y := by
  unfold Nd.maxPoolGrad at h
  split at h
  · simp only [bind_ok] at h
    obtain ⟨_, _, _, _, h⟩ := h
    have h := Except.ok.inj h
    simp only [Option.map_eq_some_iff] at h
    obtain ⟨_, _, rfl⟩ := h
    exact cont_ofFn _ _
  · cases h

theorem poolIn_out {n k stride : Nat} (h : k ≤ n) (h' : n + k < 2 ^ 63) (hd : stride ∣ n - k) : poolIn false (outSize n k 0 stride) k 0 stride = .ok n := by
  have e1 : stride * (outSize n k 0 stride - 1) = n - k := by
    rw [outSize, Nat.add_sub_cancel]; exact Nat.mul_div_cancel' hd
  rw [poolIn, if_neg (by simp [outSize]), e1, uSub, if_pos (by omega)]
  simp only [bind, Except.bind]
  rw [uAdd, if_pos (by omega)]
  congr 1; omega

theorem grad_maxPool {flt : List Nat → Prop} {bot : ℝ} {k pad stride : Nat} {x : Nat} {yv gv : Arr ℝ} {g g' : Graph POp} {y gy : Nat} {gxs : List (Option Nat)}
    (hok : PoolOk flt bot k pad stride (p x)) (hctx : GradCtx F N Z p (.maxPool bot k pad stride) [x] g y gy yv gv)
    (h : gradCmds [x] y gy (poolCmds k pad stride) [some (.t 1)] g = .ok (g', gxs)) :
    Grows g g' ∧ Contr (setting F N) g0 Z p g' ([x].map inp) gxs (fun t => inner yv.shape gv.get (jvp p t (.maxPool bot k pad stride) [x])) := by
  obtain ⟨rfl, hk, hst, hm, batch, ch, xh, xw, hxs, ⟨h1, h2, h3⟩, ⟨h4, h5, h6⟩, -⟩ := hok
  obtain ⟨v', ind, e, hvs, his, hv⟩ := pool_value hxs hk hst h1 h4 h2 h5 hm
  have e' := (run_maxPool e).symm.trans hctx.run
  cases e'
  have hgs := hctx.shape.trans hvs
  have hex : POp.extra (.maxPool bot k 0 stride) [p x] = [⟨ind.shape, ind.strides, fun i => (ind.get i : ℝ)⟩] := by simp only [POp.extra, e]
  have hnat : nats ⟨ind.shape, ind.strides, fun i => (ind.get i : ℝ)⟩ = ind := by simp [nats]
  have hpos : ∀ o, InB o gv.shape → InB (unflat (p x).shape (ind.get o)) [batch, ch, xh, xw] ∧ ind.get o = flat [batch, ch, xh, xw] (unflat (p x).shape (ind.get o)) := by
    intro o ho
    obtain ⟨q, -, hb, -, hi⟩ := hv o (by rw [← hctx.shape]; exact ho)
    rw [hi, unflat_flat hb, ← hxs]
    exact ⟨hb, rfl⟩
  obtain ⟨r, er, sr, ar⟩ := maxPoolGrad_spec false gv ind batch ch _ _ xh xw k 0 stride hgs (his.trans hctx.shape.symm) (poolIn_out h1 h2 h3) (poolIn_out h4 h5 h6)
    (fun o => unflat (p x).shape (ind.get o)) hpos
  obtain ⟨G, ts, rfl, E⟩ := cmds_evals hctx h (.some (v := ⟨ind.shape, ind.strides, fun i => (ind.get i : ℝ)⟩) ⟨rfl, by simp [hex]⟩ <|
    .some (v := r) ⟨[gv, _], .cons rfl (.cons rfl .nil), by simp only [POp.run, hnat, er, defined]⟩ .nil)
  refine ⟨G, (contr_one (E 1 r rfl) (sr.trans hxs.symm) (cont_maxPoolGrad er)).congr fun t _ => ?_⟩
  have := ar (t x)
  rw [sr, ← hxs] at this
  simp only [inner, jvp, e, posAt]
  rw [this, hctx.shape]

/-! ## Dropout -/

theorem dropout_value (ratio : ℝ) (mask : List Nat → List Nat → ℝ) (z : Arr ℝ) : ∃ y, POp.run (.dropout true ratio mask) [z] = .ok y ∧ y.shape = z.shape ∧
    ∀ i, InB i z.shape → y.get i = mask z.shape i * z.get i := by
  obtain ⟨y, hy, hs, hg⟩ := zipOp_spec (f := (· * · : ℝ → ℝ → ℝ)) (x0 := ofFn z.shape (mask z.shape)) (x1 := z) (t := z.shape) (commonShape_left (broadcastsTo_self _))
  refine ⟨y, by simpa [POp.run] using hy, hs, fun i hi => ?_⟩
  rw [hg i hi, show (ofFn z.shape (mask z.shape)).shape = z.shape from rfl, bIdx_self hi]
  rfl

theorem vary_dropout {train : Bool} {ratio : ℝ} {mask : List Nat → List Nat → ℝ} {x : Nat} {v : Arr ℝ} (hok : train = true)
    (hr : POp.run (.dropout train ratio mask) [p x] = .ok v) {Y : Nat → ℝ → Arr ℝ} {t : Nat → List Nat → ℝ} (hx : Moves (Y x) (p x) (t x)) :
    ∃ Z, (∀ u, POp.run (.dropout train ratio mask) [Y x u] = .ok (Z u)) ∧ Moves Z v (jvp p t (.dropout train ratio mask) [x]) := by
  subst hok
  obtain ⟨y, e, hys, -⟩ := dropout_value ratio mask (p x)
  have e' := e.symm.trans hr
  cases e'
  refine moves_of (op := .dropout true ratio mask) (W := fun u => [Y x u]) (fun u i => mask (p x).shape i * (Y x u).get i) (by rw [hx.start]; exact hr)
    (fun u => ?_) (fun i hi => ?_)
  · obtain ⟨y', e1, e2, e3⟩ := dropout_value ratio mask (Y x u)
    rw [hx.shape u] at e2 e3
    exact ⟨y', e1, e2.trans hys.symm, fun i hi => e3 i (by rw [← hys]; exact hi)⟩
  · exact (hx.deriv i (by rw [← hys]; exact hi)).const_mul _

theorem grad_dropout {train : Bool} {ratio : ℝ} {mask : List Nat → List Nat → ℝ} {x : Nat} {yv gv : Arr ℝ} {g g' : Graph POp} {y gy : Nat} {gxs : List (Option Nat)}
    (hok : train = true) (hctx : GradCtx F N Z p (.dropout train ratio mask) [x] g y gy yv gv)
    (h : gradCmds [x] y gy dropoutCmds [some (.t 1)] g = .ok (g', gxs)) :
    Grows g g' ∧ Contr (setting F N) g0 Z p g' ([x].map inp) gxs (fun t => inner yv.shape gv.get (jvp p t (.dropout train ratio mask) [x])) := by
  subst hok
  obtain ⟨v', e, hys, -⟩ := dropout_value ratio mask (p x)
  have e' := e.symm.trans hctx.run
  cases e'
  have hgs := hctx.shape.trans hys
  obtain ⟨r, er, sr, ar⟩ := mulOp_same (x0 := gv) (x1 := ofFn (p x).shape (mask (p x).shape)) hgs
  obtain ⟨G, ts, rfl, E⟩ := cmds_evals hctx h (.some (v := ofFn (p x).shape (mask (p x).shape)) ⟨rfl, by simp [POp.extra]⟩ <|
    .some (v := r) ⟨gv, ofFn (p x).shape (mask (p x).shape), rfl, rfl, er⟩ .nil)
  refine ⟨G, (contr_one (E 1 r rfl) (sr.trans hgs) (cont_bin hctx.cont (by rw [hgs]; exact broadcastsTo_self _) er)).congr fun t _ => ?_⟩
  rw [hys]
  refine Finset.sum_congr rfl fun i hi => ?_
  have hi := mem_idxs.1 hi
  rw [ar i (by rw [hgs]; exact hi)]
  simp only [jvp, ofFn]
  ring

end

end Verif.Prog
