import Verif.Lemmas.MaxPool

/-!
# C42: max pooling
-/

namespace Verif.Props
open Verif.Nd Finset

/-- A 3x3 image (the one of the test in the repository), column-major. -/
def mpX : Arr Int := ⟨[1, 1, 3, 3], [1, 1, 1, 3], fun i => [0, 1, 2, 5, 4, 3, 6, 7, 8].getD (i.getD 2 0 * 3 + i.getD 3 0) 0⟩
/-- Incoming gradient for 2x2 outputs. -/
def mpG : Arr Int := ofFn [1, 1, 2, 2] (fun i => (i.getD 2 0 : Int) * 2 + i.getD 3 0 + 1)

theorem mpX_above : ∀ o, InB o mpX.shape → (-100 : Int) < mpX.get o := fun o ho => by
  have h : ∀ o ∈ idxs mpX.shape, (-100 : Int) < mpX.get o := by decide
  exact h o (mem_idxs.2 ho)

/-- C42 (forward): for all sizes, memory layouts, windows, strides and paddings smaller than the window, the output has the documented shape, and every output
whose window does not reach into the padding at the top or on the left is the maximum of its window. Missing: the windows that reach into that padding (see
`C42_padding_violated`), inputs with values not above the lowest finite number `m` and, in debug builds, any padding. Sizes below 2^63. -/
theorem C42_forward_partial {R : Type} [LinearOrder R] (debug : Bool) (m : R) (x : Arr R) (batch ch xh xw size pad stride : Nat)
    (hx : x.shape = [batch, ch, xh, xw]) (hst : 0 < stride) (hp : pad < size) (hh : size ≤ xh + 2 * pad) (hw : size ≤ xw + 2 * pad)
    (hbh : xh + 2 * pad + size < 2 ^ 63) (hbw : xw + 2 * pad + size < 2 ^ 63) (hd : debug = true → pad = 0) (hm : ∀ o, InB o x.shape → m < x.get o) :
    ∃ y ind, maxPool debug m x size pad stride = .ok (y, ind) ∧ y.shape = [batch, ch, outSize xh size pad stride, outSize xw size pad stride] ∧
      ∀ b < batch, ∀ c < ch, ∀ i < outSize xh size pad stride, ∀ j < outSize xw size pad stride, pad ≤ i * stride → pad ≤ j * stride →
        (∃ h w, InWin xh size pad stride i h ∧ InWin xw size pad stride j w ∧ y.get [b, c, i, j] = x.get [b, c, h, w]) ∧
        ∀ h w, InWin xh size pad stride i h → InWin xw size pad stride j w → x.get [b, c, h, w] ≤ y.get [b, c, i, j] := by
  obtain ⟨y, ind, e, s, -, H⟩ := maxPool_spec debug m x batch ch xh xw size pad stride hx hst hp hh hw hbh hbw hd hm
  refine ⟨y, ind, e, s, fun b hb c hc i hi j hj h1 h2 => ?_⟩
  obtain ⟨p, ⟨b', c', i', j', h, w, ho, rfl, ih, iw, hle⟩, -, hy, -⟩ := (H b hb c hc i hi j hj).1 h1 h2
  simp only [List.cons.injEq, and_true] at ho
  obtain ⟨rfl, rfl, rfl, rfl⟩ := ho
  refine ⟨⟨h, w, ih, iw, hy⟩, fun h' w' ih' iw' => ?_⟩
  rw [hy]
  exact hle h' w' ih' iw'

example : ∃ y ind, maxPool true (-100) mpX 2 0 1 = .ok (y, ind) ∧ y.shape = [1, 1, 2, 2] :=
  let ⟨y, ind, h, s, _⟩ := C42_forward_partial true (-100) mpX 1 1 3 3 2 0 1 rfl (by decide) (by decide) (by decide) (by decide) (by decide) (by decide) (fun _ => rfl) mpX_above
  ⟨y, ind, h, s⟩

/-- The result of the test in the repository. -/
example : ∃ y ind, maxPool true (-100) mpX 2 0 1 = .ok (y, ind) ∧ toList y = [5, 4, 7, 8] ∧ toList ind = [3, 4, 7, 8] := ⟨_, _, rfl, by decide, by decide⟩

/-- C42 (padding), the code violates the property: in release builds every output whose window reaches into the padding at the top or on the left is the lowest
finite number, whatever the image is. -/
theorem C42_padding_violated {R : Type} [LinearOrder R] (m : R) (x : Arr R) (batch ch xh xw size pad stride : Nat)
    (hx : x.shape = [batch, ch, xh, xw]) (hst : 0 < stride) (hp : pad < size) (hh : size ≤ xh + 2 * pad) (hw : size ≤ xw + 2 * pad)
    (hbh : xh + 2 * pad + size < 2 ^ 63) (hbw : xw + 2 * pad + size < 2 ^ 63) (hm : ∀ o, InB o x.shape → m < x.get o) :
    ∃ y ind, maxPool false m x size pad stride = .ok (y, ind) ∧
      ∀ b < batch, ∀ c < ch, ∀ i < outSize xh size pad stride, ∀ j < outSize xw size pad stride, i * stride < pad ∨ j * stride < pad →
        y.get [b, c, i, j] = m ∧ ∀ h w, InWin xh size pad stride i h → InWin xw size pad stride j w → y.get [b, c, i, j] < x.get [b, c, h, w] := by
  obtain ⟨y, ind, e, s, -, H⟩ := maxPool_spec false m x batch ch xh xw size pad stride hx hst hp hh hw hbh hbw (by simp) hm
  refine ⟨y, ind, e, fun b hb c hc i hi j hj h1 => ?_⟩
  have hy := ((H b hb c hc i hi j hj).2 h1).1
  refine ⟨hy, fun h w ih iw => ?_⟩
  rw [hy]
  exact hm _ (by rw [hx]; exact .cons hb (.cons hc (.cons ih.1 (.cons iw.1 .nil))))

/-- With padding 1 and 2x2 windows the first output should be the corner of the image. -/
example : ∃ y ind, maxPool false (-100) mpX 2 1 1 = .ok (y, ind) ∧ y.get [0, 0, 0, 0] = -100 ∧ InWin 3 2 1 1 0 0 ∧ mpX.get [0, 0, 0, 0] = 0 :=
  let ⟨y, ind, e, H⟩ := C42_padding_violated (-100) mpX 1 1 3 3 2 1 1 rfl (by decide) (by decide) (by decide) (by decide) (by decide) (by decide) mpX_above
  ⟨y, ind, e, (H 0 (by decide) 0 (by decide) 0 (by decide) 0 (by decide) (.inl (by decide))).1, by unfold InWin; decide, by decide⟩

/-- C42 (padding), the code violates the property: in debug builds any padding panics, for every non-empty image. -/
theorem C42_padding_debug_violated {R : Type} [LinearOrder R] (m : R) (x : Arr R) (batch ch xh xw size pad stride : Nat)
    (hx : x.shape = [batch, ch, xh, xw]) (hb : 0 < batch) (hc : 0 < ch) (hst : 0 < stride) (hp : 0 < pad) (hh : size ≤ xh + 2 * pad) (hw : size ≤ xw + 2 * pad) :
    maxPool true m x size pad stride = .error .panic := by
  have h0 : batch * ch ≠ 0 := (Nat.mul_pos hb hc).ne'
  have e : (List.range (outSize xh size pad stride)).mapM (poolBounds true xh size pad stride) = .error .panic := by
    rw [outSize, List.range_succ_eq_map, List.mapM_cons]
    have : poolBounds true xh size pad stride 0 = .error .panic := by
      rw [poolBounds, uSub, if_neg (by omega)]; rfl
    rw [this]; rfl
  unfold maxPool
  rw [hx]
  simp only [poolOut_ok hh hst, poolOut_ok hw hst, bind, Except.bind, if_neg h0, e]

example : maxPool true (-100) mpX 2 1 1 = .error .panic :=
  C42_padding_debug_violated (-100) mpX 1 1 3 3 2 1 1 rfl (by decide) (by decide) (by decide) (by decide) (by decide) (by decide)

/-- C42 (forward), the code violates the property: for a value below the lowest finite number (negative infinity) the result is that number. -/
theorem C42_infinity_violated {R : Type} [LinearOrder R] (m v : R) (h : v < m) (debug : Bool) :
    ∃ y ind, maxPool debug m (ofFn [1, 1, 1, 1] (fun _ => v)) 1 0 1 = .ok (y, ind) ∧ y.get [0, 0, 0, 0] ≠ v := by
  have e : windowMax m (fun _ => v) 1 0 (0, 1) (0, 1) = (m, 0) := by
    simp [windowMax, maxStep, not_lt.2 h.le]
  cases debug <;> refine ⟨_, _, rfl, ?_⟩ <;> show (windowMax m (fun _ => v) 1 0 (0, 1) (0, 1)).1 ≠ v <;> rw [e] <;> exact h.ne'

example : ∃ y ind, maxPool true (-100 : Int) (ofFn [1, 1, 1, 1] (fun _ => -101)) 1 0 1 = .ok (y, ind) ∧ y.get [0, 0, 0, 0] ≠ -101 :=
  C42_infinity_violated (-100) (-101) (by decide) true

/-- C42 (gradient): without padding and with strides that divide evenly, for all images with values above the lowest finite number and all incoming gradients in
any memory layout, the gradient op succeeds, writes only inside the gradient array, has the shape of the image, and adds each incoming gradient at a position
where the window has its maximum. The gradient of that op reads the same positions and is its adjoint. Missing: padding, strides that do not divide evenly. -/
theorem C42_gradient_partial {R S : Type} [LinearOrder R] [CommSemiring S] (debug : Bool) (m : R) (x : Arr R) (gy : Arr S) (batch ch xh xw size stride : Nat)
    (hx : x.shape = [batch, ch, xh, xw]) (hst : 0 < stride) (hs : 0 < size) (hh : size ≤ xh) (hw : size ≤ xw) (hbh : xh + size < 2 ^ 63) (hbw : xw + size < 2 ^ 63)
    (hm : ∀ o, InB o x.shape → m < x.get o) (hdh : stride ∣ xh - size) (hdw : stride ∣ xw - size)
    (hgy : gy.shape = [batch, ch, outSize xh size 0 stride, outSize xw size 0 stride]) :
    ∃ (y : Arr R) (ind : Arr Nat) (g : Arr S) (pos : List Nat → List Nat), maxPool debug m x size 0 stride = .ok (y, ind) ∧ maxPoolGrad debug gy ind size 0 stride = .ok (some g) ∧ g.shape = x.shape ∧
      (∀ o, InB o gy.shape → IsArgMax x xh xw size 0 stride o (pos o)) ∧
      (∀ d : List Nat → S, ∑ p ∈ idxs x.shape, g.get p * d p = ∑ o ∈ idxs gy.shape, gy.get o * d (pos o)) ∧
      ∀ ggx : Arr S, ggx.shape = x.shape → ∃ ggy, maxPoolGradGrad ggx ind size 0 stride = .ok (some ggy) ∧ ggy.shape = gy.shape ∧
        ∑ p ∈ idxs x.shape, ggx.get p * g.get p = ∑ o ∈ idxs gy.shape, ggy.get o * gy.get o := by
  obtain ⟨y, ind, e, s, si, H⟩ := maxPool_spec debug m x batch ch xh xw size 0 stride hx hst hs (by omega) (by omega) (by omega) (by omega) (fun _ => rfl) hm
  have hex : ∀ o, ∃ p, InB o gy.shape → IsArgMax x xh xw size 0 stride o p ∧ InB p x.shape ∧ ind.get o = flat x.shape p := fun o => by
    by_cases ho : InB o gy.shape
    · rw [hgy] at ho
      obtain ⟨b, o1, hb, ho1, rfl⟩ := List.forall₂_cons_right_iff.1 ho
      obtain ⟨c, o2, hc, ho2, rfl⟩ := List.forall₂_cons_right_iff.1 ho1
      obtain ⟨i, o3, hi, ho3, rfl⟩ := List.forall₂_cons_right_iff.1 ho2
      obtain ⟨j, o4, hj, ho4, rfl⟩ := List.forall₂_cons_right_iff.1 ho3
      cases ho4
      obtain ⟨p, h1, h2, -, h3⟩ := (H b hb c hc i hi j hj).1 (Nat.zero_le _) (Nat.zero_le _)
      exact ⟨p, fun _ => ⟨h1, h2, h3⟩⟩
    · exact ⟨[], fun h => absurd h ho⟩
  choose pos hpos using hex
  have hin : ∀ n, size ≤ n → n + size < 2 ^ 63 → stride ∣ n - size → poolIn debug (outSize n size 0 stride) size 0 stride = .ok n := fun n h h' hd => by
    have e1 : stride * (outSize n size 0 stride - 1) = n - size := by
      rw [outSize, Nat.add_sub_cancel]; exact Nat.mul_div_cancel' hd
    rw [poolIn, if_neg (by simp [outSize]), e1, uSub, if_pos (by omega)]
    simp only [bind, Except.bind]
    rw [uAdd, if_pos (by omega)]
    congr 1; omega
  have hsi : ind.shape = gy.shape := si.trans (s.trans hgy.symm)
  obtain ⟨g, eg, sg, ag⟩ := maxPoolGrad_spec debug gy ind batch ch _ _ xh xw size 0 stride hgy hsi (hin xh hh hbh hdh) (hin xw hw hbw hdw) pos fun o ho =>
    ⟨by rw [← hx]; exact (hpos o ho).2.1, by rw [← hx]; exact (hpos o ho).2.2⟩
  refine ⟨y, ind, g, pos, e, eg, sg.trans hx.symm, fun o ho => (hpos o ho).1, fun d => ?_, fun ggx hgg => ?_⟩
  · rw [hx, ← sg]; exact ag d
  · refine ⟨ofFn [batch, ch, outSize xh size 0 stride, outSize xw size 0 stride] (fun o => ggx.get (unflat ggx.shape (ind.get (unflat ind.shape
      (flat [batch, ch, outSize xh size 0 stride, outSize xw size 0 stride] o))))), ?_, hgy.symm, ?_⟩
    · unfold maxPoolGradGrad
      rw [hgg, hx]
      simp only [poolOut_ok (show size ≤ xh + 2 * 0 by omega) hst, poolOut_ok (show size ≤ xw + 2 * 0 by omega) hst, bind, Except.bind]
      rw [if_pos]
      intro n hn
      rw [List.mem_range, show outSize xh size 0 stride * outSize xw size 0 stride * ch * batch = Nd.size gy.shape by rw [hgy, size_four]; ring] at hn
      have := (hpos _ (inB_unflat hn)).2
      rw [hsi, this.2, show batch * ch * xh * xw = Nd.size x.shape by rw [hx, size_four]; ring]
      exact flat_lt this.1
    · have := ag ggx.get
      rw [sg, ← hx] at this
      rw [show (∑ p ∈ idxs x.shape, ggx.get p * g.get p) = ∑ p ∈ idxs x.shape, g.get p * ggx.get p from sum_congr rfl fun _ _ => mul_comm _ _, this]
      refine sum_congr rfl fun o ho => ?_
      have ho := mem_idxs.1 ho
      show _ = ggx.get (unflat ggx.shape (ind.get (unflat ind.shape (flat [batch, ch, outSize xh size 0 stride, outSize xw size 0 stride] o)))) * _
      rw [← hgy, hsi, unflat_flat ho, (hpos o ho).2.2, hgg, unflat_flat (hpos o ho).2.1, mul_comm]

example : ∃ y ind g, maxPool true (-100) mpX 2 0 1 = .ok (y, ind) ∧ maxPoolGrad true mpG ind 2 0 1 = .ok (some g) ∧ g.shape = [1, 1, 3, 3] :=
  let ⟨y, ind, g, _, h1, h2, h3, _⟩ := C42_gradient_partial true (-100) mpX mpG 1 1 3 3 2 1 rfl (by decide) (by decide) (by decide) (by decide) (by decide) (by decide)
    mpX_above (by decide) (by decide) rfl
  ⟨y, ind, g, h1, h2, h3⟩

/-- C42 (gradient), the code violates the property: whenever the stride does not divide evenly, the gradient op does not return an array of the shape of
the image, whatever the image and the incoming gradient are. -/
theorem C42_gradient_shape_violated {S : Type} [CommSemiring S] (debug : Bool) (gy : Arr S) (ind : Arr Nat) (batch ch xh xw size stride : Nat) (hh : size ≤ xh)
    (hbh : xh + size < 2 ^ 63) (hdh : ¬ stride ∣ xh - size)
    (hgy : gy.shape = [batch, ch, outSize xh size 0 stride, outSize xw size 0 stride]) (g : Arr S) (hg : maxPoolGrad debug gy ind size 0 stride = .ok (some g)) :
    g.shape ≠ [batch, ch, xh, xw] := by
  have hle : stride * (outSize xh size 0 stride - 1) ≤ xh - size := by
    rw [outSize, Nat.add_sub_cancel]; exact Nat.mul_div_le _ _
  have e1 : poolIn debug (outSize xh size 0 stride) size 0 stride = .ok (stride * (outSize xh size 0 stride - 1) + size) := by
    rw [poolIn, if_neg (by simp [outSize]), uSub, if_pos (by omega)]
    simp only [bind, Except.bind, Nat.sub_zero, Nat.mul_zero]
    rw [uAdd, if_pos (by omega)]
  have hne : stride * (outSize xh size 0 stride - 1) + size ≠ xh := fun h => hdh ⟨_, (by omega : xh - size = stride * (outSize xh size 0 stride - 1))⟩
  unfold maxPoolGrad at hg
  rw [hgy] at hg
  simp only [e1, bind, Except.bind] at hg
  cases h2 : poolIn debug (outSize xw size 0 stride) size 0 stride with
  | error f => rw [h2] at hg; cases hg
  | ok xw' =>
    rw [h2] at hg
    simp only [Except.ok.injEq, Option.map_eq_some_iff] at hg
    obtain ⟨gx, -, rfl⟩ := hg
    intro hs
    simp only [ofFn, List.cons.injEq, true_and] at hs
    exact hne hs.1

/-- A gradient for the case of a 3x3 image, 2x2 windows and stride 2 whose positions happen to be small. -/
example : ∃ g : Arr Int, maxPoolGrad true (ofFn [1, 1, 1, 1] (fun _ => 1)) (ofFn [1, 1, 1, 1] (fun _ => 0)) 2 0 2 = .ok (some g) ∧ g.shape ≠ [1, 1, 3, 3] :=
  ⟨_, rfl, C42_gradient_shape_violated true (ofFn [1, 1, 1, 1] (fun _ => (1 : Int))) (ofFn [1, 1, 1, 1] (fun _ => 0)) 1 1 3 3 2 2 (by decide) (by decide) (by decide) rfl _ rfl⟩

/-- C42 (gradient), the code violates the property: with a stride that does not divide evenly the gradient op writes outside of the gradient array, here for
the 3x3 image 0, 1, ..., 8 with 2x2 windows and stride 2 (position 4 of an array of length 4). -/
theorem C42_gradient_write_violated : ∃ x : Arr Int, x.shape = [1, 1, 3, 3] ∧ ∃ y ind, maxPool true (-100) x 2 0 2 = .ok (y, ind) ∧ y.shape = [1, 1, 1, 1] ∧
    y.get [0, 0, 0, 0] = x.get [0, 0, 1, 1] ∧ maxPoolGrad true (ofFn [1, 1, 1, 1] (fun _ => (1 : Int))) ind 2 0 2 = .ok none :=
  ⟨ofFn [1, 1, 3, 3] (fun i => (flat [1, 1, 3, 3] i : Int)), rfl, _, _, rfl, rfl, by decide, rfl⟩

end Verif.Props
