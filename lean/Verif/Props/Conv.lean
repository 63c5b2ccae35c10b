import Verif.Lemmas.Conv

/-!
# C41: convolutions

Sizes below 2^31 are assumed throughout: the code computes with 32-bit integers.
-/

namespace Verif.Props
open Verif.Nd Finset

/-- Two images with one channel, 2x3, column-major within the image. -/
def cvX : Arr Int := ⟨[2, 1, 2, 3], [6, 6, 1, 2], fun i => i.getD 0 0 * 6 + i.getD 2 0 * 3 + i.getD 3 0 + 1⟩
/-- Two 2x2 filters. -/
def cvW : Arr Int := ofFn [2, 1, 2, 2] (fun i => i.getD 0 0 * 4 + i.getD 2 0 * 2 + i.getD 3 0 + 1)
/-- Incoming gradient for padding 1, stride 1: outputs are 3x4. -/
def cvG : Arr Int := ofFn [2, 2, 3, 4] (fun i => i.getD 0 0 + i.getD 1 0 - i.getD 2 0 * i.getD 3 0)

/-- C41 (forward): for all numbers of images and channels, all image and filter sizes, memory layouts, paddings, strides and dilations, the convolution
succeeds and is the direct cross-correlation of the zero-padded images. -/
theorem C41_forward {R : Type} [CommSemiring R] (x w : Arr R) (batch xch xh xw ych kh kw pad stride dil : Nat) (hx : x.shape = [batch, xch, xh, xw])
    (hwS : w.shape = [ych, xch, kh, kw]) (hxch : 0 < xch) (hxh : 0 < xh) (hxw : 0 < xw) (hych : 0 < ych) (hkh : 0 < kh) (hkw : 0 < kw) (hst : 0 < stride)
    (hh : extent kh dil ≤ xh + 2 * pad) (hw : extent kw dil ≤ xw + 2 * pad) (hbh : xh + 2 * pad < 2 ^ 31) (hbw : xw + 2 * pad < 2 ^ 31) :
    ∃ y cols, conv2d x w pad stride dil = .ok (y, cols) ∧ IsConv batch xch xh xw ych kh kw pad stride dil x w y :=
  let ⟨y, cols, e, h, _⟩ := conv2d_spec x w batch xch xh xw ych kh kw pad stride dil hx hwS hxch hxh hxw hych hkh hkw hst hh hw hbh hbw
  ⟨y, cols, e, h⟩

example : ∃ y cols, conv2d cvX cvW 1 1 1 = .ok (y, cols) ∧ IsConv 2 1 2 3 2 2 2 1 1 1 cvX cvW y :=
  C41_forward cvX cvW 2 1 2 3 2 2 2 1 1 1 rfl rfl (by decide) (by decide) (by decide) (by decide) (by decide) (by decide) (by decide) (by decide) (by decide) (by decide) (by decide)

/-- The values for padding 0, stride 1. -/
example : ∃ y cols, conv2d cvX cvW 0 1 1 = .ok (y, cols) ∧ toList y = [37, 47, 85, 111, 97, 107, 241, 267] := ⟨_, _, rfl, by decide⟩

/-- C41 (filter gradient): for all geometries and memory layouts and at least one image, the gradient given for the filter has the shape of the filter and is exact:
it is the adjoint of the (linear) dependence of the result on the filter. -/
theorem C41_filter_gradient {R : Type} [CommSemiring R] (x w gy : Arr R) (batch xch xh xw ych kh kw pad stride dil : Nat) (hx : x.shape = [batch, xch, xh, xw])
    (hwS : w.shape = [ych, xch, kh, kw]) (hbatch : 0 < batch) (hxch : 0 < xch) (hxh : 0 < xh) (hxw : 0 < xw) (hych : 0 < ych) (hkh : 0 < kh) (hkw : 0 < kw) (hst : 0 < stride)
    (hh : extent kh dil ≤ xh + 2 * pad) (hw : extent kw dil ≤ xw + 2 * pad) (hbh : xh + 2 * pad < 2 ^ 31) (hbw : xw + 2 * pad < 2 ^ 31)
    (hgy : gy.shape = [batch, ych, outSize xh (extent kh dil) pad stride, outSize xw (extent kw dil) pad stride]) :
    ∃ g, convGradW x gy w pad stride dil = .ok (some g) ∧ g.shape = w.shape ∧
      ∀ dw : Arr R, dw.shape = w.shape → ∃ dy cols, conv2d x dw pad stride dil = .ok (dy, cols) ∧ dy.shape = gy.shape ∧
        inner' gy.shape gy dy = inner' w.shape g dw := by
  obtain ⟨y, cols, e, -, hc⟩ := conv2d_spec x w batch xch xh xw ych kh kw pad stride dil hx hwS hxch hxh hxw hych hkh hkw hst hh hw hbh hbw
  obtain ⟨g, eg, sg, hg⟩ := convFilterGrad_spec x cols gy w batch xch xh xw ych kh kw pad stride dil hwS hc hgy hbatch
  refine ⟨g, ?_, sg, fun dw hdw => ?_⟩
  · simp only [convGradW, e, bind, Except.bind, eg]
  · obtain ⟨dy, cols', e', hy, -⟩ := conv2d_spec x dw batch xch xh xw ych kh kw pad stride dil hx (hdw.trans hwS) hxch hxh hxw hych hkh hkw hst hh hw hbh hbw
    refine ⟨dy, cols', e', hy.1.trans hgy.symm, ?_⟩
    rw [hgy, ← hy.1, hwS]
    exact conv_adjoint_filter hy hg

example : ∃ g, convGradW cvX cvG cvW 1 1 1 = .ok (some g) ∧ g.shape = [2, 1, 2, 2] :=
  let ⟨g, h, s, _⟩ := C41_filter_gradient cvX cvW cvG 2 1 2 3 2 2 2 1 1 1 rfl rfl (by decide) (by decide) (by decide) (by decide) (by decide) (by decide) (by decide) (by decide)
    (by decide) (by decide) (by decide) (by decide) rfl
  ⟨g, h, s⟩

/-- C41 (filter gradient), the code violates the property: without images the filter gradient (which should be zero) is memory that was never written. -/
theorem C41_no_images_violated {R : Type} [CommSemiring R] (x w gy : Arr R) (xch xh xw ych kh kw pad stride dil : Nat) (hx : x.shape = [0, xch, xh, xw])
    (hwS : w.shape = [ych, xch, kh, kw]) (hxch : 0 < xch) (hxh : 0 < xh) (hxw : 0 < xw) (hych : 0 < ych) (hkh : 0 < kh) (hkw : 0 < kw) (hst : 0 < stride)
    (hh : extent kh dil ≤ xh + 2 * pad) (hw : extent kw dil ≤ xw + 2 * pad) (hbh : xh + 2 * pad < 2 ^ 31) (hbw : xw + 2 * pad < 2 ^ 31)
    (hgy : gy.shape = [0, ych, outSize xh (extent kh dil) pad stride, outSize xw (extent kw dil) pad stride]) :
    (∃ y cols, conv2d x w pad stride dil = .ok (y, cols)) ∧ convGradW x gy w pad stride dil = .ok none := by
  obtain ⟨y, cols, e, -, hc⟩ := conv2d_spec x w 0 xch xh xw ych kh kw pad stride dil hx hwS hxch hxh hxw hych hkh hkw hst hh hw hbh hbw
  refine ⟨⟨y, cols, e⟩, ?_⟩
  simp only [convGradW, e, bind, Except.bind]
  unfold convFilterGrad
  rw [hc.1, hgy, hwS]
  dsimp only
  rw [if_pos (.inl rfl)]

example : convGradW (ofFn [0, 1, 2, 2] (fun _ => (0 : Int))) (ofFn [0, 2, 1, 1] (fun _ => 0)) cvW 0 1 1 = .ok none :=
  (C41_no_images_violated _ cvW _ 1 2 2 2 2 2 0 1 1 rfl rfl (by decide) (by decide) (by decide) (by decide) (by decide) (by decide) (by decide) (by decide)
    (by decide) (by decide) (by decide) rfl).2

/-- C41 (input gradient): whenever the strides divide evenly (and, in debug builds, the extent of the filter does not exceed the unpadded image), for all
geometries and memory layouts, the gradient given for the images writes only inside its memory, has the shape of the images and is exact. Missing: strides that do
not divide evenly (`C41_input_gradient_violated`), larger filters in debug builds (`C41_debug_violated`). -/
theorem C41_input_gradient_partial {R : Type} [CommSemiring R] (debug : Bool) (x w gy : Arr R) (batch xch xh xw ych kh kw pad stride dil : Nat)
    (hx : x.shape = [batch, xch, xh, xw]) (hwS : w.shape = [ych, xch, kh, kw]) (hbatch : 0 < batch) (hxch : 0 < xch) (hxh : 0 < xh) (hxw : 0 < xw)
    (hych : 0 < ych) (hkh : 0 < kh) (hkw : 0 < kw) (hst : 0 < stride)
    (hh : extent kh dil ≤ xh + 2 * pad) (hw : extent kw dil ≤ xw + 2 * pad) (hbh : xh + 2 * pad < 2 ^ 31) (hbw : xw + 2 * pad < 2 ^ 31)
    (hgy : gy.shape = [batch, ych, outSize xh (extent kh dil) pad stride, outSize xw (extent kw dil) pad stride])
    (hdh : stride ∣ xh + 2 * pad - extent kh dil) (hdw : stride ∣ xw + 2 * pad - extent kw dil)
    (hd : debug = true → extent kh dil ≤ xh ∧ extent kw dil ≤ xw) :
    ∃ g, convGradX debug gy w pad stride dil = .ok (some g) ∧ g.shape = x.shape ∧
      ∀ dx : Arr R, dx.shape = x.shape → ∃ dy cols, conv2d dx w pad stride dil = .ok (dy, cols) ∧ dy.shape = gy.shape ∧
        inner' gy.shape gy dy = inner' x.shape g dx := by
  obtain ⟨g, eg, sg, hg⟩ := conv2dTranspose_spec debug gy w batch xch xh xw ych kh kw pad stride dil hgy hwS hbatch hxch hxh hxw hych hkh hkw hst hh hw hbh hbw
    (convIn_out hkh hh hbh hdh fun h => (hd h).1) (convIn_out hkw hw hbw hdw fun h => (hd h).2)
  refine ⟨g, eg, sg.trans hx.symm, fun dx hdx => ?_⟩
  obtain ⟨dy, cols, e, hy, -⟩ := conv2d_spec dx w batch xch xh xw ych kh kw pad stride dil (hdx.trans hx) hwS hxch hxh hxw hych hkh hkw hst hh hw hbh hbw
  refine ⟨dy, cols, e, hy.1.trans hgy.symm, ?_⟩
  have := hg dx dy (hdx.trans hx) hy
  rw [hgy, ← hy.1, this, hdx]

example : ∃ g, convGradX true cvG cvW 1 1 1 = .ok (some g) ∧ g.shape = [2, 1, 2, 3] :=
  let ⟨g, h, s, _⟩ := C41_input_gradient_partial true cvX cvW cvG 2 1 2 3 2 2 2 1 1 1 rfl rfl (by decide) (by decide) (by decide) (by decide) (by decide) (by decide) (by decide) (by decide)
    (by decide) (by decide) (by decide) (by decide) rfl (by decide) (by decide) (by decide)
  ⟨g, h, s⟩

/-- C41 (input gradient), the code violates the property: whenever the stride does not divide evenly along one of the axes, the gradient given for the images
does not have their shape, whatever the values are. -/
theorem C41_input_gradient_violated {R : Type} [CommSemiring R] (debug : Bool) (x w gy g : Arr R) (batch xch xh xw ych kh kw pad stride dil : Nat)
    (hx : x.shape = [batch, xch, xh, xw]) (hwS : w.shape = [ych, xch, kh, kw])
    (hh : extent kh dil ≤ xh + 2 * pad) (hw : extent kw dil ≤ xw + 2 * pad) (hbh : xh + 2 * pad < 2 ^ 31) (hbw : xw + 2 * pad < 2 ^ 31)
    (hgy : gy.shape = [batch, ych, outSize xh (extent kh dil) pad stride, outSize xw (extent kw dil) pad stride])
    (hdiv : ¬ stride ∣ xh + 2 * pad - extent kh dil ∨ ¬ stride ∣ xw + 2 * pad - extent kw dil)
    (hg : convGradX debug gy w pad stride dil = .ok (some g)) : g.shape ≠ x.shape := by
  unfold convGradX conv2dTranspose at hg
  rw [hgy, hwS] at hg
  simp only [bind, Except.bind] at hg
  split at hg
  · cases hg
  next m1 h1 =>
  split at hg
  · cases hg
  next m2 h2 =>
  split at hg
  · cases hg
  split at hg
  · cases hg
  split at hg
  · cases hg
  split at hg
  · cases hg
  split at hg
  · cases hg
  split at hg
  · cases hg
    rw [hx]
    intro h
    simp only [ofFn, List.cons.injEq, and_true, true_and] at h
    rcases hdiv with h' | h'
    · exact convIn_ne hh hbh h' h1 h.1
    · exact convIn_ne hw hbw h' h2 h.2
  · cases hg

/-- A 4x4 image, a 1x1 filter and stride 2: the gradient is 3x3. -/
example : ∃ g, convGradX true (ofFn [1, 1, 2, 2] (fun _ => (1 : Int))) (ofFn [1, 1, 1, 1] (fun _ => 1)) 0 2 1 = .ok (some g) ∧ g.shape = [1, 1, 3, 3] ∧
    g.shape ≠ (ofFn [1, 1, 4, 4] (fun _ => (1 : Int))).shape := by
  have h : ∃ g, convGradX true (ofFn [1, 1, 2, 2] (fun _ => (1 : Int))) (ofFn [1, 1, 1, 1] (fun _ => 1)) 0 2 1 = .ok (some g) ∧ g.shape = [1, 1, 3, 3] := ⟨_, rfl, rfl⟩
  obtain ⟨g, e, s⟩ := h
  exact ⟨g, e, s, C41_input_gradient_violated true (ofFn [1, 1, 4, 4] (fun _ => (1 : Int))) (ofFn [1, 1, 1, 1] (fun _ => 1)) _ g 1 1 4 4 1 1 1 0 2 1 rfl rfl
    (by decide) (by decide) (by decide) (by decide) rfl (.inl (by decide)) e⟩

/-- C41 (input gradient), the code violates the property: in debug builds the gradient panics whenever the extent of the filter exceeds the height of the image
(so that padding is needed), although the convolution itself succeeds. -/
theorem C41_debug_violated {R : Type} [CommSemiring R] (x w gy : Arr R) (batch xch xh xw ych kh kw pad stride dil : Nat)
    (hx : x.shape = [batch, xch, xh, xw]) (hwS : w.shape = [ych, xch, kh, kw]) (hxch : 0 < xch) (hxh : 0 < xh) (hxw : 0 < xw)
    (hych : 0 < ych) (hkh : 0 < kh) (hkw : 0 < kw) (hst : 0 < stride)
    (hh : extent kh dil ≤ xh + 2 * pad) (hw : extent kw dil ≤ xw + 2 * pad) (hbh : xh + 2 * pad < 2 ^ 31) (hbw : xw + 2 * pad < 2 ^ 31)
    (hgy : gy.shape = [batch, ych, outSize xh (extent kh dil) pad stride, outSize xw (extent kw dil) pad stride]) (hd : xh < extent kh dil) :
    (∃ y cols, conv2d x w pad stride dil = .ok (y, cols)) ∧ convGradX true gy w pad stride dil = .error .panic := by
  obtain ⟨y, cols, e, -, -⟩ := conv2d_spec x w batch xch xh xw ych kh kw pad stride dil hx hwS hxch hxh hxw hych hkh hkw hst hh hw hbh hbw
  refine ⟨⟨y, cols, e⟩, ?_⟩
  have e1 : stride * (outSize xh (extent kh dil) pad stride - 1) ≤ xh + 2 * pad - extent kh dil := by
    rw [outSize, Nat.add_sub_cancel]; exact Nat.mul_div_le _ _
  have : convIn true (outSize xh (extent kh dil) pad stride) kh pad stride dil = .error .panic := by
    rw [convIn, if_neg (by have := outSize_pos xh (extent kh dil) pad stride; omega), uSub, if_neg (by omega)]; rfl
  unfold convGradX conv2dTranspose
  rw [hgy, hwS]
  simp only [this, bind, Except.bind]

/-- A 1x1 image with padding 1 and a 3x3 filter. -/
example : convGradX true (ofFn [1, 1, 1, 1] (fun _ => (1 : Int))) (ofFn [1, 1, 3, 3] (fun _ => 1)) 1 1 1 = .error .panic :=
  (C41_debug_violated (ofFn [1, 1, 1, 1] (fun _ => (1 : Int))) _ _ 1 1 1 1 1 3 3 1 1 1 rfl rfl (by decide) (by decide) (by decide) (by decide) (by decide) (by decide) (by decide)
    (by decide) (by decide) (by decide) (by decide) rfl (by decide)).2

/-- C41 (transposed convolution): for all geometries and memory layouts (in debug builds: with `2 * pad ≤ stride * (size - 1)`), the transposed convolution
writes only inside its memory and is the adjoint of the convolution with the same filter. -/
theorem C41_transpose {R : Type} [CommSemiring R] (debug : Bool) (v w : Arr R) (batch xch ych yh yw kh kw pad stride dil : Nat)
    (hv : v.shape = [batch, ych, yh, yw]) (hwS : w.shape = [ych, xch, kh, kw]) (hbatch : 0 < batch) (hxch : 0 < xch) (hych : 0 < ych) (hyh : 0 < yh) (hyw : 0 < yw)
    (hkh : 0 < kh) (hkw : 0 < kw) (hst : 0 < stride) (hh : 2 * pad < stride * (yh - 1) + extent kh dil) (hw : 2 * pad < stride * (yw - 1) + extent kw dil)
    (hbh : stride * (yh - 1) + extent kh dil < 2 ^ 31) (hbw : stride * (yw - 1) + extent kw dil < 2 ^ 31)
    (hd : debug = true → 2 * pad ≤ stride * (yh - 1) ∧ 2 * pad ≤ stride * (yw - 1)) :
    ∃ z, conv2dTranspose debug v w pad stride dil = .ok (some z) ∧ z.shape = [batch, xch, transSize yh kh pad stride dil, transSize yw kw pad stride dil] ∧
      ∀ x : Arr R, x.shape = z.shape → ∃ y cols, conv2d x w pad stride dil = .ok (y, cols) ∧ y.shape = v.shape ∧ inner' v.shape v y = inner' z.shape z x := by
  obtain ⟨a1, a2, a3, a4⟩ := transSize_facts (debug := debug) hyh hst hkh hh hbh fun h => (hd h).1
  obtain ⟨b1, b2, b3, b4⟩ := transSize_facts (debug := debug) hyw hst hkw hw hbw fun h => (hd h).2
  have hv' : v.shape = [batch, ych, outSize (transSize yh kh pad stride dil) (extent kh dil) pad stride, outSize (transSize yw kw pad stride dil) (extent kw dil) pad stride] := by
    rw [transSize_out hyh hst hh, transSize_out hyw hst hw]; exact hv
  obtain ⟨g, eg, sg, hg⟩ := conv2dTranspose_spec debug v w batch xch (transSize yh kh pad stride dil) (transSize yw kw pad stride dil) ych kh kw pad stride dil hv' hwS
    hbatch hxch a1 b1 hych hkh hkw hst a2 b2 a3 b3 a4 b4
  refine ⟨g, eg, sg, fun x hx => ?_⟩
  obtain ⟨y, cols, e, hy, -⟩ := conv2d_spec x w batch xch _ _ ych kh kw pad stride dil (hx.trans sg) hwS hxch a1 b1 hych hkh hkw hst a2 b2 a3 b3
  refine ⟨y, cols, e, hy.1.trans hv'.symm, ?_⟩
  have := hg x y (hx.trans sg) hy
  rw [hv', ← hy.1, this, hx]

example : ∃ z, conv2dTranspose true cvG cvW 1 2 1 = .ok (some z) ∧ z.shape = [2, 1, 4, 6] :=
  let ⟨z, h, s, _⟩ := C41_transpose true cvG cvW 2 1 2 3 4 2 2 1 2 1 rfl rfl (by decide) (by decide) (by decide) (by decide) (by decide) (by decide) (by decide) (by decide)
    (by decide) (by decide) (by decide) (by decide) (by decide)
  ⟨z, h, s⟩

/-- C41 disagrees with the documentation (src/tensor_ops/mod.rs:2795-2796, 2830-2831), which says that the transposed convolution has `stride * (h - 1) - pad + extent` rows: with any padding
there are `pad` fewer rows. -/
theorem C41_documented_size_violated {R : Type} [CommSemiring R] (debug : Bool) (v w : Arr R) (batch xch ych yh yw kh kw pad stride dil : Nat)
    (hv : v.shape = [batch, ych, yh, yw]) (hwS : w.shape = [ych, xch, kh, kw]) (hbatch : 0 < batch) (hxch : 0 < xch) (hych : 0 < ych) (hyh : 0 < yh) (hyw : 0 < yw)
    (hkh : 0 < kh) (hkw : 0 < kw) (hst : 0 < stride) (hh : 2 * pad < stride * (yh - 1) + extent kh dil) (hw : 2 * pad < stride * (yw - 1) + extent kw dil)
    (hbh : stride * (yh - 1) + extent kh dil < 2 ^ 31) (hbw : stride * (yw - 1) + extent kw dil < 2 ^ 31)
    (hd : debug = true → 2 * pad ≤ stride * (yh - 1) ∧ 2 * pad ≤ stride * (yw - 1)) (hpad : 0 < pad) (hle : pad ≤ stride * (yh - 1)) :
    ∃ z, conv2dTranspose debug v w pad stride dil = .ok (some z) ∧ z.shape.getD 2 0 + pad = stride * (yh - 1) - pad + extent kh dil ∧
      z.shape.getD 2 0 ≠ stride * (yh - 1) - pad + extent kh dil := by
  obtain ⟨z, h1, h2, -⟩ := C41_transpose debug v w batch xch ych yh yw kh kw pad stride dil hv hwS hbatch hxch hych hyh hyw hkh hkw hst hh hw hbh hbw hd
  refine ⟨z, h1, ?_⟩
  rw [h2]
  show transSize yh kh pad stride dil + pad = _ ∧ transSize yh kh pad stride dil ≠ _
  unfold transSize
  omega

/-- Images of 3 x 4, filters of 2 x 2, padding 1, stride 2: 4 rows instead of the 5 rows of the documentation. -/
example : ∃ z, conv2dTranspose true cvG cvW 1 2 1 = .ok (some z) ∧ z.shape.getD 2 0 + 1 = 2 * (3 - 1) - 1 + extent 2 1 :=
  let ⟨z, h, s, _⟩ := C41_documented_size_violated true cvG cvW 2 1 2 3 4 2 2 1 2 1 rfl rfl (by decide) (by decide) (by decide) (by decide) (by decide) (by decide) (by decide) (by decide)
    (by decide) (by decide) (by decide) (by decide) (by decide) (by decide) (by decide)
  ⟨z, h, s⟩

/-- C41 (second order): the op that computes a convolution from the stored columns computes the convolution of the images with the new filter. -/
theorem C41_with_cols {R : Type} [CommSemiring R] (x w w' : Arr R) (batch xch xh xw ych kh kw pad stride dil : Nat) (hx : x.shape = [batch, xch, xh, xw])
    (hwS : w.shape = [ych, xch, kh, kw]) (hwS' : w'.shape = w.shape) (hxch : 0 < xch) (hxh : 0 < xh) (hxw : 0 < xw) (hych : 0 < ych) (hkh : 0 < kh) (hkw : 0 < kw) (hst : 0 < stride)
    (hh : extent kh dil ≤ xh + 2 * pad) (hw : extent kw dil ≤ xw + 2 * pad) (hbh : xh + 2 * pad < 2 ^ 31) (hbw : xw + 2 * pad < 2 ^ 31) :
    ∃ y cols y', conv2d x w pad stride dil = .ok (y, cols) ∧ conv2dWithCols cols w' = .ok y' ∧ IsConv batch xch xh xw ych kh kw pad stride dil x w' y' := by
  obtain ⟨y, cols, e, -, hc⟩ := conv2d_spec x w batch xch xh xw ych kh kw pad stride dil hx hwS hxch hxh hxw hych hkh hkw hst hh hw hbh hbw
  obtain ⟨y', e', h'⟩ := conv2dWithCols_spec x cols w' batch xch xh xw ych kh kw pad stride dil (hwS'.trans hwS) hc hxch hych hkh hkw
  exact ⟨y, cols, y', e, e', h'⟩

example : ∃ y cols y', conv2d cvX cvW 1 2 1 = .ok (y, cols) ∧ conv2dWithCols cols cvW = .ok y' ∧ IsConv 2 1 2 3 2 2 2 1 2 1 cvX cvW y' :=
  C41_with_cols cvX cvW cvW 2 1 2 3 2 2 2 1 2 1 rfl rfl rfl (by decide) (by decide) (by decide) (by decide) (by decide) (by decide) (by decide) (by decide) (by decide) (by decide) (by decide)

/-- C41 (gradients of the transposed convolution): for row-major arrays and either one image or square inputs, the gradients given for the input and the filter
of the transposed convolution are exact. Missing: several images that are not square and other layouts (`C41_transpose_gradient_violated`, `C41_transpose_layout_violated`). -/
theorem C41_transpose_gradient_partial {R : Type} [CommSemiring R] (debug : Bool) (v gz : View R) (w : Arr R) (batch xch ych yh yw kh kw pad stride dil : Nat)
    (hv : v.shape = [batch, ych, yh, yw]) (hwS : w.shape = [ych, xch, kh, kw]) (hbatch : 0 < batch) (hxch : 0 < xch) (hych : 0 < ych) (hyh : 0 < yh) (hyw : 0 < yw)
    (hkh : 0 < kh) (hkw : 0 < kw) (hst : 0 < stride) (hh : 2 * pad < stride * (yh - 1) + extent kh dil) (hw : 2 * pad < stride * (yw - 1) + extent kw dil)
    (hbh : stride * (yh - 1) + extent kh dil < 2 ^ 31) (hbw : stride * (yw - 1) + extent kw dil < 2 ^ 31)
    (hd : debug = true → 2 * pad ≤ stride * (yh - 1) ∧ 2 * pad ≤ stride * (yw - 1))
    (hgz : gz.shape = [batch, xch, transSize yh kh pad stride dil, transSize yw kw pad stride dil]) (hls : v.strides = cStrides v.shape) (hlg : gz.strides = cStrides gz.shape)
    (hsq : batch = 1 ∨ yh = yw) :
    (∃ gv, transposeGradX gz.arr w pad stride dil = .ok gv ∧ gv.shape = v.shape ∧ ∀ dv : Arr R, dv.shape = v.shape →
      ∃ dz, conv2dTranspose debug dv w pad stride dil = .ok (some dz) ∧ dz.shape = gz.shape ∧ inner' gz.shape gz.arr dz = inner' v.shape gv dv) ∧
    ∃ gw, transposeFilterGrad gz v w pad stride dil = .ok (some gw) ∧ gw.shape = w.shape ∧ ∀ dw : Arr R, dw.shape = w.shape →
      ∃ dz, conv2dTranspose debug v.arr dw pad stride dil = .ok (some dz) ∧ dz.shape = gz.shape ∧ inner' gz.shape gz.arr dz = inner' w.shape gw dw := by
  obtain ⟨a1, a2, a3, a4⟩ := transSize_facts (debug := debug) hyh hst hkh hh hbh fun h => (hd h).1
  obtain ⟨b1, b2, b3, b4⟩ := transSize_facts (debug := debug) hyw hst hkw hw hbw fun h => (hd h).2
  have hv' : v.shape = [batch, ych, outSize (transSize yh kh pad stride dil) (extent kh dil) pad stride, outSize (transSize yw kw pad stride dil) (extent kw dil) pad stride] := by
    rw [transSize_out hyh hst hh, transSize_out hyw hst hw]; exact hv
  have comm : ∀ (s : List Nat) (a b : Arr R), inner' s a b = inner' s b a := fun s a b => sum_congr rfl fun o _ => mul_comm _ _
  constructor
  · obtain ⟨y, cols, e, hy, -⟩ := conv2d_spec gz.arr w batch xch _ _ ych kh kw pad stride dil hgz hwS hxch a1 b1 hych hkh hkw hst a2 b2 a3 b3
    refine ⟨y, by simp only [transposeGradX, e, bind, Except.bind], hy.1.trans hv'.symm, fun dv hdv => ?_⟩
    obtain ⟨g, eg, sg, hg⟩ := conv2dTranspose_spec debug dv w batch xch (transSize yh kh pad stride dil) (transSize yw kw pad stride dil) ych kh kw pad stride dil
      (hdv.trans hv') hwS hbatch hxch a1 b1 hych hkh hkw hst a2 b2 a3 b3 a4 b4
    refine ⟨g, eg, sg.trans hgz.symm, ?_⟩
    have := hg gz.arr y hgz hy
    rw [hv', ← hy.1, comm _ y dv, this, comm]; rfl
  · obtain ⟨gw, egw, sgw, hgw⟩ := transposeFilterGrad_spec gz v w batch xch _ _ ych kh kw pad stride dil hgz hlg hv' hls hwS hbatch hxch a1 b1 hkh hkw hst a2 b2 a3 b3
      (by rw [transSize_out hyh hst hh, transSize_out hyw hst hw]; exact hsq)
    refine ⟨gw, egw, sgw, fun dw hdw => ?_⟩
    obtain ⟨g, eg, sg, hg⟩ := conv2dTranspose_spec debug v.arr dw batch xch (transSize yh kh pad stride dil) (transSize yw kw pad stride dil) ych kh kw pad stride dil
      hv' (hdw.trans hwS) hbatch hxch a1 b1 hych hkh hkw hst a2 b2 a3 b3 a4 b4
    obtain ⟨y, cols, e, hy, -⟩ := conv2d_spec gz.arr dw batch xch _ _ ych kh kw pad stride dil hgz (hdw.trans hwS) hxch a1 b1 hych hkh hkw hst a2 b2 a3 b3
    refine ⟨g, eg, sg.trans hgz.symm, ?_⟩
    have h1 := hg gz.arr y hgz hy
    have h2 := conv_adjoint_filter hy hgw
    rw [comm]
    refine Eq.trans h1.symm (h2.trans ?_)
    rw [hwS]

/-- A row-major input. -/
def cvV : View Int := ⟨[2, 1, 2, 2], [4, 4, 2, 1], fun k => k⟩
/-- Incoming gradient. -/
def cvGz : View Int := ⟨[2, 1, 3, 3], [9, 9, 3, 1], fun k => 2 * k⟩

example : (∃ gv, transposeGradX cvGz.arr (ofFn [1, 1, 2, 2] (fun _ => 3)) 0 1 1 = .ok gv ∧ gv.shape = [2, 1, 2, 2]) ∧
    ∃ gw, transposeFilterGrad cvGz cvV (ofFn [1, 1, 2, 2] (fun _ => 3)) 0 1 1 = .ok (some gw) ∧ gw.shape = [1, 1, 2, 2] :=
  let ⟨⟨gv, h1, s1, _⟩, gw, h2, s2, _⟩ := C41_transpose_gradient_partial true cvV cvGz (ofFn [1, 1, 2, 2] (fun _ => 3)) 2 1 1 2 2 2 2 0 1 1 rfl rfl (by decide) (by decide) (by decide)
    (by decide) (by decide) (by decide) (by decide) (by decide) (by decide) (by decide) (by decide) (by decide) (by decide) rfl rfl rfl (.inr rfl)
  ⟨⟨gv, h1, s1⟩, gw, h2, s2⟩

/-- C41 (gradients of the transposed convolution), the code violates the property: for two images of one row and two columns the filter gradient is computed
from the wrong part of the columns. -/
theorem C41_transpose_gradient_violated : ∃ (v gz : View Int) (w gw dz : Arr Int), v.strides = cStrides v.shape ∧ gz.strides = cStrides gz.shape ∧
    conv2dTranspose true v.arr w 0 1 1 = .ok (some dz) ∧ dz.shape = gz.shape ∧ transposeFilterGrad gz v w 0 1 1 = .ok (some gw) ∧ gw.shape = w.shape ∧
      inner' gz.shape gz.arr dz ≠ inner' w.shape gw w :=
  ⟨⟨[2, 1, 1, 2], [2, 2, 2, 1], fun _ => 1⟩, ⟨[2, 1, 1, 2], [2, 2, 2, 1], fun k => k⟩, ofFn [1, 1, 1, 1] (fun _ => 1), _, _, rfl, rfl, rfl, rfl, rfl, rfl, by decide⟩

/-- C41 (gradients of the transposed convolution), the code violates the property: arrays that are not row-major are read in the wrong order. -/
theorem C41_transpose_layout_violated : ∃ (v gz : View Int) (w gw dz : Arr Int), gz.strides = cStrides gz.shape ∧
    conv2dTranspose true v.arr w 0 1 1 = .ok (some dz) ∧ dz.shape = gz.shape ∧ transposeFilterGrad gz v w 0 1 1 = .ok (some gw) ∧ gw.shape = w.shape ∧
      inner' gz.shape gz.arr dz ≠ inner' w.shape gw w :=
  ⟨⟨[1, 1, 2, 2], [4, 4, 1, 2], fun k => k⟩, ⟨[1, 1, 2, 2], [4, 4, 2, 1], fun k => k⟩, ofFn [1, 1, 1, 1] (fun _ => 1), _, _, rfl, rfl, rfl, rfl, rfl, by decide⟩

end Verif.Props
