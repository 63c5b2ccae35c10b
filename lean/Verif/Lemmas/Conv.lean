import Mathlib.Tactic.Ring
import Mathlib.Tactic.Linarith
import Verif.Lemmas.MatMul
import Verif.Lemmas.Tensordot
import Verif.Lemmas.MaxPool
import Verif.Model.Conv
import Verif.Spec.Conv

/-!
# Lemmas about the convolutions
-/

namespace Verif.Nd
open Finset
variable {R : Type}

theorem mul_add_lt {i n j m : Nat} (hi : i < n) (hj : j < m) : i * m + j < n * m :=
  calc i * m + j < i * m + m := by omega
    _ = (i + 1) * m := by ring
    _ ≤ n * m := Nat.mul_le_mul_right _ hi

theorem length_flatMap_range (n m : Nat) (f : Nat → List R) (hf : ∀ i < n, (f i).length = m) : ((List.range n).flatMap f).length = n * m := by
  induction n with
  | zero => simp
  | succ n ih =>
    rw [List.range_succ, List.flatMap_append, List.length_append, ih fun i hi => hf i (by omega)]
    simp [hf n (by omega), Nat.succ_mul]

theorem getD_flatMap_range (n m : Nat) (f : Nat → List R) (hf : ∀ i < n, (f i).length = m) {i j : Nat} (hi : i < n) (hj : j < m) (d : R) :
    ((List.range n).flatMap f).getD (i * m + j) d = (f i).getD j d := by
  induction n with
  | zero => omega
  | succ n ih =>
    have hl := length_flatMap_range n m f fun i hi => hf i (by omega)
    rw [List.range_succ, List.flatMap_append]
    by_cases h : i < n
    · have : i * m + j < n * m := by nlinarith
      rw [← ih (fun i hi => hf i (by omega)) h]
      simp only [List.getD_eq_getElem?_getD]
      rw [List.getElem?_append_left (by rw [hl]; exact this)]
    · obtain rfl : i = n := by omega
      simp only [List.getD_eq_getElem?_getD]
      rw [List.getElem?_append_right (by rw [hl]; omega), hl, Nat.add_sub_cancel_left]
      simp

theorem u32Lt_iff {off n : Int} (h1 : -(2 : Int) ^ 31 ≤ off) (h2 : off < 2 ^ 31) (h3 : 0 ≤ n) (h4 : n < 2 ^ 31) : u32Lt off n = true ↔ 0 ≤ off ∧ off < n := by
  simp only [u32Lt, decide_eq_true_eq]; omega

/-- Condition under which a tap of the filter hits the image. -/
def Hit (n pad h : Nat) : Prop := pad ≤ h ∧ h < pad + n

instance (n pad h : Nat) : Decidable (Hit n pad h) := inferInstanceAs (Decidable (_ ∧ _))

theorem tap_lt {n k pad stride dil i a : Nat} (hn : extent k dil ≤ n + 2 * pad) (hi : i < outSize n (extent k dil) pad stride) (ha : a < k) :
    i * stride + a * dil < n + 2 * pad := by
  have h1 := out_le hn hi
  have h2 : a * dil ≤ dil * (k - 1) := by rw [mul_comm]; exact Nat.mul_le_mul_left _ (by omega)
  unfold extent at h1; omega

theorem u32Lt_tap {n k pad stride dil i a : Nat} (hn : extent k dil ≤ n + 2 * pad) (hi : i < outSize n (extent k dil) pad stride) (ha : a < k)
    (hb : n + 2 * pad < 2 ^ 31) : u32Lt ((a * dil : Int) - pad + i * stride) n = true ↔ Hit n pad (i * stride + a * dil) := by
  have := tap_lt hn hi ha
  rw [u32Lt_iff]
  · unfold Hit; zify; omega
  all_goals zify at *
  · have : 0 ≤ (i : Int) * stride + a * dil := by positivity
    omega
  · omega
  · omega
  · omega

/-- The element of the columns for channel `c`, tap `(a, e)` and output position `(i, j)`. -/
def tapGet [Zero R] (x : Nat → R) (xh xw pad c h w : Nat) : R := if Hit xh pad h ∧ Hit xw pad w then x (c * (xh * xw) + ((h - pad) * xw + (w - pad))) else 0

section
variable {xh xw kh kw pad stride dil : Nat} (hh : extent kh dil ≤ xh + 2 * pad) (hw : extent kw dil ≤ xw + 2 * pad)
  (hbh : xh + 2 * pad < 2 ^ 31) (hbw : xw + 2 * pad < 2 ^ 31)
theorem tap_pos {c h w : Nat} {yo xo : Int} (hy : yo = (h : Int) - pad) (hx : xo = (w : Int) - pad) (H1 : Hit xh pad h) (H2 : Hit xw pad w) :
    ((c * (xh * xw) : Int) + (yo * xw + xo)).toNat = c * (xh * xw) + ((h - pad) * xw + (w - pad)) := by
  obtain ⟨h', rfl⟩ := Nat.exists_eq_add_of_le H1.1
  obtain ⟨w', rfl⟩ := Nat.exists_eq_add_of_le H2.1
  have e1 : yo = h' := by rw [hy]; push_cast; ring
  have e2 : xo = w' := by rw [hx]; push_cast; ring
  rw [e1, e2, Nat.add_sub_cancel_left, Nat.add_sub_cancel_left]
  have : ((c * (xh * xw) : Int) + ((h' : Int) * xw + w')) = ((c * (xh * xw) + (h' * xw + w') : Nat) : Int) := by push_cast; ring
  rw [this, Int.toNat_natCast]

include hh hw hbh hbw in
theorem im2col_get [Zero R] (x : Nat → R) (xch : Nat) {c a e i j : Nat} (hc : c < xch) (ha : a < kh) (he : e < kw)
    (hi : i < outSize xh (extent kh dil) pad stride) (hj : j < outSize xw (extent kw dil) pad stride) :
    (im2col x xch xh xw kh kw pad stride dil (outSize xh (extent kh dil) pad stride) (outSize xw (extent kw dil) pad stride)).getD
      (flat [xch, kh, kw, outSize xh (extent kh dil) pad stride, outSize xw (extent kw dil) pad stride] [c, a, e, i, j]) 0 =
      tapGet x xh xw pad c (i * stride + a * dil) (j * stride + e * dil) := by
  generalize hyh : outSize xh (extent kh dil) pad stride = yh at *
  generalize hyw : outSize xw (extent kw dil) pad stride = yw at *
  have L0 : ∀ c a e i : Nat, (let yo : Int := (a * dil : Int) - pad + i * stride
      if u32Lt yo xh then
        (List.range yw).map fun (j : Nat) =>
          let xo : Int := (e * dil : Int) - pad + j * stride
          if u32Lt xo xw then x ((c * (xh * xw) : Int) + (yo * xw + xo)).toNat else 0
      else List.replicate yw 0).length = yw := fun c a e i => by
    dsimp only; split <;> simp
  have L1 : ∀ c a e : Nat, _ := fun c a e => length_flatMap_range yh yw _ fun i _ => L0 c a e i
  have L2 : ∀ c a : Nat, _ := fun c a => length_flatMap_range kw _ _ fun e _ => L1 c a e
  have L3 : ∀ c : Nat, _ := fun c => length_flatMap_range kh _ _ fun a _ => L2 c a
  have q0 : i * yw + j < yh * yw := mul_add_lt hi hj
  have q1 : e * (yh * yw) + (i * yw + j) < kw * (yh * yw) := mul_add_lt he q0
  have q2 : a * (kw * (yh * yw)) + (e * (yh * yw) + (i * yw + j)) < kh * (kw * (yh * yw)) := mul_add_lt ha q1
  have hf : flat [xch, kh, kw, yh, yw] [c, a, e, i, j] = c * (kh * (kw * (yh * yw))) + (a * (kw * (yh * yw)) + (e * (yh * yw) + (i * yw + j))) := by
    simp only [flat, size]; ring
  rw [hf, im2col, getD_flatMap_range _ _ _ (fun c _ => L3 c) hc q2, getD_flatMap_range _ _ _ (fun a _ => L2 c a) ha q1,
    getD_flatMap_range _ _ _ (fun e _ => L1 c a e) he q0, getD_flatMap_range _ _ _ (fun i _ => L0 c a e i) hi hj]
  have t1 := u32Lt_tap hh (hyh ▸ hi) ha hbh
  have t2 := u32Lt_tap hw (hyw ▸ hj) he hbw
  dsimp only
  unfold tapGet
  by_cases h1 : Hit xh pad (i * stride + a * dil)
  · rw [if_pos (t1.2 h1), List.getD_eq_getElem?_getD, List.getElem?_map, List.getElem?_range hj]
    simp only [Option.map_some, Option.getD_some]
    by_cases h2 : Hit xw pad (j * stride + e * dil)
    · rw [if_pos (t2.2 h2), if_pos ⟨h1, h2⟩, tap_pos (h := i * stride + a * dil) (w := j * stride + e * dil) (by push_cast; ring) (by push_cast; ring) h1 h2]
    · rw [if_neg (fun h => h2 (t2.1 h)), if_neg (fun h => h2 h.2)]
  · rw [if_neg (fun h => h1 (t1.1 h)), if_neg (fun h => h1 h.1)]
    simp [List.getD_eq_getElem?_getD, hj]

end

theorem convOut_ok {n k pad stride dil : Nat} (hk : 0 < k) (hs : 0 < stride) (h : extent k dil ≤ n + 2 * pad) :
    convOut n k pad stride dil = .ok (outSize n (extent k dil) pad stride) := by
  unfold extent at *
  rw [convOut, if_neg (by omega)]; rfl

theorem sum_idxs_three [AddCommMonoid R] (n m l : Nat) (f : List Nat → R) :
    ∑ o ∈ idxs [n, m, l], f o = ∑ i ∈ range n, ∑ j ∈ range m, ∑ k ∈ range l, f [i, j, k] := by
  rw [sum_idxs_cons]
  exact sum_congr rfl fun i _ => sum_idxs_two m l _

/-- Sums over the rows of the columns. -/
theorem sum_range_three [AddCommMonoid R] (n m l : Nat) (f : Nat → R) :
    ∑ q ∈ range (n * m * l), f q = ∑ i ∈ range n, ∑ j ∈ range m, ∑ k ∈ range l, f (flat [n, m, l] [i, j, k]) := by
  rw [show n * m * l = size [n, m, l] by simp only [size]; ring, sum_flat, sum_idxs_three]

theorem unflat_cons_mul (n : Nat) (s : List Nat) {b k : Nat} (hk : k < size s) : unflat (n :: s) (b * size s + k) = b :: unflat s k := by
  rw [unflat, Nat.mul_comm, Nat.mul_add_div (by omega), Nat.div_eq_of_lt hk, Nat.mul_add_mod, Nat.mod_eq_of_lt hk, Nat.add_zero]

theorem inB_four {b c i j B C H W : Nat} (hb : b < B) (hc : c < C) (hi : i < H) (hj : j < W) : InB [b, c, i, j] [B, C, H, W] :=
  .cons hb (.cons hc (.cons hi (.cons hj .nil)))

theorem inB_three {c i j C H W : Nat} (hc : c < C) (hi : i < H) (hj : j < W) : InB [c, i, j] [C, H, W] := .cons hc (.cons hi (.cons hj .nil))

/-- What is read through the columns is the padded image. -/
theorem tapGet_pad [Zero R] (x : Arr R) {batch xch xh xw pad b c h w : Nat} (hx : x.shape = [batch, xch, xh, xw]) (hb : b < batch) (hc : c < xch) :
    tapGet (fun k => x.get (unflat x.shape (b * (xch * (xh * xw)) + k))) xh xw pad c h w = padGet x xh xw pad b c h w := by
  unfold tapGet padGet Hit
  by_cases H : (pad ≤ h ∧ h < pad + xh) ∧ (pad ≤ w ∧ w < pad + xw)
  · rw [if_pos H, if_pos H]
    have : b * (xch * (xh * xw)) + (c * (xh * xw) + ((h - pad) * xw + (w - pad))) = flat x.shape [b, c, h - pad, w - pad] := by
      rw [hx]; simp only [flat, size]; ring
    show x.get (unflat x.shape (b * (xch * (xh * xw)) + (c * (xh * xw) + ((h - pad) * xw + (w - pad))))) = _
    rw [this, unflat_flat]
    rw [hx]; exact inB_four hb hc (by omega) (by omega)
  · rw [if_neg H, if_neg H]

/-- The columns of a batch of images. -/
def IsCols [Zero R] (batch xch xh xw kh kw pad stride dil : Nat) (x cols : Arr R) : Prop :=
  let yh := outSize xh (extent kh dil) pad stride
  let yw := outSize xw (extent kw dil) pad stride
  cols.shape = [batch, xch, kw, kh, yh, yw] ∧ cols.strides = cStrides cols.shape ∧
  ∀ b < batch, ∀ c < xch, ∀ a < kh, ∀ e < kw, ∀ i < yh, ∀ j < yw,
    cols.get (unflat cols.shape (b * (xch * kw * kh * yh * yw) + flat [xch, kh, kw, yh, yw] [c, a, e, i, j])) =
      padGet x xh xw pad b c (i * stride + a * dil) (j * stride + e * dil)

theorem outSize_pos (n k pad stride : Nat) : 0 < outSize n k pad stride := by simp [outSize]

theorem conv2d_spec [CommSemiring R] (x w : Arr R) (batch xch xh xw ych kh kw pad stride dil : Nat) (hx : x.shape = [batch, xch, xh, xw])
    (hwS : w.shape = [ych, xch, kh, kw]) (hxch : 0 < xch) (hxh : 0 < xh) (hxw : 0 < xw) (hych : 0 < ych) (hkh : 0 < kh) (hkw : 0 < kw) (hst : 0 < stride)
    (hh : extent kh dil ≤ xh + 2 * pad) (hw : extent kw dil ≤ xw + 2 * pad) (hbh : xh + 2 * pad < 2 ^ 31) (hbw : xw + 2 * pad < 2 ^ 31) :
    ∃ y cols, conv2d x w pad stride dil = .ok (y, cols) ∧ IsConv batch xch xh xw ych kh kw pad stride dil x w y ∧
      IsCols batch xch xh xw kh kw pad stride dil x cols := by
  have p1 := outSize_pos xh (extent kh dil) pad stride
  have p2 := outSize_pos xw (extent kw dil) pad stride
  unfold conv2d
  rw [hx, hwS]
  simp only [ne_eq, not_true_eq_false, if_false, convOut_ok hkh hst hh, convOut_ok hkw hst hw, bind, Except.bind]
  rw [if_neg (by
    rintro (h | h | h) <;> revert h <;> exact Nat.ne_of_gt (by positivity))]
  refine ⟨_, _, rfl, ⟨rfl, fun b hb o ho i hi j hj => ?_⟩, ⟨rfl, rfl, fun b hb c hc a ha e he i hi j hj => ?_⟩⟩
  · simp only [ofFn]
    rw [gemm_eq, sum_range_three]
    refine sum_congr rfl fun c hc => sum_congr rfl fun a ha => sum_congr rfl fun e he => ?_
    have hc := mem_range.1 hc
    have ha := mem_range.1 ha
    have he := mem_range.1 he
    have e1 : (((o : Nat) : Int) * ((xch * kh * kw : Nat) : Int) + ((flat [xch, kh, kw] [c, a, e] : Nat) : Int) * 1).toNat = flat [ych, xch, kh, kw] [o, c, a, e] := by
      rw [mul_one, ← Nat.cast_mul, ← Nat.cast_add, Int.toNat_natCast]; simp only [flat, size]; ring
    have e2 : (((flat [xch, kh, kw] [c, a, e] : Nat) : Int) * ((outSize xh (extent kh dil) pad stride * outSize xw (extent kw dil) pad stride : Nat) : Int) +
        ((i * outSize xw (extent kw dil) pad stride + j : Nat) : Int) * 1).toNat =
        flat [xch, kh, kw, outSize xh (extent kh dil) pad stride, outSize xw (extent kw dil) pad stride] [c, a, e, i, j] := by
      rw [mul_one, ← Nat.cast_mul, ← Nat.cast_add, Int.toNat_natCast]; simp only [flat, size]; ring
    simp only [List.getD_cons_zero, List.getD_cons_succ]
    rw [e1, e2, unflat_flat (inB_four ho hc ha he), im2col_get hh hw hbh hbw _ _ hc ha he hi hj]
    have := tapGet_pad x (pad := pad) (h := i * stride + a * dil) (w := j * stride + e * dil) hx hb hc
    rw [hx] at this
    rw [this]
  · simp only [ofFn]
    generalize hyh : outSize xh (extent kh dil) pad stride = yh at *
    generalize hyw : outSize xw (extent kw dil) pad stride = yw at *
    have hS : xch * kw * kh * yh * yw = size [xch, kw, kh, yh, yw] := by simp only [size]; ring
    have hlt : flat [xch, kh, kw, yh, yw] [c, a, e, i, j] < size [xch, kw, kh, yh, yw] := by
      have := flat_lt (s := [xch, kh, kw, yh, yw]) (idx := [c, a, e, i, j]) (.cons hc (.cons ha (.cons he (.cons hi (.cons hj .nil)))))
      rwa [show size [xch, kh, kw, yh, yw] = size [xch, kw, kh, yh, yw] by simp only [size]; ring] at this
    rw [hS, unflat_cons_mul _ _ hlt]
    simp only [List.getD_cons_zero, List.drop_succ_cons, List.drop_zero]
    rw [flat_unflat hlt]
    subst hyh hyw
    rw [im2col_get hh hw hbh hbw _ _ hc ha he hi hj]
    have := tapGet_pad x (pad := pad) (h := i * stride + a * dil) (w := j * stride + e * dil) hx hb hc
    rw [hx] at this
    rw [this]

theorem foldl_beta [AddCommMonoid R] (n : Nat) (f : Nat → R) :
    (List.range n).foldl (fun (acc : R) (i : Nat) => if i = 0 then f i else acc + f i) 0 = ∑ i ∈ range n, f i := by
  induction n with
  | zero => simp
  | succ n ih =>
    rw [List.range_succ, List.foldl_append, ih, sum_range_succ]
    simp only [List.foldl_cons, List.foldl_nil]
    split
    · next h => subst h; simp
    · rfl

/-- The filter gradient, element by element. -/
theorem convFilterGrad_spec [CommSemiring R] (x cols gy w : Arr R) (batch xch xh xw ych kh kw pad stride dil : Nat)
    (hwS : w.shape = [ych, xch, kh, kw]) (hcols : IsCols batch xch xh xw kh kw pad stride dil x cols)
    (hgy : gy.shape = [batch, ych, outSize xh (extent kh dil) pad stride, outSize xw (extent kw dil) pad stride]) (hb : 0 < batch) :
    ∃ g, convFilterGrad cols gy w = .ok (some g) ∧ g.shape = w.shape ∧ ∀ o < ych, ∀ c < xch, ∀ a < kh, ∀ e < kw,
      g.get [o, c, a, e] = ∑ b ∈ range batch, ∑ i ∈ range (outSize xh (extent kh dil) pad stride), ∑ j ∈ range (outSize xw (extent kw dil) pad stride),
        gy.get [b, o, i, j] * padGet x xh xw pad b c (i * stride + a * dil) (j * stride + e * dil) := by
  obtain ⟨hc, -, hg⟩ := hcols
  generalize outSize xh (extent kh dil) pad stride = yh at *
  generalize outSize xw (extent kw dil) pad stride = yw at *
  unfold convFilterGrad
  rw [hc] at hg ⊢
  rw [hgy, hwS]
  dsimp only
  rw [if_neg (by
    rintro (h | h | h)
    · omega
    · exact h rfl
    · exact h (by ring))]
  refine ⟨_, rfl, rfl, fun o ho c hc a ha e he => ?_⟩
  simp only [ofFn]
  rw [foldl_beta]
  refine sum_congr rfl fun b hb => ?_
  have hb := mem_range.1 hb
  rw [gemm_eq, show yh * yw = size [yh, yw] by simp [size], sum_flat, sum_idxs_two]
  refine sum_congr rfl fun i hi => sum_congr rfl fun j hj => ?_
  have hi := mem_range.1 hi
  have hj := mem_range.1 hj
  simp only [List.getD_cons_zero, List.drop_succ_cons, List.drop_zero, mul_one]
  have e1 : b * (ych * yh * yw) + (((o : Nat) : Int) * ((size [yh, yw] : Nat) : Int) + ((flat [yh, yw] [i, j] : Nat) : Int)).toNat = flat [batch, ych, yh, yw] [b, o, i, j] := by
    rw [← Nat.cast_mul, ← Nat.cast_add, Int.toNat_natCast]; simp only [flat, size]; ring
  have e2 : b * (xch * kw * kh * yh * yw) + (((flat [yh, yw] [i, j] : Nat) : Int) + ((flat [xch, kh, kw] [c, a, e] : Nat) : Int) * ((size [yh, yw] : Nat) : Int)).toNat =
      b * (xch * kw * kh * yh * yw) + flat [xch, kh, kw, yh, yw] [c, a, e, i, j] := by
    rw [← Nat.cast_mul, ← Nat.cast_add, Int.toNat_natCast]; simp only [flat, size]; ring
  rw [e1, e2, unflat_flat (inB_four hb ho hi hj), hg b hb c hc a ha e he i hi j hj]

theorem sum_idxs_four [AddCommMonoid R] (n m l k : Nat) (f : List Nat → R) :
    ∑ o ∈ idxs [n, m, l, k], f o = ∑ b ∈ range n, ∑ c ∈ range m, ∑ i ∈ range l, ∑ j ∈ range k, f [b, c, i, j] := by
  rw [sum_idxs_cons]
  exact sum_congr rfl fun i _ => sum_idxs_three m l k _

/-- The filter gradient is the adjoint of the convolution as a function of the filter. -/
theorem conv_adjoint_filter [CommSemiring R] {x gy g dw dy : Arr R} {batch xch xh xw ych kh kw pad stride dil : Nat}
    (hy : IsConv batch xch xh xw ych kh kw pad stride dil x dw dy)
    (hg : ∀ o < ych, ∀ c < xch, ∀ a < kh, ∀ e < kw,
      g.get [o, c, a, e] = ∑ b ∈ range batch, ∑ i ∈ range (outSize xh (extent kh dil) pad stride), ∑ j ∈ range (outSize xw (extent kw dil) pad stride),
        gy.get [b, o, i, j] * padGet x xh xw pad b c (i * stride + a * dil) (j * stride + e * dil)) :
    inner' dy.shape gy dy = inner' [ych, xch, kh, kw] g dw := by
  obtain ⟨hs, hy⟩ := hy
  rw [hs, inner', inner', sum_idxs_four, sum_idxs_four]
  generalize outSize xh (extent kh dil) pad stride = yh at *
  generalize outSize xw (extent kw dil) pad stride = yw at *
  have L : ∀ b ∈ range batch, (∑ o ∈ range ych, ∑ i ∈ range yh, ∑ j ∈ range yw, gy.get [b, o, i, j] * dy.get [b, o, i, j]) =
      ∑ o ∈ range ych, ∑ i ∈ range yh, ∑ j ∈ range yw, ∑ c ∈ range xch, ∑ a ∈ range kh, ∑ e ∈ range kw,
        gy.get [b, o, i, j] * padGet x xh xw pad b c (i * stride + a * dil) (j * stride + e * dil) * dw.get [o, c, a, e] := fun b hb =>
    sum_congr rfl fun o ho => sum_congr rfl fun i hi => sum_congr rfl fun j hj => by
      rw [hy b (mem_range.1 hb) o (mem_range.1 ho) i (mem_range.1 hi) j (mem_range.1 hj), mul_sum]
      refine sum_congr rfl fun c _ => ?_
      rw [mul_sum]
      refine sum_congr rfl fun a _ => ?_
      rw [mul_sum]
      exact sum_congr rfl fun e _ => by ring
  rw [sum_congr rfl L, sum_comm]
  refine sum_congr rfl fun o ho => ?_
  have Rr : ∀ c ∈ range xch, (∑ a ∈ range kh, ∑ e ∈ range kw, g.get [o, c, a, e] * dw.get [o, c, a, e]) =
      ∑ a ∈ range kh, ∑ e ∈ range kw, ∑ b ∈ range batch, ∑ i ∈ range yh, ∑ j ∈ range yw,
        gy.get [b, o, i, j] * padGet x xh xw pad b c (i * stride + a * dil) (j * stride + e * dil) * dw.get [o, c, a, e] := fun c hc =>
    sum_congr rfl fun a ha => sum_congr rfl fun e he => by
      rw [hg o (mem_range.1 ho) c (mem_range.1 hc) a (mem_range.1 ha) e (mem_range.1 he), sum_mul]
      refine sum_congr rfl fun b _ => ?_
      rw [sum_mul]
      refine sum_congr rfl fun i _ => ?_
      rw [sum_mul]
  rw [sum_congr rfl Rr]
  -- move the sums over the taps outwards
  have S : ∀ F : Nat → Nat → Nat → Nat → Nat → Nat → R,
      (∑ b ∈ range batch, ∑ i ∈ range yh, ∑ j ∈ range yw, ∑ c ∈ range xch, ∑ a ∈ range kh, ∑ e ∈ range kw, F b i j c a e) =
      ∑ c ∈ range xch, ∑ a ∈ range kh, ∑ e ∈ range kw, ∑ b ∈ range batch, ∑ i ∈ range yh, ∑ j ∈ range yw, F b i j c a e := fun F => by
    have h := sum_comm (s := range batch ×ˢ range yh ×ˢ range yw) (t := range xch ×ˢ range kh ×ˢ range kw)
      (f := fun p q => F p.1 p.2.1 p.2.2 q.1 q.2.1 q.2.2)
    simpa only [sum_product] using h
  exact S fun b i j c a e => gy.get [b, o, i, j] * padGet x xh xw pad b c (i * stride + a * dil) (j * stride + e * dil) * dw.get [o, c, a, e]

/-- What is added up by a sequence of additions. -/
theorem scatter_pairs [CommSemiring R] (len : Nat) (l : List (Nat × R)) (hl : ∀ pv ∈ l, pv.1 < len) :
    ∃ g, poolScatter len l (fun _ => 0) = some g ∧ ∀ d : Nat → R, ∑ q ∈ range len, g q * d q = (l.map fun pv => pv.2 * d pv.1).sum := by
  obtain ⟨g, hg, hs⟩ := poolScatter_spec len l hl (fun _ => (0 : R))
  refine ⟨g, hg, fun d => ?_⟩
  simp only [hs, zero_add]
  clear hs hg
  induction l with
  | nil => simp
  | cons pv l ih =>
    simp only [List.map_cons, List.sum_cons, add_mul, sum_add_distrib, ite_mul, zero_mul]
    rw [ih fun a ha => hl a (by simp [ha]), sum_ite_eq, if_pos (mem_range.2 (hl pv (by simp)))]

theorem sum_flatMap_range [AddCommMonoid R] {α : Type} (n : Nat) (f : Nat → List α) (v : α → R) :
    (((List.range n).flatMap f).map v).sum = ∑ i ∈ range n, ((f i).map v).sum := by
  induction n with
  | zero => simp
  | succ n ih => rw [List.range_succ, List.flatMap_append, List.map_append, List.sum_append, ih, sum_range_succ]; simp

section
variable {xh xw kh kw pad stride dil : Nat} (hh : extent kh dil ≤ xh + 2 * pad) (hw : extent kw dil ≤ xw + 2 * pad)
  (hbh : xh + 2 * pad < 2 ^ 31) (hbw : xw + 2 * pad < 2 ^ 31)
include hh hw hbh hbw

theorem col2im_lt (cols : Nat → R) (xch : Nat) : ∀ pv ∈ col2imPairs cols xch xh xw kh kw pad stride dil (outSize xh (extent kh dil) pad stride)
    (outSize xw (extent kw dil) pad stride), pv.1 < xch * (xh * xw) := by
  intro pv hpv
  simp only [col2imPairs, List.mem_flatMap, List.mem_range] at hpv
  obtain ⟨c, hc, a, ha, e, he, i, hi, hpv⟩ := hpv
  split at hpv
  · next h1 =>
    simp only [List.mem_flatMap, List.mem_range] at hpv
    obtain ⟨j, hj, hpv⟩ := hpv
    split at hpv
    · next h2 =>
      have H1 := (u32Lt_tap hh hi ha hbh).1 h1
      have H2 := (u32Lt_tap hw hj he hbw).1 h2
      rw [List.mem_singleton] at hpv
      subst hpv
      dsimp only
      rw [tap_pos (h := i * stride + a * dil) (w := j * stride + e * dil) (by push_cast; ring) (by push_cast; ring) H1 H2]
      unfold Hit at H1 H2
      exact mul_add_lt hc (mul_add_lt (by omega) (by omega))
    · simp at hpv
  · simp at hpv

theorem col2im_sum [CommSemiring R] (cols : Nat → R) (xch : Nat) (d : Nat → R) :
    ((col2imPairs cols xch xh xw kh kw pad stride dil (outSize xh (extent kh dil) pad stride) (outSize xw (extent kw dil) pad stride)).map
      fun pv => pv.2 * d pv.1).sum =
    ∑ c ∈ range xch, ∑ a ∈ range kh, ∑ e ∈ range kw, ∑ i ∈ range (outSize xh (extent kh dil) pad stride), ∑ j ∈ range (outSize xw (extent kw dil) pad stride),
      cols ((((c * kh + a) * kw + e) * (outSize xh (extent kh dil) pad stride) + i) * (outSize xw (extent kw dil) pad stride) + j) *
        tapGet d xh xw pad c (i * stride + a * dil) (j * stride + e * dil) := by
  unfold col2imPairs
  rw [sum_flatMap_range]
  refine sum_congr rfl fun c hc => ?_
  rw [sum_flatMap_range]
  refine sum_congr rfl fun a ha => ?_
  rw [sum_flatMap_range]
  refine sum_congr rfl fun e he => ?_
  rw [sum_flatMap_range]
  refine sum_congr rfl fun i hi => ?_
  have ha := mem_range.1 ha
  have he := mem_range.1 he
  have hi := mem_range.1 hi
  dsimp only
  by_cases h1 : Hit xh pad (i * stride + a * dil)
  · rw [if_pos ((u32Lt_tap hh hi ha hbh).2 h1), sum_flatMap_range]
    refine sum_congr rfl fun j hj => ?_
    have hj := mem_range.1 hj
    by_cases h2 : Hit xw pad (j * stride + e * dil)
    · rw [if_pos ((u32Lt_tap hw hj he hbw).2 h2), tapGet, if_pos ⟨h1, h2⟩]
      simp only [List.map_cons, List.map_nil, List.sum_cons, List.sum_nil, add_zero]
      rw [tap_pos (h := i * stride + a * dil) (w := j * stride + e * dil) (by push_cast; ring) (by push_cast; ring) h1 h2]
    · rw [if_neg (fun h => h2 ((u32Lt_tap hw hj he hbw).1 h)), tapGet, if_neg (fun h => h2 h.2)]
      simp
  · rw [if_neg (fun h => h1 ((u32Lt_tap hh hi ha hbh).1 h))]
    symm
    simp only [List.map_nil, List.sum_nil]
    refine sum_eq_zero fun j _ => ?_
    rw [tapGet, if_neg (fun h => h1 h.1), mul_zero]

end

/-- The transposed convolution is the adjoint of the convolution as a function of the image. -/
theorem conv2dTranspose_spec [CommSemiring R] (debug : Bool) (gy w : Arr R) (batch xch xh xw ych kh kw pad stride dil : Nat)
    (hgy : gy.shape = [batch, ych, outSize xh (extent kh dil) pad stride, outSize xw (extent kw dil) pad stride])
    (hwS : w.shape = [ych, xch, kh, kw]) (hbatch : 0 < batch) (hxch : 0 < xch) (hxh : 0 < xh) (hxw : 0 < xw) (hych : 0 < ych) (hkh : 0 < kh) (hkw : 0 < kw)
    (hst : 0 < stride) (hh : extent kh dil ≤ xh + 2 * pad) (hw : extent kw dil ≤ xw + 2 * pad) (hbh : xh + 2 * pad < 2 ^ 31) (hbw : xw + 2 * pad < 2 ^ 31)
    (hih : convIn debug (outSize xh (extent kh dil) pad stride) kh pad stride dil = .ok xh)
    (hiw : convIn debug (outSize xw (extent kw dil) pad stride) kw pad stride dil = .ok xw) :
    ∃ g, conv2dTranspose debug gy w pad stride dil = .ok (some g) ∧ g.shape = [batch, xch, xh, xw] ∧
      ∀ x y, x.shape = [batch, xch, xh, xw] → IsConv batch xch xh xw ych kh kw pad stride dil x w y → inner' y.shape gy y = inner' x.shape g x := by
  have p1 := outSize_pos xh (extent kh dil) pad stride
  have p2 := outSize_pos xw (extent kw dil) pad stride
  unfold conv2dTranspose
  rw [hgy, hwS]
  simp only [hih, hiw, bind, Except.bind, ne_eq, not_true_eq_false, if_false]
  rw [if_neg (by
    rintro (h | h | h | h) <;> revert h <;> exact Nat.ne_of_gt (by positivity)), if_neg (by omega)]
  simp only [convOut_ok hkh hst hh, convOut_ok hkw hst hw]
  have hex : ∀ b, ∃ g, poolScatter (xch * (xh * xw)) (col2imPairs (fun k => gemm ych (fun o => w.get (unflat [ych, xch, kh, kw] o.toNat)) 1 ((kh * kw * xch : Nat) : Int)
          (fun o => gy.get (unflat [batch, ych, outSize xh (extent kh dil) pad stride, outSize xw (extent kw dil) pad stride]
            (b * (ych * (outSize xh (extent kh dil) pad stride) * (outSize xw (extent kw dil) pad stride)) + o.toNat)))
          (((outSize xh (extent kh dil) pad stride) * (outSize xw (extent kw dil) pad stride) : Nat) : Int) 1
          (k / ((outSize xh (extent kh dil) pad stride) * (outSize xw (extent kw dil) pad stride)))
          (k % ((outSize xh (extent kh dil) pad stride) * (outSize xw (extent kw dil) pad stride))))
          xch xh xw kh kw pad stride dil (outSize xh (extent kh dil) pad stride) (outSize xw (extent kw dil) pad stride)) (fun _ => 0) = some g ∧ _ :=
    fun b => scatter_pairs _ _ (col2im_lt hh hw hbh hbw _ xch)
  choose ret hret hsum using hex
  rw [if_pos (by intro b _; rw [hret]; rfl)]
  refine ⟨_, rfl, rfl, fun x y hx hy => ?_⟩
  simp only [hret, Option.getD_some]
  obtain ⟨hs, hy⟩ := hy
  rw [hs, hx, inner', inner', sum_idxs_four, sum_idxs_four]
  refine sum_congr rfl fun b hb => ?_
  have hb := mem_range.1 hb
  have hR : (∑ c ∈ range xch, ∑ i ∈ range xh, ∑ j ∈ range xw, ret b (flat [xch, xh, xw] [c, i, j]) * x.get [b, c, i, j]) =
      ∑ q ∈ range (xch * (xh * xw)), ret b q * x.get (unflat x.shape (b * (xch * (xh * xw)) + q)) := by
    rw [← mul_assoc, sum_range_three]
    refine sum_congr rfl fun c hc => sum_congr rfl fun i hi => sum_congr rfl fun j hj => ?_
    have : b * (xch * xh * xw) + flat [xch, xh, xw] [c, i, j] = flat x.shape [b, c, i, j] := by
      rw [hx]; simp only [flat, size]; ring
    rw [this, unflat_flat]
    rw [hx]; exact inB_four hb (mem_range.1 hc) (mem_range.1 hi) (mem_range.1 hj)
  refine Eq.trans ?_ (hR.trans ((hsum b fun q => x.get (unflat x.shape (b * (xch * (xh * xw)) + q))).trans
    (col2im_sum hh hw hbh hbw _ xch fun q => x.get (unflat x.shape (b * (xch * (xh * xw)) + q))))).symm
  generalize hyh : outSize xh (extent kh dil) pad stride = yh at *
  generalize hyw : outSize xw (extent kw dil) pad stride = yw at *
  have L : ∀ o ∈ range ych, ∀ i ∈ range yh, ∀ j ∈ range yw, gy.get [b, o, i, j] * y.get [b, o, i, j] =
      ∑ c ∈ range xch, ∑ a ∈ range kh, ∑ e ∈ range kw, w.get [o, c, a, e] * gy.get [b, o, i, j] * padGet x xh xw pad b c (i * stride + a * dil) (j * stride + e * dil) :=
    fun o ho i hi j hj => by
      rw [hy b hb o (mem_range.1 ho) i (mem_range.1 hi) j (mem_range.1 hj), mul_sum]
      refine sum_congr rfl fun c _ => ?_
      rw [mul_sum]
      refine sum_congr rfl fun a _ => ?_
      rw [mul_sum]
      exact sum_congr rfl fun e _ => by ring
  rw [sum_congr rfl fun o ho => sum_congr rfl fun i hi => sum_congr rfl fun j hj => L o ho i hi j hj]
  have Rr : ∀ c ∈ range xch, ∀ a ∈ range kh, ∀ e ∈ range kw, ∀ i ∈ range yh, ∀ j ∈ range yw,
      gemm ych (fun o => w.get (unflat [ych, xch, kh, kw] o.toNat)) 1 ((kh * kw * xch : Nat) : Int)
          (fun o => gy.get (unflat [batch, ych, yh, yw] (b * (ych * yh * yw) + o.toNat))) ((yh * yw : Nat) : Int) 1
          (((((c * kh + a) * kw + e) * yh + i) * yw + j) / (yh * yw)) (((((c * kh + a) * kw + e) * yh + i) * yw + j) % (yh * yw)) *
        tapGet (fun q => x.get (unflat x.shape (b * (xch * (xh * xw)) + q))) xh xw pad c (i * stride + a * dil) (j * stride + e * dil) =
      ∑ o ∈ range ych, w.get [o, c, a, e] * gy.get [b, o, i, j] * padGet x xh xw pad b c (i * stride + a * dil) (j * stride + e * dil) := by
    intro c hc a ha e he i hi j hj
    have hc := mem_range.1 hc
    have ha := mem_range.1 ha
    have he := mem_range.1 he
    have hi := mem_range.1 hi
    have hj := mem_range.1 hj
    have hlt : i * yw + j < yh * yw := mul_add_lt hi hj
    have hk : (((c * kh + a) * kw + e) * yh + i) * yw + j = yh * yw * ((c * kh + a) * kw + e) + (i * yw + j) := by ring
    rw [tapGet_pad x hx hb hc, hk, Nat.mul_add_div (by omega), Nat.div_eq_of_lt hlt, Nat.mul_add_mod, Nat.mod_eq_of_lt hlt, Nat.add_zero, gemm_eq, sum_mul]
    refine sum_congr rfl fun o ho => ?_
    have ho := mem_range.1 ho
    have e1 : (((((c * kh + a) * kw + e : Nat)) : Int) * 1 + ((o : Nat) : Int) * ((kh * kw * xch : Nat) : Int)).toNat = flat [ych, xch, kh, kw] [o, c, a, e] := by
      rw [mul_one, ← Nat.cast_mul, ← Nat.cast_add, Int.toNat_natCast]; simp only [flat, size]; ring
    have e2 : b * (ych * yh * yw) + (((o : Nat) : Int) * ((yh * yw : Nat) : Int) + ((i * yw + j : Nat) : Int) * 1).toNat = flat [batch, ych, yh, yw] [b, o, i, j] := by
      rw [mul_one, ← Nat.cast_mul, ← Nat.cast_add, Int.toNat_natCast]; simp only [flat, size]; ring
    rw [e1, e2, unflat_flat (inB_four ho hc ha he), unflat_flat (inB_four hb ho hi hj)]
  rw [sum_congr rfl fun c hc => sum_congr rfl fun a ha => sum_congr rfl fun e he => sum_congr rfl fun i hi => sum_congr rfl fun j hj => Rr c hc a ha e he i hi j hj]
  have S : ∀ F : Nat → Nat → Nat → Nat → Nat → Nat → R,
      (∑ o ∈ range ych, ∑ i ∈ range yh, ∑ j ∈ range yw, ∑ c ∈ range xch, ∑ a ∈ range kh, ∑ e ∈ range kw, F o i j c a e) =
      ∑ c ∈ range xch, ∑ a ∈ range kh, ∑ e ∈ range kw, ∑ i ∈ range yh, ∑ j ∈ range yw, ∑ o ∈ range ych, F o i j c a e := fun F => by
    have h := sum_comm (s := range ych ×ˢ range yh ×ˢ range yw) (t := range xch ×ˢ range kh ×ˢ range kw)
      (f := fun p q => F p.1 p.2.1 p.2.2 q.1 q.2.1 q.2.2)
    simp only [sum_product] at h
    rw [h]
    refine sum_congr rfl fun c _ => sum_congr rfl fun a _ => sum_congr rfl fun e _ => ?_
    have h := sum_comm (s := range ych) (t := range yh ×ˢ range yw) (f := fun o q => F o q.1 q.2 c a e)
    simpa only [sum_product] using h
  exact S fun o i j c a e => w.get [o, c, a, e] * gy.get [b, o, i, j] * padGet x xh xw pad b c (i * stride + a * dil) (j * stride + e * dil)

theorem im2col_length [Zero R] (x : Nat → R) (xch xh xw kh kw pad stride dil yh yw : Nat) :
    (im2col x xch xh xw kh kw pad stride dil yh yw).length = xch * (kh * (kw * (yh * yw))) := by
  unfold im2col
  refine length_flatMap_range _ _ _ fun c _ => length_flatMap_range _ _ _ fun a _ => length_flatMap_range _ _ _ fun e _ =>
    length_flatMap_range _ _ _ fun i _ => ?_
  dsimp only; split <;> simp

theorem view_get (v : View R) (h : v.strides = cStrides v.shape) {idx : List Nat} (hi : InB idx v.shape) : v.arr.get idx = v.mem (flat v.shape idx) := by
  have := viewOffset_cStrides v.shape idx (inB_length hi) 1
  simp only [mul_one, List.map_id'] at this
  simp only [View.arr, h, this]

/-- What the convolution that reads the columns computes. -/
theorem conv2dWithCols_spec [CommSemiring R] (x cols w : Arr R) (batch xch xh xw ych kh kw pad stride dil : Nat)
    (hwS : w.shape = [ych, xch, kh, kw]) (hcols : IsCols batch xch xh xw kh kw pad stride dil x cols) (hxch : 0 < xch) (hych : 0 < ych) (hkh : 0 < kh) (hkw : 0 < kw) :
    ∃ y, conv2dWithCols cols w = .ok y ∧ IsConv batch xch xh xw ych kh kw pad stride dil x w y := by
  have p1 := outSize_pos xh (extent kh dil) pad stride
  have p2 := outSize_pos xw (extent kw dil) pad stride
  obtain ⟨hc, hcs, hg⟩ := hcols
  have hstd : isStandard cols.shape cols.strides = true := by rw [hcs]; exact isStandard_cStrides _
  unfold conv2dWithCols IsConv
  rw [hc] at hg hstd ⊢
  generalize outSize xh (extent kh dil) pad stride = yh at *
  generalize outSize xw (extent kw dil) pad stride = yw at *
  rw [hwS]
  simp only [hstd, Bool.not_true, Bool.false_eq_true, if_false]
  rw [if_neg (by
    rintro (h | h | h)
    · revert h; exact Nat.ne_of_gt (by positivity)
    · revert h; exact Nat.ne_of_gt (by positivity)
    · exact h rfl)]
  refine ⟨_, rfl, rfl, fun b hb o ho i hi j hj => ?_⟩
  simp only [ofFn]
  rw [gemm_eq, sum_range_three]
  refine sum_congr rfl fun c hc => sum_congr rfl fun a ha => sum_congr rfl fun e he => ?_
  have hc := mem_range.1 hc
  have ha := mem_range.1 ha
  have he := mem_range.1 he
  have e1 : (((o : Nat) : Int) * ((xch * kh * kw : Nat) : Int) + ((flat [xch, kh, kw] [c, a, e] : Nat) : Int) * 1).toNat = flat [ych, xch, kh, kw] [o, c, a, e] := by
    rw [mul_one, ← Nat.cast_mul, ← Nat.cast_add, Int.toNat_natCast]; simp only [flat, size]; ring
  have e2 : (((flat [xch, kh, kw] [c, a, e] : Nat) : Int) * ((yh * yw : Nat) : Int) + ((i * yw + j : Nat) : Int) * 1).toNat =
      flat [xch, kh, kw, yh, yw] [c, a, e, i, j] := by
    rw [mul_one, ← Nat.cast_mul, ← Nat.cast_add, Int.toNat_natCast]; simp only [flat, size]; ring
  simp only [List.getD_cons_zero, List.getD_cons_succ]
  rw [e1, e2, unflat_flat (inB_four ho hc ha he), hg b hb c hc a ha e he i hi j hj]

/-- The filter gradient of the transposed convolution, element by element. -/
theorem transposeFilterGrad_spec [CommSemiring R] (gy x : View R) (w : Arr R) (batch xch xh xw ych kh kw pad stride dil : Nat)
    (hgy : gy.shape = [batch, xch, xh, xw]) (hgs : gy.strides = cStrides gy.shape)
    (hx : x.shape = [batch, ych, outSize xh (extent kh dil) pad stride, outSize xw (extent kw dil) pad stride]) (hxs : x.strides = cStrides x.shape)
    (hwS : w.shape = [ych, xch, kh, kw]) (hbatch : 0 < batch) (hxch : 0 < xch) (hxh : 0 < xh) (hxw : 0 < xw) (hkh : 0 < kh) (hkw : 0 < kw) (hst : 0 < stride)
    (hh : extent kh dil ≤ xh + 2 * pad) (hw : extent kw dil ≤ xw + 2 * pad) (hbh : xh + 2 * pad < 2 ^ 31) (hbw : xw + 2 * pad < 2 ^ 31)
    (hsq : batch = 1 ∨ outSize xh (extent kh dil) pad stride = outSize xw (extent kw dil) pad stride) :
    ∃ g, transposeFilterGrad gy x w pad stride dil = .ok (some g) ∧ g.shape = w.shape ∧ ∀ o < ych, ∀ c < xch, ∀ a < kh, ∀ e < kw,
      g.get [o, c, a, e] = ∑ b ∈ range batch, ∑ i ∈ range (outSize xh (extent kh dil) pad stride), ∑ j ∈ range (outSize xw (extent kw dil) pad stride),
        x.arr.get [b, o, i, j] * padGet gy.arr xh xw pad b c (i * stride + a * dil) (j * stride + e * dil) := by
  have p1 := outSize_pos xh (extent kh dil) pad stride
  have p2 := outSize_pos xw (extent kw dil) pad stride
  have hlen : ∀ f : Nat → Nat → R, ((List.range batch).flatMap fun b => im2col (f b) xch xh xw kh kw pad stride dil (outSize xh (extent kh dil) pad stride)
      (outSize xw (extent kw dil) pad stride)).length = batch * (xch * (kh * (kw * (outSize xh (extent kh dil) pad stride * outSize xw (extent kw dil) pad stride)))) :=
    fun f => length_flatMap_range _ _ _ fun b _ => im2col_length _ _ _ _ _ _ _ _ _ _ _
  have hcol : ∀ b < batch, ∀ c < xch, ∀ a < kh, ∀ e < kw, ∀ i < outSize xh (extent kh dil) pad stride, ∀ j < outSize xw (extent kw dil) pad stride,
      ((List.range batch).flatMap fun b => im2col (fun k => gy.mem ((b * (xch * (xh * xw)) + k : Nat) : Int)) xch xh xw kh kw pad stride dil
        (outSize xh (extent kh dil) pad stride) (outSize xw (extent kw dil) pad stride)).getD
        (b * (xch * (kh * (kw * (outSize xh (extent kh dil) pad stride * outSize xw (extent kw dil) pad stride)))) +
          flat [xch, kh, kw, outSize xh (extent kh dil) pad stride, outSize xw (extent kw dil) pad stride] [c, a, e, i, j]) 0 =
        padGet gy.arr xh xw pad b c (i * stride + a * dil) (j * stride + e * dil) := by
    intro b hb c hc a ha e he i hi j hj
    have hlt := flat_lt (s := [xch, kh, kw, outSize xh (extent kh dil) pad stride, outSize xw (extent kw dil) pad stride]) (idx := [c, a, e, i, j])
      (.cons hc (.cons ha (.cons he (.cons hi (.cons hj .nil)))))
    rw [getD_flatMap_range _ _ _ (fun b _ => im2col_length _ _ _ _ _ _ _ _ _ _ _) hb (by simpa only [size, mul_one] using hlt),
      im2col_get hh hw hbh hbw _ _ hc ha he hi hj]
    unfold tapGet padGet Hit
    by_cases H : (pad ≤ i * stride + a * dil ∧ i * stride + a * dil < pad + xh) ∧ (pad ≤ j * stride + e * dil ∧ j * stride + e * dil < pad + xw)
    · rw [if_pos H, if_pos H]
      have hin : InB [b, c, i * stride + a * dil - pad, j * stride + e * dil - pad] gy.shape := by
        rw [hgy]; exact inB_four hb hc (by omega) (by omega)
      rw [view_get gy hgs hin]
      refine congrArg gy.mem (congrArg Nat.cast ?_)
      rw [hgy]; simp only [flat, size]; ring
    · rw [if_neg H, if_neg H]
  unfold transposeFilterGrad
  rw [hgy, hx, hwS]
  simp only [convOut_ok hkh hst hh, convOut_ok hkw hst hw, bind, Except.bind]
  generalize outSize xh (extent kh dil) pad stride = yh at *
  generalize outSize xw (extent kw dil) pad stride = yw at *
  have hoff : ∀ b < batch, b * (yh * yh * kh * kw * xch) = b * (xch * (kh * (kw * (yh * yw)))) := fun b hb => by
    rcases hsq with h | h
    · obtain rfl : b = 0 := by omega
      simp
    · subst h; ring
  have hS : kh * kw * xch * (yh * yw) = xch * (kh * (kw * (yh * yw))) := by ring
  have hSp : 0 < xch * (kh * (kw * (yh * yw))) := by positivity
  rw [if_neg (by
    rintro (h | h | h)
    · revert h; exact Nat.ne_of_gt (by positivity)
    · revert h; exact Nat.ne_of_gt (by positivity)
    · exact h rfl), if_neg (by
    rintro (h | h | h)
    · omega
    · exact h (by ring)
    · exact h rfl)]
  rw [if_neg (by
    rintro ⟨b, hb, h⟩
    rw [List.mem_range] at hb
    rw [hlen, hoff b hb] at h
    exact absurd h (not_le.2 (Nat.mul_lt_mul_of_pos_right hb hSp))), if_neg (by
    rintro ⟨b, hb, h⟩
    rw [List.mem_range] at hb
    rw [hlen, hoff b hb, hS, ← Nat.succ_mul] at h
    exact absurd h (not_lt.2 (Nat.mul_le_mul_right _ hb)))]
  refine ⟨_, rfl, rfl, fun o ho c hc a ha e he => ?_⟩
  simp only [ofFn]
  rw [foldl_beta]
  refine sum_congr rfl fun b hb => ?_
  have hb := mem_range.1 hb
  have hlt3 := flat_lt (inB_three hc ha he)
  have hf : flat [ych, xch, kh, kw] [o, c, a, e] = kh * kw * xch * o + flat [xch, kh, kw] [c, a, e] := by simp only [flat, size]; ring
  have hlt3' : flat [xch, kh, kw] [c, a, e] < kh * kw * xch := by
    rwa [show size [xch, kh, kw] = kh * kw * xch by simp only [size]; ring] at hlt3
  rw [hf, Nat.mul_add_div (by positivity), Nat.div_eq_of_lt hlt3', Nat.mul_add_mod, Nat.mod_eq_of_lt hlt3', Nat.add_zero]
  rw [gemm_eq, show yh * yw = size [yh, yw] by simp [size], sum_flat, sum_idxs_two]
  refine sum_congr rfl fun i hi => sum_congr rfl fun j hj => ?_
  have hi := mem_range.1 hi
  have hj := mem_range.1 hj
  have e1 : ((b * (ych * yh * yw) : Nat) : Int) + (((o : Nat) : Int) * ((size [yh, yw] : Nat) : Int) + ((flat [yh, yw] [i, j] : Nat) : Int) * 1) =
      ((flat [batch, ych, yh, yw] [b, o, i, j] : Nat) : Int) := by
    simp only [flat, size]; push_cast; ring
  have e2 : (((flat [yh, yw] [i, j] : Nat) : Int) * 1 + ((flat [xch, kh, kw] [c, a, e] : Nat) : Int) * ((size [yh, yw] : Nat) : Int)).toNat =
      flat [xch, kh, kw, yh, yw] [c, a, e, i, j] := by
    rw [mul_one, ← Nat.cast_mul, ← Nat.cast_add, Int.toNat_natCast]; simp only [flat, size]; ring
  rw [e1, e2, hoff b hb, hcol b hb c hc a ha e he i hi j hj, view_get x hxs (by rw [hx]; exact inB_four hb ho hi hj), hx]

/-- The image size computed by the transposed convolution from the output size of a convolution. -/
theorem convIn_out {debug : Bool} {n k pad stride dil : Nat} (hk : 0 < k) (h : extent k dil ≤ n + 2 * pad) (hb : n + 2 * pad < 2 ^ 31)
    (hdiv : stride ∣ n + 2 * pad - extent k dil) (hd : debug = true → extent k dil ≤ n) :
    convIn debug (outSize n (extent k dil) pad stride) k pad stride dil = .ok n := by
  have e1 : stride * (outSize n (extent k dil) pad stride - 1) = n + 2 * pad - extent k dil := by
    rw [outSize, Nat.add_sub_cancel]; exact Nat.mul_div_cancel' hdiv
  have e2 : dil * (k - 1) + 1 = extent k dil := rfl
  rw [convIn, if_neg (by have := outSize_pos n (extent k dil) pad stride; omega), e1, e2, uSub]
  by_cases hE : extent k dil ≤ n
  · rw [if_pos (by omega)]
    simp only [bind, Except.bind]
    rw [uAdd, if_pos (by omega)]
    congr 1; omega
  · have hf : debug = false := by cases debug <;> simp_all
    subst hf
    rw [if_neg (by omega)]
    simp only [bind, Except.bind, Bool.false_eq_true, if_false]
    rw [uAdd, if_neg (by omega)]
    simp only [Bool.false_eq_true, if_false, Except.ok.injEq]
    omega

/-- Without divisibility the image size computed by the transposed convolution is never the original one. -/
theorem convIn_ne {debug : Bool} {n k pad stride dil m : Nat} (h : extent k dil ≤ n + 2 * pad) (hb : n + 2 * pad < 2 ^ 31)
    (hdiv : ¬ stride ∣ n + 2 * pad - extent k dil) (he : convIn debug (outSize n (extent k dil) pad stride) k pad stride dil = .ok m) : m ≠ n := by
  have e1 : stride * (outSize n (extent k dil) pad stride - 1) ≤ n + 2 * pad - extent k dil := by
    rw [outSize, Nat.add_sub_cancel]; exact Nat.mul_div_le _ _
  have e2 : stride * (outSize n (extent k dil) pad stride - 1) ≠ n + 2 * pad - extent k dil := fun h' => hdiv ⟨_, h'.symm⟩
  have e3 : dil * (k - 1) + 1 = extent k dil := rfl
  rw [convIn] at he
  split at he
  · cases he
  rw [e3] at he
  generalize stride * (outSize n (extent k dil) pad stride - 1) = q at *
  rw [uSub] at he
  split at he
  · simp only [bind, Except.bind] at he
    rw [uAdd, if_pos (by omega)] at he
    cases he; omega
  · cases debug
    · simp only [bind, Except.bind, Bool.false_eq_true, if_false] at he
      rw [uAdd] at he
      split at he
      · simp only [Except.ok.injEq] at he; omega
      · simp only [Bool.false_eq_true, if_false, Except.ok.injEq] at he; omega
    · simp [bind, Except.bind] at he

theorem transSize_out {m k pad stride dil : Nat} (hm : 0 < m) (hst : 0 < stride) (h : 2 * pad < stride * (m - 1) + extent k dil) :
    outSize (transSize m k pad stride dil) (extent k dil) pad stride = m := by
  rw [outSize, transSize, show stride * (m - 1) + extent k dil - 2 * pad + 2 * pad - extent k dil = stride * (m - 1) by omega, Nat.mul_div_cancel_left _ hst]
  omega

theorem transSize_facts {debug : Bool} {m k pad stride dil : Nat} (hm : 0 < m) (hst : 0 < stride) (hk : 0 < k) (h : 2 * pad < stride * (m - 1) + extent k dil)
    (hb : stride * (m - 1) + extent k dil < 2 ^ 31) (hd : debug = true → 2 * pad ≤ stride * (m - 1)) :
    0 < transSize m k pad stride dil ∧ extent k dil ≤ transSize m k pad stride dil + 2 * pad ∧ transSize m k pad stride dil + 2 * pad < 2 ^ 31 ∧
      convIn debug (outSize (transSize m k pad stride dil) (extent k dil) pad stride) k pad stride dil = .ok (transSize m k pad stride dil) := by
  have h0 := transSize_out hm hst h
  refine ⟨by unfold transSize; omega, by unfold transSize; omega, by unfold transSize; omega, convIn_out hk (by unfold transSize; omega) (by unfold transSize; omega) ?_ ?_⟩
  · rw [transSize, show stride * (m - 1) + extent k dil - 2 * pad + 2 * pad - extent k dil = stride * (m - 1) by omega]
    exact ⟨_, rfl⟩
  · intro hdb
    have := hd hdb
    unfold transSize; omega

end Verif.Nd
