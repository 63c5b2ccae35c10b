import Mathlib.Order.Lattice
import Mathlib.Tactic.Ring
import Verif.Model.MaxPool
import Verif.Spec.MaxPool
import Verif.Lemmas.Tensordot

/-!
# Lemmas about max pooling
-/

namespace Verif.Nd
open Finset
variable {R : Type}

theorem maxStep_foldl [LinearOrder R] (input : Nat → R) (l : List Nat) (a : R × Nat) :
    a.1 ≤ (l.foldl (maxStep input) a).1 ∧ (∀ k ∈ l, input k ≤ (l.foldl (maxStep input) a).1) ∧
      (l.foldl (maxStep input) a = a ∨ ∃ k ∈ l, l.foldl (maxStep input) a = (input k, k)) := by
  induction l generalizing a with
  | nil => simp
  | cons k l ih =>
    rw [List.foldl_cons]
    obtain ⟨h1, h2, h3⟩ := ih (maxStep input a k)
    by_cases h : a.1 < input k
    · have e : maxStep input a k = (input k, k) := if_pos h
      rw [e] at h1 h2 h3 ⊢
      refine ⟨h.le.trans h1, fun q hq => ?_, .inr ?_⟩
      · rcases List.mem_cons.1 hq with rfl | hq
        exacts [h1, h2 q hq]
      · rcases h3 with h3 | ⟨q, hq, h3⟩
        · exact ⟨k, by simp, h3⟩
        · exact ⟨q, by simp [hq], h3⟩
    · have e : maxStep input a k = a := if_neg h
      rw [e] at h1 h2 h3 ⊢
      refine ⟨h1, fun q hq => ?_, ?_⟩
      · rcases List.mem_cons.1 hq with rfl | hq
        exacts [(not_lt.1 h).trans h1, h2 q hq]
      · rcases h3 with h3 | ⟨q, hq, h3⟩
        · exact .inl h3
        · exact .inr ⟨q, by simp [hq], h3⟩

/-- The positions looked at in a window. -/
def winList (xw cBase : Nat) (hb wb : Nat × Nat) : List Nat :=
  (List.range' hb.1 (hb.2 - hb.1)).flatMap (fun h => (List.range' wb.1 (wb.2 - wb.1)).map (fun w => w + xw * (h + cBase)))

theorem windowMax_eq [LinearOrder R] (m : R) (input : Nat → R) (xw cBase : Nat) (hb wb : Nat × Nat) :
    windowMax m input xw cBase hb wb = (winList xw cBase hb wb).foldl (maxStep input) (m, 0) := by
  rw [windowMax, winList, List.foldl_flatMap]
  congr 1
  funext acc h
  rw [List.foldl_map]

theorem mem_winList {xw cBase k : Nat} {hb wb : Nat × Nat} :
    k ∈ winList xw cBase hb wb ↔ ∃ h w, hb.1 ≤ h ∧ h < hb.2 ∧ wb.1 ≤ w ∧ w < wb.2 ∧ w + xw * (h + cBase) = k := by
  simp only [winList, List.mem_flatMap, List.mem_map, List.mem_range'_1]
  constructor
  · rintro ⟨h, h1, w, h2, rfl⟩
    exact ⟨h, w, h1.1, by omega, h2.1, by omega, rfl⟩
  · rintro ⟨h, w, h1, h2, h3, h4, rfl⟩
    exact ⟨h, ⟨h1, by omega⟩, w, ⟨h3, by omega⟩, rfl⟩

theorem flat_four (a b c d i j k l : Nat) : flat [a, b, c, d] [i, j, k, l] = l + d * (k + c * (j + i * b)) := by
  simp only [flat, size]; ring

/-- What the bounds of a window are. -/
def BoundsOk (n size pad stride i : Nat) (p : Nat × Nat) : Prop :=
  (pad ≤ i * stride → p.1 = i * stride - pad ∧ p.2 = min n (i * stride - pad + size)) ∧ (i * stride < pad → p.2 ≤ p.1)

theorem poolBounds_ok (debug : Bool) (n size pad stride i : Nat) (hi : i * stride + size ≤ n + 2 * pad) (hs : n + 2 * pad + size < 2 ^ 63)
    (hd : debug = true → pad = 0) : ∃ p, poolBounds debug n size pad stride i = .ok p ∧ BoundsOk n size pad stride i p := by
  by_cases h : pad ≤ i * stride
  · refine ⟨(i * stride - pad, if i * stride - pad + size > n then n else i * stride - pad + size), ?_, fun _ => ⟨rfl, ?_⟩, fun h' => by omega⟩
    · rw [poolBounds, uSub, if_pos h]
      simp only [bind, Except.bind]
      rw [uAdd, if_pos (by omega)]
    · simp only
      split <;> omega
  · have hd' : debug = false := by
      cases debug with
      | false => rfl
      | true => have := hd rfl; omega
    subst hd'
    have e : uSub false (i * stride) pad = .ok (2 ^ 64 - (pad - i * stride)) := by rw [uSub, if_neg h]; rfl
    by_cases h2 : 2 ^ 64 - (pad - i * stride) + size < 2 ^ 64
    · refine ⟨(2 ^ 64 - (pad - i * stride), if 2 ^ 64 - (pad - i * stride) + size > n then n else 2 ^ 64 - (pad - i * stride) + size), ?_, fun h' => absurd h' h, fun _ => ?_⟩
      · rw [poolBounds, e]
        simp only [bind, Except.bind]
        rw [uAdd, if_pos h2]
      · simp only
        split <;> omega
    · refine ⟨(2 ^ 64 - (pad - i * stride), if 2 ^ 64 - (pad - i * stride) + size - 2 ^ 64 > n then n else 2 ^ 64 - (pad - i * stride) + size - 2 ^ 64), ?_,
        fun h' => absurd h' h, fun _ => ?_⟩
      · rw [poolBounds, e]
        simp only [bind, Except.bind]
        rw [uAdd, if_neg h2]; rfl
      · simp only
        split <;> omega

theorem mapM_range {α : Type} (n : Nat) (f : Nat → Res α) (P : Nat → α → Prop) (d : α) (h : ∀ i < n, ∃ p, f i = .ok p ∧ P i p) :
    ∃ l, (List.range n).mapM f = .ok l ∧ ∀ i < n, P i (l.getD i d) := by
  classical
  let g : Nat → α := fun i => if hi : i < n then (h i hi).choose else d
  have hg : ∀ i < n, f i = .ok (g i) ∧ P i (g i) := fun i hi => by
    simp only [g, dif_pos hi]; exact (h i hi).choose_spec
  refine ⟨(List.range n).map g, mapM_forall₂ ?_, fun i hi => ?_⟩
  · rw [List.forall₂_map_right_iff, List.forall₂_same]
    exact fun i hi => (hg i (List.mem_range.1 hi)).1
  · have : ((List.range n).map g).getD i d = g i := by simp [List.getD, hi]
    rw [this]; exact (hg i hi).2

theorem poolOut_ok {n size pad stride : Nat} (h : size ≤ n + 2 * pad) (hs : 0 < stride) : poolOut n size pad stride = .ok (outSize n size pad stride) := by
  rw [poolOut, if_neg (by omega)]; rfl

theorem out_le {n size pad stride i : Nat} (h : size ≤ n + 2 * pad) (hi : i < outSize n size pad stride) : i * stride + size ≤ n + 2 * pad := by
  have : i ≤ (n + 2 * pad - size) / stride := by unfold outSize at hi; omega
  have := (Nat.mul_le_mul_right stride this).trans (Nat.div_mul_le_self _ _)
  omega

/-- Both outputs of max pooling. -/
theorem maxPool_spec [LinearOrder R] (debug : Bool) (m : R) (x : Arr R) (batch ch xh xw size pad stride : Nat) (hx : x.shape = [batch, ch, xh, xw])
    (hst : 0 < stride) (hp : pad < size) (hh : size ≤ xh + 2 * pad) (hw : size ≤ xw + 2 * pad) (hbh : xh + 2 * pad + size < 2 ^ 63)
    (hbw : xw + 2 * pad + size < 2 ^ 63) (hd : debug = true → pad = 0) (hm : ∀ o, InB o x.shape → m < x.get o) :
    ∃ y ind, maxPool debug m x size pad stride = .ok (y, ind) ∧ y.shape = [batch, ch, outSize xh size pad stride, outSize xw size pad stride] ∧
      ind.shape = y.shape ∧ ∀ b < batch, ∀ c < ch, ∀ i < outSize xh size pad stride, ∀ j < outSize xw size pad stride,
        (pad ≤ i * stride → pad ≤ j * stride → ∃ p, IsArgMax x xh xw size pad stride [b, c, i, j] p ∧ InB p x.shape ∧ y.get [b, c, i, j] = x.get p ∧
          ind.get [b, c, i, j] = flat x.shape p) ∧
        (i * stride < pad ∨ j * stride < pad → y.get [b, c, i, j] = m ∧ ind.get [b, c, i, j] = 0) := by
  obtain ⟨hb, hhb, Hh⟩ := mapM_range (outSize xh size pad stride) (poolBounds debug xh size pad stride) (BoundsOk xh size pad stride) (0, 0)
    fun i hi => poolBounds_ok debug xh size pad stride i (out_le hh hi) hbh hd
  obtain ⟨wb, hwb, Hw⟩ := mapM_range (outSize xw size pad stride) (poolBounds debug xw size pad stride) (BoundsOk xw size pad stride) (0, 0)
    fun i hi => poolBounds_ok debug xw size pad stride i (out_le hw hi) hbw hd
  let hb' := if batch * ch = 0 then [] else hb
  let wb' := if batch * ch = 0 then [] else wb
  let f : List Nat → R × Nat := fun idx => windowMax m (fun k => x.get (unflat [batch, ch, xh, xw] k)) xw (xh * (idx.getD 1 0 + idx.getD 0 0 * ch))
    (hb'.getD (idx.getD 2 0) (0, 0)) (wb'.getD (idx.getD 3 0) (0, 0))
  refine ⟨ofFn [batch, ch, outSize xh size pad stride, outSize xw size pad stride] (fun i => (f i).1),
    ofFn [batch, ch, outSize xh size pad stride, outSize xw size pad stride] (fun i => (f i).2), ?_, rfl, rfl, ?_⟩
  · unfold maxPool
    rw [hx]
    simp only [poolOut_ok hh hst, poolOut_ok hw hst, hhb, hwb, bind, Except.bind]
    by_cases h0 : batch * ch = 0
    · simp only [h0, if_true, f, hb', wb']
    · simp only [h0, if_false, f, hb', wb']
  · intro b hbb c hc i hi j hj
    have h0 : batch * ch ≠ 0 := Nat.mul_ne_zero (by omega) (by omega)
    have ef : f [b, c, i, j] = (winList xw (xh * (c + b * ch)) (hb.getD i (0, 0)) (wb.getD j (0, 0))).foldl
        (maxStep (fun k => x.get (unflat [batch, ch, xh, xw] k))) (m, 0) := by
      simp only [f, hb', wb', h0, if_false, List.getD_cons_zero, List.getD_cons_succ]
      exact windowMax_eq _ _ _ _ _ _
    have hval : ∀ h < xh, ∀ w < xw, x.get (unflat [batch, ch, xh, xw] (w + xw * (h + xh * (c + b * ch)))) = x.get [b, c, h, w] ∧
        InB [b, c, h, w] [batch, ch, xh, xw] := fun h hh w hw => by
      have hin : InB [b, c, h, w] [batch, ch, xh, xw] := .cons hbb (.cons hc (.cons hh (.cons hw .nil)))
      rw [← flat_four batch ch xh xw, unflat_flat hin]
      exact ⟨rfl, hin⟩
    obtain ⟨Hh1, Hh2⟩ := Hh i hi
    obtain ⟨Hw1, Hw2⟩ := Hw j hj
    show (pad ≤ i * stride → pad ≤ j * stride → ∃ p, IsArgMax x xh xw size pad stride [b, c, i, j] p ∧ InB p x.shape ∧ (f [b, c, i, j]).1 = x.get p ∧
          (f [b, c, i, j]).2 = flat x.shape p) ∧ (i * stride < pad ∨ j * stride < pad → (f [b, c, i, j]).1 = m ∧ (f [b, c, i, j]).2 = 0)
    rw [ef]
    constructor
    · intro hpi hpj
      obtain ⟨h1, h2⟩ := Hh1 hpi
      obtain ⟨w1, w2⟩ := Hw1 hpj
      have hmem : ∀ k, k ∈ winList xw (xh * (c + b * ch)) (hb.getD i (0, 0)) (wb.getD j (0, 0)) ↔
          ∃ h w, InWin xh size pad stride i h ∧ InWin xw size pad stride j w ∧ w + xw * (h + xh * (c + b * ch)) = k := fun k => by
        rw [mem_winList, h1, h2, w1, w2]
        unfold InWin
        constructor
        · rintro ⟨h, w, a1, a2, a3, a4, rfl⟩
          exact ⟨h, w, by omega, by omega, rfl⟩
        · rintro ⟨h, w, a1, a2, rfl⟩
          exact ⟨h, w, by omega, by omega, by omega, by omega, rfl⟩
      obtain ⟨-, hle, hor⟩ := maxStep_foldl (fun k => x.get (unflat [batch, ch, xh, xw] k)) (winList xw (xh * (c + b * ch)) (hb.getD i (0, 0)) (wb.getD j (0, 0))) (m, 0)
      have hoi := out_le hh hi
      have hoj := out_le hw hj
      have hex : InWin xh size pad stride i (i * stride - pad) ∧ InWin xw size pad stride j (j * stride - pad) := by unfold InWin; omega
      rcases hor with hor | ⟨k, hk, hor⟩
      · exfalso
        have := hle _ ((hmem _).2 ⟨_, _, hex.1, hex.2, rfl⟩)
        rw [hor, (hval _ hex.1.1 _ hex.2.1).1] at this
        exact absurd (hm _ (by rw [hx]; exact (hval _ hex.1.1 _ hex.2.1).2)) (not_lt.2 this)
      · obtain ⟨h, w, ih, iw, rfl⟩ := (hmem k).1 hk
        have hv := hval h ih.1 w iw.1
        rw [hor] at hle ⊢
        refine ⟨[b, c, h, w], ⟨b, c, i, j, h, w, rfl, rfl, ih, iw, fun h' w' ih' iw' => ?_⟩, by rw [hx]; exact hv.2, hv.1, by rw [hx, flat_four]⟩
        have := hle _ ((hmem _).2 ⟨h', w', ih', iw', rfl⟩)
        rw [(hval h' ih'.1 w' iw'.1).1] at this
        exact this.trans_eq hv.1
    · intro hpad
      have : winList xw (xh * (c + b * ch)) (hb.getD i (0, 0)) (wb.getD j (0, 0)) = [] := by
        refine List.eq_nil_iff_forall_not_mem.2 fun k hk => ?_
        obtain ⟨h, w, a1, a2, a3, a4, -⟩ := mem_winList.1 hk
        rcases hpad with hpad | hpad
        · have := Hh2 hpad; omega
        · have := Hw2 hpad; omega
      rw [this]
      exact ⟨rfl, rfl⟩

theorem poolScatter_spec [AddCommMonoid R] (len : Nat) (l : List (Nat × R)) (hl : ∀ pv ∈ l, pv.1 < len) (gx : Nat → R) :
    ∃ g, poolScatter len l gx = some g ∧ ∀ q, g q = gx q + (l.map (fun pv => if pv.1 = q then pv.2 else 0)).sum := by
  induction l generalizing gx with
  | nil => exact ⟨gx, rfl, by simp⟩
  | cons pv l ih =>
    obtain ⟨p, v⟩ := pv
    obtain ⟨g, hg, hs⟩ := ih (fun a ha => hl a (by simp [ha])) (fun q => if q = p then gx q + v else gx q)
    refine ⟨g, ?_, fun q => ?_⟩
    · rw [poolScatter, if_pos (hl (p, v) (by simp))]; exact hg
    · rw [hs q, List.map_cons, List.sum_cons]
      by_cases h : p = q
      · subst h; simp [add_assoc]
      · simp [h, Ne.symm h]

theorem sum_map_range [AddCommMonoid R] (n : Nat) (f : Nat → R) : ((List.range n).map f).sum = ∑ k ∈ range n, f k := by
  induction n with
  | zero => simp
  | succ n ih => rw [List.range_succ, List.map_append, List.sum_append, ih, sum_range_succ]; simp

theorem poolScatter_bad [Add R] (len : Nat) (l : List (Nat × R)) (h : ∃ pv ∈ l, len ≤ pv.1) (gx : Nat → R) : poolScatter len l gx = none := by
  induction l generalizing gx with
  | nil => simp at h
  | cons pv l ih =>
    obtain ⟨p, v⟩ := pv
    rw [poolScatter]
    by_cases hp : p < len
    · rw [if_pos hp]
      obtain ⟨a, ha, hle⟩ := h
      rcases List.mem_cons.1 ha with rfl | ha
      · exact absurd hp (not_lt.2 hle)
      · exact ih ⟨a, ha, hle⟩ _
    · rw [if_neg hp]

theorem size_four (a b c d : Nat) : size [a, b, c, d] = d * c * b * a := by simp only [size]; ring

/-- The gradient as the adjoint of reading at the stored positions. -/
theorem maxPoolGrad_spec [CommSemiring R] (debug : Bool) (gy : Arr R) (ind : Arr Nat) (batch ch yh yw xh xw size pad stride : Nat)
    (hgy : gy.shape = [batch, ch, yh, yw]) (hind : ind.shape = gy.shape) (h1 : poolIn debug yh size pad stride = .ok xh) (h2 : poolIn debug yw size pad stride = .ok xw)
    (pos : List Nat → List Nat) (hpos : ∀ o, InB o gy.shape → InB (pos o) [batch, ch, xh, xw] ∧ ind.get o = flat [batch, ch, xh, xw] (pos o)) :
    ∃ g, maxPoolGrad debug gy ind size pad stride = .ok (some g) ∧ g.shape = [batch, ch, xh, xw] ∧
      ∀ d : List Nat → R, ∑ o ∈ idxs g.shape, g.get o * d o = ∑ i ∈ idxs gy.shape, gy.get i * d (pos i) := by
  have hN : yh * yw * ch * batch = Nd.size gy.shape := by rw [hgy, size_four]; ring
  have hL : batch * ch * xh * xw = Nd.size [batch, ch, xh, xw] := by rw [size_four]; ring
  obtain ⟨gx, hgx, hs⟩ := poolScatter_spec (batch * ch * xh * xw)
    ((List.range (yh * yw * ch * batch)).map (fun n => (ind.get (unflat ind.shape n), gy.get (unflat gy.shape n)))) (by
      intro pv hpv
      obtain ⟨n, hn, rfl⟩ := List.mem_map.1 hpv
      rw [List.mem_range, hN] at hn
      have hb := inB_unflat hn
      obtain ⟨h, h'⟩ := hpos _ hb
      simp only [hind, h', hL]
      exact flat_lt h) (fun _ => (0 : R))
  refine ⟨ofFn [batch, ch, xh, xw] (fun o => gx (flat [batch, ch, xh, xw] o)), ?_, rfl, fun d => ?_⟩
  · unfold maxPoolGrad
    rw [hgy]
    rw [hgy] at hgx
    simp only [h1, h2, bind, Except.bind, hgx, Option.map_some]
  · refine scatter_adjoint (s := [batch, ch, xh, xw]) (t := gy.shape) pos (fun i hi => (hpos i hi).1) _ gy.get d fun o ho => ?_
    show gx (flat [batch, ch, xh, xw] o) = _
    rw [hs, zero_add, List.map_map, sum_map_range, hN, sum_flat, sum_filter]
    refine sum_congr rfl fun i hi => ?_
    have hi := mem_idxs.1 hi
    simp only [Function.comp, hind, unflat_flat hi, (hpos i hi).2]
    refine if_congr ?_ rfl rfl
    constructor
    · intro h
      rw [← unflat_flat (hpos i hi).1, h, unflat_flat ho]
    · intro h; rw [h]

end Verif.Nd
