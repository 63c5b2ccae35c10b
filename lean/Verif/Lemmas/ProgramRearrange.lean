import Verif.Lemmas.GatherGrad
import Verif.Lemmas.ProgramContr
import Verif.Lemmas.ProgramMean
import Verif.Lemmas.Rearrange
import Verif.Lemmas.Slices

/-! `slice`, `squeeze`, `reshape` and `gather` in programs: how the values vary, and what the gradients represent. -/

namespace Verif.Prog
open Verif Verif.Graph Verif.Nd Verif.Hint Verif.Gradient Verif.Spec Verif.Eval

/-- An op that copies elements of one input, the other inputs being fixed: the result varies as the op applied to the velocity. -/
theorem vary_pull {op : POp} {W : Arr ℝ → List (Arr ℝ)} {a v : Arr ℝ} {τ : List Nat → ℝ} {V : ℝ → Arr ℝ}
    (hf : ∀ z : Arr ℝ, z.shape = a.shape → ∃ y, op.run (W z) = .ok y ∧ y.shape = v.shape)
    (hg : ∀ i, InB i v.shape → ∃ o, InB o a.shape ∧ ∀ z y : Arr ℝ, z.shape = a.shape → op.run (W z) = .ok y → y.get i = z.get o)
    (hr : op.run (W a) = .ok v) (hx : Moves V a τ) :
    ∃ Z, (∀ u, op.run (W (V u)) = .ok (Z u)) ∧ Moves Z v (linAt (op.run (W (ofFn a.shape τ)))) := by
  choose! φ h1 h2 using hg
  obtain ⟨d, hd, hds⟩ := hf (ofFn a.shape τ) rfl
  refine moves_of (op := op) (W := fun u => W (V u)) (fun u i => (V u).get (φ i)) (by rw [hx.start]; exact hr) (fun u => ?_) (fun i hi => ?_)
  · obtain ⟨y, hy, hys⟩ := hf (V u) (hx.shape u)
    exact ⟨y, hy, hys, fun i hi => h2 i hi _ _ (hx.shape u) hy⟩
  · rw [hd]
    show HasDerivAt _ (d.get i) 0
    rw [h2 i hi (ofFn a.shape τ) d rfl hd]
    exact hx.deriv _ (h1 i hi)

theorem vary_slice {p : Nat → Arr ℝ} {starts stops : List Int} {x : Nat} {v : Arr ℝ} {los his : List Nat} (hok : AllBounds (p x).shape starts stops los his)
    (hr : POp.run (.slice starts stops) [p x] = .ok v) {Y : Nat → ℝ → Arr ℝ} {t : Nat → List Nat → ℝ} (hx : Moves (Y x) (p x) (t x)) :
    ∃ Z, (∀ u, POp.run (.slice starts stops) [Y x u] = .ok (Z u)) ∧ Moves Z v (jvp p t (.slice starts stops) [x]) := by
  obtain ⟨h1, h2⟩ := sliceRegion_ok hok
  have hval : ∀ z : Arr ℝ, z.shape = (p x).shape → ∃ y, POp.run (.slice starts stops) [z] = .ok y ∧ y.shape = List.zipWith (· - ·) his los ∧
      ∀ i, y.get i = z.get (List.zipWith (· + ·) los i) := fun z hz => by
    obtain ⟨y, e1, e2, e3⟩ := sliceArr_region (x := z) (by rw [hz]; exact h1)
    exact ⟨y, by simp only [POp.run, Nd.slice, if_pos h2, e1], e2, e3⟩
  obtain ⟨w, hw, hws, _⟩ := hval (p x) rfl
  have e := hw.symm.trans hr
  cases e
  refine vary_pull (op := .slice starts stops) (W := fun z => [z]) (fun z hz => ?_) (fun i hi => ⟨List.zipWith (· + ·) los i, ?_, fun z y hz hy => ?_⟩) hr hx
  · obtain ⟨y, e1, e2, _⟩ := hval z hz
    exact ⟨y, e1, e2.trans hws.symm⟩
  · rw [hws] at hi
    exact (sliceRegion_in h1).2.2 i hi
  · obtain ⟨y', e1, _, e3⟩ := hval z hz
    have e := e1.symm.trans hy
    cases e
    exact e3 i

theorem vary_squeeze {p : Nat → Arr ℝ} {x a : Nat} {v : Arr ℝ} (hok : SqueezeOk (p x) (p a))
    (hr : POp.run .squeeze [p x, p a] = .ok v) {Y : Nat → ℝ → Arr ℝ} {t : Nat → List Nat → ℝ} (hx : Moves (Y x) (p x) (t x)) (hfix : ∀ u, Y a u = p a) :
    ∃ Z, (∀ u, POp.run .squeeze [Y x u, Y a u] = .ok (Z u)) ∧ Moves Z v (jvp p t .squeeze [x, a]) := by
  obtain ⟨ks, ha, hnd, h1⟩ := hok
  have hfx : setAt ks 1 0 (p x).shape = (p x).shape := setAt_fix_iff fun k hk hl => by
    have := h1 k hk; rw [List.getElem?_eq_getElem hl] at this; exact Option.some.inj this
  have hval : ∀ z : Arr ℝ, z.shape = (p x).shape → ∃ y, POp.run .squeeze [z, p a] = .ok y ∧ y.shape = dropAt ks 0 (p x).shape ∧
      ∀ o, InB o (p x).shape → y.get (dropAt ks 0 o) = z.get o := fun z hz => by
    obtain ⟨y, e1, e2, e3⟩ := squeeze_spec (x := z) hnd (by rw [hz]; exact h1)
    rw [hz] at e2 e3
    exact ⟨y, by simp only [POp.run, ha, e1], e2, e3⟩
  obtain ⟨w, hw, hws, _⟩ := hval (p x) rfl
  have e := hw.symm.trans hr
  cases e
  simp only [hfix]
  refine vary_pull (op := .squeeze) (W := fun z => [z, p a]) (fun z hz => ?_) (fun i hi => ?_) hr hx
  · obtain ⟨y, e1, e2, _⟩ := hval z hz
    exact ⟨y, e1, e2.trans hws.symm⟩
  · rw [hws] at hi
    obtain ⟨o, ho, rfl⟩ := dropAt_surj hfx hi
    refine ⟨o, ho, fun z y hz hy => ?_⟩
    obtain ⟨y', e1, _, e3⟩ := hval z hz
    have e := e1.symm.trans hy
    cases e
    exact e3 o ho

theorem vary_reshape {p : Nat → Arr ℝ} {x a : Nat} {v : Arr ℝ} {s : List Nat} (hok : ReshapesTo (p x).shape (readDims (p a)) s)
    (hr : POp.run .reshape [p x, p a] = .ok v) {Y : Nat → ℝ → Arr ℝ} {t : Nat → List Nat → ℝ} (hx : Moves (Y x) (p x) (t x)) (hfix : ∀ u, Y a u = p a) :
    ∃ Z, (∀ u, POp.run .reshape [Y x u, Y a u] = .ok (Z u)) ∧ Moves Z v (jvp p t .reshape [x, a]) := by
  have hval : ∀ z : Arr ℝ, z.shape = (p x).shape → ∃ y, POp.run .reshape [z, p a] = .ok y ∧ y.shape = s ∧
      ∀ i, InB i s → y.get i = z.get (unflat (p x).shape (flat s i)) := fun z hz => by
    obtain ⟨y, e1, e2, e3⟩ := reshape_ok (x := z) (shape := readDims (p a)) (t := s) (by rw [hz]; exact hok)
    rw [hz] at e3
    exact ⟨y, e1, e2, e3⟩
  obtain ⟨w, hw, hws, _⟩ := hval (p x) rfl
  have e := hw.symm.trans hr
  cases e
  simp only [hfix]
  refine vary_pull (op := .reshape) (W := fun z => [z, p a]) (fun z hz => ?_) (fun i hi => ?_) hr hx
  · obtain ⟨y, e1, e2, _⟩ := hval z hz
    exact ⟨y, e1, e2.trans hws.symm⟩
  · rw [hws] at hi
    refine ⟨unflat (p x).shape (flat s i), ?_, fun z y hz hy => ?_⟩
    · refine inB_unflat ?_
      rw [← prod_eq_iff_size.1 hok.1]
      exact flat_lt hi
    · obtain ⟨y', e1, _, e3⟩ := hval z hz
      have e := e1.symm.trans hy
      cases e
      exact e3 i hi

theorem trunc_nat {r : ℝ} {l : Nat} (h : r = l) : trunc r = l := by
  subst h
  simp [trunc]

/-- Selected positions. -/
noncomputable def selAt (a : Arr ℝ) (i : List Nat) : Nat := ⌊a.get i⌋₊

theorem gather_run {axis : Int} {k n m : Nat} {norm : Bool} {a z : Arr ℝ} (hk : axis = k) (hn : z.shape[k]? = some n) (hm : 0 < m)
    (hs : a.shape = [m] ∨ a.shape = [m, 1]) (hl : ∀ i, InB i a.shape → ∃ l : Nat, a.get i = l ∧ l < n) :
    POp.run (.gather norm axis) [a, z] = Nd.gather true z (truncs a) axis ∧
      (∀ i, InB i a.shape → AxisIs n ((truncs a).get i) (selAt a i) ∧ (truncs a).get i ≠ -1) ∧ 0 < a.shape.prod := by
  have hsel : ∀ i, InB i a.shape → (truncs a).get i = selAt a i ∧ selAt a i < n ∧ (ints a).get i = selAt a i := by
    intro i hi
    obtain ⟨l, e, h⟩ := hl i hi
    have : selAt a i = l := by simp [selAt, e]
    rw [this]
    exact ⟨trunc_nat e, h, by simp [ints, e]⟩
  have hsel' : ∀ i, InB i a.shape → AxisIs n ((truncs a).get i) (selAt a i) := fun i hi => ⟨(hsel i hi).2.1, .inl (hsel i hi).1⟩
  refine ⟨?_, fun i hi => ⟨hsel' i hi, ?_⟩, ?_⟩
  · cases norm with
    | true =>
      show Nd.gather true z (ints a) axis = Nd.gather true z (truncs a) axis
      have : toList (ints a) = toList (truncs a) := by
        refine List.map_congr_left fun q hq => ?_
        have hq := inB_unflat (s := a.shape) (List.mem_range.1 hq)
        exact (hsel _ hq).2.2.trans (hsel _ hq).1.symm
      simp only [Nd.gather, flatIndices, this]
      rfl
    | false =>
      show Nd.gather false z (truncs a) axis = Nd.gather true z (truncs a) axis
      have hx : normAxis z.shape.length axis = some k := by
        rw [hk]; exact normAxis_ok ⟨(List.getElem?_eq_some_iff.1 hn).1, .inl rfl⟩
      have hF := forall₂_of_toList (a := truncs a) (selAt a) hsel'
      have h1 : flatIndices true n (truncs a) = .ok ((List.range (Nd.size a.shape)).map (fun t => selAt a (unflat a.shape t))) := by
        rw [flatIndices, if_pos rfl]; exact normAxes_spec hF
      have h2 : flatIndices false n (truncs a) = .ok ((List.range (Nd.size a.shape)).map (fun t => selAt a (unflat a.shape t))) := by
        rw [flatIndices, if_neg (by simp), memList_col (a := truncs a) (m := m) hs]
        show ((List.range (Nd.size a.shape)).map fun q => (truncs a).get (unflat a.shape q)).mapM _ = _
        have : ∀ l : List Nat, (∀ q ∈ l, q < Nd.size a.shape) → (l.map fun q => (truncs a).get (unflat a.shape q)).mapM
            (fun i : Int => (if i < 0 then .error .panic else .ok i.toNat : Res Nat)) = .ok (l.map (fun t => selAt a (unflat a.shape t))) := by
          intro l
          induction l with
          | nil => intro _; rfl
          | cons q l ih =>
            intro h
            rw [List.map_cons, List.mapM_cons, ih fun q hq => h q (by simp [hq]), (hsel _ (inB_unflat (h q (by simp)))).1, if_neg (by omega)]
            rfl
        exact this _ fun q hq => List.mem_range.1 hq
      simp only [Nd.gather, hx, hn, h1, h2]
  · rw [(hsel i hi).1]; omega
  · rcases hs with h | h <;> simp [h, hm]

theorem vary_gather {p : Nat → Arr ℝ} {norm : Bool} {axis : Int} {x a : Nat} {v : Arr ℝ} (hok : GatherOk axis (p a) (p x))
    (hr : POp.run (.gather norm axis) [p a, p x] = .ok v) {Y : Nat → ℝ → Arr ℝ} {t : Nat → List Nat → ℝ} (hx : Moves (Y x) (p x) (t x)) (hfix : ∀ u, Y a u = p a) :
    ∃ Z, (∀ u, POp.run (.gather norm axis) [Y a u, Y x u] = .ok (Z u)) ∧ Moves Z v (jvp p t (.gather norm axis) [a, x]) := by
  obtain ⟨k, n, m, hk, hn, hm, hs, hl⟩ := hok
  obtain ⟨hsplit, hkl⟩ := split_shape hn
  have hval : ∀ z : Arr ℝ, z.shape = (p x).shape → ∃ y, POp.run (.gather norm axis) [p a, z] = .ok y ∧
      y.shape = (p x).shape.take k ++ (p a).shape ++ (p x).shape.drop (k + 1) ∧
      ∀ b i c, InB b ((p x).shape.take k) → InB i (p a).shape → InB c ((p x).shape.drop (k + 1)) → y.get (b ++ i ++ c) = z.get (b ++ selAt (p a) i :: c) := fun z hz => by
    obtain ⟨h1, h2, h3⟩ := gather_run (norm := norm) (z := z) hk (by rw [hz]; exact hn) hm hs hl
    obtain ⟨y, e1, e2, e3⟩ := gather_norm_spec z (truncs (p a)) axis k n (selAt (p a)) (by rw [hz, hk]; exact ⟨hkl, .inl rfl⟩) (by rw [hz]; exact hn) h3
      (fun i hi => (h2 i hi).1)
    rw [hz] at e2 e3
    exact ⟨y, h1.trans e1, e2, e3⟩
  obtain ⟨w, hw, hws, _⟩ := hval (p x) rfl
  have e := hw.symm.trans hr
  cases e
  simp only [hfix]
  obtain ⟨_, h2, _⟩ := gather_run (norm := norm) (z := p x) hk hn hm hs hl
  refine vary_pull (op := .gather norm axis) (W := fun z => [p a, z]) (fun z hz => ?_) (fun j hj => ?_) hr hx
  · obtain ⟨y, e1, e2, _⟩ := hval z hz
    exact ⟨y, e1, e2.trans hws.symm⟩
  · have hAl : ((p x).shape.take k).length = k := by simp; omega
    obtain ⟨b, i, c, hb, hi, hc, rfl⟩ : ∃ b i c, InB b ((p x).shape.take k) ∧ InB i (p a).shape ∧ InB c ((p x).shape.drop (k + 1)) ∧ j = b ++ i ++ c := by
      rw [hws] at hj
      refine ⟨j.take k, (j.drop k).take (p a).shape.length, j.drop (k + (p a).shape.length), ?_, ?_, ?_, ?_⟩
      · have := List.forall₂_take k hj
        rwa [List.append_assoc, List.take_left' hAl] at this
      · have := List.forall₂_take (p a).shape.length (List.forall₂_drop k hj)
        rwa [List.append_assoc, List.drop_left' hAl, List.take_left' rfl] at this
      · have := List.forall₂_drop (k + (p a).shape.length) hj
        rwa [List.drop_left' (by rw [List.length_append, hAl])] at this
      · rw [List.append_assoc, ← List.drop_drop, List.take_append_drop, List.take_append_drop]
    refine ⟨b ++ selAt (p a) i :: c, ?_, fun z y hz hy => ?_⟩
    · rw [hsplit]
      exact inB_append hb (.cons (h2 i hi).1.1 hc)
    · obtain ⟨y', e1, _, e3⟩ := hval z hz
      have e := e1.symm.trans hy
      cases e
      exact e3 b i c hb hi hc

/-- The axes read from the array are as many as its elements. -/
theorem readShape_length {a : Arr ℝ} {perm : List Nat} (h : readShape a = .ok perm) : perm.length = (toList a).length := by
  unfold readShape at h
  split at h
  · cases h
  · cases h; simp

theorem transposeBy_run {x a : Arr ℝ} {perm : List Nat} {inv : Bool} (h : readShape a = .ok perm) (hl : perm.length = x.shape.length) :
    transposeBy inv x a = Nd.transpose x perm inv := by
  rw [transposeBy, if_neg (by rw [← readShape_length h]; omega), h]
  rfl

theorem vary_transpose {p : Nat → Arr ℝ} {x a : Nat} {v : Arr ℝ} (hok : TransposeOk (p x) (p a))
    (hr : POp.run (.transpose false) [p x, p a] = .ok v) {Y : Nat → ℝ → Arr ℝ} {t : Nat → List Nat → ℝ} (hx : Moves (Y x) (p x) (t x)) (hfix : ∀ u, Y a u = p a) :
    ∃ Z, (∀ u, POp.run (.transpose false) [Y x u, Y a u] = .ok (Z u)) ∧ Moves Z v (jvp p t (.transpose false) [x, a]) := by
  obtain ⟨-, perm, ha, hp⟩ := hok
  have hl : perm.length = (p x).shape.length := by simpa using hp.length_eq
  have hval : ∀ z : Arr ℝ, z.shape = (p x).shape → ∃ y, POp.run (.transpose false) [z, p a] = .ok y ∧ y.shape = perm.map (fun k => (p x).shape.getD k 0) ∧
      (∀ o, InB o (p x).shape → y.get (perm.map (fun k => o.getD k 0)) = z.get o) ∧
      ∀ i, InB i y.shape ↔ ∃ o, InB o (p x).shape ∧ perm.map (fun k => o.getD k 0) = i := fun z hz => by
    obtain ⟨y, e1, e2, e3, e4⟩ := transpose_spec z perm (by rw [hz]; exact hp)
    rw [hz] at e2 e3 e4
    exact ⟨y, (transposeBy_run ha (by rw [hz]; exact hl)).trans e1, e2, e3, e4⟩
  obtain ⟨w, hw, hws, _, hin⟩ := hval (p x) rfl
  have e := hw.symm.trans hr
  cases e
  simp only [hfix]
  refine vary_pull (op := .transpose false) (W := fun z => [z, p a]) (fun z hz => ?_) (fun i hi => ?_) hr hx
  · obtain ⟨y, e1, e2, _⟩ := hval z hz
    exact ⟨y, e1, e2.trans hws.symm⟩
  · obtain ⟨o, ho, rfl⟩ := (hin i).1 hi
    refine ⟨o, ho, fun z y hz hy => ?_⟩
    obtain ⟨y', e1, _, e3, _⟩ := hval z hz
    have e := e1.symm.trans hy
    cases e
    exact e3 o ho

/-- The transpose of a contiguous matrix is contiguous. -/
theorem cont_permuted {x y : Arr ℝ} {dims : List Nat} (h : permutedAxes x dims = .ok y) (hc : Cont x) (hr : x.shape.length ≤ 2) : Cont y := by
  unfold permutedAxes at h
  split at h
  case isFalse => cases h
  rename_i hd
  cases h
  obtain ⟨hd1, hd2⟩ := hd
  obtain ⟨sh, st, get⟩ := x
  obtain ⟨hc1, hc2⟩ := hc
  dsimp only at *
  match sh, st, dims, hc2, hd1 with
  | [], [], [], _, _ => exact ⟨.inl rfl, rfl⟩
  | [n], [s], [d], _, _ =>
    have : d = 0 := by have := hd2 0 (by simp); simpa [eq_comm] using this
    subst this
    exact ⟨hc1, rfl⟩
  | [n, m], [s, t], [c, d], _, _ =>
    have h0 := hd2 0 (by simp)
    have h1 := hd2 1 (by simp)
    simp only [List.mem_cons, List.not_mem_nil, or_false] at h0 h1
    have : (c = 0 ∧ d = 1) ∨ (c = 1 ∧ d = 0) := by omega
    rcases this with ⟨rfl, rfl⟩ | ⟨rfl, rfl⟩
    · exact ⟨hc1, rfl⟩
    · exact ⟨hc1.elim (fun h => .inr ⟨by simp, h⟩) (fun h => .inl h.2), rfl⟩
  | _ :: _ :: _ :: _, _, _, _, _ => simp at hr

/-! ### Rearranging zeros -/

theorem linAt_zero {r : Res (Arr ℝ)} (h : ∀ y, r = .ok y → y.get = 0) : linAt r = 0 := by
  cases r with
  | error _ => rfl
  | ok y => exact h y rfl

theorem intoShape_zero {a y : Arr ℝ} {s : List Nat} (ha : a.get = 0) (h : intoShape a s = some y) : y.get = 0 := by
  unfold intoShape at h
  rw [ha] at h
  split at h
  · split at h
    · cases h; rfl
    · split at h
      · cases h; rfl
      · cases h
  · cases h

theorem slice_zero {x y : Arr ℝ} {starts stops : List Int} (hx : x.get = 0) (h : Nd.slice x starts stops = .ok y) : y.get = 0 := by
  unfold Nd.slice sliceArr at h
  split at h
  · simp only [bind_ok] at h
    obtain ⟨_, _, h⟩ := h
    cases h
    rw [hx]; rfl
  · cases h

theorem squeezeLoop_zero {k : Nat} {is : List Int} {x y : Arr ℝ} (hx : x.get = 0) (h : squeezeLoop k is x = .ok y) : y.get = 0 := by
  induction is generalizing k x with
  | nil => cases h; exact hx
  | cons i is ih =>
    rw [squeezeLoop] at h
    split at h
    · cases h
    · split at h
      · cases h
      · split at h
        · exact ih (by simp only [indexAxis0, hx]; rfl) h
        · cases h

theorem orOpError_ok {α : Type} {o : Option α} {r : α} (h : orOpError o = .ok r) : o = some r := by
  cases o <;> simp_all [orOpError]

theorem reshape_zero {x y : Arr ℝ} {s : List Int} (hx : x.get = 0) (h : Nd.reshape x s = .ok y) : y.get = 0 := by
  simp only [Nd.reshape, bind_ok] at h
  obtain ⟨_, _, h⟩ := h
  have hd : (deepCopy x).get = 0 := hx
  split at h
  · split at h
    · rename_i hi
      cases h; exact intoShape_zero hx hi
    · exact intoShape_zero hd (orOpError_ok h)
  · exact intoShape_zero hd (orOpError_ok h)

theorem transpose_zero {x a y : Arr ℝ} {inv : Bool} (hx : x.get = 0) (h : transposeBy inv x a = .ok y) : y.get = 0 := by
  unfold transposeBy at h
  split at h
  · cases h
  · simp only [bind_ok, Nd.transpose] at h
    obtain ⟨_, _, h⟩ := h
    split at h
    · cases h
    · simp only [bind_ok, permutedAxes] at h
      obtain ⟨_, _, h⟩ := h
      split at h
      · cases h; rw [hx]; rfl
      · cases h

theorem gather_zero {norm : Bool} {axis : Int} {a : Arr Int} {x y : Arr ℝ} (hx : x.get = 0) (h : Nd.gather norm x a axis = .ok y) : y.get = 0 := by
  unfold Nd.gather at h
  split at h
  · cases h
  · split at h
    · cases h
    · simp only [bind_ok] at h
      obtain ⟨_, _, w, hw, h⟩ := h
      refine intoShape_zero ?_ (unwrap_ok.1 h)
      unfold select at hw
      split at hw
      · cases hw
      · split at hw
        · cases hw
          funext o
          simp [ofFn, hx]
        · cases hw

section
variable {F : List (Feed (Arr ℝ))} {N : List (Arr ℝ)} {g0 : Graph POp} {Z : Nat → Prop} {p : Nat → Arr ℝ}

theorem grad_slice {starts stops : List Int} {x : Nat} {yv gv : Arr ℝ} {g g' : Graph POp} {y gy : Nat} {gxs : List (Option Nat)} {los his : List Nat}
    (hok : AllBounds (p x).shape starts stops los his) (hctx : GradCtx F N Z p (.slice starts stops) [x] g y gy yv gv)
    (h : gradCmds [x] y gy (sliceCmds starts stops) [some (.t 0)] g = .ok (g', gxs)) :
    Grows g g' ∧ Contr (setting F N) g0 Z p g' ([x].map inp) gxs (fun t => inner yv.shape gv.get (jvp p t (.slice starts stops) [x])) := by
  obtain ⟨h1, h2⟩ := sliceRegion_ok hok
  have hr : Nd.slice (p x) starts stops = .ok yv := hctx.run
  obtain ⟨w, e1, hws, _⟩ := sliceArr_region h1
  rw [Nd.slice, if_pos h2, e1] at hr
  cases hr
  have hgs := hctx.shape.trans hws
  obtain ⟨r, hg, hrs, hadj⟩ := slice_adjoint h1 hgs
  have hcr : Cont r := by
    simp only [sliceGrad, bind_ok] at hg
    obtain ⟨_, _, _, _, hg⟩ := hg
    cases hg
    exact cont_ofFn _ _
  obtain ⟨G, ts, rfl, E⟩ := cmds_evals hctx h (.some (v := r) ⟨[p x, gv], .cons rfl (.cons rfl .nil), hg⟩ .nil)
  refine ⟨G, (contr_one (E 0 r rfl) hrs hcr).congr fun t _ => ?_⟩
  obtain ⟨dy, e2, e3, e4⟩ := hadj (ofFn (p x).shape (t x)) rfl
  have : jvp p t (.slice starts stops) [x] = dy.get := by
    simp only [jvp, POp.run, Nd.slice, if_pos h2, e2, linAt]
  rw [this, hws]
  exact e4

theorem grad_squeeze {x a : Nat} {yv gv : Arr ℝ} {g g' : Graph POp} {y gy : Nat} {gxs : List (Option Nat)}
    (hok : SqueezeOk (p x) (p a)) (hctx : GradCtx F N Z p .squeeze [x, a] g y gy yv gv)
    (h : gradCmds [x, a] y gy squeezeCmds [some (.t 0), none] g = .ok (g', gxs)) :
    Grows g g' ∧ Contr (setting F N) g0 Z p g' ([x, a].map inp) gxs (fun t => inner yv.shape gv.get (jvp p t .squeeze [x, a])) := by
  obtain ⟨ks, ha, hnd, h1⟩ := hok
  have hr : Nd.squeeze (p x) (readInts (p a)) = .ok yv := hctx.run
  obtain ⟨w, e1, hws, _⟩ := squeeze_spec (x := p x) hnd h1
  rw [ha, e1] at hr
  cases hr
  obtain ⟨r, hg, hrs, hadj⟩ := squeeze_adjoint (p x) gv ks hnd h1 (hctx.shape.trans hws) hctx.cont.1
  have hcr : Cont r := by
    simp only [expandDimsOp, bind_ok] at hg
    obtain ⟨_, _, hg⟩ := hg
    exact cont_intoShape (unwrap_ok.1 hg)
  obtain ⟨G, ts, rfl, E⟩ := cmds_evals hctx h (.some (v := r) ⟨[gv, p a], .cons rfl (.cons rfl .nil), by simp only [POp.run, ha, hg]⟩ .nil)
  refine ⟨G, (contr_some (E 0 r rfl) hrs hcr (contr_skip contr_nil)).congr fun t _ => ?_⟩
  obtain ⟨dy, e2, e3, e4⟩ := hadj (ofFn (p x).shape (t x)) rfl
  have : jvp p t .squeeze [x, a] = dy.get := by
    simp only [jvp, POp.run, ha, e2, linAt]
  rw [this, add_zero, ← hctx.shape]
  exact e4

theorem grad_transpose {x a : Nat} {yv gv : Arr ℝ} {g g' : Graph POp} {y gy : Nat} {gxs : List (Option Nat)}
    (hok : TransposeOk (p x) (p a)) (hctx : GradCtx F N Z p (.transpose false) [x, a] g y gy yv gv)
    (h : gradCmds [x, a] y gy (transposeCmds false) [some (.t 0), none] g = .ok (g', gxs)) :
    Grows g g' ∧ Contr (setting F N) g0 Z p g' ([x, a].map inp) gxs (fun t => inner yv.shape gv.get (jvp p t (.transpose false) [x, a])) := by
  obtain ⟨hrk, perm, ha, hp⟩ := hok
  have hl : perm.length = (p x).shape.length := by simpa using hp.length_eq
  have hr : transposeBy false (p x) (p a) = .ok yv := hctx.run
  obtain ⟨w, e1, hws, _⟩ := transpose_spec (p x) perm hp
  rw [transposeBy_run ha hl, e1] at hr
  cases hr
  have hgs := hctx.shape.trans hws
  have hgl : perm.length = gv.shape.length := by rw [hgs, List.length_map]
  obtain ⟨r, hg, hrs, hadj⟩ := transpose_adjoint (p x) gv perm hp hgs
  have hcr : Cont r := by
    simp only [transposeGrad, Nd.transpose] at hg
    split at hg
    · cases hg
    · simp only [bind_ok] at hg
      obtain ⟨_, _, hg⟩ := hg
      exact cont_permuted hg hctx.cont (by omega)
  obtain ⟨G, ts, rfl, E⟩ := cmds_evals hctx h (.some (v := r) ⟨[gv, p a], .cons rfl (.cons rfl .nil), (transposeBy_run ha hgl).trans hg⟩ .nil)
  refine ⟨G, (contr_some (E 0 r rfl) hrs hcr (contr_skip contr_nil)).congr fun t _ => ?_⟩
  obtain ⟨dy, e2, e3⟩ := hadj (ofFn (p x).shape (t x)) rfl
  have : jvp p t (.transpose false) [x, a] = dy.get := by
    simp only [jvp, POp.run, transposeBy_run (inv := false) (x := ofFn (p x).shape (t x)) ha hl, e2, linAt]
  rw [this, add_zero, ← hctx.shape]
  exact e3

theorem readDims_enc (s : List Nat) : readDims (encShape s) = s.map (fun n : Nat => (n : Int)) := by
  have h : toList (encShape s) = s.map (fun n : Nat => (n : ℝ)) := toList_vec _
  rw [readDims, h, List.map_map]
  refine List.map_congr_left fun n _ => ?_
  have h0 : (0 : ℝ) ≤ n := Nat.cast_nonneg n
  simp only [Function.comp, readDim]
  rw [if_neg (by linarith), if_neg (by linarith), Nat.floor_natCast]

theorem grad_reshape {x a : Nat} {yv gv : Arr ℝ} {g g' : Graph POp} {y gy : Nat} {gxs : List (Option Nat)} {s : List Nat}
    (hok : ReshapesTo (p x).shape (readDims (p a)) s) (hctx : GradCtx F N Z p .reshape [x, a] g y gy yv gv)
    (h : gradCmds [x, a] y gy reshapeCmds [some (.t 1), none] g = .ok (g', gxs)) :
    Grows g g' ∧ Contr (setting F N) g0 Z p g' ([x, a].map inp) gxs (fun t => inner yv.shape gv.get (jvp p t .reshape [x, a])) := by
  have hr : Nd.reshape (p x) (readDims (p a)) = .ok yv := hctx.run
  obtain ⟨w, e1, hws, _⟩ := reshape_ok (x := p x) hok
  rw [e1] at hr
  cases hr
  have hgs := hctx.shape.trans hws
  obtain ⟨r, hg, hrs, hadj⟩ := reshape_adjoint (p x) gv (readDims (p a)) s hok hgs
  have hcr : Cont r := by
    simp only [reshapeGrad, Nd.reshape, bind_ok] at hg
    obtain ⟨_, _, hg⟩ := hg
    split at hg
    · split at hg
      · rename_i hi
        cases hg; exact cont_intoShape hi
      · exact cont_intoShape (orOpError_ok hg)
    · exact cont_intoShape (orOpError_ok hg)
  obtain ⟨G, ts, rfl, E⟩ := cmds_evals hctx h (.some (v := encShape (p x).shape) ⟨0, p x, rfl, rfl, rfl⟩ <|
    .some (v := r) ⟨[gv, encShape (p x).shape], .cons rfl (.cons rfl .nil), by simp only [POp.run, readDims_enc]; exact hg⟩ .nil)
  refine ⟨G, (contr_some (E 1 r rfl) hrs hcr (contr_skip contr_nil)).congr fun t _ => ?_⟩
  obtain ⟨dy, e2, e3⟩ := hadj (ofFn (p x).shape (t x)) rfl
  have : jvp p t .reshape [x, a] = dy.get := by
    simp only [jvp, POp.run, e2, linAt]
  rw [this, add_zero, hws]
  exact e3

theorem grad_gather {norm : Bool} {axis : Int} {x a : Nat} {yv gv : Arr ℝ} {g g' : Graph POp} {y gy : Nat} {gxs : List (Option Nat)}
    (hok : GatherOk axis (p a) (p x)) (hctx : GradCtx F N Z p (.gather norm axis) [a, x] g y gy yv gv)
    (h : gradCmds [a, x] y gy (gatherCmds axis) [none, some (.t 0)] g = .ok (g', gxs)) :
    Grows g g' ∧ Contr (setting F N) g0 Z p g' ([a, x].map inp) gxs (fun t => inner yv.shape gv.get (jvp p t (.gather norm axis) [a, x])) := by
  obtain ⟨k, n, m, hk, hn, hm, hs, hl⟩ := hok
  obtain ⟨h1, h2, h3⟩ := gather_run (norm := norm) hk hn hm hs hl
  have hr : POp.run (.gather norm axis) [p a, p x] = .ok yv := hctx.run
  obtain ⟨w, e1, hws, _⟩ := gather_norm_spec (p x) (truncs (p a)) axis k n (selAt (p a)) (by rw [hk]; exact ⟨(split_shape hn).2, .inl rfl⟩) hn h3
    (fun i hi => (h2 i hi).1)
  rw [h1, e1] at hr
  cases hr
  have hgs := hctx.shape.trans hws
  obtain ⟨r, hg, hrs, hadj⟩ := gatherGrad_adjoint (p x) gv (truncs (p a)) k n (selAt (p a)) hn h3 h2 hgs
    (.inr ⟨by rcases hs with h | h; · exact .inl (by show (p a).shape.length = 1; rw [h]; rfl)
              · exact .inr ⟨m, h⟩, hctx.cont.1⟩)
  rw [← hk] at hg
  have hcr : Cont r := by
    unfold Nd.gatherGrad at hg
    split at hg
    · cases hg
    · split at hg
      · cases hg
      · simp only [bind_ok] at hg
        obtain ⟨_, _, _, _, hg⟩ := hg
        cases hg
        exact cont_ofFn _ _
  obtain ⟨G, ts, rfl, E⟩ := cmds_evals hctx h (.some (v := r) ⟨[p a, p x, gv], .cons rfl (.cons rfl (.cons rfl .nil)), hg⟩ .nil)
  refine ⟨G, (contr_skip (contr_one (E 0 r rfl) hrs hcr)).congr fun t _ => ?_⟩
  obtain ⟨dy, e2, e3⟩ := hadj (ofFn (p x).shape (t x)) rfl
  rw [← hk] at e2
  have : jvp p t (.gather norm axis) [a, x] = dy.get := by
    simp only [jvp]
    rw [(gather_run (norm := norm) (z := ofFn (p x).shape (t x)) hk hn hm hs hl).1, e2]
    rfl
  rw [this, ← hctx.shape]
  exact e3

end

end Verif.Prog
