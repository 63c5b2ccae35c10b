import Mathlib.Analysis.SpecialFunctions.ExpDeriv
import Mathlib.Analysis.SpecialFunctions.Log.Deriv
import Mathlib.Analysis.Calculus.Deriv.Inv
import Verif.Lemmas.Compare
import Verif.Lemmas.ReduceGrad
import Verif.Model.Softmax
import Verif.Spec.Vjp

/-!
# Lemmas: sums along an axis, softmax, logsumexp
-/

namespace Verif.Nd
open Finset

theorem setAt_single {α : Type} (k : Nat) (v : α) (l : List α) : setAt [k] v 0 l = l.set k v := by
  rw [← setAt_set (A := []) (i := 0) (Nat.zero_le k) v l, setAt_of_lt (by simp)]; rfl

theorem dropAt_single {α : Type} (k : Nat) (l : List α) : dropAt [k] 0 l = l.eraseIdx k := by
  rw [← dropAt_eraseIdx (A := []) (i := 0) (Nat.zero_le k) (by simp) l, dropAt_of_lt (by simp)]; rfl

theorem axisOf_spec {n : Nat} {axis : Int} {k : Nat} (h : AxisIs n axis k) : axisOf n axis = .ok k := by
  obtain ⟨hk, h | h⟩ := h
  · have hn : ¬ axis < 0 := by omega
    simp only [axisOf]
    rw [if_neg hn, if_pos ⟨by omega, by omega⟩, h]
    congr 1
  · have hn : axis < 0 := by omega
    simp only [axisOf]
    rw [if_pos hn, if_pos ⟨by omega, by omega⟩, h]
    congr 1
    omega

theorem axisOf_none {n : Nat} {axis : Int} (h : ∀ k, ¬ AxisIs n axis k) : axisOf n axis = .error .panic := by
  simp only [axisOf]
  split
  · rename_i hk
    rw [if_neg]
    intro hc
    exact h (↑n + axis).toNat ⟨by omega, .inr (by omega)⟩
  · rename_i hk
    rw [if_neg]
    intro hc
    exact h axis.toNat ⟨by omega, .inl (by omega)⟩

theorem insert_erase_set {α : Type} {k : Nat} {l : List α} (h : k < l.length) (v : α) : (l.eraseIdx k).insertIdx k v = l.set k v := by
  induction l generalizing k with
  | nil => simp at h
  | cons a l ih =>
    cases k with
    | zero => simp
    | succ k => simp at h; simpa using ih h

theorem inB_set {s o : List Nat} (h : InB o s) {k j : Nat} (hk : k < s.length) (hj : j < s[k]) : InB (o.set k j) s := by
  rw [inB_iff] at h ⊢
  refine ⟨by simpa using h.1, fun i hi hi' => ?_⟩
  rw [List.getElem_set]
  split
  · rename_i e; subst e; exact hj
  · exact h.2 i (by simpa using hi) hi'

theorem inB_set_one {s o : List Nat} (h : InB o s) (k : Nat) : InB (o.set k 0) (s.set k 1) := by
  have := inB_setAt [k] 0 h
  rwa [setAt_single, setAt_single] at this

theorem bIdx_set {s o : List Nat} (k : Nat) (h : InB o s) : bIdx (s.set k 1) o = o.set k 0 := by
  have := bIdx_setAt [k] h
  rwa [setAt_single, setAt_single] at this

theorem broadcastsTo_set (s : List Nat) (k : Nat) : BroadcastsTo (s.set k 1) s := by
  have := broadcastsTo_setAt [k] s
  rwa [setAt_single] at this

theorem size_set_erase (s : List Nat) (k : Nat) : size (s.set k 1) = size (s.eraseIdx k) := by
  have := (sq_setAt_dropAt [k] 0 s s rfl).size
  rwa [setAt_single, dropAt_single] at this

/-- A folded axis put back as an axis of length one. -/
theorem keepdim_spec {R : Type} {r : Arr R} {s : List Nat} {k : Nat} (hr : r.shape = s.eraseIdx k) (hc : Contig r.shape r.strides) :
    ∃ r', intoShape r (s.set k 1) = some r' ∧ r'.shape = s.set k 1 ∧ ∀ o, InB o s → r'.get (o.set k 0) = r.get (o.eraseIdx k) := by
  obtain ⟨r', h1, h2, h3⟩ := intoShape_sq (s := s.set k 1) hc (by rw [hr]; exact size_set_erase s k)
  refine ⟨r', h1, h2, fun o ho => h3 _ _ ?_ ?_⟩
  · have := sq_setAt_dropAt [k] 0 s o (inB_length ho)
    rwa [setAt_single, setAt_single, dropAt_single, dropAt_single, ← hr] at this
  · rw [hr]; exact inB_eraseIdx k ho

theorem foldAxis_ok {R : Type} (a : Arr R) {k : Nat} (hk : k < a.shape.length) (init : R) (f : R → R → R) :
    ∃ r, foldAxis a k init f = .ok r ∧ r.shape = a.shape.eraseIdx k ∧ r.strides = cStrides r.shape ∧
      ∀ o : List Nat, o.length = a.shape.length → r.get (o.eraseIdx k) =
        (List.range (a.shape.getD k 0)).foldl (fun acc j => f acc (a.get (o.set k j))) init := by
  have hg : a.shape[k]? = some (a.shape[k]) := List.getElem?_eq_getElem hk
  have hd : a.shape.getD k 0 = a.shape[k] := by simp [List.getD, hk]
  unfold foldAxis
  rw [hg]
  refine ⟨_, rfl, rfl, rfl, fun o ho => ?_⟩
  simp only [ofFn, hd]
  have : ∀ j, (o.eraseIdx k).insertIdx k j = o.set k j := fun j => insert_erase_set (by rw [ho]; exact hk) j
  simp only [this]

theorem foldl_add_range {R : Type} [AddCommMonoid R] (n : Nat) (f : Nat → R) : (List.range n).foldl (fun acc j => acc + f j) 0 = ∑ j ∈ range n, f j := by
  induction n with
  | zero => simp
  | succ n ih => rw [List.range_succ, List.foldl_append, ih, sum_range_succ]; rfl

theorem sumAxis_ok {R : Type} [AddCommMonoid R] (st : List Int) (a : Arr R) {k : Nat} (hk : k < a.shape.length) :
    ∃ r, sumAxis st a k = .ok r ∧ r.shape = a.shape.eraseIdx k ∧ r.strides = st ∧
      ∀ o : List Nat, o.length = a.shape.length → r.get (o.eraseIdx k) = lineSum k a.shape a.get o := by
  obtain ⟨r, hr, hs, _, hv⟩ := foldAxis_ok a hk 0 (· + ·)
  refine ⟨⟨r.shape, st, r.get⟩, by simp only [sumAxis, hr, bind, Except.bind], hs, rfl, fun o ho => ?_⟩
  rw [hv o ho, foldl_add_range, lineSum]

theorem contig_cStrides (s : List Nat) : Contig s (cStrides s) := .inl (isStandard_cStrides s)

theorem intoShape_same {R : Type} {a : Arr R} (hc : Contig a.shape a.strides) {s : List Nat} (hs : s = a.shape) :
    ∃ r, intoShape a s = some r ∧ r.shape = s ∧ ∀ o, InB o a.shape → r.get o = a.get o := by
  subst hs
  obtain ⟨r, hr, h2, hg⟩ := intoShape_sq (a := a) (s := a.shape) hc rfl
  refine ⟨r, hr, h2, fun o ho => hg o o ?_ ho⟩
  have : ∀ (s o : List Nat), o.length = s.length → Sq s o s o := by
    intro s
    induction s with
    | nil => intro o ho; have : o = [] := by simpa using ho
             subst this; exact .nil
    | cons n s ih =>
      intro o ho
      cases o with
      | nil => simp at ho
      | cons i o => exact (ih o (by simpa using ho)).keep n i
  exact this _ _ (inB_length ho)

/-- The maximum computed by the fold. -/
noncomputable def lineMax (bot : ℝ) (k : Nat) (s : List Nat) (f : List Nat → ℝ) (o : List Nat) : ℝ :=
  (List.range (s.getD k 0)).foldl (fun acc j => max acc (f (o.set k j))) bot

theorem lineMax_set (bot : ℝ) (k : Nat) (s : List Nat) (f : List Nat → ℝ) (o : List Nat) (j : Nat) :
    lineMax bot k s f (o.set k j) = lineMax bot k s f o := by
  simp [lineMax, List.set_set]

theorem lineSum_set {R : Type} [AddCommMonoid R] (k : Nat) (s : List Nat) (f : List Nat → R) (o : List Nat) (j : Nat) : lineSum k s f (o.set k j) = lineSum k s f o := by
  simp [lineSum, List.set_set]

theorem lineMax_spec (bot : ℝ) (k : Nat) (s : List Nat) (f : List Nat → ℝ) (o : List Nat) :
    (∀ j < s.getD k 0, f (o.set k j) ≤ lineMax bot k s f o) ∧ bot ≤ lineMax bot k s f o ∧
      (lineMax bot k s f o = bot ∨ ∃ j < s.getD k 0, lineMax bot k s f o = f (o.set k j)) := by
  unfold lineMax
  generalize s.getD k 0 = n
  induction n with
  | zero => simp
  | succ n ih =>
    rw [List.range_succ, List.foldl_append]
    simp only [List.foldl_cons, List.foldl_nil]
    refine ⟨fun j hj => ?_, ih.2.1.trans (le_max_left _ _), ?_⟩
    · rcases Nat.lt_or_eq_of_le (Nat.lt_succ_iff.1 hj) with h | h
      · exact (ih.1 j h).trans (le_max_left _ _)
      · subst h; exact le_max_right _ _
    · rcases max_choice ((List.range n).foldl (fun acc j => max acc (f (o.set k j))) bot) (f (o.set k n)) with h | h
      · rw [h]
        rcases ih.2.2 with h' | ⟨j, hj, h'⟩
        · exact .inl h'
        · exact .inr ⟨j, by omega, h'⟩
      · exact .inr ⟨n, by omega, h⟩

/-- `shiftByMax` with the reduced axis kept. -/
theorem shiftByMax_keep (bot : ℝ) (x : Arr ℝ) {k : Nat} (hk : k < x.shape.length) :
    ∃ tmp m, shiftByMax bot x k (x.shape.set k 1) = .ok (tmp, m) ∧ tmp.shape = x.shape ∧ m.shape = x.shape.set k 1 ∧
      (∀ o, InB o x.shape → tmp.get o = x.get o - lineMax bot k x.shape x.get o) ∧
      ∀ o, InB o x.shape → m.get (o.set k 0) = lineMax bot k x.shape x.get o := by
  obtain ⟨r, hr, hs, hst, hv⟩ := foldAxis_ok x hk bot max
  obtain ⟨m, hm, hms, hmv⟩ := keepdim_spec hs (by rw [hst]; exact contig_cStrides _)
  have hmo : ∀ o, InB o x.shape → m.get (o.set k 0) = lineMax bot k x.shape x.get o := fun o ho => by
    rw [hmv o ho, hv o (inB_length ho)]; rfl
  obtain ⟨tmp, ht, hb⟩ := zipOp_spec (f := (· - ·)) (x0 := x) (x1 := m) (t := x.shape) (by rw [hms]; exact commonShape_left (broadcastsTo_set _ _))
  refine ⟨tmp, m, ?_, hb.1, hms, fun o ho => ?_, hmo⟩
  · simp only [shiftByMax, hr, hm, ht, unwrap, bind, Except.bind]
  · rw [hb.2 o ho, bIdx_self ho, hms, bIdx_set k ho, hmo o ho]

theorem assignOp_spec {R : Type} (f : R → R → R) {a b : Arr R} (h : BroadcastsTo b.shape a.shape) :
    ∃ r, assignOp f a b = .ok r ∧ r.shape = a.shape ∧ r.strides = a.strides ∧ ∀ i, r.get i = f (a.get i) (b.get (bIdx b.shape i)) := by
  have hok : bcastOk b.shape.reverse a.shape.reverse = true := bcastOk_iff.2 (broadcastsTo_iff.1 h)
  refine ⟨⟨a.shape, a.strides, fun i => f (a.get i) (b.get (bIdx b.shape i))⟩, ?_, rfl, rfl, fun i => rfl⟩
  simp only [assignOp, broadcast, hok, if_true, unwrap, bind, Except.bind]

theorem lineSum_congr {k : Nat} {s o : List Nat} {f g : List Nat → ℝ} (h : ∀ p, InB p s → f p = g p) (ho : InB o s) (hk : k < s.length) :
    lineSum k s f o = lineSum k s g o := by
  refine sum_congr rfl fun j hj => h _ (inB_set ho hk ?_)
  simpa [List.getD, hk] using hj

theorem exp_line_pos {k : Nat} {s o : List Nat} (f : List Nat → ℝ) (hp : 0 < s.getD k 0) : 0 < lineSum k s (fun p => Real.exp (f p)) o :=
  sum_pos (fun j _ => Real.exp_pos _) ⟨0, by simpa using hp⟩

theorem getD_pos {s o : List Nat} {k : Nat} (h : InB o s) (hk : k < s.length) : 0 < s.getD k 0 := by
  have := (inB_iff.1 h).2 k (by rw [inB_length h]; exact hk) hk
  simp only [List.getD, List.getElem?_eq_getElem hk, Option.getD_some]
  omega

/-- The value softmax computes. -/
theorem softmaxImpl_spec (bot : ℝ) (st : List Int) (x : Arr ℝ) (axis : Int) {k : Nat} (ha : AxisIs x.shape.length axis k)
    (hst : Contig (x.shape.eraseIdx k) st) :
    ∃ y, softmaxImpl bot st x axis = .ok y ∧ y.shape = x.shape ∧
      ∀ o, InB o x.shape → y.get o = Real.exp (x.get o) / lineSum k x.shape (fun p => Real.exp (x.get p)) o := by
  have hk := ha.1
  obtain ⟨tmp, m, hsh, hts, hms, htv, _⟩ := shiftByMax_keep bot x hk
  obtain ⟨s0, hs0, hs0s, hs0t, hs0v⟩ := sumAxis_ok st (map Real.exp tmp) (k := k) (by show k < tmp.shape.length; rw [hts]; exact hk)
  have hmap : (map Real.exp tmp).shape = x.shape := hts
  rw [hmap] at hs0s hs0v
  obtain ⟨s1, hs1, hs1s, hs1v⟩ := keepdim_spec hs0s (by rw [hs0s, hs0t]; exact hst)
  obtain ⟨y, hy, hys, _, hyv⟩ := assignOp_spec (· / ·) (a := map Real.exp tmp) (b := s1) (by rw [hmap, hs1s]; exact broadcastsTo_set _ _)
  rw [hmap] at hys
  refine ⟨y, ?_, hys, fun o ho => ?_⟩
  · simp only [softmaxImpl, axisOf_spec ha, hsh, hs0, hs1, hy, unwrap, bind, Except.bind]
  rw [hyv, hs1s, bIdx_set k ho, hs1v o ho, hs0v o (inB_length ho)]
  have hM : ∀ p, InB p x.shape → (map Real.exp tmp).get p = Real.exp (x.get p) / Real.exp (lineMax bot k x.shape x.get p) := fun p hp => by
    show Real.exp (tmp.get p) = _
    rw [htv p hp, Real.exp_sub]
  have hl : lineSum k x.shape (map Real.exp tmp).get o = lineSum k x.shape (fun p => Real.exp (x.get p)) o / Real.exp (lineMax bot k x.shape x.get o) := by
    rw [lineSum_congr hM ho hk]
    simp only [lineSum, lineMax_set, sum_div]
  rw [hM o ho, hl]
  exact div_div_div_cancel_right₀ (Real.exp_pos _).ne' _ _

/-- The value logsumexp computes with the axis kept. -/
theorem logsumexp_keep (bot : ℝ) (st : List Int) (x : Arr ℝ) (axis : Int) {k : Nat} (ha : AxisIs x.shape.length axis k)
    (hst : Contig (x.shape.eraseIdx k) st) :
    ∃ y, logsumexp bot st x axis true = .ok y ∧ y.shape = x.shape.set k 1 ∧
      ∀ o, InB o x.shape → y.get (o.set k 0) = Real.log (lineSum k x.shape (fun p => Real.exp (x.get p)) o) := by
  have hk := ha.1
  obtain ⟨tmp, m, hsh, hts, hms, htv, hmv⟩ := shiftByMax_keep bot x hk
  obtain ⟨s0, hs0, hs0s, hs0t, hs0v⟩ := sumAxis_ok st (map Real.exp tmp) (k := k) (by show k < tmp.shape.length; rw [hts]; exact hk)
  have hmap : (map Real.exp tmp).shape = x.shape := hts
  rw [hmap] at hs0s hs0v
  obtain ⟨s1, hs1, hs1s, hs1v⟩ := keepdim_spec hs0s (by rw [hs0s, hs0t]; exact hst)
  obtain ⟨y, hy, hys, _, hyv⟩ := assignOp_spec (· + ·) (a := map Real.log s1) (b := m) (by show BroadcastsTo m.shape s1.shape; rw [hms, hs1s]; exact broadcastsTo_self _)
  refine ⟨y, ?_, hys.trans hs1s, fun o ho => ?_⟩
  · simp only [logsumexp, axisOf_spec ha, hsh, hs0, hs1, hy, unwrap, bind, Except.bind, if_true]
  have hb : bIdx m.shape (o.set k 0) = o.set k 0 := by rw [hms]; exact bIdx_self (inB_set_one ho k)
  rw [hyv, hb, hmv o ho]
  show Real.log (s1.get (o.set k 0)) + _ = _
  rw [hs1v o ho, hs0v o (inB_length ho)]
  have hM : ∀ p, InB p x.shape → (map Real.exp tmp).get p = Real.exp (x.get p) / Real.exp (lineMax bot k x.shape x.get p) := fun p hp => by
    show Real.exp (tmp.get p) = _
    rw [htv p hp, Real.exp_sub]
  have hl : lineSum k x.shape (map Real.exp tmp).get o = lineSum k x.shape (fun p => Real.exp (x.get p)) o / Real.exp (lineMax bot k x.shape x.get o) := by
    rw [lineSum_congr hM ho hk]
    simp only [lineSum, lineMax_set, sum_div]
  rw [hl, Real.log_div (exp_line_pos _ (getD_pos ho hk)).ne' (Real.exp_pos _).ne', Real.log_exp]
  ring

/-- Exchange of the two factors in a sum over all lines. -/
theorem line_swap {R : Type} [CommSemiring R] {s : List Nat} {k : Nat} (hk : k < s.length) (A B : List Nat → R) :
    ∑ o ∈ idxs s, A o * lineSum k s B o = ∑ o ∈ idxs s, B o * lineSum k s A o := by
  simp only [lineSum, mul_sum]
  rw [← sum_product', ← sum_product']
  have hd : s.getD k 0 = s[k] := by simp [List.getD, hk]
  have key : ∀ p : List Nat × Nat, p ∈ idxs s ×ˢ range (s.getD k 0) → (p.1.set k p.2, p.1.getD k 0) ∈ idxs s ×ˢ range (s.getD k 0) := by
    rintro ⟨o, j⟩ h
    simp only [mem_product, mem_idxs, mem_range] at h ⊢
    refine ⟨inB_set h.1 hk (by rw [← hd]; exact h.2), ?_⟩
    have := (inB_iff.1 h.1).2 k (by rw [inB_length h.1]; exact hk) hk
    rw [hd]
    simpa [List.getD, inB_length h.1, hk] using this
  have inv : ∀ p : List Nat × Nat, p ∈ idxs s ×ˢ range (s.getD k 0) →
      ((p.1.set k p.2).set k (p.1.getD k 0), (p.1.set k p.2).getD k 0) = p := by
    rintro ⟨o, j⟩ h
    simp only [mem_product, mem_idxs, mem_range] at h
    have hko : k < o.length := by rw [inB_length h.1]; exact hk
    simp only [List.set_set, Prod.mk.injEq]
    exact ⟨by simp [List.getD, hko], by simp [List.getD, hko]⟩
  refine sum_bij' (fun p _ => (p.1.set k p.2, p.1.getD k 0)) (fun p _ => (p.1.set k p.2, p.1.getD k 0)) key key inv inv ?_
  rintro ⟨o, j⟩ h
  simp only [mem_product, mem_idxs, mem_range] at h
  have hko : k < o.length := by rw [inB_length h.1]; exact hk
  have : (o.set k j).set k (o.getD k 0) = o := by simp [List.getD, hko]
  simp only [this]
  ring

theorem line_fibre {R : Type} [AddCommMonoid R] {s o : List Nat} {k : Nat} (hk : k < s.length) (ho : InB o s) (f : List Nat → R) :
    ∑ p ∈ (idxs s).filter (fun p => p.set k 0 = o.set k 0), f p = lineSum k s f o := by
  have hd : s.getD k 0 = s[k] := by simp [List.getD, hk]
  have hko : k < o.length := by rw [inB_length ho]; exact hk
  have hset : ∀ p ∈ (idxs s).filter (fun p => p.set k 0 = o.set k 0), o.set k (p.getD k 0) = p := by
    intro p hp
    simp only [mem_filter, mem_idxs] at hp
    have hkp : k < p.length := by rw [inB_length hp.1]; exact hk
    have := congrArg (fun l => l.set k (p.getD k 0)) hp.2
    simp only [List.set_set] at this
    rw [← this]; simp [List.getD, hkp]
  refine sum_bij' (fun p _ => p.getD k 0) (fun j _ => o.set k j) ?_ ?_ hset ?_ ?_
  · intro p hp
    simp only [mem_filter, mem_idxs] at hp
    simp only [mem_range]
    have := (inB_iff.1 hp.1).2 k (by rw [inB_length hp.1]; exact hk) hk
    rw [hd]
    simpa [List.getD, inB_length hp.1, hk] using this
  · intro j hj
    simp only [mem_range, hd] at hj
    simp only [mem_filter, mem_idxs, List.set_set, and_true]
    exact inB_set ho hk hj
  · intro j _; simp [List.getD, hko]
  · intro p hp; rw [hset p hp]

theorem reduceSum_line {R : Type} [AddCommMonoid R] (x : Arr R) {axis : Int} {k : Nat} (ha : AxisIs x.shape.length axis k) (hx : x.shape ≠ [0]) :
    ∃ y, reduceSum x [axis] true = .ok y ∧ y.shape = x.shape.set k 1 ∧ ∀ o, InB o x.shape → y.get (o.set k 0) = lineSum k x.shape x.get o := by
  have ha' : List.Forall₂ (AxisIs x.shape.length) [axis] [k] := .cons ha .nil
  obtain ⟨y, hy, hs, hF⟩ := reduceForward_spec x [k] true hx (by simp) (axes_lt ha')
  have hs' : y.shape = x.shape.set k 1 := by rw [hs, reducedShape, if_pos rfl, setAt_single]
  refine ⟨y, by rw [reduceSum, normAxes_spec ha']; exact hy, hs', fun o ho => ?_⟩
  rw [hF.sum _ (by rw [hs']; exact inB_set_one ho k), ← line_fibre ha.1 ho]
  refine sum_congr ?_ fun _ _ => rfl
  ext p
  simp only [mem_filter, reducedIdx, if_true, setAt_single]

/-- The product of an array with one whose axis `k` has length one. -/
theorem mulOp_set {x0 x1 : Arr ℝ} {k : Nat} (h1 : x1.shape = x0.shape.set k 1) (hne : x0.shape ≠ [0]) :
    ∃ y, mulOp x0 x1 = .ok y ∧ y.shape = x0.shape ∧ ∀ o, InB o x0.shape → y.get o = x0.get o * x1.get (o.set k 0) := by
  obtain ⟨y, hy, hb⟩ := binForward_spec (f := (· * ·)) (x0 := x0) (x1 := x1) (t := x0.shape) (fun a b => mul_comm a b)
    (by rw [h1]; exact commonShape_left (broadcastsTo_set _ _)) (fun e => absurd e hne) (fun e => by
      rw [h1] at e
      have hl : x0.shape.length = 1 := by simpa using congrArg List.length e
      obtain ⟨n, hn⟩ := List.length_eq_one_iff.1 hl
      rw [hn] at e hne
      cases k with
      | zero => simp at e
      | succ k => simp at e; exact absurd (by rw [e]) hne)
  refine ⟨y, hy, hb.1, fun o ho => ?_⟩
  rw [hb.2 o ho, bIdx_self ho, h1, bIdx_set k ho]

theorem subOp_set {x0 x1 : Arr ℝ} {k : Nat} (h1 : x1.shape = x0.shape.set k 1) :
    ∃ y, subOp x0 x1 = .ok y ∧ y.shape = x0.shape ∧ ∀ o, InB o x0.shape → y.get o = x0.get o - x1.get (o.set k 0) := by
  obtain ⟨y, hy, hb⟩ := subOp_spec (x0 := x0) (x1 := x1) (t := x0.shape) (by rw [h1]; exact commonShape_left (broadcastsTo_set _ _))
  refine ⟨y, hy, hb.1, fun o ho => ?_⟩
  rw [hb.2 o ho, bIdx_self ho, h1, bIdx_set k ho]

theorem subOp_same {x0 x1 : Arr ℝ} (h1 : x1.shape = x0.shape) :
    ∃ y, subOp x0 x1 = .ok y ∧ y.shape = x0.shape ∧ ∀ o, InB o x0.shape → y.get o = x0.get o - x1.get o := by
  obtain ⟨y, hy, hb⟩ := subOp_spec (x0 := x0) (x1 := x1) (t := x0.shape) (by rw [h1]; exact commonShape_left (broadcastsTo_self _))
  refine ⟨y, hy, hb.1, fun o ho => ?_⟩
  rw [hb.2 o ho, bIdx_self ho, h1, bIdx_self ho]

theorem inB_empty {o : List Nat} (h : InB o [0]) : False := by
  cases h with
  | cons h _ => exact absurd h (Nat.not_lt_zero _)

/-- The value the gradient of softmax evaluates to. -/
theorem softmaxGrad_spec {y gy : Arr ℝ} {axis : Int} {k : Nat} (ha : AxisIs y.shape.length axis k) (hs : gy.shape = y.shape) :
    ∃ g, softmaxGrad y gy axis = .ok g ∧ g.shape = y.shape ∧
      ∀ o, InB o y.shape → g.get o = (gy.get o - lineSum k y.shape (fun p => y.get p * gy.get p) o) * y.get o := by
  obtain ⟨p, hp, hps, hpv⟩ := mulOp_same (x0 := y) (x1 := gy) hs.symm
  by_cases h0 : y.shape = [0]
  · have hpr : reduceSum p [axis] true = .ok p := by
      rw [reduceSum, normAxes_spec (ks := [k]) (.cons (by rw [hps]; exact ha) .nil)]
      show reduceForward _ _ p [k] true = _
      rw [reduceForward, if_pos (isScalarShape_iff.2 (.inr (by rw [hps, h0])))]
    obtain ⟨d, hd, hds, _⟩ := subOp_same (x0 := gy) (x1 := p) (by rw [hps, hs])
    obtain ⟨g, hg, hgs, _⟩ := mulOp_same (x0 := d) (x1 := y) (by rw [hds, hs])
    refine ⟨g, by simp only [softmaxGrad, hp, hpr, hd, hg, bind, Except.bind], by rw [hgs, hds, hs], fun o ho => ?_⟩
    rw [h0] at ho; exact (inB_empty ho).elim
  · obtain ⟨r, hr, hrs, hrv⟩ := reduceSum_line p (axis := axis) (k := k) (by rw [hps]; exact ha) (by rw [hps]; exact h0)
    obtain ⟨d, hd, hds, hdv⟩ := subOp_set (x0 := gy) (x1 := r) (k := k) (by rw [hrs, hps, hs])
    obtain ⟨g, hg, hgs, hgv⟩ := mulOp_same (x0 := d) (x1 := y) (by rw [hds, hs])
    refine ⟨g, by simp only [softmaxGrad, hp, hr, hd, hg, bind, Except.bind], by rw [hgs, hds, hs], fun o ho => ?_⟩
    rw [hgv o (by rw [hds, hs]; exact ho), hdv o (by rw [hs]; exact ho), hrv o (by rw [hps]; exact ho), hps, lineSum_congr hpv ho ha.1]

theorem hasDerivAt_exp_along (a b : ℝ) : HasDerivAt (fun t : ℝ => Real.exp (a + t * b)) (Real.exp a * b) 0 := by
  have h : HasDerivAt (fun t : ℝ => a + t * b) b 0 := by simpa using ((hasDerivAt_id (0 : ℝ)).mul_const b).const_add a
  simpa using h.exp

theorem hasDerivAt_expSum {s : List Nat} (k : Nat) (x d : List Nat → ℝ) (o : List Nat) :
    HasDerivAt (fun t : ℝ => lineSum k s (fun p => Real.exp (x p + t * d p)) o) (lineSum k s (fun p => Real.exp (x p) * d p) o) 0 :=
  HasDerivAt.fun_sum fun j _ => hasDerivAt_exp_along (x (o.set k j)) (d (o.set k j))

theorem hasDerivAt_softmax {s o : List Nat} {k : Nat} (x d : List Nat → ℝ) (ho : InB o s) (hk : k < s.length) :
    HasDerivAt (fun t : ℝ => Real.exp (x o + t * d o) / lineSum k s (fun p => Real.exp (x p + t * d p)) o)
      (Real.exp (x o) / lineSum k s (fun p => Real.exp (x p)) o *
        (d o - lineSum k s (fun p => Real.exp (x p) / lineSum k s (fun p => Real.exp (x p)) p * d p) o)) 0 := by
  have hL : lineSum k s (fun p => Real.exp (x p)) o ≠ 0 := (exp_line_pos x (getD_pos ho hk)).ne'
  have h := (hasDerivAt_exp_along (x o) (d o)).div (hasDerivAt_expSum (s := s) k x d o) (by simpa using hL)
  refine h.congr_deriv ?_
  have e : lineSum k s (fun p => Real.exp (x p) / lineSum k s (fun p => Real.exp (x p)) p * d p) o =
      lineSum k s (fun p => Real.exp (x p) * d p) o / lineSum k s (fun p => Real.exp (x p)) o := by
    have : ∀ j, lineSum k s (fun p => Real.exp (x p)) (o.set k j) = lineSum k s (fun p => Real.exp (x p)) o := fun j => lineSum_set _ _ _ _ _
    simp only [lineSum] at this ⊢
    simp only [this, sum_div]
    exact sum_congr rfl fun j _ => by ring
  rw [e]
  simp only [zero_mul, add_zero]
  field_simp

theorem hasDerivAt_logSumExp {s o : List Nat} {k : Nat} (x d : List Nat → ℝ) (ho : InB o s) (hk : k < s.length) :
    HasDerivAt (fun t : ℝ => Real.log (lineSum k s (fun p => Real.exp (x p + t * d p)) o))
      (lineSum k s (fun p => Real.exp (x p) / lineSum k s (fun p => Real.exp (x p)) p * d p) o) 0 := by
  have hL : lineSum k s (fun p => Real.exp (x p)) o ≠ 0 := (exp_line_pos x (getD_pos ho hk)).ne'
  have h := (hasDerivAt_expSum (s := s) k x d o).log (by simpa using hL)
  refine h.congr_deriv ?_
  have e : lineSum k s (fun p => Real.exp (x p) / lineSum k s (fun p => Real.exp (x p)) p * d p) o =
      lineSum k s (fun p => Real.exp (x p) * d p) o / lineSum k s (fun p => Real.exp (x p)) o := by
    have : ∀ j, lineSum k s (fun p => Real.exp (x p)) (o.set k j) = lineSum k s (fun p => Real.exp (x p)) o := fun j => lineSum_set _ _ _ _ _
    simp only [lineSum] at this ⊢
    simp only [this, sum_div]
    exact sum_congr rfl fun j _ => by ring
  rw [e]; simp

/-- The value log_softmax computes. -/
theorem logSoftmax_spec (bot : ℝ) (st : List Int) (x : Arr ℝ) (axis : Int) {k : Nat} (ha : AxisIs x.shape.length axis k)
    (hst : Contig (x.shape.eraseIdx k) st) :
    ∃ y, logSoftmax bot st x axis = .ok y ∧ y.shape = x.shape ∧
      ∀ o, InB o x.shape → y.get o = Real.log (Real.exp (x.get o) / lineSum k x.shape (fun p => Real.exp (x.get p)) o) := by
  obtain ⟨l, hl, hls, hlv⟩ := logsumexp_keep bot st x axis ha hst
  obtain ⟨y, hy, hb⟩ := zipOp_spec (f := (· - ·)) (x0 := x) (x1 := l) (t := x.shape) (by rw [hls]; exact commonShape_left (broadcastsTo_set _ _))
  refine ⟨y, by simp only [logSoftmax, hl, hy, bind, Except.bind], hb.1, fun o ho => ?_⟩
  rw [hb.2 o ho, bIdx_self ho, hls, bIdx_set k ho, hlv o ho, Real.log_div (Real.exp_pos _).ne' (exp_line_pos _ (getD_pos ho ha.1)).ne', Real.log_exp]

theorem broadcastsTo_erase_zero (s : List Nat) : BroadcastsTo (s.eraseIdx 0) s := by
  cases s with
  | nil => exact broadcastsTo_self _
  | cons n s =>
    refine ⟨by simp, fun k h h' => .inl ?_⟩
    simp

theorem bIdx_erase_zero {s o : List Nat} (h : InB o s) : bIdx (s.eraseIdx 0) o = o.eraseIdx 0 := by
  symm
  refine readsAt_unique ⟨inB_eraseIdx 0 h, by rw [inB_length h]; exact (broadcastsTo_erase_zero s).1, ?_⟩
  intro k h1 h2 h3 _
  cases h with
  | nil => simp at h1
  | cons _ hl => simp [inB_length hl]

/-- The value logsumexp computes without `keep_dims` for the first axis. -/
theorem logsumexp_drop (bot : ℝ) (st : List Int) (x : Arr ℝ) (axis : Int) (ha : AxisIs x.shape.length axis 0)
    (hst : Contig (x.shape.eraseIdx 0) st) :
    ∃ y, logsumexp bot st x axis false = .ok y ∧ y.shape = x.shape.eraseIdx 0 ∧
      ∀ o, InB o x.shape → y.get (o.eraseIdx 0) = Real.log (lineSum 0 x.shape (fun p => Real.exp (x.get p)) o) := by
  have hk := ha.1
  obtain ⟨r, hr, hs, hrst, hv⟩ := foldAxis_ok x hk bot max
  obtain ⟨m, hm, hms, hmv'⟩ := intoShape_same (a := r) (by rw [hrst]; exact contig_cStrides _) (s := x.shape.eraseIdx 0) hs.symm
  have hmv : ∀ o, InB o x.shape → m.get (o.eraseIdx 0) = lineMax bot 0 x.shape x.get o := fun o ho => by
    rw [hmv' _ (by rw [hs]; exact inB_eraseIdx 0 ho), hv o (inB_length ho)]; rfl
  obtain ⟨tmp, ht, hb⟩ := zipOp_spec (f := (· - ·)) (x0 := x) (x1 := m) (t := x.shape) (by rw [hms]; exact commonShape_left (broadcastsTo_erase_zero _))
  have htv : ∀ o, InB o x.shape → tmp.get o = x.get o - lineMax bot 0 x.shape x.get o := fun o ho => by
    rw [hb.2 o ho, bIdx_self ho, hms, bIdx_erase_zero ho, hmv o ho]
  have hts : tmp.shape = x.shape := hb.1
  obtain ⟨s0, hs0, hs0s, hs0t, hs0v⟩ := sumAxis_ok st (map Real.exp tmp) (k := 0) (by show 0 < tmp.shape.length; rw [hts]; exact hk)
  have hmap : (map Real.exp tmp).shape = x.shape := hts
  rw [hmap] at hs0s hs0v
  obtain ⟨s1, hs1, hs1s, hs1v⟩ := intoShape_same (a := s0) (by rw [hs0s, hs0t]; exact hst) (s := x.shape.eraseIdx 0) hs0s.symm
  obtain ⟨y, hy, hys, _, hyv⟩ := assignOp_spec (· + ·) (a := map Real.log s1) (b := m) (by show BroadcastsTo m.shape s1.shape; rw [hms, hs1s]; exact broadcastsTo_self _)
  refine ⟨y, ?_, hys.trans hs1s, fun o ho => ?_⟩
  · simp only [logsumexp, axisOf_spec ha, shiftByMax, hr, hm, ht, hs0, hs1, hy, unwrap, bind, Except.bind, Bool.false_eq_true, if_false]
  have hob := inB_eraseIdx 0 ho
  have hb : bIdx m.shape (o.eraseIdx 0) = o.eraseIdx 0 := by rw [hms]; exact bIdx_self hob
  rw [hyv, hb, hmv o ho]
  show Real.log (s1.get (o.eraseIdx 0)) + _ = _
  rw [hs1v _ (by rw [hs0s]; exact hob), hs0v o (inB_length ho)]
  have hM : ∀ p, InB p x.shape → (map Real.exp tmp).get p = Real.exp (x.get p) / Real.exp (lineMax bot 0 x.shape x.get p) := fun p hp => by
    show Real.exp (tmp.get p) = _
    rw [htv p hp, Real.exp_sub]
  have hl : lineSum 0 x.shape (map Real.exp tmp).get o = lineSum 0 x.shape (fun p => Real.exp (x.get p)) o / Real.exp (lineMax bot 0 x.shape x.get o) := by
    rw [lineSum_congr hM ho hk]
    simp only [lineSum, lineMax_set, sum_div]
  rw [hl, Real.log_div (exp_line_pos _ (getD_pos ho hk)).ne' (Real.exp_pos _).ne', Real.log_exp]
  ring

/-- What logsumexp without `keep_dims` computes for the last axis of a 2x2 array: the maximum of the wrong row is subtracted before the exponentiation. -/
theorem logsumexp_square (bot : ℝ) (st : List Int) (hst : Contig [2] st) (x : Arr ℝ) (hx : x.shape = [2, 2]) :
    ∃ y, logsumexp bot st x 1 false = .ok y ∧ y.shape = [2] ∧
      y.get [0] = Real.log (Real.exp (x.get [0, 0] - max (max bot (x.get [0, 0])) (x.get [0, 1])) +
        Real.exp (x.get [0, 1] - max (max bot (x.get [1, 0])) (x.get [1, 1]))) + max (max bot (x.get [0, 0])) (x.get [0, 1]) := by
  have hk : 1 < x.shape.length := by rw [hx]; decide
  obtain ⟨r, hr, hs, hrst, hv⟩ := foldAxis_ok x hk bot max
  have he : x.shape.eraseIdx 1 = [2] := by rw [hx]; rfl
  rw [he] at hs
  obtain ⟨m, hm, hms, hmv'⟩ := intoShape_same (a := r) (by rw [hrst]; exact contig_cStrides _) (s := [2]) hs.symm
  have hmv : ∀ i < 2, m.get [i] = max (max bot (x.get [i, 0])) (x.get [i, 1]) := fun i hi => by
    have := hv [i, 0] (by rw [hx]; rfl)
    rw [show ([i, 0] : List Nat).eraseIdx 1 = [i] from rfl] at this
    rw [hmv' _ (by rw [hs]; simpa using hi), this, hx]
    rfl
  obtain ⟨tmp, ht, hb⟩ := zipOp_spec (f := (· - ·)) (x0 := x) (x1 := m) (t := [2, 2]) (by rw [hms, hx]; exact commonShape_iff.2 rfl)
  have htv : ∀ i < 2, ∀ j < 2, tmp.get [i, j] = x.get [i, j] - m.get [j] := fun i hi j hj => by
    have hin : InB [i, j] [2, 2] := by simp [hi, hj]
    rw [hb.2 _ hin, hx, bIdx_self hin, hms]; rfl
  have hts : tmp.shape = [2, 2] := hb.1
  obtain ⟨s0, hs0, hs0s, hs0t, hs0v⟩ := sumAxis_ok st (map Real.exp tmp) (k := 1) (by show 1 < tmp.shape.length; rw [hts]; decide)
  rw [show (map Real.exp tmp).shape = [2, 2] from hts] at hs0s hs0v
  obtain ⟨s1, hs1, hs1s, hs1v⟩ := intoShape_same (a := s0) (by rw [hs0s, hs0t]; exact hst) (s := [2]) hs0s.symm
  obtain ⟨y, hy, hys, _, hyv⟩ := assignOp_spec (· + ·) (a := map Real.log s1) (b := m) (by show BroadcastsTo m.shape s1.shape; rw [hms, hs1s]; exact broadcastsTo_self _)
  refine ⟨y, ?_, hys.trans hs1s, ?_⟩
  · have ha : axisOf x.shape.length 1 = .ok 1 := axisOf_spec ⟨hk, .inl rfl⟩
    simp only [logsumexp, ha, shiftByMax, hr, he, hm, ht, hs0, hs1, hy, unwrap, bind, Except.bind, Bool.false_eq_true, if_false]
  have h0 := hs0v [0, 0] rfl
  rw [show ([0, 0] : List Nat).eraseIdx 1 = [0] from rfl] at h0
  have hb0 : bIdx m.shape [0] = [0] := by rw [hms]; rfl
  rw [hyv, hb0, hmv 0 (by decide)]
  show Real.log (s1.get [0]) + _ = _
  rw [hs1v _ (by rw [hs0s]; exact List.Forall₂.cons (by decide) .nil), h0]
  have hl : lineSum 1 [2, 2] (map Real.exp tmp).get [0, 0] = Real.exp (tmp.get [0, 0]) + Real.exp (tmp.get [0, 1]) := by
    simp [lineSum, sum_range_succ, map]
  rw [hl, htv 0 (by decide) 0 (by decide), htv 0 (by decide) 1 (by decide), hmv 0 (by decide), hmv 1 (by decide)]

end Verif.Nd
