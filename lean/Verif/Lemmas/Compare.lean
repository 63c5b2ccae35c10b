import Mathlib.Algebra.BigOperators.Field
import Verif.Model.Compare
import Verif.Lemmas.ReduceGrad
import Verif.Lemmas.ZipLayout

/-!
# The comparison ops, and the gradients of the product, minimum and maximum reductions
-/

namespace Verif.Nd
open Finset
variable {R : Type}

theorem size_broadcast {s t : List Nat} (hb : BroadcastsTo s t) (hl : s.length = t.length) (hp : 0 < size t) :
    size s ≤ size t ∧ (size s = size t → s = t) := by
  have h' : ∀ k (h1 : k < s.length) (h2 : k < t.length), s[k] = t[k] ∨ s[k] = 1 := by
    intro k h1 h2
    have := hb.2 k h1 (by omega)
    simpa [hl] using this
  clear hb
  induction s generalizing t with
  | nil => cases t with
    | nil => simp
    | cons => simp at hl
  | cons a s ih =>
    cases t with
    | nil => simp at hl
    | cons b t =>
      simp only [size] at hp ⊢
      have hb : 0 < b := Nat.pos_of_mul_pos_right hp
      have ht : 0 < size t := Nat.pos_of_mul_pos_left hp
      have h0 : a = b ∨ a = 1 := h' 0 (by simp) (by simp)
      obtain ⟨h1, h2⟩ := ih (t := t) (by simpa using hl) ht (fun k h1 h2 => h' (k + 1) (by simpa using h1) (by simpa using h2))
      have hab : a ≤ b := by omega
      refine ⟨Nat.mul_le_mul hab h1, fun he => ?_⟩
      have hs : size s = size t := by
        refine le_antisymm h1 (Nat.le_of_mul_le_mul_left (c := b) ?_ hb)
        calc b * size t = a * size s := he.symm
          _ ≤ b * size s := Nat.mul_le_mul_right _ hab
      rw [hs] at he
      rw [Nat.eq_of_mul_eq_mul_right ht he, h2 hs]

/-- The comparison ops broadcast their first operand to the second, or a scalar. -/
theorem cmpOp_spec {f : R → R → R} {x0 x1 : Arr R} (hb : BroadcastsTo x0.shape x1.shape) (hr : ScalarOrRank x0.shape x1.shape)
    (hp : 0 < size x1.shape) :
    ∃ y, cmpOp f x0 x1 = .ok y ∧ IsBinary f x0 x1 x1.shape y := by
  have h1 : x1.shape ≠ [0] := by intro h; simp [h, size] at hp
  unfold cmpOp
  by_cases h0 : x0.shape = []
  · have hs0 : isScalarShape x0.shape = true := isScalarShape_iff.2 (.inl h0)
    by_cases h10 : x1.shape = []
    · have hs1 : isScalarShape x1.shape = true := isScalarShape_iff.2 (.inl h10)
      simp only [hs0, hs1, Bool.and_self, if_true, scalarElem_nil h10, bind, Except.bind]
      refine ⟨_, rfl, by rw [h10]; exact h0, fun o ho => ?_⟩
      have : o = [] := by rw [h10] at ho; simpa using ho
      subst this
      simp [map, h0, h10, bIdx_nil]
    · have hs1 : isScalarShape x1.shape = false := by
        rw [← Bool.not_eq_true, isScalarShape_iff]; simp [h1, h10]
      simp only [hs0, hs1, Bool.and_false, Bool.not_false, Bool.and_self, if_true, scalarElem_nil h0, bind, Except.bind]
      refine ⟨_, rfl, rfl, fun o ho => ?_⟩
      simp [map, h0, bIdx_nil, bIdx_self ho]
  · have hl : x0.shape.length = x1.shape.length := hr.resolve_left h0
    obtain ⟨hle, heq⟩ := size_broadcast hb hl hp
    have h00 : x0.shape ≠ [0] := by
      intro h
      have := hb.2 0 (by simp [h]) (by rw [← hl]; simp [h])
      simp only [h, List.getElem_cons_zero] at this
      rw [h] at hl
      obtain ⟨n, hn⟩ := List.length_eq_one_iff.1 (show x1.shape.length = 1 by simpa using hl.symm)
      have hm : n = 0 := by
        have := hb.2 0 (by simp [h]) (by simp [hn, h])
        simp [h, hn] at this
        exact this.symm
      exact h1 (by rw [hn, hm])
    have hs0 : isScalarShape x0.shape = false := by
      rw [← Bool.not_eq_true, isScalarShape_iff]; simp [h0, h00]
    have h10 : x1.shape ≠ [] := by intro h; rw [h] at hl; exact h0 (by simpa using hl)
    have hs1 : isScalarShape x1.shape = false := by
      rw [← Bool.not_eq_true, isScalarShape_iff]; simp [h1, h10]
    simp only [hs0, hs1, hl, ne_eq, not_true, if_false, Bool.and_self, Bool.not_false, Bool.false_eq_true, Bool.and_true, Bool.and_false]
    rcases Nat.lt_or_eq_of_le hle with hlt | he
    · rw [if_pos hlt]
      have hok : bcastOk x0.shape.reverse x1.shape.reverse = true := bcastOk_iff.2 (broadcastsTo_iff.1 hb)
      simp only [broadcast, hok, if_true, unwrap, bind, Except.bind]
      refine ⟨_, rfl, rfl, fun o ho => ?_⟩
      simp [ofFn, bIdx_self ho]
    · have hse := heq he
      rw [if_neg (by omega), if_neg (by omega), if_pos hse]
      refine ⟨_, rfl, hse, fun o ho => ?_⟩
      simp [ofFn, hse, bIdx_self ho]

theorem cmpOp_same {f : R → R → R} {x0 x1 : Arr R} (h : x0.shape = x1.shape) (hne : x0.shape ≠ [0]) :
    ∃ y, cmpOp f x0 x1 = .ok y ∧ y.shape = x0.shape ∧ ∀ o, InB o x0.shape → y.get o = f (x0.get o) (x1.get o) := by
  unfold cmpOp
  by_cases hs : isScalarShape x0.shape = true
  · have h0 : x0.shape = [] := by simpa [hne] using isScalarShape_iff.1 hs
    have hs1 : isScalarShape x1.shape = true := by rw [← h]; exact hs
    simp only [hs, hs1, Bool.and_self, if_true, scalarElem_nil (show x1.shape = [] by rw [← h, h0]), bind, Except.bind]
    refine ⟨_, rfl, rfl, fun o ho => ?_⟩
    have : o = [] := by rw [h0] at ho; simpa using ho
    subst this; rfl
  · have hs1 : isScalarShape x1.shape = false := by rw [← h]; simpa using hs
    simp only [Bool.not_eq_true] at hs
    refine ⟨ofFn x0.shape (fun idx => f (x0.get idx) (x1.get idx)), ?_, rfl, fun o _ => rfl⟩
    simp only [hs1, h]
    simp

theorem mulOp_same [CommMagma R] {x0 x1 : Arr R} (h : x0.shape = x1.shape) :
    ∃ y, mulOp x0 x1 = .ok y ∧ y.shape = x0.shape ∧ ∀ o, InB o x0.shape → y.get o = x0.get o * x1.get o := by
  obtain ⟨y, hy, hb⟩ := binForward_spec (f := (· * ·)) (x0 := x0) (x1 := x1) (t := x0.shape) (fun a b => mul_comm a b)
    (by rw [← h]; exact commonShape_left (broadcastsTo_self _)) (fun e => isScalarShape_iff.2 (by rw [← h]; exact .inr e))
    (fun e => isScalarShape_iff.2 (by rw [h]; exact .inr e))
  refine ⟨y, hy, hb.elementwise.1, fun o ho => ?_⟩
  refine hb.elementwise.2 o o o ho ?_ ?_
  · have := readsAt_bIdx (broadcastsTo_self x0.shape) ho
    rwa [bIdx_self ho] at this
  · have := readsAt_bIdx (broadcastsTo_self x0.shape) ho
    rw [bIdx_self ho] at this
    rwa [← h]

theorem divOp_same [Field R] {x0 x1 : Arr R} (h : x0.shape = x1.shape) (h0 : x0.shape ≠ [0]) (h1 : x0.shape ≠ [1]) :
    ∃ y, divOp x0 x1 = .ok y ∧ y.shape = x0.shape ∧ ∀ o, InB o x0.shape → y.get o = x0.get o / x1.get o := by
  obtain ⟨y, hy, hb⟩ := divOp_spec (x0 := x0) (x1 := x1) (t := x0.shape)
    (by rw [← h]; exact commonShape_left (broadcastsTo_self _)) h0 (fun _ => by rw [← h]; exact h1)
  refine ⟨y, hy, hb.elementwise.1, fun o ho => ?_⟩
  refine hb.elementwise.2 o o o ho ?_ ?_
  · have := readsAt_bIdx (broadcastsTo_self x0.shape) ho
    rwa [bIdx_self ho] at this
  · have := readsAt_bIdx (broadcastsTo_self x0.shape) ho
    rw [bIdx_self ho] at this
    rwa [← h]

theorem mulOp_bcast [CommMagma R] {x0 x1 : Arr R} {t : List Nat} (h : CommonShape x0.shape x1.shape t)
    (h0 : x0.shape ≠ [0]) (h1 : x1.shape ≠ [0]) : ∃ y, mulOp x0 x1 = .ok y ∧ IsBinary (· * ·) x0 x1 t y :=
  binForward_spec (f := (· * ·)) (fun a b => mul_comm a b) h (fun e => absurd e h0) (fun e => absurd e h1)

theorem not_scalar_of_axis {s : List Nat} {axes : List Int} {ks : List Nat} (ha : List.Forall₂ (AxisIs s.length) axes ks) (hne : ks ≠ [])
    (hx : s ≠ [0]) : isScalarShape s = false := by
  rw [← Bool.not_eq_true, isScalarShape_iff]
  rintro (h | h)
  · cases ks with
    | nil => exact hne rfl
    | cons k ks => have := axes_lt ha k (by simp); simp [h] at this
  · exact hx h

/-- Without axes nothing is broadcast: the gradient is passed on. -/
theorem reduceGradCommon_any {gy : Arr R} {s : List Nat} {axes : List Int} {ks : List Nat} {keep : Bool}
    (ha : List.Forall₂ (AxisIs s.length) axes ks) (hnd : ks.Nodup) (hx : s ≠ [0]) (hg : gy.shape = reducedShape ks keep s)
    (hc : keep = true ∨ ks = [] ∨ Contig gy.shape gy.strides) :
    ∃ g, reduceGradCommon gy s axes (!keep) = .ok g ∧ g.shape = s ∧
      ∀ o, InB o s → g.get o = gy.get (reducedIdx ks keep o) := by
  by_cases hne : ks = []
  · have hgs : gy.shape = s := by rw [hg, hne]; cases keep <;> simp [reducedShape, dropAt_of_lt, setAt_of_lt]
    refine ⟨gy, by rw [reduceGradCommon, if_pos hgs], hgs, fun o _ => ?_⟩
    rw [hne]; cases keep <;> simp [reducedIdx, dropAt_of_lt, setAt_of_lt]
  · exact reduceGradCommon_spec ha hnd hg (fun _ => not_scalar_of_axis ha hne hx)
      (hc.imp_right fun h => h.resolve_left hne)

theorem reduceMinMaxGrad_spec [DecidableEq R] [CommSemiring R] {x y gy : Arr R} {axes : List Int} {ks : List Nat} {keep : Bool}
    (ha : List.Forall₂ (AxisIs x.shape.length) axes ks) (hnd : ks.Nodup) (hx : x.shape ≠ [0])
    (hy : y.shape = reducedShape ks keep x.shape) (hg : gy.shape = reducedShape ks keep x.shape)
    (hcy : keep = true ∨ ks = [] ∨ Contig y.shape y.strides)
    (hc : keep = true ∨ ks = [] ∨ Contig gy.shape gy.strides) :
    ∃ g, reduceMinMaxGrad x y gy axes keep = .ok g ∧ g.shape = x.shape ∧
      ∀ o, InB o x.shape → g.get o = if x.get o = y.get (reducedIdx ks keep o) then gy.get (reducedIdx ks keep o) else 0 := by
  obtain ⟨y', hy', hys, hyg⟩ := reduceGradCommon_any ha hnd hx hy hcy
  obtain ⟨g', hg', hgs, hgg⟩ := reduceGradCommon_any ha hnd hx hg hc
  obtain ⟨e, he, hes, heg⟩ := cmpOp_same (f := equalFn) (x0 := x) (x1 := y') hys.symm hx
  obtain ⟨r, hr, hrs, hrg⟩ := mulOp_same (x0 := e) (x1 := g') (by rw [hes, hgs])
  refine ⟨r, ?_, by rw [hrs, hes], fun o ho => ?_⟩
  · unfold reduceMinMaxGrad
    simp only [hy', hg', he, bind, Except.bind]
    exact hr
  · rw [hrg o (by rw [hes]; exact ho), heg o ho, hgg o ho, hyg o ho]
    simp only [equalFn]
    split <;> simp

theorem reduceProdGrad_spec [Field R] {x y gy : Arr R} {axes : List Int} {ks : List Nat} {keep : Bool}
    (ha : List.Forall₂ (AxisIs x.shape.length) axes ks) (hnd : ks.Nodup) (hx : x.shape ≠ [0]) (hx1 : x.shape ≠ [1])
    (hy : y.shape = reducedShape ks keep x.shape) (hg : gy.shape = reducedShape ks keep x.shape) :
    ∃ g, reduceProdGrad x y gy axes keep = .ok g ∧ g.shape = x.shape ∧
      ∀ o, InB o x.shape → g.get o = gy.get (reducedIdx ks keep o) * y.get (reducedIdx ks keep o) / x.get o := by
  have hst : gy.shape = y.shape := by rw [hg, hy]
  obtain ⟨p, hp, hps, hpgv, hpc⟩ : ∃ p, mulOp gy y = .ok p ∧ p.shape = gy.shape ∧
      (∀ o, InB o gy.shape → p.get o = gy.get o * y.get o) ∧ Contig p.shape p.strides := by
    have hsc : isScalarShape y.shape = isScalarShape gy.shape := by rw [hst]
    obtain ⟨p, hp, h1, h2⟩ := mulOp_same (x0 := gy) (x1 := y) hst
    refine ⟨p, hp, h1, h2, ?_⟩
    unfold mulOp binForward at hp
    simp only [hsc] at hp
    rw [if_neg (by simp), if_neg (by simp)] at hp
    exact (neat_zip hp).1
  obtain ⟨t, ht, hts, htg⟩ := reduceGradCommon_any ha hnd hx (by rw [hps, hg]) (.inr (.inr hpc))
  obtain ⟨r, hr, hrs, hrg⟩ := divOp_same (x0 := t) (x1 := x) hts (by rw [hts]; exact hx) (by rw [hts]; exact hx1)
  refine ⟨r, ?_, by rw [hrs, hts], fun o ho => ?_⟩
  · unfold reduceProdGrad
    simp only [hp, ht, bind, Except.bind]
    exact hr
  · rw [hrg o (by rw [hts]; exact ho), htg o ho, hpgv _ (by rw [hg]; exact inB_reduced ks keep ho)]

end Verif.Nd

namespace Verif.Nd
open Finset
variable {R : Type}

theorem reduceAxes_standard (f : R → R → R) (init : R) (x : Arr R) (ks : List Nat) (folded : Option (Arr R)) (y : Option (Arr R))
    (hf : ∀ a, folded = some a → a.strides = cStrides a.shape) (hne : ks ≠ [] ∨ folded ≠ none)
    (h : reduceAxes f init false x ks folded = .ok y) : ∃ a, y = some a ∧ a.strides = cStrides a.shape := by
  induction ks generalizing folded with
  | nil =>
    simp only [reduceAxes, Except.ok.injEq] at h
    subst h
    cases folded with
    | none => simp at hne
    | some a => exact ⟨a, rfl, hf a rfl⟩
  | cons k ks ih =>
    simp only [reduceAxes, Bool.false_eq_true, if_false] at h
    cases hr : Nd.foldAxis (folded.getD x) k init f with
    | error e => rw [hr] at h; simp [bind, Except.bind] at h
    | ok r =>
      rw [hr] at h
      refine ih (some r) ?_ (.inr (by simp)) h
      rintro a ha
      simp only [Option.some.injEq] at ha
      subst ha
      unfold Nd.foldAxis at hr
      split at hr
      · simp only [Except.ok.injEq] at hr; subst hr; rfl
      · simp at hr

/-- A reduction with axes and without `keep_dims` returns a row-major array. -/
theorem reduceForward_standard (f : R → R → R) (init : R) (x : Arr R) (ks : List Nat) (y : Arr R) (hne : ks ≠ [])
    (hs : isScalarShape x.shape = false) (h : reduceForward f init x ks false = .ok y) : Contig y.shape y.strides := by
  unfold reduceForward at h
  rw [if_neg (by simp [hs]), if_neg (by simpa using hne)] at h
  cases hr : reduceAxes f init false x (sortAxes ks).reverse none with
  | error e => rw [hr] at h; simp [bind, Except.bind] at h
  | ok r =>
    rw [hr] at h
    obtain ⟨a, ha, hst⟩ := reduceAxes_standard f init x _ none r (by simp)
      (.inl (by intro he; apply hne; have := (sortAxes_perm ks).length_eq; rw [List.reverse_eq_nil_iff.1 he] at this
                exact List.length_eq_zero_iff.1 this.symm)) hr
    simp only [bind, Except.bind, ha, Option.getD_some, Except.ok.injEq] at h
    subst h
    exact .inl (by rw [hst]; exact isStandard_cStrides _)

end Verif.Nd
