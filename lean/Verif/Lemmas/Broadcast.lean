import Mathlib.Algebra.BigOperators.Ring.Finset
import Mathlib.Tactic.Ring
import Mathlib.Algebra.Field.Basic
import Verif.Lemmas.NdArray
import Verif.Model.BinaryOps

/-!
# Lemmas about broadcasting and `MaybeReduceSum`
-/

namespace Verif.Nd
open Finset
variable {R : Type}

/-! Shapes on reversed lists. -/

/-- Reversed form of `BroadcastsTo`. -/
def BRev (a t : List Nat) : Prop := ∀ (j x : Nat), a[j]? = some x → ∃ y, t[j]? = some y ∧ (x = y ∨ x = 1)

theorem bRev_cons {x y : Nat} {a t : List Nat} : BRev (x :: a) (y :: t) ↔ (x = y ∨ x = 1) ∧ BRev a t := by
  constructor
  · intro h
    refine ⟨?_, ?_⟩
    · obtain ⟨y', h1, h2⟩ := h 0 x (by simp)
      simp at h1; subst h1; exact h2
    · intro j z hz
      have := h (j + 1) z (by simpa using hz)
      simpa using this
  · rintro ⟨h0, h⟩ j z hz
    cases j with
    | zero => simp at hz; subst hz; exact ⟨y, by simp, h0⟩
    | succ j => simpa using h j z (by simpa using hz)

theorem bRev_nil {t : List Nat} : BRev [] t := by intro j x h; simp at h

theorem bcastOk_iff {a t : List Nat} : bcastOk a t = true ↔ BRev a t := by
  induction a generalizing t with
  | nil => simp [bcastOk, bRev_nil]
  | cons x a ih =>
    cases t with
    | nil =>
      simp only [bcastOk, Bool.false_eq_true, false_iff]
      intro h; obtain ⟨y, hy, -⟩ := h 0 x (by simp); simp at hy
    | cons y t => simp [bcastOk, bRev_cons, ih]

theorem broadcastsTo_iff {s t : List Nat} : BroadcastsTo s t ↔ BRev s.reverse t.reverse := by
  constructor
  · rintro ⟨hl, h⟩ j x hx
    have hj : j < s.length := by
      by_contra hc; rw [List.getElem?_eq_none (by simp; omega)] at hx; simp at hx
    rw [List.getElem?_reverse hj, List.getElem?_eq_getElem (by omega)] at hx
    rw [List.getElem?_reverse (by omega), List.getElem?_eq_getElem (by omega)]
    refine ⟨_, rfl, ?_⟩
    have := h (s.length - 1 - j) (by omega) (by omega)
    simp only [Option.some.injEq] at hx
    rw [hx] at this
    have he : s.length - 1 - j + (t.length - s.length) = t.length - 1 - j := by omega
    simp only [he] at this
    exact this
  · intro h
    have hl : s.length ≤ t.length := by
      by_contra hc
      obtain ⟨y, hy, -⟩ := h t.length (s.reverse[t.length]'(by simp; omega)) (List.getElem?_eq_getElem _)
      rw [List.getElem?_eq_none (by simp)] at hy; simp at hy
    refine ⟨hl, fun k hk hk' => ?_⟩
    obtain ⟨y, hy, hxy⟩ := h (s.length - 1 - k) s[k]
      (by rw [List.getElem?_reverse (by omega)]
          rw [show s.length - 1 - (s.length - 1 - k) = k by omega]; exact List.getElem?_eq_getElem hk)
    rw [List.getElem?_reverse (by omega)] at hy
    rw [show t.length - 1 - (s.length - 1 - k) = k + (t.length - s.length) by omega,
      List.getElem?_eq_getElem hk'] at hy
    simp only [Option.some.injEq] at hy
    rw [hy]; exact hxy

/-- Reversed form of the minimality clause of `CommonShape`. -/
def CRev (a b t : List Nat) : Prop := ∀ (j y : Nat), t[j]? = some y → a[j]? = some y ∨ b[j]? = some y

theorem coRev_spec {a b t : List Nat} (h : coRev a b = some t) : BRev a t ∧ BRev b t ∧ CRev a b t := by
  induction a generalizing b t with
  | nil =>
    simp [coRev] at h; subst h
    exact ⟨bRev_nil, fun j x hx => ⟨x, hx, .inl rfl⟩, fun j y hy => .inr hy⟩
  | cons x a ih =>
    cases b with
    | nil =>
      simp [coRev] at h; subst h
      exact ⟨fun j x hx => ⟨x, hx, .inl rfl⟩, bRev_nil, fun j y hy => .inl hy⟩
    | cons y b =>
      simp only [coRev] at h
      have key : ∀ z t', coRev a b = some t' → (x = z ∨ x = 1) → (y = z ∨ y = 1) → (x = z ∨ y = z) → t = z :: t' →
          BRev (x :: a) t ∧ BRev (y :: b) t ∧ CRev (x :: a) (y :: b) t := by
        rintro z t' ht' h1 h2 h3 rfl
        obtain ⟨i1, i2, i3⟩ := ih ht'
        refine ⟨bRev_cons.2 ⟨h1, i1⟩, bRev_cons.2 ⟨h2, i2⟩, ?_⟩
        intro j w hw
        cases j with
        | zero => simp at hw ⊢; subst hw; exact h3
        | succ j => simpa using i3 j w (by simpa using hw)
      split at h
      · rename_i hxy
        obtain ⟨t', ht', rfl⟩ := Option.map_eq_some_iff.1 h
        exact key x t' ht' (.inl rfl) (.inl hxy.symm) (.inl rfl) rfl
      · split at h
        · rename_i hx
          obtain ⟨t', ht', rfl⟩ := Option.map_eq_some_iff.1 h
          exact key y t' ht' (.inr hx) (.inl rfl) (.inr rfl) rfl
        · split at h
          · rename_i hy
            obtain ⟨t', ht', rfl⟩ := Option.map_eq_some_iff.1 h
            exact key x t' ht' (.inl rfl) (.inr hy) (.inl rfl) rfl
          · simp at h

theorem coRev_of {a b t : List Nat} (h1 : BRev a t) (h2 : BRev b t) (h3 : CRev a b t) : coRev a b = some t := by
  induction t generalizing a b with
  | nil =>
    have ha : a = [] := by
      cases a with
      | nil => rfl
      | cons x a => obtain ⟨y, hy, -⟩ := h1 0 x (by simp); simp at hy
    have hb : b = [] := by
      cases b with
      | nil => rfl
      | cons x b => obtain ⟨y, hy, -⟩ := h2 0 x (by simp); simp at hy
    subst ha hb; rfl
  | cons z t ih =>
    have htail : CRev a.tail b.tail t := by
      intro j y hy
      have := h3 (j + 1) y (by simpa using hy)
      simpa [List.getElem?_tail] using this
    cases a with
    | nil =>
      simp only [coRev, Option.some.injEq]
      apply List.ext_getElem?
      intro j
      cases hz : (z :: t)[j]? with
      | some y => have := h3 j y hz; simpa using this
      | none =>
        cases hb : b[j]? with
        | none => rfl
        | some x => obtain ⟨y, hy, -⟩ := h2 j x hb; rw [hz] at hy; simp at hy
    | cons x a =>
      cases b with
      | nil =>
        simp only [coRev, Option.some.injEq]
        apply List.ext_getElem?
        intro j
        cases hz : (z :: t)[j]? with
        | some y => have := h3 j y hz; simpa using this
        | none =>
          cases hb : (x :: a)[j]? with
          | none => rfl
          | some w => obtain ⟨y, hy, -⟩ := h1 j w hb; rw [hz] at hy; simp at hy
      | cons y b =>
        obtain ⟨hx, h1'⟩ := bRev_cons.1 h1
        obtain ⟨hy, h2'⟩ := bRev_cons.1 h2
        have h0 := h3 0 z (by simp)
        simp at h0
        have := ih h1' h2' htail
        simp only [coRev, this, Option.map_some]
        split
        · rename_i hxy; subst hxy; rcases h0 with h0 | h0 <;> simp [h0]
        · split
          · rename_i hne h1x
            subst h1x
            rcases h0 with h0 | h0
            · subst h0; rcases hy with hy | hy <;> exact absurd hy.symm hne
            · simp [h0]
          · rename_i hne hx1
            rcases hx with hx | hx
            · subst hx
              rcases hy with hy | hy
              · exact absurd hy.symm hne
              · simp [hy]
            · exact absurd hx hx1

theorem commonShape_iff {s0 s1 t : List Nat} : CommonShape s0 s1 t ↔ coBroadcast s0 s1 = some t := by
  have hco : coBroadcast s0 s1 = some t ↔ coRev s0.reverse s1.reverse = some t.reverse := by
    unfold coBroadcast
    constructor
    · intro h
      obtain ⟨u, hu, rfl⟩ := Option.map_eq_some_iff.1 h
      simpa using hu
    · intro h; simp [h]
  rw [hco]
  constructor
  · rintro ⟨hb0, hb1, hl, hc⟩
    refine coRev_of (broadcastsTo_iff.1 hb0) (broadcastsTo_iff.1 hb1) ?_
    intro j y hy
    have hj : j < t.length := by
      by_contra hcon; rw [List.getElem?_eq_none (by simp; omega)] at hy; simp at hy
    rw [List.getElem?_reverse hj, List.getElem?_eq_getElem (by omega)] at hy
    simp only [Option.some.injEq] at hy
    rcases hc (t.length - 1 - j) (by omega) with ⟨i, hi, hij, he⟩ | ⟨i, hi, hij, he⟩
    · left
      have := hb0.1
      rw [List.getElem?_reverse (by omega), show s0.length - 1 - j = i by omega, List.getElem?_eq_getElem hi, ← he, hy]
    · right
      have := hb1.1
      rw [List.getElem?_reverse (by omega), show s1.length - 1 - j = i by omega, List.getElem?_eq_getElem hi, ← he, hy]
  · intro h
    obtain ⟨h1, h2, h3⟩ := coRev_spec h
    have hb0 := broadcastsTo_iff.2 h1
    have hb1 := broadcastsTo_iff.2 h2
    have hc : ∀ k (h : k < t.length),
        (∃ j, ∃ h0 : j < s0.length, j + (t.length - s0.length) = k ∧ t[k] = s0[j]) ∨
        (∃ j, ∃ h1 : j < s1.length, j + (t.length - s1.length) = k ∧ t[k] = s1[j]) := by
      intro k hk
      have hk' : t.reverse[t.length - 1 - k]? = some t[k] := by
        rw [List.getElem?_reverse (by omega), show t.length - 1 - (t.length - 1 - k) = k by omega]
        exact List.getElem?_eq_getElem hk
      rcases h3 _ _ hk' with h | h
      · left
        have hlt : t.length - 1 - k < s0.length := by
          by_contra hcon; rw [List.getElem?_eq_none (by simp; omega)] at h; simp at h
        rw [List.getElem?_reverse hlt, List.getElem?_eq_getElem (by omega)] at h
        have := hb0.1
        exact ⟨_, by omega, by omega, (Option.some.inj h).symm⟩
      · right
        have hlt : t.length - 1 - k < s1.length := by
          by_contra hcon; rw [List.getElem?_eq_none (by simp; omega)] at h; simp at h
        rw [List.getElem?_reverse hlt, List.getElem?_eq_getElem (by omega)] at h
        have := hb1.1
        exact ⟨_, by omega, by omega, (Option.some.inj h).symm⟩
    refine ⟨hb0, hb1, ?_, hc⟩
    have e0 := hb0.1
    have e1 := hb1.1
    by_cases h0 : t.length = 0
    · omega
    · rcases hc 0 (by omega) with ⟨j, hj, he, -⟩ | ⟨j, hj, he, -⟩ <;> omega

/-! Reading through a broadcast. -/

theorem bIdx_length (s idx : List Nat) : (bIdx s idx).length = min s.length idx.length := by simp [bIdx]

theorem bIdx_get {s idx : List Nat} (hl : s.length ≤ idx.length) {k : Nat} (hk : k < s.length)
    (h : k < (bIdx s idx).length) :
    (bIdx s idx)[k] = if s[k] = 1 then 0 else idx[k + (idx.length - s.length)]'(by omega) := by
  simp only [bIdx, List.getElem_reverse, List.getElem_zipWith, List.length_zipWith, List.length_reverse]
  have e1 : s.length - 1 - (min s.length idx.length - 1 - k) = k := by omega
  have e2 : idx.length - 1 - (min s.length idx.length - 1 - k) = k + (idx.length - s.length) := by omega
  simp only [e1, e2]

theorem readsAt_bIdx {s t idx : List Nat} (hb : BroadcastsTo s t) (hi : InB idx t) : ReadsAt s idx (bIdx s idx) := by
  have hl := inB_length hi
  have hsl : s.length ≤ idx.length := by have := hb.1; omega
  refine ⟨inB_iff.2 ⟨by rw [bIdx_length]; omega, fun k h h' => ?_⟩, hsl, ?_⟩
  · rw [bIdx_get hsl h']
    split
    · rename_i h1; omega
    · rename_i h1
      rcases hb.2 k h' (by omega) with h2 | h2
      · rw [h2]
        have := (inB_iff.1 hi).2 (k + (idx.length - s.length)) (by omega) (by omega)
        simpa only [hl] using this
      · exact absurd h2 h1
  · intro k h h' hs hne
    rw [bIdx_get hsl hs, if_neg hne]

theorem readsAt_unique {s idx o : List Nat} (h : ReadsAt s idx o) : o = bIdx s idx := by
  obtain ⟨hib, hl, hr⟩ := h
  have hol := inB_length hib
  refine List.ext_getElem (by rw [bIdx_length]; omega) (fun k h1 h2 => ?_)
  have hs : k < s.length := by omega
  rw [bIdx_get hl hs]
  split
  · rename_i hone
    have := (inB_iff.1 hib).2 k h1 hs
    omega
  · rename_i hne
    exact hr k h1 (by omega) hs hne

theorem readsAt_iff {s t idx o : List Nat} (hb : BroadcastsTo s t) (hi : InB idx t) : ReadsAt s idx o ↔ o = bIdx s idx :=
  ⟨readsAt_unique, fun h => h ▸ readsAt_bIdx hb hi⟩

theorem bIdx_self {t idx : List Nat} (hi : InB idx t) : bIdx t idx = idx := by
  symm
  refine readsAt_unique ⟨hi, (inB_length hi).ge, ?_⟩
  intro k h h' hs _
  simp [inB_length hi]

theorem bIdx_nil (idx : List Nat) : bIdx [] idx = [] := by simp [bIdx]

theorem broadcastsTo_self (t : List Nat) : BroadcastsTo t t := ⟨le_refl _, fun k h h' => .inl (by simp)⟩

theorem broadcastsTo_nil (t : List Nat) : BroadcastsTo [] t := ⟨by simp, fun k h => by simp at h⟩

theorem commonShape_left {s t : List Nat} (h : BroadcastsTo s t) : CommonShape t s t :=
  ⟨broadcastsTo_self t, h, by have := h.1; omega, fun k hk => .inl ⟨k, hk, by simp, rfl⟩⟩

theorem commonShape_comm {s0 s1 t : List Nat} (h : CommonShape s0 s1 t) : CommonShape s1 s0 t :=
  ⟨h.2.1, h.1, by rw [h.2.2.1, max_comm], fun k hk => (h.2.2.2 k hk).symm⟩

theorem commonShape_nil {s t : List Nat} (h : CommonShape [] s t) : t = s := by
  rw [commonShape_iff] at h
  simpa [coBroadcast, coRev] using h.symm

/-- The result of broadcasting the binary operation `f`: the right shape, and at every position `f` of the two
elements read there. -/
def IsBinary (f : R → R → R) (x0 x1 : Arr R) (t : List Nat) (y : Arr R) : Prop :=
  y.shape = t ∧ ∀ idx, InB idx t → y.get idx = f (x0.get (bIdx x0.shape idx)) (x1.get (bIdx x1.shape idx))

theorem zipOp_spec {f : R → R → R} {x0 x1 : Arr R} {t : List Nat} (h : CommonShape x0.shape x1.shape t) :
    ∃ y, zipOp f x0 x1 = .ok y ∧ IsBinary f x0 x1 t y := by
  rw [commonShape_iff] at h
  exact ⟨_, by rw [zipOp, h], rfl, fun idx _ => rfl⟩

theorem ownedOp_spec {f : R → R → R} {x0 x1 : Arr R} {t : List Nat} (h : CommonShape x0.shape x1.shape t) :
    ∃ y, ownedOp f x0 x1 = .ok y ∧ IsBinary f x0 x1 t y := by
  obtain ⟨y, hy, hb⟩ := zipOp_spec (f := f) h
  refine ⟨_, by rw [ownedOp, hy]; rfl, ?_⟩
  split
  · exact hb
  · exact hb

theorem zipOp_none {f : R → R → R} {x0 x1 : Arr R} (h : ¬ ∃ t, CommonShape x0.shape x1.shape t) :
    zipOp f x0 x1 = .error .panic := by
  unfold zipOp
  split
  · rename_i s hs; exact absurd ⟨s, commonShape_iff.2 hs⟩ h
  · rfl

theorem isScalarShape_iff {s : List Nat} : isScalarShape s = true ↔ s = [] ∨ s = [0] := by
  simp [isScalarShape]

theorem scalarElem_nil {x : Arr R} (h : x.shape = []) : scalarElem x = .ok (x.get []) := by simp [scalarElem, h]

theorem binForward_spec {f : R → R → R} (hf : ∀ a b, f a b = f b a) {x0 x1 : Arr R} {t : List Nat}
    (h : CommonShape x0.shape x1.shape t) (h0 : x0.shape = [0] → isScalarShape x1.shape = true)
    (h1 : x1.shape = [0] → isScalarShape x0.shape = true) :
    ∃ y, binForward f x0 x1 = .ok y ∧ IsBinary f x0 x1 t y := by
  unfold binForward
  simp only
  split
  · rename_i hc
    simp only [Bool.and_eq_true, Bool.not_eq_true'] at hc
    rcases isScalarShape_iff.1 hc.1 with hs | hs
    · have ht : t = x1.shape := by rw [hs] at h; exact commonShape_nil h
      refine ⟨map (fun a => f a (x0.get [])) x1, by rw [scalarElem_nil hs]; rfl, ht.symm, fun idx hidx => ?_⟩
      rw [hs, bIdx_nil, bIdx_self (by rwa [← ht])]
      exact hf _ _
    · have := h0 hs; rw [hc.2] at this; simp at this
  · split
    · rename_i hc
      simp only [Bool.and_eq_true, Bool.not_eq_true'] at hc
      rcases isScalarShape_iff.1 hc.1 with hs | hs
      · have ht : t = x0.shape := by rw [hs] at h; exact commonShape_nil (commonShape_comm h)
        refine ⟨map (fun a => f a (x1.get [])) x0, by rw [scalarElem_nil hs]; rfl, ht.symm, fun idx hidx => ?_⟩
        rw [hs, bIdx_nil, bIdx_self (by rwa [← ht])]
        rfl
      · have := h1 hs; rw [hc.2] at this; simp at this
    · exact zipOp_spec h

theorem subOp_spec [Sub R] {x0 x1 : Arr R} {t : List Nat} (h : CommonShape x0.shape x1.shape t) :
    ∃ y, subOp x0 x1 = .ok y ∧ IsBinary (· - ·) x0 x1 t y := by
  unfold subOp
  split
  · rename_i hc
    have hs : x0.shape = [] := List.length_eq_zero_iff.1 hc
    have ht : t = x1.shape := by rw [hs] at h; exact commonShape_nil h
    refine ⟨map (fun a => x0.get [] - a) x1, by rw [scalarElem_nil hs]; rfl, ht.symm, fun idx hidx => ?_⟩
    rw [hs, bIdx_nil, bIdx_self (by rwa [← ht])]
    rfl
  · exact zipOp_spec h

theorem divOp_spec [Field R] {x0 x1 : Arr R} {t : List Nat} (h : CommonShape x0.shape x1.shape t)
    (h0 : x0.shape ≠ [0]) (h1 : x0.shape ≠ [] → x1.shape ≠ [1]) :
    ∃ y, divOp x0 x1 = .ok y ∧ IsBinary (· / ·) x0 x1 t y := by
  unfold divOp
  split
  · rename_i hc
    have hs : x0.shape = [] := by simpa [h0] using hc
    have ht : t = x1.shape := by rw [hs] at h; exact commonShape_nil h
    refine ⟨map (fun a => x0.get [] / a) x1, by rw [scalarElem_nil hs]; rfl, ht.symm, fun idx hidx => ?_⟩
    rw [hs, bIdx_nil, bIdx_self (by rwa [← ht])]
    rfl
  · rename_i hc0
    have hne : x0.shape ≠ [] := by
      intro he; simp [he] at hc0
    split
    · rename_i hc
      have hs : x1.shape = [] := by simpa [h1 hne] using hc
      have ht : t = x0.shape := by rw [hs] at h; exact commonShape_nil (commonShape_comm h)
      refine ⟨map (fun a => a * (1 / x1.get [])) x0, by rw [scalarElem_nil hs]; rfl, ht.symm, fun idx hidx => ?_⟩
      rw [hs, bIdx_nil, bIdx_self (by rwa [← ht])]
      simp only [map]
      ring
    · exact zipOp_spec h

end Verif.Nd
