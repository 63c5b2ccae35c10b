import Verif.Lemmas.MatrixCalls
import Verif.Lemmas.ExpandSqueeze
import Verif.Lemmas.Squeeze
import Verif.Lemmas.ReduceGrad
import Verif.Spec.Normalize

/-! # Calls on arrays of any shape, and normalisation -/

namespace Verif.Prog
open Verif Verif.Nd Verif.Spec

/-- An array of shape `s` with the elements `f`. -/
def IsArr (s : List Nat) (f : List Nat → ℝ) (a : Arr ℝ) : Prop := a.shape = s ∧ ∀ i, InB i s → a.get i = f i

theorem setAt_eq_iff (ks : List Nat) (b : Nat) (o i : List Nat) (h : o.length = i.length) :
    setAt ks 0 b o = setAt ks 0 b i ↔ ∀ k < o.length, b + k ∉ ks → o.getD k 0 = i.getD k 0 := by
  induction o generalizing b i with
  | nil =>
    have : i = [] := List.length_eq_zero_iff.1 h.symm
    subst this; simp
  | cons x o ih =>
    match i, h with
    | y :: i, h =>
      simp only [setAt, List.cons.injEq]
      rw [ih (b + 1) i (by simpa using h)]
      constructor
      · rintro ⟨h1, h2⟩ k hk hn
        match k with
        | 0 => rw [Nat.add_zero] at hn; simpa [hn] using h1
        | k + 1 =>
          have := h2 k (by simpa using hk) (by rw [show b + 1 + k = b + (k + 1) by omega]; exact hn)
          simpa using this
      · intro hk
        refine ⟨?_, fun k hk' hn => ?_⟩
        · by_cases hb : b ∈ ks
          · simp [hb]
          · simpa [hb] using hk 0 (by simp) (by simpa using hb)
        · simpa using hk (k + 1) (by simpa using hk') (by rw [show b + (k + 1) = b + 1 + k by omega]; exact hn)

theorem dropAt_eq_iff (ks : List Nat) (b : Nat) (o i : List Nat) (h : o.length = i.length) :
    dropAt ks b o = dropAt ks b i ↔ ∀ k < o.length, b + k ∉ ks → o.getD k 0 = i.getD k 0 := by
  induction o generalizing b i with
  | nil =>
    have : i = [] := List.length_eq_zero_iff.1 h.symm
    subst this; simp
  | cons x o ih =>
    match i, h with
    | y :: i, h =>
      have ih' := ih (b + 1) i (by simpa using h)
      have hiff : (∀ k < (x :: o).length, b + k ∉ ks → (x :: o).getD k 0 = (y :: i).getD k 0) ↔ (b ∉ ks → x = y) ∧ ∀ k < o.length, b + 1 + k ∉ ks → o.getD k 0 = i.getD k 0 := by
        constructor
        · intro hk
          refine ⟨fun hb => by simpa using hk 0 (by simp) (by simpa using hb), fun k hk' hn => ?_⟩
          simpa using hk (k + 1) (by simpa using hk') (by rw [show b + (k + 1) = b + 1 + k by omega]; exact hn)
        · rintro ⟨h1, h2⟩ k hk hn
          match k with
          | 0 => rw [Nat.add_zero] at hn; simpa using h1 hn
          | k + 1 =>
            have := h2 k (by simpa using hk) (by rw [show b + 1 + k = b + (k + 1) by omega]; exact hn)
            simpa using this
      rw [hiff, ← ih']
      by_cases hb : b ∈ ks
      · simp [dropAt, hb]
      · simp [dropAt, hb]

theorem fibre_line (ks : List Nat) (keep : Bool) {s i : List Nat} (hi : InB i s) : (idxs s).filter (fun o => reducedIdx ks keep o = reducedIdx ks keep i) = line ks s i := by
  refine Finset.filter_congr fun o ho => ?_
  have ho := mem_idxs.1 ho
  have hl : o.length = i.length := (inB_length ho).trans (inB_length hi).symm
  rw [← inB_length ho]
  cases keep with
  | true => simpa [reducedIdx] using setAt_eq_iff ks 0 o i hl
  | false => simpa [reducedIdx] using dropAt_eq_iff ks 0 o i hl

theorem inB_reduced (ks : List Nat) (keep : Bool) {s i : List Nat} (hi : InB i s) : InB (reducedIdx ks keep i) (reducedShape ks keep s) := by
  cases keep with
  | true => simpa [reducedIdx, reducedShape] using inB_setAt ks 0 hi
  | false =>
    simp only [reducedIdx, reducedShape]
    have : ∀ (b : Nat) (i s : List Nat), InB i s → InB (dropAt ks b i) (dropAt ks b s) := by
      intro b i s h
      induction h generalizing b with
      | nil => exact .nil
      | cons h _ ih =>
        simp only [dropAt]
        split
        · exact ih (b + 1)
        · exact .cons h (ih (b + 1))
    exact this 0 i s hi

theorem line_congr {ks s i i' : List Nat} (h : ∀ k < s.length, k ∉ ks → i.getD k 0 = i'.getD k 0) : line ks s i = line ks s i' := by
  refine Finset.filter_congr fun o _ => ?_
  exact ⟨fun H k hk hn => (H k hk hn).trans (h k hk hn), fun H k hk hn => (H k hk hn).trans (h k hk hn).symm⟩

theorem lineMean_congr {ks s : List Nat} {f f' : List Nat → ℝ} {i i' : List Nat} (h : ∀ k < s.length, k ∉ ks → i.getD k 0 = i'.getD k 0) (hf : ∀ o, InB o s → f o = f' o) :
    lineMean ks s f i = lineMean ks s f' i' := by
  unfold lineMean
  rw [line_congr h]
  congr 1
  exact Finset.sum_congr rfl fun o ho => hf o (mem_idxs.1 (Finset.mem_filter.1 ho).1)

theorem lineVariance_congr {ks s : List Nat} {f : List Nat → ℝ} {i i' : List Nat} (h : ∀ k < s.length, k ∉ ks → i.getD k 0 = i'.getD k 0) :
    lineVariance ks s f i = lineVariance ks s f i' := by
  unfold lineVariance
  rw [lineMean_congr (f := f) h (fun _ _ => rfl)]
  exact lineMean_congr h (fun _ _ => rfl)

theorem lineMean_nonneg {ks s : List Nat} {f : List Nat → ℝ} {i : List Nat} (hf : ∀ o, 0 ≤ f o) : 0 ≤ lineMean ks s f i :=
  div_nonneg (Finset.sum_nonneg fun o _ => hf o) (Nat.cast_nonneg _)

theorem lineVariance_nonneg {ks s : List Nat} {f : List Nat → ℝ} {i : List Nat} : 0 ≤ lineVariance ks s f i := lineMean_nonneg fun _ => sq_nonneg _

theorem setAt_agrees (ks i : List Nat) : ∀ k, k ∉ ks → (setAt ks 0 0 i).getD k 0 = i.getD k 0 := by
  intro k hn
  by_cases hk : k < i.length
  · have hk' : k < (setAt ks 0 0 i).length := by rw [setAt_length]; exact hk
    rw [List.getD_eq_getElem?_getD, List.getD_eq_getElem?_getD, List.getElem?_eq_getElem hk, List.getElem?_eq_getElem hk', setAt_getElem ks 0 0 k i hk hk']
    simp [hn]
  · rw [List.getD_eq_getElem?_getD, List.getD_eq_getElem?_getD, List.getElem?_eq_none (by rw [setAt_length]; omega), List.getElem?_eq_none (by omega)]

variable {fs : List (String × Arr ℝ)} {env : List (Arr ℝ)} {vids : List Nat} {α : Type} {σ : St} {Q : St → α → Prop}

/-- The tensor holds the axes `ks`. -/
def HasAxes (σ : St) (vids : List Nat) (rank : Nat) (ks : List Nat) (k : Nat) : Prop :=
  σ.Still vids k ∧ σ.Has k (fun v => v.shape.length = 1 ∧ List.Forall₂ (AxisIs rank) (readAxes v) ks)

theorem HasAxes.mono {τ : St} {rank k : Nat} {ks : List Nat} (h : HasAxes σ vids rank ks k) (hle : σ.Le τ) : HasAxes τ vids rank ks k := ⟨h.1.mono hle, h.2.mono hle⟩

/-- A rule for an arbitrary last call. -/
theorem wp_last {s : Stmt} {v : Arr ℝ} {Q : St → Nat → Prop} (ha : ∀ a ∈ s.args, a < σ.vals.length) (hr : Returns fs env σ.val v s)
    (hok : StmtOk (σ.Still vids) (FlatIn σ.l σ.val) σ.val s) (hgg : GradGivenFor (σ.Still vids) s) (hd : ∀ name d, s ≠ .placeholder name d)
    (hQ : ∀ (τ : St) (k : Nat), σ.Le τ → τ.l[k]? = some s → τ.vals[k]? = some v → Q τ k) : Wp fs env vids (emit s) σ Q :=
  wp_emit ha hr hok hgg (fun name d h => absurd h (hd name d)) fun τ h1 h2 h3 => hQ τ _ h1 h2 h3

theorem mean_emit {x k : Nat} {s ks : List Nat} {f : List Nat → ℝ} {keep : Bool} {Q : St → Nat → Prop} (hx : σ.Has x (IsArr s f)) (hk : HasAxes σ vids s.length ks k) (hnd : ks.Nodup) (hne : ks ≠ [])
    (hpos : ∀ d ∈ s, 0 < d)
    (hQ : ∀ (τ : St) (c : Nat), σ.Le τ → τ.Has c (fun v => v.shape = reducedShape ks keep s ∧ ∀ i, InB i s → v.get (reducedIdx ks keep i) = lineMean ks s f i) → Q τ c) :
    Wp fs env vids (emit (.reduceMean x k keep)) σ Q := by
  have h0 : (σ.val x).shape ≠ [0] := by
    rw [hx.val_eq.1]
    rintro rfl
    exact absurd (hpos 0 (by simp)) (lt_irrefl _)
  have hF : List.Forall₂ (AxisIs (σ.val x).shape.length) (readAxes (σ.val k)) ks := by rw [hx.val_eq.1]; exact hk.2.val_eq.2
  obtain ⟨y, h1, h2, h3⟩ := reduceMean_spec (σ.val x) (readAxes (σ.val k)) ks keep hF h0 hnd
  refine wp_last (by simp [Stmt.args, hx.lt, hk.2.lt]) (v := y) h1 ⟨hk.1, .inr ⟨h0, hk.2.val_eq.1, ks, hF, hnd, hne⟩⟩ hk.1 (by simp) fun τ c hle _ hc => hQ τ c hle (new_has hc ⟨?_, fun i hi => ?_⟩)
  · rw [h2, hx.val_eq.1]
  · have hin : InB (reducedIdx ks keep i) y.shape := by rw [h2, hx.val_eq.1]; exact inB_reduced ks keep hi
    rw [h3 _ hin, hx.val_eq.1, fibre_line ks keep hi]
    have hcard : (line ks s i).card = sizeAt ks 0 s := by
      rw [← fibre_line ks keep hi]
      exact card_fiber ks keep s _ (by rw [← hx.val_eq.1, ← h2]; exact hin)
    unfold lineMean
    rw [hcard, mul_one_div]
    congr 1
    exact Finset.sum_congr rfl fun o ho => hx.val_eq.2 o (mem_idxs.1 (Finset.mem_filter.1 ho).1)

/-- `reduce_mean` that keeps the axes, as a function of the indices of the input. -/
theorem mean_keep {x k : Nat} {s ks : List Nat} {f : List Nat → ℝ} {Q : St → Nat → Prop} (hx : σ.Has x (IsArr s f)) (hk : HasAxes σ vids s.length ks k) (hnd : ks.Nodup) (hne : ks ≠ [])
    (hpos : ∀ d ∈ s, 0 < d) (hQ : ∀ (τ : St) (c : Nat), σ.Le τ → τ.Has c (IsArr (setAt ks 1 0 s) (lineMean ks s f)) → Q τ c) :
    Wp fs env vids (emit (.reduceMean x k true)) σ Q := by
  refine mean_emit (keep := true) hx hk hnd hne hpos fun τ c hle hc => hQ τ c hle ?_
  obtain ⟨v, h1, h2, h3⟩ := hc
  refine ⟨v, h1, h2, fun i hi => ?_⟩
  have hfix : setAt ks 0 0 i = i := by
    have : setAt ks 1 0 (setAt ks 1 0 s) = setAt ks 1 0 s := by
      refine setAt_fix_iff fun k hkk hk' => ?_
      rw [setAt_length] at hk'
      rw [setAt_getElem ks 1 0 k s hk' (by rw [setAt_length]; exact hk')]
      simp [hkk]
    exact setAt_fix this hi
  have hin : InB i s := by
    have : ∀ (b : Nat) (i s : List Nat), (∀ d ∈ s, 0 < d) → InB i (setAt ks 1 b s) → InB i s := by
      intro b i s
      induction s generalizing b i with
      | nil => intro _ h; exact h
      | cons n s ih =>
        intro hp h
        match i, h with
        | a :: i, h =>
          simp only [setAt, inB_cons] at h ⊢
          refine ⟨?_, ih (b + 1) i (fun d hd => hp d (by simp [hd])) h.2⟩
          have := h.1
          split at this
          · have := hp n (by simp); omega
          · exact this
    exact this 0 i s hpos hi
  have := h3 i hin
  rw [reducedIdx, if_pos rfl, hfix] at this
  exact this

theorem pos_setAt {ks s : List Nat} (hpos : ∀ d ∈ s, 0 < d) : ∀ d ∈ setAt ks 1 0 s, 0 < d := by
  have : ∀ (b : Nat) (s : List Nat), (∀ d ∈ s, 0 < d) → ∀ d ∈ setAt ks 1 b s, 0 < d := by
    intro b s
    induction s generalizing b with
    | nil => intro _ d hd; cases hd
    | cons n s ih =>
      intro hp d hd
      simp only [setAt, List.mem_cons] at hd
      rcases hd with rfl | hd
      · split
        · exact Nat.one_pos
        · exact hp n (by simp)
      · exact ih (b + 1) (fun d hd => hp d (by simp [hd])) d hd
  exact this 0 s hpos

theorem inferable_keep {ks s : List Nat} (hpos : ∀ d ∈ s, 0 < d) : Inferable s (setAt ks 1 0 s) := ⟨.inr (.inr (setAt_length ks 1 0 s).symm), hpos, pos_setAt hpos⟩

/-- An array minus one with the kept axes. -/
theorem wp_subKeep {a b : Nat} {s ks : List Nat} {f g : List Nat → ℝ} {rest : Nat → StateM (List Stmt) α} (ha : σ.Has a (IsArr s f)) (hb : σ.Has b (IsArr (setAt ks 1 0 s) g)) (hpos : ∀ d ∈ s, 0 < d)
    (hQ : ∀ (τ : St) (c : Nat), σ.Le τ → τ.Has c (IsArr s fun i => f i - g (setAt ks 0 0 i)) → Wp fs env vids (rest c) τ Q) : Wp fs env vids (emit (.sub a b) >>= rest) σ Q := by
  have hcs : CommonShape (σ.val a).shape (σ.val b).shape s := by rw [ha.val_eq.1, hb.val_eq.1]; exact commonShape_left (broadcastsTo_setAt ks s)
  obtain ⟨z, h1, h2, h3⟩ := subOp_spec hcs
  refine wp_call (by simp [Stmt.args, ha.lt, hb.lt]) (v := z) h1 (by show Inferable _ _; rw [ha.val_eq.1, hb.val_eq.1]; exact inferable_keep hpos) trivial (by simp)
    fun τ c hle _ hc => hQ τ c hle (new_has hc ⟨h2, fun i hi => ?_⟩)
  rw [h3 i hi, ha.val_eq.1, hb.val_eq.1, bIdx_self hi, bIdx_setAt ks hi, ha.val_eq.2 i hi, hb.val_eq.2 _ (inB_setAt ks 0 hi)]

/-- An array times one with the kept axes. -/
theorem mulKeep {a b : Nat} {s ks : List Nat} {f g : List Nat → ℝ} {Q : St → Nat → Prop} (ha : σ.Has a (IsArr s f)) (hb : σ.Has b (IsArr (setAt ks 1 0 s) g)) (hpos : ∀ d ∈ s, 0 < d)
    (hQ : ∀ (τ : St) (c : Nat), σ.Le τ → τ.Has c (IsArr s fun i => f i * g (setAt ks 0 0 i)) → Q τ c) : Wp fs env vids (emit (.mul a b)) σ Q := by
  have hcs : CommonShape (σ.val a).shape (σ.val b).shape s := by rw [ha.val_eq.1, hb.val_eq.1]; exact commonShape_left (broadcastsTo_setAt ks s)
  obtain ⟨z, h1, h2, h3⟩ := mulOp_spec hcs hpos
  refine wp_last (by simp [Stmt.args, ha.lt, hb.lt]) (v := z) h1 (by show Inferable _ _; rw [ha.val_eq.1, hb.val_eq.1]; exact inferable_keep hpos) trivial (by simp)
    fun τ c hle _ hc => hQ τ c hle (new_has hc ⟨h2, fun i hi => ?_⟩)
  rw [h3 i hi, ha.val_eq.1, hb.val_eq.1, bIdx_self hi, bIdx_setAt ks hi, ha.val_eq.2 i hi, hb.val_eq.2 _ (inB_setAt ks 0 hi)]

/-- An array plus one with the kept axes. -/
theorem addKeep {a b : Nat} {s ks : List Nat} {f g : List Nat → ℝ} {Q : St → Nat → Prop} (ha : σ.Has a (IsArr s f)) (hb : σ.Has b (IsArr (setAt ks 1 0 s) g)) (hpos : ∀ d ∈ s, 0 < d)
    (hQ : ∀ (τ : St) (c : Nat), σ.Le τ → τ.Has c (IsArr s fun i => f i + g (setAt ks 0 0 i)) → Q τ c) : Wp fs env vids (emit (.add a b)) σ Q := by
  have hcs : CommonShape (σ.val a).shape (σ.val b).shape s := by rw [ha.val_eq.1, hb.val_eq.1]; exact commonShape_left (broadcastsTo_setAt ks s)
  obtain ⟨z, h1, h2, h3⟩ := binForward_spec (f := fun u v : ℝ => u + v) add_comm hcs (fun h => absurd h (by rw [ha.val_eq.1]; exact ne_zero_shape hpos))
    (fun h => absurd h (by rw [hb.val_eq.1]; exact ne_zero_shape (pos_setAt hpos)))
  refine wp_last (by simp [Stmt.args, ha.lt, hb.lt]) (v := z) h1 (by show Inferable _ _; rw [ha.val_eq.1, hb.val_eq.1]; exact inferable_keep hpos) trivial (by simp)
    fun τ c hle _ hc => hQ τ c hle (new_has hc ⟨h2, fun i hi => ?_⟩)
  rw [h3 i hi, ha.val_eq.1, hb.val_eq.1, bIdx_self hi, bIdx_setAt ks hi, ha.val_eq.2 i hi, hb.val_eq.2 _ (inB_setAt ks 0 hi)]

/-- An array plus a scalar. -/
theorem wp_addScalar {a b : Nat} {c : ℝ} {s : List Nat} {f : List Nat → ℝ} {rest : Nat → StateM (List Stmt) α} (ha : σ.Has a (IsArr s f)) (hb : σ.Has b (fun v => v = ofFn [] fun _ => c)) (hpos : ∀ d ∈ s, 0 < d)
    (hQ : ∀ (τ : St) (k : Nat), σ.Le τ → τ.Has k (IsArr s fun i => f i + c) → Wp fs env vids (rest k) τ Q) : Wp fs env vids (emit (.add a b) >>= rest) σ Q := by
  have hcs : CommonShape (σ.val a).shape (σ.val b).shape s := by
    rw [ha.val_eq.1, hb.val_eq]
    exact commonShape_left ⟨Nat.zero_le _, fun k h h' => absurd h (Nat.not_lt_zero _)⟩
  obtain ⟨z, h1, h2, h3⟩ := binForward_spec (f := fun u v : ℝ => u + v) add_comm hcs (fun h => absurd h (by rw [ha.val_eq.1]; exact ne_zero_shape hpos))
    (fun h => absurd h (by rw [hb.val_eq]; simp [ofFn]))
  refine wp_call (by simp [Stmt.args, ha.lt, hb.lt]) (v := z) h1 ?_ trivial (by simp) fun τ k hle _ hk => hQ τ k hle (new_has hk ⟨h2, fun i hi => ?_⟩)
  · show Inferable _ _
    rw [ha.val_eq.1, hb.val_eq]
    exact ⟨.inr (.inl rfl), hpos, by simp [ofFn]⟩
  · rw [h3 i hi, ha.val_eq.1, bIdx_self hi, ha.val_eq.2 i hi, hb.val_eq]
    rfl

/-- Elementwise ops at elements where they are smooth. -/
theorem wp_unArr {a : Nat} {s : List Nat} {f : List Nat → ℝ} {op : EOp} (hop : ∀ i, InB i s → op.SmoothAt (f i)) (hdiv : ¬ op.DividesArrays ∧ ¬ op.KeepsLayout) (hs : op ≠ .sign) {rest : Nat → StateM (List Stmt) α}
    (ha : σ.Has a (IsArr s f)) (hQ : ∀ (τ : St) (c : Nat), σ.Le τ → τ.Has c (IsArr s fun i => op.f (f i)) → Wp fs env vids (rest c) τ Q) :
    Wp fs env vids (emit (.un op a) >>= rest) σ Q := by
  refine wp_call (by simp [Stmt.args, ha.lt]) (v := Nd.map op.f (σ.val a)) rfl ?_ ?_ (by simp) fun τ c hle _ hc => hQ τ c hle (new_has hc ⟨ha.val_eq.1, fun i hi => ?_⟩)
  · refine .inr ⟨fun i hi => smooth_ok ?_, fun h => absurd h hdiv.1, fun h => absurd h hdiv.2⟩
    rw [ha.val_eq.1] at hi
    rw [ha.val_eq.2 i hi]
    exact hop i hi
  · cases op <;> first | exact absurd rfl hs | trivial
  · show op.f ((σ.val a).get i) = _
    rw [ha.val_eq.2 i hi]

/-- The argument denotes the axes `ks`. -/
def ArgAxes (σ : St) (vids : List Nat) (rank : Nat) (ks : List Nat) : AxesArg → Prop
  | .tensor k => HasAxes σ vids rank ks k
  | .ints a => List.Forall₂ (AxisIs rank) a ks

theorem ArgAxes.mono {τ : St} {rank : Nat} {ks : List Nat} {a : AxesArg} (h : ArgAxes σ vids rank ks a) (hle : σ.Le τ) : ArgAxes τ vids rank ks a := by
  cases a with
  | tensor k => exact HasAxes.mono h hle
  | ints l => exact h

theorem readAxes_ints (l : List Int) : readAxes (vec (l.map fun n : Int => (n : ℝ))) = l := by
  simp [readAxes, toList_vec, List.map_map, Function.comp_def]

theorem asTensor_wp {rank : Nat} {ks : List Nat} {arg : AxesArg} {Q : St → Nat → Prop} (h : ArgAxes σ vids rank ks arg) (hQ : ∀ (τ : St) (k : Nat), σ.Le τ → HasAxes τ vids rank ks k → Q τ k) :
    Wp fs env vids arg.asTensor σ Q := by
  cases arg with
  | tensor k => exact wp_pure (hQ σ k (.refl σ) h)
  | ints l =>
    refine wp_last (by simp [Stmt.args]) (v := vec (l.map fun n : Int => (n : ℝ))) rfl trivial trivial (by simp) fun τ k hle hl hk => hQ τ k hle ⟨.call hl (by simp) (by simp [Stmt.args]), new_has hk ⟨rfl, ?_⟩⟩
    rw [readAxes_ints]; exact h

theorem callMean_wp {x : Nat} {arg : AxesArg} {s ks : List Nat} {f : List Nat → ℝ} {keep : Bool} {Q : St → Nat → Prop} (hx : σ.Has x (IsArr s f)) (hk : ArgAxes σ vids s.length ks arg) (hnd : ks.Nodup)
    (hne : ks ≠ []) (hpos : ∀ d ∈ s, 0 < d)
    (hQ : ∀ (τ : St) (c : Nat), σ.Le τ → τ.Has c (fun v => v.shape = reducedShape ks keep s ∧ ∀ i, InB i s → v.get (reducedIdx ks keep i) = lineMean ks s f i) → Q τ c) :
    Wp fs env vids (callMean x arg keep) σ Q :=
  wp_bind (asTensor_wp hk fun _ _ h1 h2 => mean_emit (hx.mono h1) h2 hnd hne hpos fun τ c h3 h4 => hQ τ c (h1.trans h3) h4)

theorem callMean_keep {x : Nat} {arg : AxesArg} {s ks : List Nat} {f : List Nat → ℝ} {Q : St → Nat → Prop} (hx : σ.Has x (IsArr s f)) (hk : ArgAxes σ vids s.length ks arg) (hnd : ks.Nodup)
    (hne : ks ≠ []) (hpos : ∀ d ∈ s, 0 < d) (hQ : ∀ (τ : St) (c : Nat), σ.Le τ → τ.Has c (IsArr (setAt ks 1 0 s) (lineMean ks s f)) → Q τ c) :
    Wp fs env vids (callMean x arg true) σ Q :=
  wp_bind (asTensor_wp hk fun _ _ h1 h2 => mean_keep (hx.mono h1) h2 hnd hne hpos fun τ c h3 h4 => hQ τ c (h1.trans h3) h4)

theorem line_self {ks s i : List Nat} : ∀ k < s.length, k ∉ ks → (setAt ks 0 0 i).getD k 0 = i.getD k 0 := fun k _ h => setAt_agrees ks i k h

theorem variance_eq {ks s : List Nat} {f : List Nat → ℝ} (i : List Nat) :
    lineMean ks s (fun o => EOp.square.f (f o - lineMean ks s f (setAt ks 0 0 o))) i = lineVariance ks s f i := by
  unfold lineVariance
  have : ∀ (g : List Nat → ℝ) (g' : List Nat → ℝ), (∀ o ∈ line ks s i, g o = g' o) → lineMean ks s g i = lineMean ks s g' i := fun g g' h => by
    unfold lineMean
    rw [Finset.sum_congr rfl h]
  refine this _ _ fun o ho => ?_
  rw [lineMean_congr (f := f) (i := setAt ks 0 0 o) (i' := i) (fun k hk hn => by rw [setAt_agrees ks o k hn]; exact (Finset.mem_filter.1 ho).2 k hk hn) (fun _ _ => rfl)]
  simp [EOp.f, pow_two]

theorem callVariance_wp {x : Nat} {arg : AxesArg} {s ks : List Nat} {f : List Nat → ℝ} {keep : Bool} {Q : St → Nat → Prop} (hx : σ.Has x (IsArr s f)) (hk : ArgAxes σ vids s.length ks arg) (hnd : ks.Nodup)
    (hne : ks ≠ []) (hpos : ∀ d ∈ s, 0 < d)
    (hQ : ∀ (τ : St) (c : Nat), σ.Le τ → τ.Has c (fun v => v.shape = reducedShape ks keep s ∧ ∀ i, InB i s → v.get (reducedIdx ks keep i) = lineVariance ks s f i) → Q τ c) :
    Wp fs env vids (callVariance x arg keep) σ Q := by
  unfold callVariance
  refine wp_bind (callMean_keep hx hk hnd hne hpos fun σ1 m e1 h1 => ?_)
  refine wp_subKeep (hx.mono e1) h1 hpos fun σ2 d e2 h2 => ?_
  refine wp_unArr (op := .square) (fun _ _ => trivial) ⟨fun h => h.elim, fun h => h.elim⟩ (by simp) h2 fun σ3 q e3 h3 => ?_
  refine callMean_wp (keep := keep) h3 (((hk.mono e1).mono e2).mono e3) hnd hne hpos fun τ c e4 h4 => hQ τ c (((e1.trans e2).trans e3).trans e4) ?_
  obtain ⟨v, a1, a2, a3⟩ := h4
  exact ⟨v, a1, a2, fun i hi => by rw [a3 i hi, variance_eq]⟩

theorem callNormalize_wp {eps : ℝ} (heps : 0 < eps) {x : Nat} {arg : AxesArg} {s ks : List Nat} {f : List Nat → ℝ} {Q : St → Nat → Prop} (hx : σ.Has x (IsArr s f)) (hk : ArgAxes σ vids s.length ks arg)
    (hnd : ks.Nodup) (hne : ks ≠ []) (hpos : ∀ d ∈ s, 0 < d) (hQ : ∀ (τ : St) (c : Nat), σ.Le τ → τ.Has c (IsArr s (normalized eps ks s f)) → Q τ c) :
    Wp fs env vids (callNormalize eps x arg) σ Q := by
  unfold callNormalize
  refine wp_bind (asTensor_wp hk fun σ0 k e0 h0 => ?_)
  refine wp_bind (callMean_keep (arg := .tensor k) (hx.mono e0) h0 hnd hne hpos fun σ1 m e1 h1 => ?_)
  refine wp_subKeep ((hx.mono e0).mono e1) h1 hpos fun σ2 d e2 h2 => ?_
  refine wp_unArr (op := .square) (fun _ _ => trivial) ⟨fun h => h.elim, fun h => h.elim⟩ (by simp) h2 fun σ3 q e3 h3 => ?_
  refine wp_bind (callMean_keep (arg := .tensor k) h3 (((h0.mono e1).mono e2).mono e3) hnd hne hpos fun σ4 v e4 h4 => ?_)
  refine wp_call (by simp [Stmt.args]) (v := ofFn [] fun _ => eps) rfl trivial trivial (by simp) fun σ5 c e5 _ h5 => ?_
  refine wp_addScalar (h4.mono e5) (new_has h5 rfl) (pos_setAt hpos) fun σ6 w e6 h6 => ?_
  refine wp_unArr (op := .invSqrt) (fun i _ => ?_) ⟨fun h => h.elim, fun h => h.elim⟩ (by simp) h6 fun σ7 r e7 h7 => ?_
  · show 0 < _
    rw [variance_eq]
    exact add_pos_of_nonneg_of_pos lineVariance_nonneg heps
  refine mulKeep (((((h2.mono e3).mono e4).mono e5).mono e6).mono e7) h7 hpos fun τ z e8 h8 => hQ τ z (((((((((e0.trans e1).trans e2).trans e3).trans e4).trans e5).trans e6).trans e7).trans e8)) ?_
  obtain ⟨v, a1, a2, a3⟩ := h8
  refine ⟨v, a1, a2, fun i hi => ?_⟩
  rw [a3 i hi]
  show (f i - lineMean ks s f (setAt ks 0 0 i)) * EOp.invSqrt.f (lineMean ks s (fun i => EOp.square.f (f i - lineMean ks s f (setAt ks 0 0 i))) (setAt ks 0 0 i) + eps) = _
  rw [variance_eq, lineVariance_congr (i := setAt ks 0 0 i) (i' := i) line_self, lineMean_congr (f := f) (i := setAt ks 0 0 i) (i' := i) line_self (fun _ _ => rfl)]
  simp [EOp.f, normalized, div_eq_mul_inv]

theorem callBatchNorm_wp {eps : ℝ} (heps : 0 < eps) {x scale shift m : Nat} {s : List Nat} {f g h : List Nat → ℝ} {Q : St → Nat → Prop} (hx : σ.Has x (IsArr (m :: s) f))
    (hg : σ.Has scale (IsArr (1 :: s) g)) (hh : σ.Has shift (IsArr (1 :: s) h)) (hm : 0 < m) (hpos : ∀ d ∈ s, 0 < d)
    (hQ : ∀ (τ : St) (c : Nat), σ.Le τ → τ.Has c (IsArr (m :: s) fun i => normalized eps [0] (m :: s) f i * g (0 :: i.tail) + h (0 :: i.tail)) → Q τ c) :
    Wp fs env vids (callBatchNorm eps x scale shift) σ Q := by
  have hp : ∀ d ∈ m :: s, 0 < d := by simpa [hm] using hpos
  have hset : setAt [0] 1 0 (m :: s) = 1 :: s := by rw [setAt_single]; rfl
  unfold callBatchNorm
  refine wp_bind (callNormalize_wp heps hx (ks := [0]) (arg := .ints [0]) (.cons ⟨Nat.succ_pos _, .inl rfl⟩ .nil) (by simp) (by simp) hp fun σ1 n e1 h1 => ?_)
  refine wp_bind (mulKeep (ks := [0]) h1 (by rw [hset]; exact hg.mono e1) hp fun σ2 p e2 h2 => ?_)
  refine addKeep (ks := [0]) h2 (by rw [hset]; exact (hh.mono e1).mono e2) hp fun τ c e3 h3 => hQ τ c ((e1.trans e2).trans e3) ?_
  obtain ⟨v, a1, a2, a3⟩ := h3
  refine ⟨v, a1, a2, fun i hi => ?_⟩
  have : setAt [0] 0 0 i = 0 :: i.tail := by
    rw [setAt_single]
    cases hi with
    | cons _ _ => rfl
  rw [a3 i hi]
  show _ * g (setAt [0] 0 0 i) + h (setAt [0] 0 0 i) = _
  rw [this]

theorem lineMean_single {s o : List Nat} {k : Nat} (hk : k < s.length) (ho : InB o s) (f : List Nat → ℝ) :
    lineMean [k] s f o = (∑ j ∈ Finset.range (s.getD k 0), f (o.set k j)) / (s.getD k 0 : ℕ) := by
  have h : ∀ g : List Nat → ℝ, ∑ p ∈ line [k] s o, g p = ∑ j ∈ Finset.range (s.getD k 0), g (o.set k j) := fun g => by
    have := line_fibre hk ho g
    rw [lineSum] at this
    rw [← this, ← fibre_line [k] true ho]
    simp only [reducedIdx, if_true, setAt_single]
  have hc : ((line [k] s o).card : ℝ) = (s.getD k 0 : ℕ) := by simpa using h fun _ => 1
  rw [lineMean, h, hc]

theorem erase_last (s : List Nat) (n : Nat) : (s ++ [n]).eraseIdx s.length = s := by
  rw [List.eraseIdx_append_of_length_le (le_refl _)]
  simp

theorem callSquaredError_wp {y t n : Nat} {s : List Nat} {f g : List Nat → ℝ} {Q : St → Nat → Prop} (hy : σ.Has y (IsArr (s ++ [n]) f)) (ht : σ.Has t (IsArr (s ++ [n]) g)) (hpos : ∀ d ∈ s ++ [n], 0 < d)
    (hQ : ∀ (τ : St) (c : Nat), σ.Le τ → τ.Has c (IsArr s fun i => (∑ j ∈ Finset.range n, (f (i ++ [j]) - g (i ++ [j])) ^ 2) / n) → Q τ c) :
    Wp fs env vids (callSquaredError y t) σ Q := by
  have hset : setAt [] 1 0 (s ++ [n]) = s ++ [n] := setAt_of_lt (by simp) 1 _
  unfold callSquaredError
  refine wp_subKeep (ks := []) hy (by rw [hset]; exact ht) hpos fun σ1 d e1 h1 => ?_
  refine wp_unArr (op := .square) (fun _ _ => trivial) ⟨fun h => h.elim, fun h => h.elim⟩ (by simp) h1 fun σ2 q e2 h2 => ?_
  refine callMean_wp (ks := [s.length]) (keep := false) h2 (arg := .ints [-1]) (.cons ⟨by simp, .inr (by simp)⟩ .nil) (by simp) (by simp) hpos fun τ c e3 h3 => hQ τ c ((e1.trans e2).trans e3) ?_
  obtain ⟨v, a1, a2, a3⟩ := h3
  refine ⟨v, a1, ?_, fun i hi => ?_⟩
  · rw [a2, reducedShape, if_neg (by simp), dropAt_single, erase_last]
  · have hn : 0 < n := hpos n (by simp)
    have hI : InB (i ++ [0]) (s ++ [n]) := inB_append hi (.cons hn .nil)
    have hl := inB_length hi
    have := a3 (i ++ [0]) hI
    rw [reducedIdx, if_neg (by simp), dropAt_single, ← hl, erase_last] at this
    rw [this, lineMean_single (by simp [hl]) hI]
    have hg : (s ++ [n]).getD i.length 0 = n := by rw [hl]; simp
    rw [hg]
    congr 1
    refine Finset.sum_congr rfl fun j _ => ?_
    have e : setAt [] 0 0 (i ++ [j]) = i ++ [j] := setAt_of_lt (by simp) 0 _
    simp [EOp.f, pow_two, e]

/-! From programs given by their values to the calls made so far, and back. -/

theorem good_of_meant {l : List Stmt} {val : Nat → Arr ℝ} (h : Meant fs env vids l val) : St.Good fs env vids ⟨l, (List.range l.length).map val⟩ := by
  have hv : ∀ k < l.length, St.val ⟨l, (List.range l.length).map val⟩ k = val k := fun k hk => by
    simp [St.val, List.getD_eq_getElem?_getD, hk]
  have hargs : ∀ s ∈ l, ∀ a ∈ s.args, a < l.length := fun s hs a ha => by
    obtain ⟨k, hk⟩ := List.mem_iff_getElem?.1 hs
    have := h.inScope k s hk a ha
    have := (List.getElem?_eq_some_iff.1 hk).1
    omega
  refine ⟨by simp, h.inScope, h.dims, fun k s hk => ?_, fun s hs => ⟨?_, (h.ok s hs).2⟩⟩
  · show Returns _ _ _ (St.val ⟨l, (List.range l.length).map val⟩ k) s
    rw [hv k (List.getElem?_eq_some_iff.1 hk).1]
    exact returns_congr (fun a ha => hv a (hargs s (List.mem_of_getElem? hk) a ha)) (h.values k s hk)
  · have := stmtOk_rename (still' := Fixed l vids) (flat' := FlatIn l (St.val ⟨l, (List.range l.length).map val⟩)) (p' := St.val ⟨l, (List.range l.length).map val⟩) (f := fun k => k) (fun a _ h => h)
      (fun a ha i hf => ?_) (fun a ha => hv a (hargs s hs a ha)) (h.ok s hs).1
    · rwa [rename_id] at this
    · obtain ⟨op, x, h1, h2⟩ := hf
      exact ⟨op, x, h1, by rw [hv x (hargs _ (List.mem_of_getElem? h1) x (by simp [Stmt.args]))]; exact h2⟩

theorem meant_of_good {τ : St} (h : τ.Good fs env vids) : Meant fs env vids τ.l τ.val := ⟨h.inScope, h.dims, h.den, h.ok⟩

theorem has_of_meant {l : List Stmt} {val : Nat → Arr ℝ} {k : Nat} {P : Arr ℝ → Prop} (hk : k < l.length) (h : P (val k)) : St.Has ⟨l, (List.range l.length).map val⟩ k P :=
  ⟨val k, by simp [hk], h⟩

theorem argAxes_of {l : List Stmt} {val : Nat → Arr ℝ} {rank : Nat} {ks : List Nat} {arg : AxesArg} (h : AxesAre l vids val rank ks arg) :
    ArgAxes ⟨l, (List.range l.length).map val⟩ vids rank ks arg ∧ ks.Nodup ∧ ks ≠ [] := by
  cases arg with
  | tensor k =>
    obtain ⟨h1, h2, h3, h4, h5, h6⟩ := h
    exact ⟨⟨h2, has_of_meant h1 ⟨h3, h4⟩⟩, h5, h6⟩
  | ints a => exact h

/-- What the calls made by `m` after a program do. -/
theorem meant_wp {l : List Stmt} {val : Nat → Arr ℝ} {m : StateM (List Stmt) Nat} {P : Arr ℝ → Prop} (h : Meant fs env vids l val)
    (hw : Wp fs env vids m ⟨l, (List.range l.length).map val⟩ fun τ c => τ.Has c P) :
    ∃ val', Meant fs env vids (m l).2 val' ∧ (∀ k < l.length, val' k = val k) ∧ l <+: (m l).2 ∧ (m l).1 < (m l).2.length ∧ P (val' (m l).1) := by
  obtain ⟨vals, h1, h2, h3⟩ := hw (good_of_meant h)
  refine ⟨_, meant_of_good h1, fun k hk => ?_, h2.1, h1.len ▸ h3.lt, h3.val_eq⟩
  have := prefix_get h2.2 (a := val k) (k := k) (by simp [hk])
  simp only at this
  rw [St.val, List.getD_eq_getElem?_getD]
  simp only
  rw [this]; rfl

end Verif.Prog
