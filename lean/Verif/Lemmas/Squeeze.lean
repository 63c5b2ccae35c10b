import Verif.Lemmas.Reductions
import Verif.Spec.Layout

/-!
# Inserting dimensions of size 1, and the gradients of the reductions
-/

namespace Verif.Nd
open Finset
variable {R : Type}

/-- `(s', o')` arises from `(s, o)` by removing dimensions of size 1 (with coordinate 0). -/
inductive Sq : List Nat → List Nat → List Nat → List Nat → Prop
  | nil : Sq [] [] [] []
  | skip {s o s' o'} : Sq s o s' o' → Sq (1 :: s) (0 :: o) s' o'
  | keep {s o s' o'} (n i : Nat) : Sq s o s' o' → Sq (n :: s) (i :: o) (n :: s') (i :: o')

theorem Sq.size {s o s' o' : List Nat} (h : Sq s o s' o') : size s = Nd.size s' := by
  induction h with
  | nil => rfl
  | skip _ ih => simp [Nd.size, ih]
  | keep n i _ ih => simp [Nd.size, ih]

theorem Sq.flat {s o s' o' : List Nat} (h : Sq s o s' o') : flat s o = Nd.flat s' o' := by
  induction h with
  | nil => rfl
  | skip _ ih => simp [Nd.flat, ih]
  | keep n i h ih => simp [Nd.flat, ih, h.size]

theorem Sq.append {s o s' o' t p t' p' : List Nat} (h : Sq s o s' o') (g : Sq t p t' p') : Sq (s ++ t) (o ++ p) (s' ++ t') (o' ++ p') := by
  induction h with
  | nil => simpa using g
  | skip _ ih => exact ih.skip
  | keep n i _ ih => exact ih.keep n i

theorem Sq.reverse {s o s' o' : List Nat} (h : Sq s o s' o') : Sq s.reverse o.reverse s'.reverse o'.reverse := by
  induction h with
  | nil => exact .nil
  | skip _ ih => simpa using ih.append (Sq.nil.skip)
  | keep n i _ ih => simpa using ih.append (Sq.nil.keep n i)

theorem intoShape_sq {a : Arr R} {s : List Nat} (hc : Contig a.shape a.strides) (hs : size s = size a.shape) :
    ∃ r, intoShape a s = some r ∧ r.shape = s ∧ ∀ o o', Sq s o a.shape o' → InB o' a.shape → r.get o = a.get o' := by
  unfold intoShape
  rw [if_pos hs]
  split
  · refine ⟨_, rfl, rfl, fun o o' h hb => ?_⟩
    simp only
    rw [h.flat, unflat_flat hb]
  · rename_i hn
    have hf : a.shape.length > 1 ∧ isStandard a.shape.reverse a.strides.reverse = true := by
      rcases hc with h | h
      · exact absurd h hn
      · exact h
    rw [if_pos (by simpa using hf)]
    refine ⟨_, rfl, rfl, fun o o' h hb => ?_⟩
    simp only
    rw [h.reverse.flat, unflat_flat (inB_reverse.2 hb), List.reverse_reverse]

theorem intoShape_not_contig {a : Arr R} {s : List Nat} (hc : ¬ Contig a.shape a.strides) : intoShape a s = none := by
  unfold intoShape
  unfold Contig at hc
  push Not at hc
  split
  · rw [if_neg hc.1]
    split
    · rename_i h
      simp at h
      exact absurd h.2 (by simpa using hc.2 h.1)
    · rfl
  · rfl

theorem sq_setAt_dropAt (A : List Nat) (i : Nat) (s o : List Nat) (hl : o.length = s.length) :
    Sq (setAt A 1 i s) (setAt A 0 i o) (dropAt A i s) (dropAt A i o) := by
  induction s generalizing i o with
  | nil =>
    have : o = [] := List.length_eq_zero_iff.1 (by simpa using hl)
    subst this; exact .nil
  | cons n s ih =>
    cases o with
    | nil => simp at hl
    | cons j o =>
      have := ih (i + 1) o (by simpa using hl)
      simp only [setAt, dropAt]
      by_cases h : i ∈ A
      · simpa [h] using this.skip
      · simpa [h] using this.keep n j

theorem inB_dropAt (A : List Nat) (i : Nat) {s o : List Nat} (h : InB o s) : InB (dropAt A i o) (dropAt A i s) := by
  induction s generalizing i o with
  | nil => simp at h; subst h; simp [dropAt]
  | cons n s ih =>
    cases o with
    | nil => simp [InB] at h
    | cons j o =>
      simp only [inB_cons] at h
      simp only [dropAt]
      split
      · exact ih (i + 1) h.2
      · exact inB_cons.2 ⟨h.1, ih (i + 1) h.2⟩

theorem inB_setAt (A : List Nat) (i : Nat) {s o : List Nat} (h : InB o s) : InB (setAt A 0 i o) (setAt A 1 i s) := by
  induction s generalizing i o with
  | nil => simp at h; subst h; simp [setAt]
  | cons n s ih =>
    cases o with
    | nil => simp [InB] at h
    | cons j o =>
      simp only [inB_cons] at h
      simp only [setAt, inB_cons]
      exact ⟨by split <;> omega, ih (i + 1) h.2⟩

theorem inB_reduced (A : List Nat) (keep : Bool) {s o : List Nat} (h : InB o s) : InB (reducedIdx A keep o) (reducedShape A keep s) := by
  cases keep
  · simpa [reducedIdx, reducedShape] using inB_dropAt A 0 h
  · simpa [reducedIdx, reducedShape] using inB_setAt A 0 h

theorem setAt_getElem {α : Type} (A : List Nat) (v : α) (i k : Nat) (l : List α) (h : k < l.length) (h' : k < (setAt A v i l).length) :
    (setAt A v i l)[k] = if i + k ∈ A then v else l[k] := by
  induction l generalizing i k with
  | nil => simp at h
  | cons x l ih =>
    cases k with
    | zero => simp [setAt]
    | succ k =>
      simp only [setAt, List.getElem_cons_succ]
      rw [ih (i + 1) k (by simpa using h)]
      rw [show i + 1 + k = i + (k + 1) by omega]

theorem broadcastsTo_setAt (A : List Nat) (s : List Nat) : BroadcastsTo (setAt A 1 0 s) s := by
  refine ⟨by rw [setAt_length], fun k h h' => ?_⟩
  have hk : k < s.length := by rw [setAt_length] at h; exact h
  rw [setAt_getElem A 1 0 k s hk]
  split
  · right; rfl
  · left; simp [setAt_length]

/-- Reading through a broadcast of the reduced dimensions and dropping them. -/
theorem bIdx_setAt (A : List Nat) {s o : List Nat} (h : InB o s) : bIdx (setAt A 1 0 s) o = setAt A 0 0 o := by
  symm
  refine readsAt_unique ⟨inB_setAt A 0 h, by rw [setAt_length, inB_length h], ?_⟩
  intro k h1 h2 h3 hne
  have hk : k < o.length := by rw [setAt_length] at h1; exact h1
  have hks : k < s.length := by rw [setAt_length] at h3; exact h3
  rw [setAt_getElem A 1 0 k s hks] at hne
  rw [setAt_getElem A 0 0 k o hk]
  split
  · rename_i hA; simp at hA; simp [hA] at hne
  · simp [setAt_length, inB_length h]

/-- Ascending insertion of size-1 dimensions undoes `dropAt`. -/
theorem insertOnes_spec (ks : List Nat) (s : List Nat) (hs : ks.Pairwise (· < ·)) (hlt : ∀ k ∈ ks, k < s.length) :
    insertOnes (dropAt ks 0 s) ks = .ok (setAt ks 1 0 s) := by
  -- generalised over the already inserted prefix
  have key : ∀ (rest : List Nat) (i : Nat) (pre t : List Nat), pre.length = i → rest.Pairwise (· < ·) →
      (∀ k ∈ rest, i ≤ k ∧ k < i + t.length) →
      insertOnes (pre ++ dropAt rest i t) rest = .ok (pre ++ setAt rest 1 i t) := by
    intro rest
    induction rest with
    | nil => intro i pre t _ _ _; simp [insertOnes, dropAt_of_lt, setAt_of_lt]
    | cons k rest ih =>
      intro i pre t hpre hp hb
      obtain ⟨hk1, hk2⟩ := hb k (by simp)
      have hgt : ∀ r ∈ rest, k < r := (List.pairwise_cons.1 hp).1
      -- move to the position k
      obtain ⟨u, n, t', ht, hu⟩ : ∃ u n t', t = u ++ n :: t' ∧ i + u.length = k := by
        refine ⟨t.take (k - i), t[k - i]'(by omega), t.drop (k - i + 1), ?_, by simp; omega⟩
        rw [List.cons_getElem_drop_succ, List.take_append_drop]
      have hdrop : ∀ (u : List Nat) (i : Nat) (B : List Nat), (∀ r ∈ B, i + u.length ≤ r) → ∀ v,
          dropAt B i (u ++ v) = u ++ dropAt B (i + u.length) v ∧ ∀ w : Nat, setAt B w i (u ++ v) = u ++ setAt B w (i + u.length) v := by
        intro u
        induction u with
        | nil => intro i B _ v; simp
        | cons x u ih2 =>
          intro i B hB v
          have hni : i ∉ B := fun hi => by have := hB i hi; simp at this
          have := ih2 (i + 1) B (fun r hr => by have := hB r hr; simp at this; omega) v
          simp only [List.cons_append, dropAt, setAt, hni, if_false, this, List.length_cons]
          refine ⟨by rw [show i + 1 + u.length = i + (u.length + 1) by omega], fun w => by rw [show i + 1 + u.length = i + (u.length + 1) by omega]⟩
      have hB : ∀ r ∈ k :: rest, i + u.length ≤ r := by
        intro r hr
        rcases List.mem_cons.1 hr with rfl | hr
        · omega
        · have := hgt r hr; omega
      obtain ⟨e1, e2⟩ := hdrop u i (k :: rest) hB (n :: t')
      have tail1 : dropAt (k :: rest) (k + 1) t' = dropAt rest (k + 1) t' := by
        have : ∀ (t : List Nat) j, k < j → dropAt (k :: rest) j t = dropAt rest j t := by
          intro t
          induction t with
          | nil => intro j _; rfl
          | cons x t ih3 => intro j hj; have : j ≠ k := by omega
                            simp [dropAt, this, ih3 (j + 1) (by omega)]
        exact this t' _ (by omega)
      have tail2 : setAt (k :: rest) 1 (k + 1) t' = setAt rest 1 (k + 1) t' := by
        have : ∀ (t : List Nat) j, k < j → setAt (k :: rest) 1 j t = setAt rest 1 j t := by
          intro t
          induction t with
          | nil => intro j _; rfl
          | cons x t ih3 => intro j hj; have : j ≠ k := by omega
                            simp [setAt, this, ih3 (j + 1) (by omega)]
        exact this t' _ (by omega)
      rw [ht, e1, e2 1, hu]
      simp only [dropAt, setAt, List.mem_cons, true_or, if_true, tail1, tail2]
      rw [insertOnes, if_pos (by simp; omega)]
      rw [← List.append_assoc, show k = (pre ++ u).length by simp; omega, insertIdx_mid]
      have hl : (pre ++ u).length = k := by simp; omega
      rw [hl]
      have := ih (k + 1) (pre ++ u ++ [1]) t' (by simp; omega) (List.pairwise_cons.1 hp).2
        (fun r hr => ⟨hgt r hr, by have := (hb r (by simp [hr])).2; rw [ht] at this; simp at this; omega⟩)
      simpa using this
  simpa using key ks 0 [] s rfl hs (fun k hk => ⟨by omega, by simpa using hlt k hk⟩)

theorem dropAt_length_lt {A s : List Nat} {k : Nat} (hk : k ∈ A) (hl : k < s.length) : (dropAt A 0 s).length < s.length := by
  have hlen : ∀ (l : List Nat) (i : Nat), (dropAt A i l).length ≤ l.length ∧
      ((∃ k ∈ A, i ≤ k ∧ k < i + l.length) → (dropAt A i l).length < l.length) := by
    intro l
    induction l with
    | nil => intro i; refine ⟨by simp [dropAt], ?_⟩; rintro ⟨k, -, h1, h2⟩; simp at h2; omega
    | cons x l ih =>
      intro i
      have hih := ih (i + 1)
      simp only [dropAt]
      by_cases hi : i ∈ A
      · simp only [hi, if_true, List.length_cons]; exact ⟨by omega, fun _ => by omega⟩
      · simp only [hi, if_false, List.length_cons]
        refine ⟨by omega, ?_⟩
        rintro ⟨k, hk, h1, h2⟩
        have : k ≠ i := fun h => hi (h ▸ hk)
        have := hih.2 ⟨k, hk, by omega, by omega⟩
        omega
  exact (hlen s 0).2 ⟨k, hk, by omega, by simpa using hl⟩

theorem reduceGradCommon_spec {gy : Arr R} {s : List Nat} {axes : List Int} {ks : List Nat} {keep : Bool}
    (ha : List.Forall₂ (AxisIs s.length) axes ks) (hnd : ks.Nodup) (hg : gy.shape = reducedShape ks keep s)
    (h0 : keep = true → isScalarShape s = false) (hc : keep = true ∨ Contig gy.shape gy.strides) :
    ∃ g, reduceGradCommon gy s axes (!keep) = .ok g ∧ g.shape = s ∧
      ∀ o, InB o s → g.get o = gy.get (reducedIdx ks keep o) := by
  have hlt := axes_lt ha
  have hmem : ∀ k, k ∈ sortAxes ks ↔ k ∈ ks := fun k => (sortAxes_perm ks).mem_iff
  have hbt : BroadcastsTo (setAt ks 1 0 s) s := broadcastsTo_setAt ks s
  have hbok : ∀ {t : List Nat}, BroadcastsTo t s → bcastOk t.reverse s.reverse = true :=
    fun h => bcastOk_iff.2 (broadcastsTo_iff.1 h)
  unfold reduceGradCommon
  split
  · rename_i he
    refine ⟨gy, rfl, he, fun o ho => ?_⟩
    congr 1
    cases keep with
    | true =>
      simp only [reducedIdx, if_true]
      rw [← bIdx_setAt ks ho]
      have : setAt ks 1 0 s = s := by rw [hg] at he; simpa [reducedShape] using he
      rw [this, bIdx_self ho]
    | false =>
      have he' : dropAt ks 0 s = s := by rw [hg] at he; simpa [reducedShape] using he
      have hn : ks = [] := by
        cases hk : ks with
        | nil => rfl
        | cons k ks' =>
          exfalso
          have := dropAt_length_lt (A := ks) (show k ∈ ks by rw [hk]; simp) (hlt k (by rw [hk]; simp))
          rw [he'] at this; omega
      rw [hn]; simp [reducedIdx, dropAt_of_lt]
  · cases keep with
    | false =>
      simp only [Bool.not_false, Bool.true_or, if_true]
      have hgs : gy.shape = dropAt (sortAxes ks) 0 s := by
        rw [hg]; simp only [reducedShape]; exact (dropAt_congr hmem 0 s).symm
      have hset : setAt (sortAxes ks) 1 0 s = setAt ks 1 0 s := setAt_congr hmem 1 0 s
      have hins : insertOnes gy.shape (sortAxes ks) = .ok (setAt ks 1 0 s) := by
        rw [hgs, insertOnes_spec _ _ (sortAxes_lt hnd) (fun k hk => hlt k ((hmem k).1 hk)), hset]
      have hcc : Contig gy.shape gy.strides := by simpa using hc
      have hgs2 : gy.shape = dropAt ks 0 s := by rw [hg]; simp [reducedShape]
      have hsz : size (setAt ks 1 0 s) = size gy.shape := by
        rw [hgs2]
        exact (sq_setAt_dropAt ks 0 s s rfl).size
      obtain ⟨r, hr, hrs, hrg⟩ := intoShape_sq hcc hsz
      simp only [normAxes_spec ha, hins, hr, unwrap, bind, Except.bind, broadcast, hrs, hbok hbt, if_true]
      refine ⟨_, rfl, rfl, fun o ho => ?_⟩
      simp only [toOwned, map, id]
      rw [bIdx_setAt ks ho]
      have := hrg (setAt ks 0 0 o) (dropAt ks 0 o) (by rw [hgs2]; exact sq_setAt_dropAt ks 0 s o (inB_length ho))
        (by rw [hgs2]; exact inB_dropAt ks 0 ho)
      rw [this]; simp [reducedIdx]
    | true =>
      have hgs : gy.shape = setAt ks 1 0 s := by rw [hg]; simp [reducedShape]
      have hsc : isScalarShape gy.shape = false := by
        have h := h0 rfl
        rw [← Bool.not_eq_true, isScalarShape_iff] at h ⊢
        rw [hgs]
        rintro (h' | h')
        · apply h; left
          have := congrArg List.length h'; rw [setAt_length] at this
          exact List.length_eq_zero_iff.1 (by simpa using this)
        · cases s with
          | nil => simp [setAt] at h'
          | cons n s =>
            simp only [setAt, List.cons.injEq] at h'
            apply h; right
            have hs : s = [] := by
              have := congrArg List.length h'.2; rw [setAt_length] at this
              exact List.length_eq_zero_iff.1 (by simpa using this)
            have : n = 0 := by
              have := h'.1
              split at this <;> omega
            rw [this, hs]
      simp only [Bool.not_true, hsc, Bool.or_self]
      simp only [broadcast, hgs, hbok hbt, if_true, unwrap, bind, Except.bind]
      refine ⟨_, rfl, rfl, fun o ho => ?_⟩
      simp only [toOwned, map, id]
      rw [bIdx_setAt ks ho]; simp [reducedIdx]

end Verif.Nd
