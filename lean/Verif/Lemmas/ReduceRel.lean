import Verif.Lemmas.ReduceProps

/-!
# Reductions of related arrays, and minima and maxima of bounded arrays
-/

namespace Verif.Nd
open Finset
variable {R S : Type}

/-- Same shape, same strides, related elements. -/
def RelArr (P : R → S → Prop) (x : Arr R) (x' : Arr S) : Prop :=
  x.shape = x'.shape ∧ x.strides = x'.strides ∧ ∀ o, InB o x.shape → P (x.get o) (x'.get o)

/-- Both results are related arrays, or both are the same failure. -/
def RelRes {A B : Type} (P : A → B → Prop) : Res A → Res B → Prop
  | .ok a, .ok b => P a b
  | .error e, .error e' => e = e'
  | _, _ => False

theorem RelRes.bind {A B A' B' : Type} {P : A → B → Prop} {Q : A' → B' → Prop} {r : Res A} {r' : Res B} {f : A → Res A'} {f' : B → Res B'}
    (h : RelRes P r r') (hf : ∀ a b, P a b → RelRes Q (f a) (f' b)) : RelRes Q (r >>= f) (r' >>= f') := by
  cases r <;> cases r' <;> simp only [RelRes] at h
  · simpa [Bind.bind, Except.bind, RelRes] using h
  · exact hf _ _ h

theorem foldAxis_rel {P : R → S → Prop} {x : Arr R} {x' : Arr S} (h : RelArr P x x') {f : R → R → R} {f' : S → S → S} {i : R} {i' : S}
    (hi : P i i') (hf : ∀ a a' b b', P a a' → P b b' → P (f a b) (f' a' b')) (k : Nat) :
    RelRes (RelArr P) (foldAxis x k i f) (foldAxis x' k i' f') := by
  obtain ⟨hs, _, hg⟩ := h
  unfold foldAxis
  rw [← hs]
  cases hn : x.shape[k]? with
  | none => simp [RelRes]
  | some n =>
    refine ⟨rfl, rfl, fun o ho => ?_⟩
    simp only [ofFn] at ho ⊢
    have : ∀ (l : List Nat) (acc : R) (acc' : S), (∀ j ∈ l, j < n) → P acc acc' →
        P (l.foldl (fun acc j => f acc (x.get (o.insertIdx k j))) acc) (l.foldl (fun acc j => f' acc (x'.get (o.insertIdx k j))) acc') := by
      intro l
      induction l with
      | nil => intro acc acc' _ h; exact h
      | cons j l ih =>
        intro acc acc' hl h
        simp only [List.foldl_cons]
        exact ih _ _ (fun m hm => hl m (by simp [hm])) (hf _ _ _ _ h (hg _ (inB_insert_erase hn (hl j (by simp)) ho)))
    exact this _ _ _ (by simp) hi

theorem intoShape_rel {P : R → S → Prop} {x : Arr R} {x' : Arr S} (h : RelArr P x x') (s : List Nat) :
    RelRes (RelArr P) (unwrap (intoShape x s)) (unwrap (intoShape x' s)) := by
  obtain ⟨hs, ht, hg⟩ := h
  unfold intoShape
  rw [← hs, ← ht]
  split
  · rename_i hsz
    split
    · refine ⟨rfl, rfl, fun o ho => hg _ ?_⟩
      have := flat_lt ho
      simp only at this
      exact inB_unflat (by omega)
    · split
      · refine ⟨rfl, rfl, fun o ho => hg _ ?_⟩
        have := flat_lt (inB_reverse.2 ho)
        simp only at this
        rw [size_reverse, hsz, ← size_reverse] at this
        have := inB_unflat this
        rw [← inB_reverse] at this
        simpa using this
      · simp [unwrap, RelRes]
  · simp [unwrap, RelRes]

theorem expandDims_rel {P : R → S → Prop} {x : Arr R} {x' : Arr S} (h : RelArr P x x') (k : Nat) :
    RelRes (RelArr P) (expandDims x k) (expandDims x' k) := by
  unfold expandDims
  rw [← h.1]
  split
  · exact intoShape_rel h _
  · simp [RelRes]

theorem reduceAxes_rel {P : R → S → Prop} {x : Arr R} {x' : Arr S} {f : R → R → R} {f' : S → S → S} {i : R} {i' : S}
    (hi : P i i') (hf : ∀ a a' b b', P a a' → P b b' → P (f a b) (f' a' b')) (keep : Bool) (ks : List Nat)
    (fo : Option (Arr R)) (fo' : Option (Arr S)) (hfo : RelArr P (fo.getD x) (fo'.getD x')) :
    RelRes (fun a b => RelArr P (a.getD x) (b.getD x')) (reduceAxes f i keep x ks fo) (reduceAxes f' i' keep x' ks fo') := by
  induction ks generalizing fo fo' with
  | nil => exact hfo
  | cons k ks ih =>
    unfold reduceAxes
    refine (foldAxis_rel hfo hi hf k).bind fun a b hab => ?_
    cases keep with
    | false => exact ih _ _ hab
    | true => exact (expandDims_rel hab k).bind fun a b hab => ih _ _ hab

theorem reduceForward_rel {P : R → S → Prop} {x : Arr R} {x' : Arr S} (h : RelArr P x x') {f : R → R → R} {f' : S → S → S} {i : R} {i' : S}
    (hi : P i i') (hf : ∀ a a' b b', P a a' → P b b' → P (f a b) (f' a' b')) (keep : Bool) (ks : List Nat) :
    RelRes (RelArr P) (reduceForward f i x ks keep) (reduceForward f' i' x' ks keep) := by
  unfold reduceForward
  rw [← h.1]
  split
  · exact h
  · split
    · exact h
    · exact (reduceAxes_rel hi hf keep _ none none h).bind fun a b hab => hab

theorem reduceForward_min [LinearOrder R] (top : R) (x : Arr R) (ks : List Nat) (keep : Bool) (htop : ∀ o, InB o x.shape → x.get o ≤ top)
    (hx : x.shape ≠ [0]) (hnd : ks.Nodup) (hlt : ∀ k ∈ ks, k < x.shape.length) :
    ∃ y, reduceForward min top x ks keep = .ok y ∧ y.shape = reducedShape ks keep x.shape ∧
      ∀ idx, InB idx y.shape → (∀ o ∈ fibre ks keep x.shape idx, y.get idx ≤ x.get o) ∧
        ((fibre ks keep x.shape idx).Nonempty → ∃ o ∈ fibre ks keep x.shape idx, y.get idx = x.get o) := by
  let S := {a : R // a ≤ top}
  let x' : Arr S := ⟨x.shape, x.strides, fun o => ⟨min (x.get o) top, min_le_right _ _⟩⟩
  have hrel : RelArr (fun (a : R) (b : S) => a = b.1) x x' := ⟨rfl, rfl, fun o ho => (min_eq_left (htop o ho)).symm⟩
  have hall : ∀ a : S, a ≤ ⟨top, le_refl _⟩ := fun a => a.2
  obtain ⟨y', hy', hs', hF⟩ := @reduceForward_spec S (minMonoid _ hall) x' ks keep hx hnd hlt
  have hr := reduceForward_rel (f := min) (f' := (min : S → S → S)) (i := top) (i' := ⟨top, le_refl _⟩) hrel rfl
    (by rintro a a' b b' rfl rfl; rcases le_total a' b' with h | h
        · rw [min_eq_left h, min_eq_left (show a'.1 ≤ b'.1 from h)]
        · rw [min_eq_right h, min_eq_right (show b'.1 ≤ a'.1 from h)]) keep ks
  have hy'' : reduceForward (min : S → S → S) ⟨top, le_refl _⟩ x' ks keep = .ok y' := hy'
  rw [hy''] at hr
  cases hy : reduceForward min top x ks keep with
  | error e => rw [hy] at hr; simp [RelRes] at hr
  | ok y =>
    rw [hy] at hr
    obtain ⟨h1, _, h3⟩ := hr
    refine ⟨y, rfl, by rw [h1, hs'], fun idx hi => ?_⟩
    obtain ⟨m1, m2⟩ := minMonoid_sum _ hall (fibre ks keep x'.shape idx) x'.get
    have he := @FiberSum.sum _ (minMonoid _ hall) _ _ _ hF idx (by rw [← h1]; exact hi)
    change _ = @Finset.sum _ _ (minMonoid _ hall) (fibre ks keep x'.shape idx) x'.get at he
    rw [← he] at m1 m2
    have hin : ∀ o ∈ fibre ks keep x.shape idx, InB o x.shape := fun o ho => by simpa using (Finset.mem_filter.1 ho).1
    refine ⟨fun o ho => ?_, fun hne => ?_⟩
    · rw [h3 idx hi, hrel.2.2 o (hin o ho)]; exact m1 o ho
    · obtain ⟨o, ho, h⟩ := m2 hne
      exact ⟨o, ho, by rw [h3 idx hi, hrel.2.2 o (hin o ho), h]⟩

theorem reduceForward_max [LinearOrder R] (bot : R) (x : Arr R) (ks : List Nat) (keep : Bool) (hbot : ∀ o, InB o x.shape → bot ≤ x.get o)
    (hx : x.shape ≠ [0]) (hnd : ks.Nodup) (hlt : ∀ k ∈ ks, k < x.shape.length) :
    ∃ y, reduceForward max bot x ks keep = .ok y ∧ y.shape = reducedShape ks keep x.shape ∧
      ∀ idx, InB idx y.shape → (∀ o ∈ fibre ks keep x.shape idx, x.get o ≤ y.get idx) ∧
        ((fibre ks keep x.shape idx).Nonempty → ∃ o ∈ fibre ks keep x.shape idx, y.get idx = x.get o) := by
  obtain ⟨y, hy, hs, h⟩ := @reduceForward_min Rᵒᵈ _ bot x ks keep hbot hx hnd hlt
  exact ⟨y, hy, hs, h⟩

end Verif.Nd
