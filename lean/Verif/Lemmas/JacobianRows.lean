import Verif.Model.Jacobian
import Verif.Lemmas.ProgramSafe
import Verif.Lemmas.ProgramValues
import Verif.Lemmas.ExpandSqueeze

/-! The matrices that `jacobians` puts together from gradients. -/

namespace Verif.Prog
open Verif Verif.Graph Verif.Nd Verif.Hint Verif.Gradient Verif.Spec Verif.Eval

/-- The array `w` is the array `v` as a matrix of one row. -/
def IsRow (v w : Arr ℝ) : Prop := w.shape = [1, Nd.size v.shape] ∧ ∀ k < Nd.size v.shape, w.get [0, k] = v.get (unflat v.shape k)

theorem cont_reshape {x y : Arr ℝ} {s : List Int} (h : Nd.reshape x s = .ok y) : Cont y := by
  unfold Nd.reshape at h
  simp only [bind_ok] at h
  obtain ⟨t, _, h⟩ := h
  split at h
  · split at h
    · rename_i a ha
      cases h
      exact cont_intoShape ha
    · revert h
      cases hc : intoShape (deepCopy x) t with
      | none => intro h; cases h
      | some b => intro h; cases h; exact cont_intoShape hc
  · revert h
    cases hc : intoShape (deepCopy x) t with
    | none => intro h; cases h
    | some b => intro h; cases h; exact cont_intoShape hc

theorem readDims_neg : readDims (ofFn [] (fun _ => (-1 : ℝ))) = [-1] := by
  simp [readDims, toList, ofFn, Nd.size, readDim, unflat]

theorem readInts_zero : readInts (vec [0]) = [((0 : Nat) : Int)] := by
  simp [readInts, toList, vec, ofFn, Nd.size, trunc, unflat]

theorem flatten_run (v : Arr ℝ) : ∃ f, POp.run .reshape [v, ofFn [] (fun _ => (-1 : ℝ))] = .ok f ∧ f.shape = [Nd.size v.shape] ∧ Cont f ∧
    ∀ k < Nd.size v.shape, f.get [k] = v.get (unflat v.shape k) := by
  have hr : ReshapesTo v.shape [-1] [Nd.size v.shape] := by
    refine ⟨by simp [size_eq_prod], by simp, by simp, fun k hk => ?_⟩
    rcases k with _ | k
    · simp
    · simp at hk
  obtain ⟨f, h1, h2, h3⟩ := reshape_ok hr
  refine ⟨f, ?_, h2, cont_reshape h1, fun k hk => ?_⟩
  · show Nd.reshape v (readDims _) = _
    rw [readDims_neg]; exact h1
  · rw [h3 [k] (.cons hk .nil)]
    simp [flat, Nd.size]

theorem expand_run {f : Arr ℝ} {n : Nat} (hs : f.shape = [n]) (hc : Cont f) : ∃ w, POp.run .expandDims [f, vec [0]] = .ok w ∧ w.shape = [1, n] ∧
    ∀ k < n, w.get [0, k] = f.get [k] := by
  obtain ⟨w, h1, h2, h3, h4, h5⟩ := expand_spec (x := f) (ks := [0]) (by simp) (by simp) hc.1
  have hw : w.shape = [1, n] := by
    rw [hs] at h2 h4
    obtain ⟨a, b, hab⟩ := List.length_eq_two.1 h2
    rw [hab] at h3 h4 ⊢
    simp [setAt] at h3
    simp [dropAt] at h4
    rw [h4, h3]
  refine ⟨w, ?_, hw, fun k hk => ?_⟩
  · show expandDimsOp f (readInts _) = _
    rw [readInts_zero]; exact h1
  · rw [h5 [0, k] (by rw [hw]; exact .cons (by omega) (.cons hk .nil))]
    simp [dropAt]

section
variable {F : List (Feed (Arr ℝ))} {N : List (Arr ℝ)}

theorem rowT_evals {g g' : Graph POp} {x t : Nat} {v : Arr ℝ} (h : rowT g x = .ok (g', t)) (hc : InputsExist g) (hx : Evals (setting F N) g x v) :
    Grows g g' ∧ InputsExist g' ∧ ∃ w, Evals (setting F N) g' t w ∧ IsRow v w := by
  simp only [rowT, bind_ok] at h
  obtain ⟨⟨g1, c⟩, h1, ⟨g2, f⟩, h2, ⟨g3, a⟩, h3, h4⟩ := h
  obtain ⟨fv, f1, f2, f3, f4⟩ := flatten_run v
  obtain ⟨w, w1, w2, w3⟩ := expand_run f2 f3
  obtain ⟨a1, a2, a3⟩ := mk_evals (F := F) (N := N) h1 hc (.scalar (-1)) [] [] _ rfl .nil rfl
  obtain ⟨b1, b2, b3⟩ := mk_evals (F := F) (N := N) h2 a2 .reshape [x, c] [v, _] _ rfl (.cons (Evals.mono a1 hc hx) (.cons a3 .nil)) f1
  obtain ⟨c1, c2, c3⟩ := mk_evals (F := F) (N := N) h3 b2 (.const (vec [0])) [] [] _ rfl .nil rfl
  obtain ⟨d1, d2, d3⟩ := mk_evals (F := F) (N := N) h4 c2 .expandDims [f, a] [fv, _] _ rfl (.cons (Evals.mono c1 b2 b3) (.cons c3 .nil)) w1
  exact ⟨((a1.trans b1).trans c1).trans d1, d2, w, d3, w2, fun k hk => by rw [w3 k hk, f4 k hk]⟩

theorem rowsT_evals : ∀ {xs : List Nat} {vs : List (Arr ℝ)} {g g' : Graph POp} {ts : List Nat}, rowsT xs g = .ok (g', ts) → InputsExist g →
    List.Forall₂ (Evals (setting F N) g) xs vs →
    Grows g g' ∧ InputsExist g' ∧ ∃ ws, List.Forall₂ (Evals (setting F N) g') ts ws ∧ List.Forall₂ IsRow vs ws := by
  intro xs
  induction xs with
  | nil =>
    intro vs g g' ts h hc hx
    cases h; cases hx
    exact ⟨grows_refl _, hc, [], .nil, .nil⟩
  | cons x xs ih =>
    intro vs g g' ts h hc hx
    simp only [rowsT, bind_ok] at h
    obtain ⟨⟨g1, t⟩, h1, ⟨g2, ts'⟩, h2, h3⟩ := h
    cases h3
    cases hx with
    | cons hx hxs =>
      obtain ⟨a1, a2, w, a3, a4⟩ := rowT_evals h1 hc hx
      obtain ⟨b1, b2, ws, b3, b4⟩ := ih h2 a2 (hxs.imp fun _ _ h => Evals.mono a1 hc h)
      exact ⟨a1.trans b1, b2, w :: ws, .cons (Evals.mono b1 a2 a3) b3, .cons a4 b4⟩

/-- Rows one below the other. -/
theorem concat_rows (lay : List Int) {m : Nat} {ws : List (Arr ℝ)} (hne : ws ≠ []) (hw : ∀ w ∈ ws, w.shape = [1, m]) :
    ∃ M, Nd.concat lay ws 0 = .ok M ∧ M.shape = [ws.length, m] ∧ ∀ i w, ws[i]? = some w → ∀ k < m, M.get [i, k] = w.get [0, k] := by
  have ha : AgreeOutside 2 0 [m] ws := fun w h => by simp [hw w h]
  have hoff : ∀ i ≤ ws.length, partOffset 0 ws i = i := by
    intro i hi
    unfold partOffset
    have : (ws.take i).map (fun x => x.shape.getD 0 0) = List.replicate i 1 := by
      rw [List.eq_replicate_iff]
      refine ⟨by simp [hi], fun b hb => ?_⟩
      obtain ⟨w, h1, rfl⟩ := List.mem_map.1 hb
      rw [hw w (List.mem_of_mem_take h1)]; rfl
    rw [this]; simp
  obtain ⟨M, h1, h2, h3⟩ := concatenate_spec lay hne (k := 0) (by omega) ha
  refine ⟨M, ?_, by rw [h2, hoff _ (le_refl _)]; rfl, fun i w hi k hk => ?_⟩
  · obtain ⟨a, as, rfl⟩ := List.exists_cons_of_ne_nil hne
    simp only [Nd.concat]
    rw [hw a (by simp), show normAxis [1, m].length 0 = some 0 from normAxis_ok (n := 2) (k := 0) (a := 0) ⟨by omega, .inl rfl⟩]
    simp only [h1, orOpError]
  · have hs := hw w (List.mem_of_getElem? hi)
    have := h3 i w [0, k] hi (by rw [hs]; exact .cons (by omega) (.cons hk .nil))
    rw [hoff i (List.getElem?_eq_some_iff.1 hi).1.le] at this
    simpa [shiftAt] using this

end

/-! ## Building succeeds -/

theorem rowT_safe {g : Graph POp} {x : Nat} (hx : x < g.nodes.length) : Safe g (rowT g x) (fun g' t => t < g'.nodes.length) := by
  unfold rowT
  refine (mk_safe (op := .scalar (-1)) (is := []) rfl (by simp [ctorUses])).bind fun g1 c h1 k1 => ?_
  refine (mk_safe (op := .reshape) (is := [inp x, inp c]) rfl (by simpa [ctorUses, inp] using ⟨grows_lt h1 hx, k1⟩)).bind fun g2 f h2 k2 => ?_
  refine (mk_safe (op := .const (vec [0])) (is := []) rfl (by simp [ctorUses])).bind fun g3 a h3 k3 => ?_
  exact mk_safe (op := .expandDims) (is := [inp f, inp a]) rfl (by simpa [ctorUses, inp] using ⟨grows_lt h3 k2, k3⟩)

theorem rowsT_safe : ∀ {xs : List Nat} {g : Graph POp}, (∀ x ∈ xs, x < g.nodes.length) →
    Safe g (rowsT xs g) (fun g' ts => ts.length = xs.length ∧ ∀ t ∈ ts, t < g'.nodes.length) := by
  intro xs
  induction xs with
  | nil => intro g _; exact Safe.pure (by simp)
  | cons x xs ih =>
    intro g hx
    unfold rowsT
    refine (rowT_safe (hx x (by simp))).bind fun g1 t h1 k1 => ?_
    refine (ih fun z hz => grows_lt h1 (hx z (by simp [hz]))).bind fun g2 ts h2 k2 => ?_
    exact Safe.pure ⟨by simp [k2.1], by simpa using ⟨grows_lt h2 k1, k2.2⟩⟩

theorem column_ok {P : Nat → Nat → Nat → Prop} {xs : List Nat} {j x : Nat} (hj : xs[j]? = some x) : ∀ {is : List Nat} {vecs : List (List Nat)},
    List.Forall₂ (fun i v => List.Forall₂ (P i) xs v) is vecs → ∃ col, column j vecs = .ok col ∧ List.Forall₂ (fun i t => P i x t) is col := by
  intro is vecs h
  induction h with
  | nil => exact ⟨[], rfl, .nil⟩
  | @cons i v is vecs h1 _ ih =>
    obtain ⟨col, h2, h3⟩ := ih
    obtain ⟨hlt, hx⟩ := List.getElem?_eq_some_iff.1 hj
    have hlv : j < v.length := by rw [← h1.length_eq]; exact hlt
    have hP : P i x v[j] := by
      have := List.Forall₂.get h1 hlt hlv
      rw [List.get_eq_getElem, List.get_eq_getElem, hx] at this
      exact this
    refine ⟨v[j] :: col, ?_, .cons hP h3⟩
    unfold column at h2 ⊢
    rw [List.mapM_cons, h2, List.getElem?_eq_getElem hlv]
    rfl

/-- The matrices are built, unless the graph gets too large, and have the gradients of the elements as rows. -/
theorem matrices_ok (lay : List (Arr ℝ) → List Int) {F : List (Feed (Arr ℝ))} {N : List (Arr ℝ)} {is xs : List Nat} (hne : is ≠ []) {s : Nat → List Nat} {D : Nat → Nat → Arr ℝ}
    {vecs : List (List Nat)} : ∀ {js zs : List Nat} {g : Graph POp}, HintsIn g → InputsExist g →
    List.Forall₂ (fun i v => List.Forall₂ (fun x t => Evals (setting F N) g t (D i x) ∧ (D i x).shape = s x) xs v) is vecs →
    List.Forall₂ (fun j x => xs[j]? = some x) js zs →
    matrices lay vecs js g = .error (.grad (.graph .graphTooLarge)) ∨
    ∃ g' ms, matrices lay vecs js g = .ok (g', ms) ∧ Grows g g' ∧ InputsExist g' ∧
      List.Forall₂ (fun x t => ∃ M, Evals (setting F N) g' t M ∧ M.shape = [is.length, Nd.size (s x)] ∧
        ∀ (k i : Nat), is[k]? = some i → ∀ q < Nd.size (s x), M.get [k, q] = (D i x).get (unflat (s x) q)) zs ms := by
  intro js
  induction js with
  | nil =>
    intro zs g hi hc hv hz
    cases hz
    exact .inr ⟨g, [], rfl, grows_refl _, hc, .nil⟩
  | cons j js ih =>
    intro zs g hi hc hv hz
    cases hz with
    | @cons _ x _ zs hj hz =>
    obtain ⟨col, hcol, hP⟩ := column_ok hj hv
    have hE : List.Forall₂ (Evals (setting F N) g) col (is.map (fun i => D i x)) := by
      have := hP.flip
      rw [List.forall₂_map_right_iff]
      exact this.imp fun _ _ h => h.1
    have hsh : ∀ i ∈ is, (D i x).shape = s x := by
      intro i hi
      obtain ⟨k, hk, rfl⟩ := List.mem_iff_getElem.1 hi
      have := List.Forall₂.get hP hk (by rw [← hP.length_eq]; exact hk)
      exact this.2
    have hlt : ∀ t ∈ col, t < g.nodes.length := by
      intro t ht
      obtain ⟨k, hk, rfl⟩ := List.mem_iff_getElem.1 ht
      exact evals_lt (List.Forall₂.get hE hk (by rw [← hE.length_eq]; exact hk))
    obtain ⟨r1, r2⟩ := rowsT_safe hlt hi
    simp only [matrices, hcol, bind, Except.bind]
    cases hr : rowsT col g with
    | error e =>
      left
      rw [r1 e hr]
      rfl
    | ok v =>
      obtain ⟨g1, ts⟩ := v
      obtain ⟨k1, k2, k3, k4⟩ := r2 g1 ts hr
      obtain ⟨a1, a2, ws, a3, a4⟩ := rowsT_evals (F := F) (N := N) hr hc hE
      have hwl : ws.length = is.length := by rw [← a4.length_eq, List.length_map]
      have hws : ∀ (k i : Nat), is[k]? = some i → ∃ w, ws[k]? = some w ∧ IsRow (D i x) w := by
        intro k i hk
        obtain ⟨hlt, rfl⟩ := List.getElem?_eq_some_iff.1 hk
        have := List.Forall₂.get a4 (i := k) (by simpa using hlt) (by rw [hwl]; exact hlt)
        refine ⟨ws[k], List.getElem?_eq_getElem (by rw [hwl]; exact hlt), ?_⟩
        simpa using this
      have hshape : ∀ w ∈ ws, w.shape = [1, Nd.size (s x)] := by
        intro w hw
        obtain ⟨k, hk⟩ := List.mem_iff_getElem?.1 hw
        have hlt : k < is.length := by rw [← hwl]; exact (List.getElem?_eq_some_iff.1 hk).1
        obtain ⟨w', h1, h2, _⟩ := hws k _ (List.getElem?_eq_getElem hlt)
        rw [hk] at h1; cases h1
        rw [h2, hsh _ (List.getElem_mem hlt)]
      have hwne : ws ≠ [] := by rintro rfl; exact hne (List.length_eq_zero_iff.1 hwl.symm)
      have htne : ts ≠ [] := by rintro rfl; cases a3; exact hwne rfl
      obtain ⟨M, m1, m2, m3⟩ := concat_rows (lay ws) hwne hshape
      simp only [liftJ, concatT, if_neg htne]
      obtain ⟨s1, s2⟩ := plain_safe (.concat lay 0) k4 k2
      cases hm : mk g1 (.plain (.concat lay 0) (ts.map inp)) with
      | error e => left; rw [s1 e hm]
      | ok v =>
        obtain ⟨g2, m⟩ := v
        obtain ⟨b1, b2, b3⟩ := mk_evals (F := F) (N := N) hm a2 (.concat lay 0) ts ws M rfl a3 m1
        simp only
        rcases ih (s2 g2 m hm).2.1 b2 (hv.imp fun _ _ h => h.imp fun _ _ h => ⟨Evals.mono (a1.trans b1) hc h.1, h.2⟩) hz with h | ⟨g3, ms, h1, h2, h3, h4⟩
        · left; rw [h]
        · right
          refine ⟨g3, m :: ms, by rw [h1], (a1.trans b1).trans h2, h3, .cons ⟨M, Evals.mono h2 b2 b3, by rw [m2, hwl], fun k i hk q hq => ?_⟩ h4⟩
          obtain ⟨w, w1, w2, w3⟩ := hws k i hk
          have e := hsh i (List.mem_of_getElem? hk)
          rw [m3 k w w1 q hq, w3 q (by rw [e]; exact hq), e]

end Verif.Prog
