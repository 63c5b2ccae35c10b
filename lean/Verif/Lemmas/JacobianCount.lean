import Verif.Lemmas.GradCount
import Verif.Model.Jacobian

/-! How many tensors the matrices of `jacobians` need. -/

namespace Verif.Prog
open Verif Verif.Graph Verif.Nd Verif.Hint Verif.Gradient Verif.Spec

theorem adds_rowT {g : Graph POp} {x : Nat} : Adds full 8 g.nodes.length (rowT g x) glen := by
  unfold rowT
  exact .mono (k := _ + (_ + (_ + _))) (.bind (len := glen) (adds_mk (Nat.le_refl _)) fun a => .bind (len := glen) (adds_mk (Nat.le_refl _)) fun b =>
    .bind (len := glen) (adds_mk (Nat.le_refl _)) fun c => adds_mk (Nat.le_refl _)) (by simp [ctorCost])

theorem adds_rowsT {xs : List Nat} {g : Graph POp} : Adds full (8 * xs.length) g.nodes.length (rowsT xs g) glen := by
  induction xs generalizing g with
  | nil => exact .pure (Nat.le_refl _)
  | cons x xs ih =>
    exact .mono (k := 8 + (8 * xs.length + 0)) (.bind (len := glen) adds_rowT fun v => .bind (len := glen) ih fun w => .pure (Nat.le_refl _)) (by simp; omega)

theorem adds_liftJ {β : Type} {k n : Nat} {m : Except GPanic β} {len : β → Nat} (h : Adds full k n m len) : Adds (.grad full) k n (liftJ m) len := by
  cases m with
  | ok v => exact ⟨fun w hw => (by cases hw; exact h.ok v rfl), fun h => (by cases h)⟩
  | error p => exact ⟨fun w hw => (by cases hw), fun hw => h.err (by cases hw; rfl)⟩

theorem adds_concatT {lay : List (Arr ℝ) → List Int} {g : Graph POp} {ts : List Nat} : Adds (.grad full) 1 g.nodes.length (concatT lay g ts) glen := by
  unfold concatT
  split
  · exact .skip (by simp)
  · exact adds_liftJ (adds_mk (by simp [ctorCost]))

theorem column_cons (j : Nat) (v : List Nat) (vecs : List (List Nat)) : column j (v :: vecs) = match v[j]? with
    | none => .error .index
    | some t => (match column j vecs with
      | .error p => .error p
      | .ok c => .ok (t :: c)) := by
  unfold column
  rw [List.mapM_cons]
  cases v[j]? with
  | none => rfl
  | some t =>
    show (_ >>= _) = _
    simp only [bind, Except.bind]
    generalize List.mapM (m := Except JPanic) _ vecs = z
    cases z <;> rfl

theorem column_length {j : Nat} : ∀ {vecs : List (List Nat)} {col : List Nat}, column j vecs = .ok col → col.length = vecs.length := by
  intro vecs
  induction vecs with
  | nil => intro col h; cases h; rfl
  | cons v vecs ih =>
    intro col h
    rw [column_cons] at h
    cases hv : v[j]? with
    | none => simp [hv] at h
    | some t =>
      cases hc : column j vecs with
      | error p => simp [hv, hc] at h
      | ok c =>
        simp only [hv, hc] at h
        cases h
        simp [ih hc]

theorem column_panic {j : Nat} : ∀ {vecs : List (List Nat)} {p : JPanic}, column j vecs = .error p → p = .index := by
  intro vecs
  induction vecs with
  | nil => intro p h; cases h
  | cons v vecs ih =>
    intro p h
    rw [column_cons] at h
    cases hv : v[j]? with
    | none => simp only [hv] at h; cases h; rfl
    | some t =>
      cases hc : column j vecs with
      | error q => simp only [hv, hc] at h; cases h; exact ih hc
      | ok c => simp [hv, hc] at h

theorem adds_matrices {lay : List (Arr ℝ) → List Int} {vecs : List (List Nat)} {js : List Nat} {g : Graph POp} :
    Adds (.grad full) (js.length * (8 * vecs.length + 1)) g.nodes.length (matrices lay vecs js g) glen := by
  induction js generalizing g with
  | nil => exact .pure (by simp [glen])
  | cons j js ih =>
    unfold matrices
    cases hc : column j vecs with
    | error p => exact .skip (by rw [column_panic hc]; simp)
    | ok col =>
      have := column_length hc
      refine .mono (k := 8 * col.length + (1 + (js.length * (8 * vecs.length + 1) + 0))) (.bind (len := glen) (adds_liftJ adds_rowsT) fun v => .bind (len := glen) adds_concatT fun w =>
        .bind (len := glen) ih fun z => .pure (Nat.le_refl _)) ?_
      rw [this, List.length_cons, Nat.add_mul js.length]
      omega

end Verif.Prog
