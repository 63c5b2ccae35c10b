import Mathlib.Algebra.Order.Field.Basic
import Mathlib.Analysis.Calculus.Deriv.Slope
import Mathlib.Tactic.FieldSimp
import Mathlib.Tactic.Linarith
import Mathlib.Tactic.Ring
import Verif.Lemmas.Gather
import Verif.Model.TestHelper
import Verif.Spec.TestHelper

/-! Lemmas about the gradient checker. -/

namespace Verif.TestHelper
open Verif Verif.Nd Verif.Graph Verif.Gradient Verif.Eval Verif.Spec

variable {Op R E W : Type}

/-- The array with the element at `j` replaced. -/
def put (a : Arr R) (j : List Nat) (x : R) : Arr R := ⟨a.shape, a.strides, fun i => if i = j then x else a.get i⟩

theorem put_self (a : Arr R) (j : List Nat) : put a j (a.get j) = a := by
  cases a with
  | mk s st f =>
    simp only [put, Arr.mk.injEq, true_and]
    funext i
    by_cases h : i = j <;> simp [h]

theorem put_put (a : Arr R) (j : List Nat) (x y : R) : put (put a j x) j y = put a j y := by
  simp only [put, Arr.mk.injEq, true_and]
  funext i
  by_cases h : i = j <;> simp [h]

theorem bump_put [Add R] (a : Arr R) (j : List Nat) (u : R) : bump a j u = put a j (a.get j + u) := by
  simp only [put, bump, Arr.mk.injEq, true_and]
  funext i
  by_cases h : i = j <;> simp [h]

theorem mem_positions {s j : List Nat} : j ∈ positions s ↔ InB j s := by
  simp only [positions, List.mem_map, List.mem_range]
  constructor
  · rintro ⟨k, hk, rfl⟩
    exact inB_unflat hk
  · intro h
    exact ⟨flat s j, flat_lt h, unflat_flat h⟩

theorem rowMajor_inMemory {a : Arr R} (ha : RowMajor a) : InMemory a (unflat a.shape) := by
  intro k hk
  refine ⟨inB_unflat hk, fun j hj => ?_⟩
  rw [offset_standard ha.1 hj ha.2]
  constructor
  · intro h
    have : flat a.shape j = k := by exact_mod_cast h
    rw [← this, unflat_flat hj]
  · rintro rfl
    rw [flat_unflat hk]

variable {pos : Nat → List Nat}

theorem readMem_eq {a : Arr R} (ha : InMemory a pos) {k : Nat} (hk : k < size a.shape) : readMem a k = some (a.get (pos k)) := by
  obtain ⟨hin, hp⟩ := ha k hk
  have : (positions a.shape).find? (fun o => offset a.strides o == (k : Int)) = some (pos k) := by
    cases hf : (positions a.shape).find? (fun o => offset a.strides o == (k : Int)) with
    | none =>
      rw [List.find?_eq_none] at hf
      exact absurd ((hp _ hin).2 rfl) (by simpa using hf _ (mem_positions.2 hin))
    | some j =>
      have h1 := List.find?_some hf
      have h2 := mem_positions.1 (List.mem_of_find?_eq_some hf)
      rw [(hp j h2).1 (by simpa using h1)]
  rw [readMem, this]; rfl

theorem writeMem_eq {a : Arr R} (ha : InMemory a pos) {k : Nat} (hk : k < size a.shape) (x : R) : writeMem a k x = put a (pos k) x := by
  obtain ⟨hin, hp⟩ := ha k hk
  simp only [writeMem, put, Arr.mk.injEq, true_and]
  funext j
  by_cases h : j = pos k
  · subst h
    rw [if_pos ⟨mem_positions.2 hin, (hp _ hin).2 rfl⟩, if_pos rfl]
  · rw [if_neg h, if_neg]
    rintro ⟨h1, h2⟩
    exact h ((hp j (mem_positions.1 h1)).1 h2)

theorem zip_scalar [Field R] {p n : Arr R} (hp : p.shape = []) (hn : n.shape = []) :
    ∃ d : Arr R, zipOp (fun x y => x - y) p n = .ok d ∧ (toList d).sum = p.get [] - n.get [] := by
  refine ⟨⟨[], zipStrides p n [], fun idx => p.get (bIdx [] idx) - n.get (bIdx [] idx)⟩, by rw [zipOp, hp, hn]; rfl, ?_⟩
  show ([_] : List R).sum = _
  simp [unflat, bIdx]

theorem toList_get (a : Arr R) {k : Nat} (hk : k < size a.shape) : (toList a)[k]? = some (a.get (unflat a.shape k)) := by
  simp [toList, hk]

theorem evalOne_gives {S : Sem Op (Arr R) E W} {g : Graph Op} {fuel : Nat} {feeds : List (Feed (Arr R))} {t : Nat} {env : List (Arr R)} {w : W} {y : R}
    (h : GivesNumber S g fuel feeds t env w y) : ∃ v : Arr R, evalOne S g fuel feeds t env w = some (.ok (v, env, w)) ∧ v.shape = [] ∧ v.get [] = y := by
  obtain ⟨res, v, h1, h2, h3, h4, h5, h6⟩ := h
  exact ⟨v, by simp only [evalOne, h1, h2, h5, h6], h3, h4⟩

section
variable [Field R] [LinearOrder R]
variable {S : Sem Op (Arr R) E W} {g : Graph Op} {fuel : Nat} {feeds : List (Feed (Arr R))} {obj : Nat} {eps tol : R} {env : List (Arr R)} {w : W} {f : List (Arr R) → R} {order : Item R → Nat → List Nat}

theorem checkElem_eq {it : Item R} (hi : env[it.vid]? = some it.arr) (hs : it.grad.shape = it.arr.shape) (ha : InMemory it.arr pos) {k : Nat} (hk : k < size it.arr.shape)
    (hf : ∀ u, u = eps ∨ u = -eps → GivesNumber S g fuel feeds obj (it.moved env (pos k) u) w (f (it.moved env (pos k) u))) :
    checkElem S g fuel feeds obj it.vid it.grad eps tol k env w =
      if tol < |it.quotient f env (pos k) eps - it.grad.get (unflat it.arr.shape k)| then
        some (.error (.tooLarge (it.quotient f env (pos k) eps) (it.grad.get (unflat it.arr.shape k)) env)) else some (.ok (env, w)) := by
  obtain ⟨hlt, hget⟩ := List.getElem?_eq_some_iff.1 hi
  obtain ⟨p, hp1, hp2, hp3⟩ := evalOne_gives (hf eps (.inl rfl))
  obtain ⟨n, hn1, hn2, hn3⟩ := evalOne_gives (hf (-eps) (.inr rfl))
  obtain ⟨d, hd1, hd2⟩ := zip_scalar hp2 hn2
  have hsh : ∀ x, InMemory (put it.arr (pos k) x) pos := fun x => ha
  set j := pos k with hj
  have hw1 : env.set it.vid (writeMem it.arr k (it.arr.get j + eps)) = it.moved env j eps := by
    rw [writeMem_eq ha hk, ← hj, Item.moved, bump_put]
  have hm : ∀ u, (it.moved env j u)[it.vid]? = some (put it.arr j (it.arr.get j + u)) := fun u => by
    rw [Item.moved, bump_put, List.getElem?_set_self hlt]
  have hw2 : (it.moved env j eps).set it.vid (writeMem (put it.arr j (it.arr.get j + eps)) k (it.arr.get j - eps)) = it.moved env j (-eps) := by
    rw [writeMem_eq (hsh _) hk]
    show (env.set it.vid _).set it.vid (put (put it.arr j _) j _) = _
    rw [put_put, List.set_set, Item.moved, bump_put, sub_eq_add_neg]
  have hw3 : (it.moved env j (-eps)).set it.vid (writeMem (put it.arr j (it.arr.get j + -eps)) k (it.arr.get j)) = env := by
    rw [writeMem_eq (hsh _) hk]
    show (env.set it.vid _).set it.vid (put (put it.arr j _) j _) = _
    rw [put_put, put_self, List.set_set, ← hget, List.set_getElem_self]
  have hth : (toList it.grad)[k]? = some (it.grad.get (unflat it.arr.shape k)) := by
    rw [toList_get _ (by rw [hs]; exact hk), hs]
  have hq : (toList d).sum / ((1 + 1) * eps) = it.quotient f env j eps := by
    rw [hd2, hp3, hn3, Item.quotient, one_add_one_eq_two]
  simp only [checkElem, arrayOf, hi, andThen, readMem_eq ha hk, ← hj, inside, hw1, hp1, hm, hw2, hn1, hw3, hd1, hth, hq]

theorem checkElems_eq {it : Item R} (hi : env[it.vid]? = some it.arr) (hs : it.grad.shape = it.arr.shape) (ha : InMemory it.arr pos) : ∀ {ks : List Nat}, (∀ k ∈ ks, k < size it.arr.shape) →
    (∀ k ∈ ks, ∀ u, u = eps ∨ u = -eps → GivesNumber S g fuel feeds obj (it.moved env (pos k) u) w (f (it.moved env (pos k) u))) →
    ((∀ k ∈ ks, |it.quotient f env (pos k) eps - it.grad.get (unflat it.arr.shape k)| ≤ tol) ∧
      checkElems S g fuel feeds obj it.vid it.grad eps tol ks env w = some (.ok (env, w))) ∨
    (∃ k ∈ ks, tol < |it.quotient f env (pos k) eps - it.grad.get (unflat it.arr.shape k)| ∧
      checkElems S g fuel feeds obj it.vid it.grad eps tol ks env w =
        some (.error (.tooLarge (it.quotient f env (pos k) eps) (it.grad.get (unflat it.arr.shape k)) env)))
  | [], _, _ => .inl ⟨by simp, rfl⟩
  | k :: ks, hk, hf => by
    have h1 := checkElem_eq (tol := tol) hi hs ha (hk k (by simp)) (hf k (by simp))
    rw [checkElems, h1]
    by_cases hc : tol < |it.quotient f env (pos k) eps - it.grad.get (unflat it.arr.shape k)|
    · exact .inr ⟨k, by simp, hc, by simp only [if_pos hc, andThen]⟩
    · simp only [if_neg hc, andThen]
      rcases checkElems_eq hi hs ha (ks := ks) (fun k h => hk k (by simp [h])) (fun k h => hf k (by simp [h])) with ⟨h2, h3⟩ | ⟨k', h2, h3, h4⟩
      · exact .inl ⟨by simpa using ⟨not_lt.1 hc, h2⟩, h3⟩
      · exact .inr ⟨k', by simp [h2], h3, h4⟩

theorem checkVars_eq : ∀ {items : List (Item R)}, (∀ it ∈ items, it.Fits g env ∧ InMemory it.arr (order it)) →
    (∀ it ∈ items, ∀ i, InB i it.arr.shape → ∀ u, u = eps ∨ u = -eps → GivesNumber S g fuel feeds obj (it.moved env i u) w (f (it.moved env i u))) →
    ((∀ it ∈ items, ∀ k < size it.arr.shape, |it.quotient f env (order it k) eps - it.grad.get (unflat it.arr.shape k)| ≤ tol) ∧
      checkVars S g fuel feeds obj eps tol (items.map (fun it => (it.tensor, .ok it.grad))) env w = some (.ok (env, w))) ∨
    (∃ it ∈ items, ∃ k < size it.arr.shape, tol < |it.quotient f env (order it k) eps - it.grad.get (unflat it.arr.shape k)| ∧
      checkVars S g fuel feeds obj eps tol (items.map (fun it => (it.tensor, .ok it.grad))) env w =
        some (.error (.tooLarge (it.quotient f env (order it k) eps) (it.grad.get (unflat it.arr.shape k)) env)))
  | [], _, _ => .inl ⟨by simp, rfl⟩
  | it :: items, hi, hf => by
    obtain ⟨⟨⟨nd, hn, hv⟩, h1, h2⟩, h3⟩ := hi it (by simp)
    have hvar : (variableOf g it.tensor : Step R E Nat) = some (.ok it.vid) := by
      simp only [variableOf, Graph.access, hn, hv]
    simp only [List.map_cons, checkVars, hvar, andThen, arrayOf, h1]
    rcases checkElems_eq (S := S) (g := g) (fuel := fuel) (feeds := feeds) (obj := obj) (eps := eps) (tol := tol) (w := w) (f := f) h1 h2 h3 (ks := List.range (size it.arr.shape))
        (fun k hk => List.mem_range.1 hk)
        (fun k hk => hf it (by simp) _ (h3 k (List.mem_range.1 hk)).1) with ⟨h4, h5⟩ | ⟨k, hk, h4, h5⟩
    · rw [h5]
      simp only
      rcases checkVars_eq (items := items) (fun it h => hi it (by simp [h])) (fun it h => hf it (by simp [h])) with ⟨h6, h7⟩ | ⟨it', h6, i, h7, h8, h9⟩
      · exact .inl ⟨by
          intro it' h
          rcases List.mem_cons.1 h with rfl | h
          · exact fun k hk => h4 k (List.mem_range.2 hk)
          · exact h6 it' h, h7⟩
      · exact .inr ⟨it', by simp [h6], i, h7, h8, h9⟩
    · rw [h5]
      exact .inr ⟨it, by simp, _, List.mem_range.1 hk, h4, rfl⟩

end

theorem zip_items (rest : List Nat) : ∀ (items : List (Item R)),
    (items.map Item.tensor ++ rest).zip (items.map (fun it => (.ok it.grad : Except E (Arr R)))) = items.map (fun it => (it.tensor, .ok it.grad))
  | [] => by simp
  | it :: items => by simp only [List.map_cons, List.cons_append, List.zip_cons_cons]; rw [zip_items rest items]

/-- The central difference quotient tends to the derivative. -/
theorem central_limit {h : ℝ → ℝ} {d : ℝ} (hd : HasDerivAt h d 0) {tol : ℝ} (ht : 0 < tol) :
    ∃ δ > 0, ∀ eps, 0 < eps → eps < δ → |(h eps - h (-eps)) / (2 * eps) - d| < tol := by
  rw [hasDerivAt_iff_tendsto_slope_zero, Metric.tendsto_nhdsWithin_nhds] at hd
  obtain ⟨δ, h1, h2⟩ := hd tol ht
  refine ⟨δ, h1, fun eps h3 h4 => ?_⟩
  have a1 := h2 (x := eps) (by simp; exact h3.ne') (by simpa [abs_of_pos h3] using h4)
  have a2 := h2 (x := -eps) (by simp; exact h3.ne') (by simpa [abs_of_pos h3] using h4)
  rw [Real.dist_eq] at a1 a2
  simp only [zero_add, smul_eq_mul] at a1 a2
  have e : (h eps - h (-eps)) / (2 * eps) - d = ((eps⁻¹ * (h eps - h 0) - d) + ((-eps)⁻¹ * (h (-eps) - h 0) - d)) / 2 := by
    field_simp
    ring
  rw [e, abs_div, abs_two, div_lt_iff₀ two_pos]
  linarith [abs_add_le (eps⁻¹ * (h eps - h 0) - d) ((-eps)⁻¹ * (h (-eps) - h 0) - d)]

theorem small_all {α : Type} {P : α → ℝ → Prop} : ∀ (l : List α), (∀ x ∈ l, ∃ δ > 0, ∀ eps, 0 < eps → eps < δ → P x eps) →
    ∃ δ > 0, ∀ x ∈ l, ∀ eps, 0 < eps → eps < δ → P x eps
  | [], _ => ⟨1, one_pos, by simp⟩
  | x :: l, h => by
    obtain ⟨δ, h1, h2⟩ := h x (by simp)
    obtain ⟨δ', h3, h4⟩ := small_all l fun x hx => h x (by simp [hx])
    refine ⟨min δ δ', lt_min h1 h3, fun y hy eps h5 h6 => ?_⟩
    rcases List.mem_cons.1 hy with rfl | hy
    · exact h2 eps h5 (lt_of_lt_of_le h6 (min_le_left _ _))
    · exact h4 y hy eps h5 (lt_of_lt_of_le h6 (min_le_right _ _))

/-- The difference quotients of all elements get close to the derivatives at the same time. -/
theorem quotients_close {items : List (Item ℝ)} {f : List (Arr ℝ) → ℝ} {env : List (Arr ℝ)}
    (hd : ∀ it ∈ items, ∀ i, InB i it.arr.shape → HasDerivAt (fun u => f (it.moved env i u)) (it.grad.get i) 0) {tol : ℝ} (ht : 0 < tol) :
    ∃ δ > 0, ∀ it ∈ items, ∀ eps, 0 < eps → eps < δ → ∀ i, InB i it.arr.shape → |it.quotient f env i eps - it.grad.get i| ≤ tol := by
  refine small_all items fun it h => ?_
  have : ∃ δ > 0, ∀ i ∈ positions it.arr.shape, ∀ eps, 0 < eps → eps < δ → |it.quotient f env i eps - it.grad.get i| ≤ tol := small_all _ fun i hi => by
    obtain ⟨δ, h1, h2⟩ := central_limit (hd it h i (mem_positions.1 hi)) ht
    exact ⟨δ, h1, fun eps h3 h4 => (h2 eps h3 h4).le⟩
  obtain ⟨δ, h1, h2⟩ := this
  exact ⟨δ, h1, fun eps h3 h4 i hi => h2 i (mem_positions.2 hi) eps h3 h4⟩

end Verif.TestHelper
