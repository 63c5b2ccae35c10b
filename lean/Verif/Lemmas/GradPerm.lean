import Verif.Lemmas.HelperGrad

/-! `grad` in other orders of the `xs`. -/

namespace Verif.Gradient
open Verif Verif.Graph Verif.Spec

variable {Op : Type} {O : GradOps Op} {pick : Graph Op → List Nat → Nat} {xs xs' : List Nat}

theorem pushChildren_perm (h : ∀ x, x ∈ xs ↔ x ∈ xs') {g : Graph Op} {curr : Nat} : ∀ {is : List Incoming} {s}, pushChildren g xs curr is s = pushChildren g xs' curr is s
  | [], _ => rfl
  | i :: is, (stack, m) => by
    simp only [pushChildren]
    have : decide (i.id ∈ xs) = decide (i.id ∈ xs') := by simp only [h]
    rw [this]
    simp only [pushChildren_perm h (is := is)]

theorem initStep_perm (h : ∀ x, x ∈ xs ↔ x ∈ xs') {g : Graph Op} : ∀ {s}, initStep g xs s = initStep g xs' s
  | ([], _) => rfl
  | ((curr, true) :: stack, m) => by simp only [initStep, h]
  | ((curr, false) :: stack, m) => by simp only [initStep, pushChildren_perm h]

theorem initLoop_perm (h : ∀ x, x ∈ xs ↔ x ∈ xs') {g : Graph Op} : ∀ {fuel : Nat} {s}, initLoop g xs fuel s = initLoop g xs' fuel s
  | 0, _ => rfl
  | fuel + 1, s => by simp only [initLoop, initStep_perm h, initLoop_perm h (fuel := fuel)]

theorem initMap_perm (h : ∀ x, x ∈ xs ↔ x ∈ xs') {g : Graph Op} {ys : List Nat} {fuel : Nat} : initMap g ys xs fuel = initMap g ys xs' fuel := initLoop_perm h

theorem gradThin_perm (h : ∀ x, x ∈ xs ↔ x ∈ xs') {g : Graph Op} {ys : List Nat} {fuel : Nat} : gradThin O pick fuel g ys xs = gradThin O pick fuel g ys xs' := by
  unfold gradThin
  simp only [initMap_perm h]

theorem gradState_perm (h : ∀ x, x ∈ xs ↔ x ∈ xs') {g : Graph Op} {ys : List Nat} {fuel : Nat} : gradState O pick fuel g ys xs = gradState O pick fuel g ys xs' := by
  unfold gradState computeGradients
  simp only [initMap_perm h]

/-- `x` has the single gradient `t`. -/
def singleB (m : GMap) (x t : Nat) : Bool := match m x with
  | some info => info.onPath && (match info.gradients with
    | [a] => a == t
    | _ => false)
  | none => false

theorem singleB_iff {m : GMap} {x t : Nat} : singleB m x t = true ↔ ∃ info, m x = some info ∧ info.onPath = true ∧ info.gradients = [t] := by
  unfold singleB
  cases m x with
  | none => simp
  | some info =>
    obtain ⟨gs, b⟩ := info
    match gs with
    | [] => simp
    | [a] => simp
    | a :: b :: c => simp

theorem extract_single {m : GMap} {T : Nat → Nat} : ∀ {xs : List Nat} {g : Graph Op}, (∀ x ∈ xs, singleB m x (T x) = true) → extractAll O xs g m = .ok (g, xs.map T)
  | [], g, _ => rfl
  | x :: xs, g, h => by
    obtain ⟨info, h1, h2, h3⟩ := singleB_iff.1 (h x (by simp))
    simp only [extractAll, extractOne, h1, h2, if_true, gradient, h3, bind, Except.bind]
    rw [extract_single fun y hy => h y (by simp [hy])]
    rfl

theorem grad_of_state {fuel : Nat} {g : Graph Op} {ys xs : List Nat} (hne : ys ≠ []) {s : BpState Op} (hs : gradState O pick fuel g ys xs = some (.ok s)) {T : Nat → Nat}
    (hT : ∀ x ∈ xs, singleB s.m x (T x) = true) : grad O pick fuel g ys xs = some (.ok ⟨s.g, xs.map T, s.log⟩) := by
  unfold gradState at hs
  unfold grad
  rw [if_neg hne]
  cases h0 : sumAlls O g ys with
  | error p => rw [h0] at hs; cases hs
  | ok v =>
    obtain ⟨g0, sys⟩ := v
    simp only [h0] at hs ⊢
    simp only [hs, extract_single hT]

end Verif.Gradient
