import Verif.Lemmas.GradApi

/-! Runs of `grad` that do not depend on the order in which tensors of equal rank are processed, because there is never more than one to choose from. -/

namespace Verif.Gradient
open Verif Verif.Graph Verif.Spec

variable {Op : Type} {O : GradOps Op} {pick pick' : Graph Op → List Nat → Nat}

/-- In the run there is always at most one tensor in the heap. -/
def thin (O : GradOps Op) (pick : Graph Op → List Nat → Nat) : Nat → BpState Op → Bool
  | 0, _ => false
  | fuel + 1, s => match s.heap with
    | [] => true
    | [_] => match bpVisit O s (pick s.g s.heap) with
      | .error _ => true
      | .ok s' => thin O pick fuel s'
    | _ => false

theorem pick_one (hpick : PicksMax pick) (g : Graph Op) (y : Nat) : pick g [y] = y := by
  simpa using (hpick g [y] (by simp)).1

theorem bpLoop_thin (hpick : PicksMax pick) (hpick' : PicksMax pick') : ∀ {fuel fuel' : Nat} {s : BpState Op}, thin O pick fuel s = true → fuel ≤ fuel' →
    bpLoop O pick' fuel' s = bpLoop O pick fuel s := by
  intro fuel
  induction fuel with
  | zero => intro fuel' s h; cases h
  | succ fuel ih =>
    intro fuel' s h hf
    obtain ⟨fuel', rfl⟩ : ∃ k, fuel' = k + 1 := ⟨fuel' - 1, by omega⟩
    unfold thin at h
    cases hs : s.heap with
    | nil => simp [bpLoop, hs]
    | cons y l =>
      cases l with
      | cons z l => rw [hs] at h; cases h
      | nil =>
        rw [hs] at h
        simp only [bpLoop, hs, List.cons_ne_nil, if_false, pick_one hpick, pick_one hpick'] at h ⊢
        cases hv : bpVisit O s y with
        | error p => rfl
        | ok s' =>
          rw [hv] at h
          exact ih h (by omega)

theorem initLoop_mono {g : Graph Op} {xs : List Nat} : ∀ {fuel fuel' : Nat} {s : List (Nat × Bool) × GMap} {r}, initLoop g xs fuel s = some r → fuel ≤ fuel' →
    initLoop g xs fuel' s = some r := by
  intro fuel
  induction fuel with
  | zero => intro fuel' s r h; cases h
  | succ fuel ih =>
    intro fuel' s r h hf
    obtain ⟨fuel', rfl⟩ : ∃ k, fuel' = k + 1 := ⟨fuel' - 1, by omega⟩
    simp only [initLoop] at h ⊢
    cases hv : initStep g xs s with
    | error p => rw [hv] at h; exact h
    | ok o =>
      rw [hv] at h
      cases o with
      | none => exact h
      | some s' => exact ih h (by omega)

/-- The same for the whole of `grad`. -/
def gradThin (O : GradOps Op) (pick : Graph Op → List Nat → Nat) (fuel : Nat) (g : Graph Op) (ys xs : List Nat) : Bool :=
  match sumAlls O g ys with
  | .error _ => false
  | .ok (g0, sys) =>
    match initMap g0 sys xs fuel, scalarOne O g0 with
    | some (.ok m), .ok (g1, one) =>
      match pushAll (sys.map (fun y => (y, one))) m with
      | .ok m' => thin O pick fuel ⟨g1, m', sys, []⟩
      | .error _ => false
    | _, _ => false

theorem grad_thin (hpick : PicksMax pick) (hpick' : PicksMax pick') {fuel fuel' : Nat} {g : Graph Op} {ys xs : List Nat} (h : gradThin O pick fuel g ys xs = true)
    (hf : fuel ≤ fuel') : grad O pick' fuel' g ys xs = grad O pick fuel g ys xs := by
  unfold gradThin at h
  unfold grad computeGradients
  by_cases hne : ys = []
  · rw [if_pos hne, if_pos hne]
  rw [if_neg hne, if_neg hne]
  cases h0 : sumAlls O g ys with
  | error p => rfl
  | ok v =>
    obtain ⟨g0, sys⟩ := v
    rw [h0] at h
    simp only at h ⊢
    cases hm : initMap g0 sys xs fuel with
    | none => rw [hm] at h; cases h
    | some e =>
      rw [hm] at h
      rw [show initMap g0 sys xs fuel' = some e from initLoop_mono hm hf]
      cases e with
      | error p => rfl
      | ok m =>
        cases h1 : scalarOne O g0 with
        | error p => rfl
        | ok v =>
          obtain ⟨g1, one⟩ := v
          rw [h1] at h
          simp only [lift, bind, Except.bind] at h ⊢
          cases h2 : pushAll (sys.map (fun y => (y, one))) m with
          | error p => rfl
          | ok m' =>
            rw [h2] at h
            simp only
            rw [bpLoop_thin hpick hpick' h hf]

end Verif.Gradient
