import Verif.Lemmas.GradHelper
import Verif.Lemmas.GradThin

/-! `grad_helper` for variables whose tensors are in the graph already and that the loss depends on: the same as `grad`. -/

namespace Verif.Gradient
open Verif Verif.Graph Verif.Spec

variable {Op : Type} {O : GradOps Op} {pick pick' : Graph Op → List Nat → Nat}

theorem varTensors_there {varOp : Op} {ns : Str} : ∀ {order : List (FullName × Nat)} {g : Graph Op} {ts : List Nat},
    List.Forall₂ (fun v t => g.var2node v = some t) (idsOf ns order) ts → ∃ vars, varTensorsByName varOp ns g order = .ok (g, vars) ∧ vars.map Prod.snd = ts := by
  intro order
  induction order with
  | nil => intro g ts h; cases h; exact ⟨[], rfl, rfl⟩
  | cons e es ih =>
    intro g ts h
    unfold varTensorsByName
    by_cases he : e.1.ns = ns
    · simp only [idsOf, List.filter_cons, he, decide_true, if_true, List.map_cons] at h
      cases h with
      | cons h1 h2 =>
        obtain ⟨vars, k1, k2⟩ := ih h2
        rw [if_pos he]
        simp only [variableById, h1, bind, Except.bind, k1]
        exact ⟨_, rfl, by simp [k2]⟩
    · simp only [idsOf, List.filter_cons, he, decide_false, Bool.false_eq_true, if_false] at h
      rw [if_neg he]
      exact ih h

/-- All tensors `xs` are marked at the end of back-propagation. -/
def markedB (m : GMap) (xs : List Nat) : Bool := xs.all fun x => match m x with
  | some info => info.onPath
  | none => false

theorem markedB_iff {m : GMap} {xs : List Nat} : markedB m xs = true ↔ ∀ x ∈ xs, Marked m x := by
  unfold markedB Marked
  rw [List.all_eq_true]
  refine forall_congr' fun x => forall_congr' fun _ => ?_
  cases m x <;> simp

theorem extractSome_marked : ∀ {xs : List Nat} {g : Graph Op} {m : GMap}, (∀ x ∈ xs, Marked m x) →
    extractSome O xs g m = (extractAll O xs g m).map (fun r => (r.1, xs.zip r.2)) := by
  intro xs
  induction xs with
  | nil => intro g m _; rfl
  | cons x xs ih =>
    intro g m h
    obtain ⟨info, h1, h2⟩ := h x (by simp)
    simp only [extractSome, extractAll, extractOne, h1, h2, if_true, bind, Except.bind]
    cases hg : gradient O g m x with
    | error p => rfl
    | ok v =>
      obtain ⟨g1, m1, t⟩ := v
      simp only
      rw [ih fun y hy => ((gradient_keep hg).2.2 y).1 (h y (by simp [hy]))]
      cases extractAll O xs g1 m1 <;> rfl

/-- The state at the end of back-propagation in `grad`. -/
def gradState (O : GradOps Op) (pick : Graph Op → List Nat → Nat) (fuel : Nat) (g : Graph Op) (ys xs : List Nat) : Option (Except GPanic (BpState Op)) :=
  match sumAlls O g ys with
  | .error p => some (.error (.graph p))
  | .ok (g0, sys) => computeGradients O pick fuel g0 sys xs none

theorem gradState_thin (hpick : PicksMax pick) (hpick' : PicksMax pick') {fuel fuel' : Nat} {g : Graph Op} {ys xs : List Nat} (h : gradThin O pick fuel g ys xs = true)
    (hf : fuel ≤ fuel') : gradState O pick' fuel' g ys xs = gradState O pick fuel g ys xs := by
  unfold gradThin at h
  unfold gradState computeGradients
  cases h0 : sumAlls O g ys with
  | error p => rfl
  | ok v =>
    obtain ⟨g0, sys⟩ := v
    rw [h0] at h
    simp only at h ⊢
    cases hm : initMap g0 sys xs fuel with
    | none => rw [hm] at h; cases h
    | some e =>
      rw [hm] at h
      rw [show initMap g0 sys xs fuel' = some e from initLoop_mono hm hf]
      cases e with
      | error p => rfl
      | ok m =>
        cases h1 : scalarOne O g0 with
        | error p => rfl
        | ok v =>
          obtain ⟨g1, one⟩ := v
          rw [h1] at h
          simp only [lift, bind, Except.bind] at h ⊢
          cases h2 : pushAll (sys.map (fun y => (y, one))) m with
          | error p => rfl
          | ok m' =>
            rw [h2] at h
            simp only
            rw [bpLoop_thin hpick hpick' h hf]

theorem gradHelper_grad {varOp : Op} {fuel : Nat} {g : Graph Op} {ys xs : List Nat} {ns : Str} {order : List (FullName × Nat)} (hw : WF g) (hd : VarsDiff g)
    (hx : List.Forall₂ (fun v t => g.var2node v = some t) (idsOf ns order) xs) {s : BpState Op} (hs : gradState O pick fuel g ys xs = some (.ok s)) (hm : ∀ x ∈ xs, Marked s.m x)
    {r : GradResult Op} (hr : grad O pick fuel g ys xs = some (.ok r)) : gradHelper O varOp pick fuel g ys ns order = some (.ok (r.g, xs.zip r.grads)) := by
  unfold gradState at hs
  unfold grad at hr
  unfold gradHelper
  split at hr
  · cases hr
  rename_i hne
  rw [if_neg hne]
  cases h0 : sumAlls O g ys with
  | error p => rw [h0] at hr; cases hr
  | ok v =>
    obtain ⟨g0, sys⟩ := v
    simp only [h0] at hs hr ⊢
    obtain ⟨hw0, _⟩ := sumAlls_wf hw hd h0
    have hgr := (sumAlls_ok h0).grows
    have hx0 : List.Forall₂ (fun v t => g0.var2node v = some t) (idsOf ns order) xs := hx.imp fun v t h => by
      obtain ⟨n, h1, h2⟩ := (hw.cache v t).1 h
      exact (hw0.cache v t).2 ⟨n, hgr.1 _ _ h1, h2⟩
    obtain ⟨vars, h1, h2⟩ := varTensors_there (varOp := varOp) hx0
    simp only [h1, h2, hs] at hr ⊢
    rw [extractSome_marked hm]
    cases he : extractAll O xs s.g s.m with
    | error p => rw [he] at hr; cases hr
    | ok v =>
      rw [he] at hr
      cases hr
      rfl

end Verif.Gradient
