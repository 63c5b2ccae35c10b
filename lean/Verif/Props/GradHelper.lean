import Verif.Lemmas.GradHelper
import Verif.Props.GradWitness
import Verif.Props.Variables

/-! # Property theorems about `grad_helper`: C66

`order` is the order in which the hash map of the names of the variables is iterated: any list. -/

namespace Verif.Props
open Verif Verif.Spec Verif.Gradient Verif.Graph Verif.Eval
variable {Op : Type}

/-- **C66** `grad_helper(losses, namespace)`: it adds `sum_all` of each loss to the graph (`sys`) and the missing tensors of the variables of the namespace (`xs`, in the
order of iteration). It returns, in this order, exactly the variables of the namespace that the losses depend on (through differentiable tensors), each with its gradient:
however the variables of the namespace move, the change of the sum of all entries of all losses is the sum of the returned gradients applied to the movements of
their variables; variables that are left out do not contribute. -/
theorem C66_helper_gradients (P : Ops Op) (O : GradOps Op) (varOp : Op) (pick : Graph Op → List Nat → Nat) (fuel : Nat) (g : Graph Op) (losses : List Nat) (ns : Str)
    (order : List (FullName × Nat)) (g' : Graph Op) (pairs : List (Nat × Nat)) (hr : Reachable P g) (hg : BpDag g) (hpick : PicksMax pick)
    (hinj : (idsOf ns order).Nodup) (h : gradHelper O varOp pick fuel g losses ns order = some (.ok (g', pairs))) :
    ∃ g0 sys g1 xs, Summed O.sumAll g losses g0 sys ∧ Grows g0 g1 ∧ List.Forall₂ (TensorOf g1) (idsOf ns order) xs ∧
      (pairs.map Prod.fst).Sublist xs ∧ (∀ x, x ∈ pairs.map Prod.fst ↔ x ∈ xs ∧ ReachedFrom g1 sys x) ∧
      ∀ (K : Calculus Op) (cy σ : ∀ k, K.T k →+ K.R), GradSound K g1 (ReachedFrom g1 sys) O.addN O.zeros O.shapeOp O.opGrad →
        (∀ g2 o, Grows g1 g2 → IsApp g2 o O.one [] → ∀ s ∈ sys, K.Rep g2 s o (cy s)) →
        (∀ s ∈ sys, ∀ y, IsApp g1 s O.sumAll [y] → ∀ t, cy s (K.lin s t) = σ y (t y)) →
        ∃ cov : ∀ k, K.T k →+ K.R, (∀ p ∈ pairs, K.Rep g' p.1 p.2 (cov p.1)) ∧
          ∀ t, MovedBy K g1 xs.toFinset t → (losses.map (fun y => σ y (t y))).sum = (pairs.map (fun p => cov p.1 (t p.1))).sum :=
  gradHelper_sound hr.wf (VarsDiff.reachable hr) hg hpick hinj h

/-- **C66** `grad_helper` terminates: it returns, or the graph is full, or `Op::grad` of a tensor between the losses and the variables panics, or an op that is declared
differentiable gives no gradient for an input that leads to a variable (then the missing gradient is a panic). -/
theorem C66_helper_total (P : Ops Op) (O : GradOps Op) (varOp : Op) (pick : Graph Op → List Nat → Nat) (g : Graph Op) (losses : List Nat) (ns : Str)
    (order : List (FullName × Nat)) (hr : Reachable P g) (hg : BpDag g) (hpick : PicksMax pick) (hne : losses ≠ []) (hy : ∀ y ∈ losses, y < g.nodes.length) :
    ∃ N, ∀ fuel, N ≤ fuel → gradHelper O varOp pick fuel g losses ns order = some (.error (.graph .graphTooLarge)) ∨
      ∃ g0 sys g1 xs, Summed O.sumAll g losses g0 sys ∧ Grows g0 g1 ∧ List.Forall₂ (TensorOf g1) (idsOf ns order) xs ∧
        (GradWellFormed g1 O.opGrad → ∃ r, gradHelper O varOp pick fuel g losses ns order = some r ∧
          ((∃ res, r = .ok res) ∨ r = .error (.graph .graphTooLarge) ∨ (∃ p, r = .error p ∧ OpGradPanics O g1 sys xs p) ∨
          (r = .error .noGradient ∧ ¬ GradGiven g1 xs O.opGrad))) :=
  gradHelper_total hr.wf (VarsDiff.reachable hr) hg hpick hne hy

/-- **C66** The hypothesis on `order` holds for every order of iteration of the names of an environment made by registrations and updates, and the ids are those of the current
registrations in the namespace. -/
theorem C66_ids {A : Type} (h : List (VarAction A)) (env : VarEnv A) (H : VarHist h env) (ns : Str) (order : List (FullName × Nat)) (ho : order.Perm env.names) :
    (idsOf ns order).Nodup ∧ ∀ k : Nat, k ∈ idsOf ns order ↔ ∃ name, IsLatest h ns name k := by
  rw [idsOf_eq]
  exact ⟨(C16_listing h env H ns order ho).1, (C16_listing h env H ns order ho).2.1⟩

example : VarHist exVarHist exVarEnv ∧ idsOf nsA exVarEnv.names = [3, 2] := ⟨exVarHist_ok, rfl⟩

/-! ## Example

The loss is `w * w`. The namespace has the variables `u` (not used) and `w`; `z` is in another namespace. -/

def helpCmds : List (Cmd DOp) := [.var 0, .build { inNodes := [{ id := 0 }, { id := 0 }] } .mul]

def helpOrder : List (FullName × Nat) := [(⟨"m".toList, "u".toList⟩, 1), (⟨"o".toList, "z".toList⟩, 2), (⟨"m".toList, "w".toList⟩, 0)]

/-- The graph when back-propagation starts: the loss is tensor 1, its `sum_all` tensor 2, `u` is tensor 3. -/
def helpG1 : Graph DOp := demoGraph (helpCmds ++ [.build { inNodes := [{ id := 1 }] } .sumAll, .var 1])

example : ∃ g' t, gradHelper demoO .source demoPick 50 (demoGraph helpCmds) [1] "m".toList helpOrder = some (.ok (g', [(0, t)])) ∧
    Reachable demoP (demoGraph helpCmds) ∧ BpDag (demoGraph helpCmds) ∧ (idsOf "m".toList helpOrder).Nodup ∧
    (∃ sys vars g0, sumAlls demoO (demoGraph helpCmds) [1] = .ok (g0, sys) ∧ varTensorsByName .source "m".toList g0 helpOrder = .ok (helpG1, vars)) ∧
    GradSound (demoCalculus [5, 7] helpG1 [5, 25, 25, 7]) helpG1 (fun _ => True) demoO.addN demoO.zeros demoO.shapeOp demoO.opGrad ∧
    GradWellFormed helpG1 demoO.opGrad ∧ Evals (demoSet [5, 7]) g' t (10 : ℤ) := by
  have hc : graphCheck helpG1 = true := by rfl
  have hc0 : graphCheck (demoGraph helpCmds) = true := by rfl
  have hv : valCheck [5, 7] helpG1 [5, 25, 25, 7] = true := by decide
  have hrun : ∃ g' t, gradHelper demoO .source demoPick 50 (demoGraph helpCmds) [1] "m".toList helpOrder = some (.ok (g', [(0, t)])) ∧
      t = 10 ∧ (decide (10 < g'.nodes.length) && valCheck [5, 7] g' [5, 25, 25, 7, 0, 0, 1, 5, 5, 0, 10]) = true := ⟨_, _, rfl, rfl, by decide⟩
  obtain ⟨g', t, h1, rfl, h2⟩ := hrun
  rw [Bool.and_eq_true, decide_eq_true_eq] at h2
  exact ⟨g', 10, h1, Reachable.all (cs := helpCmds) .init rfl, check_bpDag hc0, by decide, ⟨_, _, _, rfl, rfl⟩, sound_of_check hc hv,
    demo_wellFormed fun _ _ hn => (check_bp hc hn).2, vals_of_check h2.2 10 h2.1⟩

end Verif.Props
