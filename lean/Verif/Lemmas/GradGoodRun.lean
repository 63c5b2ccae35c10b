import Verif.Lemmas.GradCheck
import Verif.Props.Graph

/-!
# Runs of `grad_with_default` on checked graphs
-/

namespace Verif.Gradient
open Verif Verif.Spec Verif.Graph Verif.Props

/-- What the theorems of C18, C20 and C22 require of a run of `grad_with_default` except that the `ys` and `xs` are distinct. -/
structure GoodRun (O : GradOps DOp) (pick : Graph DOp → List Nat → Nat) (fuel : Nat) (g : Graph DOp) (ys xs gys : List Nat) (r : GradResult DOp)
    (K : Calculus DOp) (cy : ∀ k, K.T k →+ K.R) : Prop where
  reachable : Reachable demoP g
  dag : BpDag g
  picks : PicksMax pick
  diff : ∀ y ∈ ys, IsDiff g y
  exist : ∀ x ∈ xs, x < g.nodes.length
  run : gradWithDefault O pick fuel g ys xs gys = some (.ok r)
  sound : GradSound K g (fun _ => True) O.addN O.zeros O.shapeOp O.opGrad
  rep : List.Forall₂ (fun y gy => K.Rep g y gy (cy y)) ys gys

theorem good_run {cs : List (Cmd DOp)} {env l : List ℤ} {ids ys xs gys : List Nat} {o : Nat} {r : GradResult DOp} {g : Graph DOp}
    (hcs : (Graph.empty : Graph DOp).execAll demoP cs = .ok (g, ids)) (hc : graphCheck g = true) (hv : valCheck env g l = true)
    (hd : ∀ y ∈ ys, IsDiff g y) (hx : ∀ x ∈ xs, x < g.nodes.length)
    (hr : gradWithDefault demoO demoPick 50 g ys xs gys = some (.ok r)) (hg : gys = ys.map (fun _ => o))
    (ho : o < g.nodes.length) (ho1 : listVal l o = 1) :
    GoodRun demoO demoPick 50 g ys xs gys r (demoCalculus env g l) (fun _ => AddMonoidHom.id ℤ) := by
  refine ⟨Reachable.all .init hcs, check_bpDag hc, demoPick_max, hd, hx, hr, sound_of_check hc hv, ?_⟩
  subst hg
  clear hr hx hd
  induction ys with
  | nil => exact .nil
  | cons y ys ih => exact .cons ⟨1, ho1 ▸ vals_of_check hv o ho, fun τ => (one_mul _).symm⟩ ih

theorem isDiff_single {g : Graph DOp} {y : Nat} (h : (g.nodes[y]?.map Node.differentiable) = some true) {ys : List Nat} (hy : ∀ z ∈ ys, z = y) :
    ∀ z ∈ ys, IsDiff g z := by
  intro z hz
  obtain rfl := hy z hz
  cases hn : g.nodes[z]? with
  | none => simp [hn] at h
  | some n => exact ⟨n, hn, by simpa [hn] using h⟩

end Verif.Gradient
