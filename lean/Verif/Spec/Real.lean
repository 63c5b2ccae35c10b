import Verif.Spec.Scalar
import Mathlib.Analysis.Calculus.FDeriv.Basic
import Mathlib.Analysis.Calculus.Deriv.Basic

/-!
# Specification vocabulary for real-valued graphs
-/

namespace Verif.Spec
open Verif

variable {Op E : Type}

/-- The function `φ` of several numbers is differentiable at `vs` with partial derivatives `ds`. -/
def HasPartials (φ : List ℝ → ℝ) (vs ds : List ℝ) : Prop :=
  HasFDerivAt (fun p : Fin vs.length → ℝ => φ (List.ofFn p))
    (∑ j : Fin vs.length, (ds.getD j 0) • (ContinuousLinearMap.proj j : (Fin vs.length → ℝ) →L[ℝ] ℝ)) (fun j => vs.get j)

/-- The values `val u` of the tensors of `g` as functions of the value `u` of leaf `x`: other leaves and non-differentiable tensors keep their
values (at `u0`), differentiable ops are recomputed. -/
structure Varying (g : Graph Op) (φ : Op → List ℝ → ℝ) (x : Nat) (u0 : ℝ) (val : ℝ → Nat → ℝ) : Prop where
  leaf : ∀ u, val u x = u
  op : ∀ u (n : Nat) (node : Node Op), n ≠ x → g.nodes[n]? = some node → node.differentiable = true → node.incoming ≠ [] →
    val u n = φ node.op (node.incoming.map (fun i => val u i.id))
  fixed : ∀ u (n : Nat) (node : Node Op), n ≠ x → g.nodes[n]? = some node → (node.differentiable = false ∨ node.incoming = []) →
    val u n = val u0 n

/-- A graph of real scalar ops which are differentiable at the point where the tensors have the values `val`, with partial derivatives
`d op vs`. -/
structure RealGraph {ε : Type} (S : Setting Op E ℝ) (g : Graph Op) (φ : Op → List ℝ → ℝ) (d : Op → List ℝ → List ℝ)
    (opGrad : Op → Graph Op → Nat → Nat → Except ε (Graph Op × List (Option Nat))) (val : Nat → ℝ) : Prop where
  closed : InputsExist g
  shapes : ∀ (x : Nat) (n : Node Op) s, g.nodes[x]? = some n → n.shape = some s → s < g.nodes.length
  vals : ∀ n, n < g.nodes.length → Evals S g n (val n)
  leaf : ∀ (n : Nat) (node : Node Op), g.nodes[n]? = some node → node.incoming = [] → node.backpropInputs = none
  plain : ∀ (n : Nat) (node : Node Op), g.nodes[n]? = some node → node.incoming ≠ [] → ∃ xs, PlainOp g n node xs
  ops : ∀ (n : Nat) (node : Node Op), g.nodes[n]? = some node → node.differentiable = true → node.incoming ≠ [] →
    ScalarOp S opGrad node.op (φ node.op) (node.incoming.map (fun i => val i.id)) (d node.op (node.incoming.map (fun i => val i.id))) ∧
    HasPartials (φ node.op) (node.incoming.map (fun i => val i.id)) (d node.op (node.incoming.map (fun i => val i.id)))
  /-- sources have no input gradients (most panic with `unreachable!`) -/
  source : ∀ (n : Nat) (node : Node Op) g' g'' y gy gxs, g.nodes[n]? = some node → node.incoming = [] →
    opGrad node.op g' y gy = .ok (g'', gxs) → Grows g' g'' ∧ gxs = []

end Verif.Spec
