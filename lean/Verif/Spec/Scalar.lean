import Verif.Spec.Eval
import Verif.Spec.Gradient
import Mathlib.Algebra.Ring.Defs
import Mathlib.Algebra.BigOperators.Group.List.Basic

/-!
# Specification vocabulary for graphs of scalar ops

Every tensor holds an element of a commutative ring `R`. The partial derivatives of the ops at the point of evaluation are given.
-/

namespace Verif.Spec
open Verif

variable {Op E R : Type}

/-- Everything that fixes the values of a graph: what the ops compute, the feeds and the variables. -/
structure Setting (Op E R : Type) where
  f : Op → List (OpInput R) → Option (Except E (List R))
  shapeOf : R → List Nat
  feeds : List (Feed R)
  env : List R

/-- In graph `g` tensor `t` has the value `v`. -/
def Evals (S : Setting Op E R) (g : Graph Op) (t : Nat) (v : R) : Prop :=
  TargetMeans S.f S.shapeOf g S.feeds S.env t (.ok v) ∧
    ∀ n, g.nodes[t]? = some n → n.variableId ≠ none → n.placeholderName = none

/-- The op computes `v` from the values `vs`. -/
def Gives (S : Setting Op E R) (op : Op) (vs : List R) (v : R) : Prop :=
  ∀ xs : List (OpInput R), xs.map OpInput.val = vs → S.f op xs = some (.ok [v])

/-- A returned gradient has the value that the chain rule demands: `v` times the partial derivative `d`. No gradient may be returned
if the partial derivative is zero. -/
def GradIs [Mul R] [Zero R] (S : Setting Op E R) (g : Graph Op) (v : R) (gx : Option Nat) (d : R) : Prop :=
  match gx with
  | some t => Evals S g t (v * d)
  | none => d = 0

/-- What is required of a graph of scalar ops with partial derivatives `d` (for each tensor one for each back-propagation input): all
tensors have values, the ops used by `grad` itself compute what their names say, and `Op::grad` multiplies by the partial derivatives. -/
structure ScalarGraph [CommRing R] {ε : Type} (S : Setting Op E R) (g0 : Graph Op) (d : Nat → List R) (addN zeros shapeOp : Op)
    (opGrad : Op → Graph Op → Nat → Nat → Except ε (Graph Op × List (Option Nat))) : Prop where
  closed : InputsExist g0
  shapes : ∀ (x : Nat) (n : Node Op) s, g0.nodes[x]? = some n → n.shape = some s → s < g0.nodes.length
  vals : ∀ n, n < g0.nodes.length → ∃ v, Evals S g0 n v
  addN : ∀ vs, Gives S addN vs vs.sum
  zeros : ∀ v, Gives S zeros [v] 0
  shapeOp : ∀ v, ∃ u, Gives S shapeOp [v] u
  len : ∀ (n : Nat) (node : Node Op), g0.nodes[n]? = some node → (d n).length = node.bpInputs.length
  opGrad : ∀ {n : Nat} {node : Node Op} {g g' : Graph Op} {gy : Nat} {gxs : List (Option Nat)} {v : R}, Grows g0 g →
    g0.nodes[n]? = some node → node.differentiable = true → Evals S g gy v → opGrad node.op g n gy = .ok (g', gxs) →
    Grows g g' ∧ List.Forall₂ (GradIs S g' v) gxs (d n)

/-- The directional derivative of a tensor: partial derivatives times the tangents of the inputs. -/
def chain [CommRing R] (is : List Incoming) (ds : List R) (t : Nat → R) : R :=
  ((is.zip ds).map (fun p => p.2 * t p.1.id)).sum

/-- The calculus of scalar graphs: a tensor `t` with value `v` represents multiplication by `v`. -/
def scalarCalculus [CommRing R] (S : Setting Op E R) (g0 : Graph Op) (d : Nat → List R) : Calculus Op where
  T := fun _ => R
  R := R
  lin := fun n t => match g0.nodes[n]? with
    | some node => chain node.bpInputs (d n) t
    | none => 0
  Rep := fun g _ t c => ∃ v, Evals S g t v ∧ ∀ τ, c τ = v * τ

/-! ## Ops with known partial derivatives -/

/-- The tensor is computed by an op from first outputs, and these are also its back-propagation inputs. -/
def PlainOp (g : Graph Op) (n : Nat) (node : Node Op) (xs : List Nat) : Prop :=
  g.nodes[n]? = some node ∧ node.incoming = xs.map (fun x => ({ id := x } : Incoming)) ∧ node.backpropInputs = none ∧
    node.placeholderName = none ∧ node.variableId = none

/-- At the input values `vs` the op computes `φ vs` and its `grad` multiplies the incoming gradient by the numbers `ds`. -/
structure ScalarOp [CommRing R] {ε : Type} (S : Setting Op E R)
    (opGrad : Op → Graph Op → Nat → Nat → Except ε (Graph Op × List (Option Nat))) (op : Op) (φ : List R → R) (vs ds : List R) : Prop where
  gives : Gives S op vs (φ vs)
  len : ds.length = vs.length
  grad : ∀ {g g' : Graph Op} {n gy : Nat} {node : Node Op} {xs : List Nat} {gxs : List (Option Nat)} {v : R}, InputsExist g →
    PlainOp g n node xs → node.op = op → List.Forall₂ (Evals S g) xs vs → Evals S g gy v → opGrad op g n gy = .ok (g', gxs) →
    Grows g g' ∧ List.Forall₂ (GradIs S g' v) gxs ds

end Verif.Spec
