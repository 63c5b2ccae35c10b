import Verif.Spec.Graph
import Mathlib.Algebra.Group.Hom.Defs
import Mathlib.Algebra.BigOperators.Group.Finset.Basic

/-!
# Specification vocabulary for differentiation

Uses only the data of a graph, none of the functions of the model of back-propagation.
-/

namespace Verif.Spec
open Verif

variable {Op : Type}

/-- `b` is a back-propagation input of `a`. -/
def BpInput (g : Graph Op) (a b : Nat) : Prop := ∃ n, g.nodes[a]? = some n ∧ ∃ i ∈ n.bpInputs, i.id = b

/-- The tensor exists and is declared differentiable. -/
def IsDiff (g : Graph Op) (a : Nat) : Prop := ∃ n, g.nodes[a]? = some n ∧ n.differentiable = true

/-- The tensor has no inputs (variable, placeholder, constant). -/
def IsSource (g : Graph Op) (a : Nat) : Prop := ∃ n, g.nodes[a]? = some n ∧ n.incoming = []

/-- Some tensor of `xs` can be reached from `a` (in zero or more steps) through differentiable tensors only, `a` and the tensor of `xs`
included. -/
inductive Leads (g : Graph Op) (xs : List Nat) : Nat → Prop where
  | here {a} : IsDiff g a → a ∈ xs → Leads g xs a
  | there {a b} : IsDiff g a → BpInput g a b → Leads g xs b → Leads g xs a

/-- Back-propagation inputs exist and have smaller topological rank; a source has none. Guaranteed by construction unless `depends_on` is
used (`C02_ranks_and_acyclic`). -/
def BpDag (g : Graph Op) : Prop :=
  ∀ (a : Nat) (n : Node Op), g.nodes[a]? = some n → (n.incoming = [] → n.bpInputs = []) ∧
    ∀ i ∈ n.bpInputs, ∃ m, g.nodes[i.id]? = some m ∧ m.topoRank < n.topoRank

/-- The topological rank of a tensor. -/
def HasRank (g : Graph Op) (a r : Nat) : Prop := ∃ n, g.nodes[a]? = some n ∧ n.topoRank = r

/-- `pick` chooses an element of maximal rank, as `BinaryHeap::pop` does. -/
def PicksMax (pick : Graph Op → List Nat → Nat) : Prop :=
  ∀ g heap, heap ≠ [] → pick g heap ∈ heap ∧
    ∀ h ∈ heap, ∀ r r', HasRank g h r → HasRank g (pick g heap) r' → r ≤ r'

/-- The inputs of every tensor exist. -/
def InputsExist (g : Graph Op) : Prop :=
  ∀ (id : Nat) (n : Node Op), g.nodes[id]? = some n → ∀ i ∈ n.incoming, i.id < g.nodes.length

/-- Every tensor of `g` is unchanged in `g'`, and new tensors only have existing tensors as inputs. -/
def Grows (g g' : Graph Op) : Prop :=
  (∀ (id : Nat) (n : Node Op), g.nodes[id]? = some n → g'.nodes[id]? = some n) ∧ (InputsExist g → InputsExist g')

/-! ## Tangents and gradients -/

/-- A differential calculus on a graph: a space of tangents for every tensor, the linearisation of every op, and what it means
for a tensor `t` of a graph to hold a gradient of tensor `n`, i.e. to represent an additive function on the tangents of `n` (for arrays: the
inner product with the value of `t`). -/
structure Calculus (Op : Type) where
  /-- tangents of a tensor -/
  T : Nat → Type
  [monT : ∀ n, AddCommMonoid (T n)]
  /-- scalars -/
  R : Type
  [monR : AddCommMonoid R]
  /-- the tangent of an op tensor as a function of the tangents of the other tensors -/
  lin : ∀ n, (∀ m, T m) → T n
  /-- in graph `g` tensor `t` represents the function -/
  Rep : Graph Op → (n : Nat) → (t : Nat) → (T n →+ R) → Prop

attribute [instance] Calculus.monT Calculus.monR

/-- The tangents `t` when only the tensors of `X` are moved: a differentiable op moves as its linearisation says; sources and
non-differentiable tensors do not move, tensors of `X` move arbitrarily. -/
structure MovedBy (K : Calculus Op) (g : Graph Op) (X : Finset Nat) (t : ∀ n, K.T n) : Prop where
  op : ∀ n, n ∉ X → IsDiff g n → ¬ IsSource g n → t n = K.lin n t
  fixed : ∀ n, n ∉ X → (¬ IsDiff g n ∨ IsSource g n) → t n = 0

/-- `gxs` are gradients of the inputs `is` (`none`: no gradient) which together represent `φ`. Surplus gradients are not looked at: `Scalar::grad`
reports one although the op has no inputs. -/
inductive Contribs (K : Calculus Op) (g : Graph Op) : List Incoming → List (Option Nat) → ((∀ m, K.T m) → K.R) → Prop where
  | nil {gxs} : Contribs K g [] gxs (fun _ => 0)
  | some {i is gx gxs c φ} : K.Rep g i.id gx c → Contribs K g is gxs φ →
      Contribs K g (i :: is) (some gx :: gxs) (fun t => c (t i.id) + φ t)
  | none {i is gxs φ} : Contribs K g is gxs φ → Contribs K g (i :: is) (none :: gxs) φ

/-- Tensor `t` is the op `op` applied to the first outputs of the tensors `xs`. -/
def IsApp (g : Graph Op) (t : Nat) (op : Op) (xs : List Nat) : Prop :=
  ∃ n, g.nodes[t]? = some n ∧ n.op = op ∧ n.incoming = xs.map (fun x => ({ id := x } : Incoming)) ∧
    n.placeholderName = none ∧ n.variableId = none

/-- What is required of the ops: the sum of gradients is represented by `add_n`, the zero gradient by `zeros`, and `Op::grad` of every
differentiable tensor of `g0` in the set `D` returns the adjoint of its linearisation, adding new tensors only. -/
structure GradSound {ε : Type} (K : Calculus Op) (g0 : Graph Op) (D : Nat → Prop) (addN zeros shapeOp : Op)
    (opGrad : Op → Graph Op → Nat → Nat → Except ε (Graph Op × List (Option Nat))) : Prop where
  /-- adding tensors to the graph does not change what a tensor represents -/
  mono : ∀ {g g' n t c}, Grows g0 g → Grows g g' → K.Rep g n t c → K.Rep g' n t c
  addN : ∀ {g n s ts cs}, Grows g0 g → 2 ≤ ts.length → IsApp g s addN ts → List.Forall₂ (K.Rep g n) ts cs → K.Rep g n s cs.sum
  zeros : ∀ {g x nx z s}, Grows g0 g → g0.nodes[x]? = some nx → IsApp g z zeros [s] → (nx.shape = some s ∨ IsApp g s shapeOp [x]) →
    K.Rep g x z 0
  /-- a tensor without moving inputs does not move -/
  lin_zero : ∀ {n : Nat} {node : Node Op} {t}, g0.nodes[n]? = some node → (∀ i ∈ node.bpInputs, t i.id = 0) → K.lin n t = 0
  opGrad : ∀ {n : Nat} {node : Node Op} {g g' gy gxs c}, D n → Grows g0 g → g0.nodes[n]? = some node → node.differentiable = true →
    K.Rep g n gy c → opGrad node.op g n gy = .ok (g', gxs) →
    Grows g g' ∧ ∃ φ, Contribs K g' node.bpInputs gxs φ ∧ ∀ t, c (K.lin n t) = φ t

/-- `Op::grad` only adds tensors to the graph and returns at least one optional existing tensor per back-propagation input. -/
def GradWellFormed {ε : Type} (g0 : Graph Op)
    (opGrad : Op → Graph Op → Nat → Nat → Except ε (Graph Op × List (Option Nat))) : Prop :=
  ∀ {n : Nat} {node : Node Op} {g g' : Graph Op} {gy : Nat} {gxs : List (Option Nat)}, Grows g0 g → g0.nodes[n]? = some node →
    node.differentiable = true → gy < g.nodes.length → opGrad node.op g n gy = .ok (g', gxs) →
    Grows g g' ∧ node.bpInputs.length ≤ gxs.length ∧ ∀ t, some t ∈ gxs → t < g'.nodes.length

/-- `Op::grad` of a differentiable tensor returns a gradient for every input that leads to `xs`. -/
def GradGiven {ε : Type} (g0 : Graph Op) (xs : List Nat)
    (opGrad : Op → Graph Op → Nat → Nat → Except ε (Graph Op × List (Option Nat))) : Prop :=
  ∀ {n : Nat} {node : Node Op} {g g' : Graph Op} {gy : Nat} {gxs : List (Option Nat)}, Grows g0 g → g0.nodes[n]? = some node →
    node.differentiable = true → gy < g.nodes.length → opGrad node.op g n gy = .ok (g', gxs) →
    ∀ (k : Nat) (i : Incoming), node.bpInputs[k]? = some i → Leads g0 xs i.id → ∃ t, gxs[k]? = some (some t)

/-- `k` is one of the `ys` or is reached from them through differentiable tensors. -/
inductive ReachedFrom (g : Graph Op) (ys : List Nat) : Nat → Prop where
  | here {y} : y ∈ ys → ReachedFrom g ys y
  | step {p k} : ReachedFrom g ys p → IsDiff g p → BpInput g p k → ReachedFrom g ys k

/-- `x` is used as a back-propagation input at most once in the graph. -/
def UsedOnce (g : Graph Op) (x : Nat) : Prop :=
  (∀ m m', BpInput g m x → BpInput g m' x → m = m') ∧
  ∀ (m : Nat) (n : Node Op) a i b, g.nodes[m]? = some n → n.bpInputs = a ++ i :: b → i.id = x → ∀ j ∈ a ++ b, j.id ≠ x

/-- Tensors with respect to which the gradients are exact: differentiable tensors of `xs` which do not depend on each other and are not
among the `ys`; a tensor that is not a source must be used only once. -/
structure Independent (g : Graph Op) (ys xs : List Nat) (X : Finset Nat) : Prop where
  sub : ∀ x ∈ X, x ∈ xs
  diff : ∀ x ∈ X, IsDiff g x
  notY : ∀ x ∈ X, x ∉ ys
  once : ∀ x ∈ X, IsSource g x ∨ UsedOnce g x
  antichain : ∀ x ∈ X, ∀ x' ∈ X, ¬ Relation.TransGen (BpInput g) x x'

/-- The linearisation of a tensor only looks at its back-propagation inputs. -/
def LocalLin (K : Calculus Op) (g : Graph Op) : Prop :=
  ∀ (n : Nat) (node : Node Op) (t t' : ∀ m, K.T m), g.nodes[n]? = some node → (∀ i ∈ node.bpInputs, t i.id = t' i.id) →
    K.lin n t = K.lin n t'

/-- `t` is a tensor of zeros of the shape of `x`. -/
def ZerosLike (zeros shapeOp : Op) (g : Graph Op) (x t : Nat) : Prop :=
  ∃ n s, g.nodes[x]? = some n ∧ IsApp g t zeros [s] ∧ (n.shape = some s ∨ IsApp g s shapeOp [x])

/-- `g0` is `g` with a new tensor `sum_all(y)` for each of the `ys`; the new tensors are `sys`. -/
structure Summed (sumAll : Op) (g : Graph Op) (ys : List Nat) (g0 : Graph Op) (sys : List Nat) : Prop where
  grows : Grows g g0
  bpDag : BpDag g → BpDag g0
  apps : List.Forall₂ (fun y s => ∃ n, g0.nodes[s]? = some n ∧ n.op = sumAll ∧ n.incoming = [{ id := y }] ∧ n.differentiable = true ∧
    n.backpropInputs = none ∧ n.variableId = none ∧ n.placeholderName = none ∧ n.shape = none) ys sys
  fresh : ∀ id, id ∈ sys ↔ g.nodes.length ≤ id ∧ id < g0.nodes.length
  nodup : sys.Nodup

end Verif.Spec
