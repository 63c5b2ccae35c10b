import Verif.Model.Graph
import Mathlib.Logic.Relation

/-!
# Specification vocabulary for graphs

Only uses the data of a graph (nodes and their inputs), none of the functions of the model.
-/

namespace Verif.Spec
open Verif

variable {Op : Type}

/-- Tensor `a` has tensor `b` as a direct input. -/
def DependsDirectly (g : Graph Op) (a b : Nat) : Prop :=
  ∃ n, g.nodes[a]? = some n ∧ ∃ i ∈ n.incoming, i.id = b

/-- Tensor `a` depends on tensor `b` (in one or more steps). -/
def DependsOn (g : Graph Op) : Nat → Nat → Prop := Relation.TransGen (DependsDirectly g)

/-- `a` is `b` or depends on `b`. -/
def DependsOnRefl (g : Graph Op) : Nat → Nat → Prop := Relation.ReflTransGen (DependsDirectly g)

/-- No tensor depends on itself. -/
def Acyclic (g : Graph Op) : Prop := ∀ a, ¬ DependsOn g a a

/-- `n'` is `n` except that the *tensor* its first input refers to may differ. -/
def SameExceptFirstInput (n n' : Node Op) : Prop :=
  ∃ i0 rest j, n.incoming = i0 :: rest ∧
    n' = { n with incoming := { i0 with id := j } :: rest }

/-- The tensors on which `depends_on` is called in a history. -/
def dependsOnTargets : List (Graph.Cmd Op) → List Nat
  | [] => []
  | .dependsOn x _ :: cs => x :: dependsOnTargets cs
  | _ :: cs => dependsOnTargets cs

/-- No call of `depends_on` in the history. -/
def NoDependsOn (cs : List (Graph.Cmd Op)) : Prop := ∀ x deps, Graph.Cmd.dependsOn x deps ∉ cs

/-- Every tensor mentioned by the call is a tensor of the graph (in Rust handles come from the graph itself). -/
def CmdValid (g : Graph Op) : Graph.Cmd Op → Prop
  | .build b _ => (∀ i ∈ b.inNodes, i.id < g.nodes.length) ∧
      (∀ l, b.backpropInputs = some l → ∀ i ∈ l, i.id < g.nodes.length) ∧
      (∀ s, b.shape = some s → s < g.nodes.length)
  | .var _ => True
  | .placeholder _ _ => True
  | .dependsOn x deps => x < g.nodes.length ∧ ∀ d ∈ deps, d < g.nodes.length

end Verif.Spec
