import Verif.Spec.Gradient
import Verif.Model.Variables

/-!
# Specification vocabulary for `grad_helper`
-/

namespace Verif.Spec
open Verif
variable {Op : Type}

/-- Tensor `t` is the tensor of variable `v`. -/
def TensorOf (g : Graph Op) (v t : Nat) : Prop := ∃ n, g.nodes[t]? = some n ∧ n.variableId = some v ∧ n.incoming = [] ∧ n.differentiable = true

/-- The ids of the variables of namespace `ns`, in the order of the list. -/
def idsOf (ns : Str) (order : List (FullName × Nat)) : List Nat := (order.filter (fun e => decide (e.1.ns = ns))).map Prod.snd

/-- In the list `vs` the element `w` comes after `v`. -/
def ListedAfter (vs : List Nat) (v w : Nat) : Prop := ∃ a b c, vs = a ++ v :: b ++ w :: c

/-- `x` is a differentiable tensor that the `ys` depend on through differentiable tensors. -/
def HasGradient (g : Graph Op) (ys : List Nat) (x : Nat) : Prop := IsDiff g x ∧ ReachedFrom g ys x

end Verif.Spec
