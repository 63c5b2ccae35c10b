import Verif.Spec.Eval
import Verif.Model.Hooks

/-! # Specification vocabulary for hooks -/

namespace Verif.Spec
open Verif

variable {Op V E H : Type}

/-- Tensor `b` has the hook `h` on the tensor `a`. -/
def HookOn (g : Graph (HookedOp Op H)) (b : Nat) (h : H) (a : Nat) : Prop :=
  ∃ n, g.nodes[b]? = some n ∧ n.op = .hook h ∧ n.incoming = [{ id := a }] ∧ n.placeholderName = none ∧ n.variableId = none

/-- What the ops compute, if the other ops compute `f`: a hook leaves its input as it is. -/
def hookedFn (f : Op → List (OpInput V) → Option (Except E (List V))) : HookedOp Op H → List (OpInput V) → Option (Except E (List V))
  | .op o, xs => f o xs
  | .hook _, x :: _ => some (.ok [x.val])
  | .hook _, [] => none

end Verif.Spec
