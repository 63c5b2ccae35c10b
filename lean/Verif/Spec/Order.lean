import Verif.Spec.Eval
import Verif.Spec.Optimizers

/-!
# Depth-first order

The order in which a recursive traversal of the graph visits op tensors, written without stacks.
-/

namespace Verif.Spec
open Verif

variable {Op V E W : Type}

/-- `Visits g done todo out`: when the op tensors `done` have been visited (oldest first), visiting the tensors `todo` from first to last makes the list of visited op tensors
`out`. An op tensor that has not been visited is visited after its inputs, which are visited from last to first; other tensors are passed over. -/
inductive Visits (g : Graph Op) : List Nat → List Nat → List Nat → Prop where
  | nil {d} : Visits g d [] d
  | skip {d x xs d'} : x ∈ d ∨ ¬ IsOp g x → Visits g d xs d' → Visits g d (x :: xs) d'
  | visit {d x n xs d1 d2} : x ∉ d → IsOp g x → g.nodes[x]? = some n → Visits g d (n.incoming.map Incoming.id).reverse d1 → Visits g (d1 ++ [x]) xs d2 →
      Visits g d (x :: xs) d2

/-- Nothing below the tensor may write to a variable, nor may the tensor itself. -/
def Clean (g : Graph Op) (a : Nat) : Prop := ∀ b vid, Relation.ReflTransGen (Uses g) a b → ¬ MayWrite g b vid

/-- For tensors visited from first to last: an op that may write to a variable is not needed by tensors before it; and all ops needed by tensors after it which read the variable
(and do not depend on writes) are also needed by it or by tensors before it. -/
def ReadsFirst (g : Graph Op) (todo : List Nat) : Prop :=
  ∀ before u after vid, todo = before ++ u :: after → u ∉ before → MayWrite g u vid →
    ¬ Needed g before u ∧ ∀ a, Needed g after a → Clean g a → ReadsVar g a vid → Needed g (before ++ [u]) a

end Verif.Spec
