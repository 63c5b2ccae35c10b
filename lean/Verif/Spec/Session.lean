import Verif.Spec.Eval
import Verif.Model.Session

/-!
# What is requested from an evaluator, read off the history of calls

Only the type of calls is shared with the model.
-/

namespace Verif.Spec
open Verif

variable {Op V : Type}

/-- The tensors that a call adds to the targets of evaluator `e`. -/
def pushedBy (e : Nat) : Call Op V → List Nat
  | .push e' t => if e' = e then [t] else []
  | .extend e' ts => if e' = e then ts else []
  | _ => []

/-- The targets of evaluator `e` after the calls: everything pushed to it so far, in this order. Running it does not remove them. -/
def targetsOf (e : Nat) (cs : List (Call Op V)) : List Nat := cs.flatMap (pushedBy e)

/-- The feeds that a call adds to evaluator `e`. -/
def fedBy (e : Nat) : Call Op V → List (Feed V)
  | .feed e' key v => if e' = e then [⟨key, v⟩] else []
  | _ => []

/-- No feeder is set for evaluator `e` in these calls. -/
def NoFeeder (e : Nat) (cs : List (Call Op V)) : Prop := ∀ fs, Call.setFeeder e fs ∉ cs

/-- The feeds of evaluator `e` after the calls are `fs`: those of the last feeder set for it (none if there is none), followed by those fed to it since then. -/
def FeedsAre (e : Nat) (cs : List (Call Op V)) (fs : List (Feed V)) : Prop :=
  (NoFeeder e cs ∧ fs = cs.flatMap (fedBy e)) ∨
  ∃ before fs0 since, cs = before ++ .setFeeder e fs0 :: since ∧ NoFeeder e since ∧ fs = fs0 ++ since.flatMap (fedBy e)

/-- The builder calls of a session. -/
def built (cs : List (Call Op V)) : List (Graph.Cmd Op) :=
  cs.flatMap fun c => match c with
    | .build c => [c]
    | _ => []

end Verif.Spec
