import Verif.Model.Calls

/-!
# Programs that call `grad`

A program as in `Verif.Model.Calls`, in which `grad` is called any number of times, also on tensors that are themselves results of `grad`.
-/

namespace Verif.Prog
open Verif Verif.Graph Verif.Nd Verif.Hint Verif.Gradient

/-- A call in a program: one that returns a tensor, or `grad(&[ys], &[xs])` (src/tensor_ops/mod.rs:94-114), which returns one tensor for each of the `xs`. Arguments are the
numbers of results of earlier calls. -/
inductive Call where
  | op (s : Stmt)
  | grad (ys xs : List Nat)

/-- Makes a call, where the earlier calls returned the tensors `ids`; returns the graph and the tensors returned so far. `none`: the loops of `grad` need more than `fuel` iterations. -/
noncomputable def Call.exec (pick : Graph POp → List Nat → Nat) (fuel : Nat) (c : Call) (g : Graph POp) (ids : List Nat) : Option (Except GPanic (Graph POp × List Nat)) :=
  match c with
  | op s => match construct hintOps g (s.rename (fun k => ids.getD k 0)).ctor with
    | .ok (g', t) => some (.ok (g', ids ++ [t]))
    | .error p => some (.error (.graph p))
  | grad ys xs => match Gradient.grad gradOps pick fuel g (ys.map (fun k => ids.getD k 0)) (xs.map (fun k => ids.getD k 0)) with
    | none => none
    | some (.error p) => some (.error p)
    | some (.ok r) => some (.ok (r.g, ids ++ r.grads))

/-- Makes the calls `l`. -/
noncomputable def execFrom (pick : Graph POp → List Nat → Nat) (fuel : Nat) : List Call → Graph POp → List Nat → Option (Except GPanic (Graph POp × List Nat))
  | [], g, ids => some (.ok (g, ids))
  | c :: l, g, ids => match c.exec pick fuel g ids with
    | none => none
    | some (.error p) => some (.error p)
    | some (.ok (g', ids')) => execFrom pick fuel l g' ids'

/-- Makes the calls of a program on an empty graph. -/
noncomputable def execCalls (pick : Graph POp → List Nat → Nat) (fuel : Nat) (l : List Call) : Option (Except GPanic (Graph POp × List Nat)) :=
  execFrom pick fuel l Graph.empty []

end Verif.Prog
