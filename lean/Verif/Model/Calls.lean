import Verif.Model.Program

/-!
# Programs as written in Rust

A program is a list of calls whose arguments are the results of earlier calls, given by the numbers of these calls: `let t0 = ..; let t1 = ..; ...`.
In `Stmt` the arguments are ids of tensors; here the numbers are first replaced by the ids that the earlier calls returned.
-/

namespace Verif.Prog
open Verif Verif.Graph Verif.Nd Verif.Hint

/-- The tensor arguments of a call (signatures of the functions, src/tensor_ops/mod.rs; lines as for `Stmt.ctor`). -/
def Stmt.args : Stmt → List Nat
  | var _ => []
  | placeholder _ _ => []
  | const _ => []
  | scalar _ => []
  | add a b => [a, b]
  | sub a b => [a, b]
  | mul a b => [a, b]
  | div a b => [a, b]
  | un _ x => [x]
  | matmul a b => [a, b]
  | sumAll x => [x]
  | reduceSum x axes _ => [x, axes]
  | addN x y zs => x :: y :: zs
  | shapeOf x => [x]
  | sizeOf x => [x]
  | reduceMean x axes _ => [x, axes]
  | softmax _ _ x _ => [x]
  | logSoftmax _ _ x _ => [x]
  | sigmoidCE x t => [x, t]
  | sparseCE _ _ x t => [x, t]
  | zeros s => [s]
  | ones s => [s]
  | ident x => [x]
  | slice x _ _ => [x]
  | squeeze x axes => [x, axes]
  | reshape x s => [x, s]
  | gather _ indices param _ => [indices, param]
  | expandDims x axes => [x, axes]
  | conv2d _ _ _ x w => [x, w]
  | maxPool _ _ _ _ x => [x]
  | dropout _ _ _ x => [x]
  | argMax _ _ x _ _ => [x]
  | cmp _ a b => [a, b]
  | transpose x axes => [x, axes]
  | hook x => [x]
  | extremum _ a b => [a, b]
  | reduceExt _ _ x axes _ => [x, axes]
  | stopGradient x => [x]

/-- The call with other tensor arguments. -/
def Stmt.rename (f : Nat → Nat) : Stmt → Stmt
  | var vid => var vid
  | placeholder name s => placeholder name s
  | const a => const a
  | scalar c => scalar c
  | add a b => add (f a) (f b)
  | sub a b => sub (f a) (f b)
  | mul a b => mul (f a) (f b)
  | div a b => div (f a) (f b)
  | un op x => un op (f x)
  | matmul a b => matmul (f a) (f b)
  | sumAll x => sumAll (f x)
  | reduceSum x axes keep => reduceSum (f x) (f axes) keep
  | addN x y zs => addN (f x) (f y) (zs.map f)
  | shapeOf x => shapeOf (f x)
  | sizeOf x => sizeOf (f x)
  | reduceMean x axes keep => reduceMean (f x) (f axes) keep
  | softmax bot lay x axis => softmax bot lay (f x) axis
  | logSoftmax bot lay x axis => logSoftmax bot lay (f x) axis
  | sigmoidCE x t => sigmoidCE (f x) (f t)
  | sparseCE bot lay x t => sparseCE bot lay (f x) (f t)
  | zeros s => zeros (f s)
  | ones s => ones (f s)
  | ident x => ident (f x)
  | slice x starts stops => slice (f x) starts stops
  | squeeze x axes => squeeze (f x) (f axes)
  | reshape x s => reshape (f x) (f s)
  | gather normalize indices param axis => gather normalize (f indices) (f param) axis
  | expandDims x axes => expandDims (f x) (f axes)
  | conv2d pad stride dil x w => conv2d pad stride dil (f x) (f w)
  | maxPool bot k pad stride x => maxPool bot k pad stride (f x)
  | dropout train ratio mask x => dropout train ratio mask (f x)
  | argMax bot lay x axis keep => argMax bot lay (f x) axis keep
  | cmp c a b => cmp c (f a) (f b)
  | transpose x axes => transpose (f x) (f axes)
  | hook x => hook (f x)
  | extremum mx a b => extremum mx (f a) (f b)
  | reduceExt mx lim x axes keep => reduceExt mx lim (f x) (f axes) keep
  | stopGradient x => stopGradient (f x)

/-- Makes the calls `l`, where the earlier calls returned the tensors `ids`; returns the graph and the tensors of all calls. That the number of an argument is that of
an earlier call is ensured by Rust, where the argument is a variable in scope; here a wrong number would denote tensor 0. -/
noncomputable def buildFrom : List Stmt → Graph POp → List Nat → Except Panic (Graph POp × List Nat)
  | [], g, ids => .ok (g, ids)
  | s :: l, g, ids => do
    let (g', t) ← construct hintOps g (s.rename (fun k => ids.getD k 0)).ctor
    buildFrom l g' (ids ++ [t])

/-- Makes the calls of a program in an empty graph (the graph of a `run` of a variable environment, src/variable.rs:670-683). -/
noncomputable def buildCalls (l : List Stmt) : Except Panic (Graph POp × List Nat) := buildFrom l Graph.empty []

end Verif.Prog
