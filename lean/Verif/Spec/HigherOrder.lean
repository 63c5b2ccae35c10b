import Verif.Model.HigherOrder
import Verif.Spec.Calls

/-!
# Specification: gradients of gradients

The functions that a program with calls of `grad` computes, and the points at which they are smooth, stated without graphs, tensors or evaluation: the result of a call of
`grad` is the array of the partial derivatives, in the sense of calculus, of the function that its arguments denote.
-/

namespace Verif.Nd

/-- The points near which the function of the op is defined and has derivatives of all orders, for the ops whose `grad` builds ops with correct gradients again.
Not so for `relu`, `elu` and `clip`: `Greater`, `ELUGrad` and `ClipGrad` report no gradients. -/
def EOp.SmoothAt : EOp → ℝ → Prop
  | inv, a => a ≠ 0
  | invSqrt, a => 0 < a
  | pow p, a => 0 < a ∨ (a < 0 ∧ ∃ n : ℤ, p = n)
  | sqrt, a => 0 < a
  | ln, a => 0 < a
  | log2, a => 0 < a
  | log10, a => 0 < a
  | tan, a => Real.cos a ≠ 0
  | asin, a => -1 < a ∧ a < 1
  | acos, a => -1 < a ∧ a < 1
  | acosh, a => 1 < a
  | atanh, a => -1 < a ∧ a < 1
  | abs, a => a ≠ 0
  | sign, a => a ≠ 0
  | relu, _ => False
  | elu _, _ => False
  | clip _ _, _ => False
  | _, _ => True

end Verif.Nd

namespace Verif.Prog
open Verif Verif.Nd Verif.Spec

/-- The arrays fed to placeholders, by name, and the arrays of the variables. -/
structure Point where
  feeds : List (String × Arr ℝ)
  env : List (Arr ℝ)

/-- What can be differentiated with respect to. -/
inductive Leaf where
  | variable_ (vid : Nat)
  | placeholder (name : String)

/-- The element at `i` of the array of a variable or placeholder is changed by `u`. -/
noncomputable def Point.nudge (I : Point) : Leaf → List Nat → ℝ → Point
  | .variable_ vid, i, u => { I with env := I.env.modify vid (fun a => Prog.nudge a i u) }
  | .placeholder name, i, u => { I with feeds := I.feeds.map (fun f => if f.1 = name then (f.1, Prog.nudge f.2 i u) else f) }

/-- The array that stands for a missing one. -/
noncomputable def noArr : Arr ℝ := ofFn [] (fun _ => 0)

/-- The operands of an arithmetic op: no empty arrays, and one is a scalar or the dimensions agree wherever none of them is 1. -/
def Joinable (s t : List Nat) : Prop :=
  (∀ d ∈ s, 0 < d) ∧ (∀ d ∈ t, 0 < d) ∧ (s = [] ∨ t = [] ∨ List.Forall₂ (fun m n => m = n ∨ m = 1 ∨ n = 1) s t)

/-- The shape of the result. -/
def joinShape : List Nat → List Nat → List Nat
  | [], t => t
  | s, [] => s
  | s, t => List.zipWith max s t

/-- The position of an operand of shape `s` that belongs to position `i` of the result. -/
def joinPos (s i : List Nat) : List Nat := List.zipWith (fun d k => if d = 1 then 0 else k) s i

/-- An arithmetic op. -/
noncomputable def arith (f : ℝ → ℝ → ℝ) (a b : Arr ℝ) : Arr ℝ :=
  ofFn (joinShape a.shape b.shape) (fun i => f (a.get (joinPos a.shape i)) (b.get (joinPos b.shape i)))

/-- The array that a call returns, when earlier calls returned the arrays `val`. -/
noncomputable def opValue (I : Point) (val : Nat → Arr ℝ) : Stmt → Arr ℝ
  | .var vid => I.env.getD vid noArr
  | .placeholder name _ => ((I.feeds.find? (fun f => f.1 = name)).map Prod.snd).getD noArr
  | .const a => a
  | .scalar c => ofFn [] (fun _ => c)
  | .add a b => arith (· + ·) (val a) (val b)
  | .sub a b => arith (· - ·) (val a) (val b)
  | .mul a b => arith (· * ·) (val a) (val b)
  | .div a b => arith (· / ·) (val a) (val b)
  | .un op x => ofFn (val x).shape (fun i => op.f ((val x).get i))
  | .sumAll x => ofFn [] (fun _ => total (val x))
  | .addN x y zs => ofFn (val x).shape (fun i => ((x :: y :: zs).map (fun z => (val z).get i)).sum)
  | .sizeOf x => ofFn [] (fun _ => ((idxs (val x).shape).card : ℝ))
  | .ident x => val x
  | _ => noArr

/-- What is required of a call: the array of a variable or placeholder is there (and its shape is accepted), operands of arithmetic are `Joinable`, summands of `add_n` have the same shape, a
divisor has no zeros and not the shape `[1]` (C25), and elementwise ops are applied to non-empty arrays at whose elements they are smooth, and not of shape `[1]` if the gradient divides arrays (C36).
Other calls are not considered. -/
def CallOk (I : Point) (val : Nat → Arr ℝ) : Stmt → Prop
  | .var vid => vid < I.env.length
  | .placeholder name s => (∃ v, FedAs I.feeds name v ∧ ShapeAccepts s v.shape) ∧ (s.head? = some (-1) ∨ ∀ d ∈ s, d ≠ -1)
  | .const _ => True
  | .scalar _ => True
  | .add a b => Joinable (val a).shape (val b).shape
  | .sub a b => Joinable (val a).shape (val b).shape
  | .mul a b => Joinable (val a).shape (val b).shape
  | .div a b => Joinable (val a).shape (val b).shape ∧ (val b).shape ≠ [1] ∧ ∀ i, InB i (val b).shape → (val b).get i ≠ 0
  | .un op x => (∀ d ∈ (val x).shape, 0 < d) ∧ (op.DividesArrays → (val x).shape ≠ [1]) ∧ ∀ i, InB i (val x).shape → op.SmoothAt ((val x).get i)
  | .sumAll _ => True
  | .addN x y zs => ∀ z ∈ y :: zs, (val z).shape = (val x).shape
  | .sizeOf _ => True
  | .ident _ => True
  | _ => False

/-- The meaning of a program: which results are variables and placeholders, whether arguments are results of earlier calls, what the results are at each point, and at which points
the program is considered. -/
structure Meaning where
  leaves : List (Option Leaf)
  wellScoped : Prop
  value : Point → List (Arr ℝ)
  dom : Point → Prop

/-- The variable or placeholder that a call returns. -/
def leafOf : Stmt → Option Leaf
  | .var vid => some (.variable_ vid)
  | .placeholder name _ => some (.placeholder name)
  | _ => none

/-- The `k`-th result. -/
noncomputable def Meaning.at_ (M : Meaning) (I : Point) (k : Nat) : Arr ℝ := (M.value I).getD k noArr

/-- The sum of all elements of the results `ys`, the function that `grad` differentiates. -/
noncomputable def Meaning.sum (M : Meaning) (ys : List Nat) (I : Point) : ℝ := (ys.map (fun y => total (M.at_ I y))).sum

/-- The partial derivatives of the sum of the elements of the `ys` with respect to the elements of `x`. -/
noncomputable def Meaning.partials (M : Meaning) (ys : List Nat) (I : Point) (x : Nat) : Arr ℝ :=
  match M.leaves[x]? with
  | some (some leaf) => ofFn (M.at_ I x).shape (fun i => deriv (fun u => M.sum ys (I.nudge leaf i u)) 0)
  | _ => noArr

/-- One more call. Names of placeholders are different, and `grad` is called with different variables and placeholders. -/
noncomputable def Meaning.add (M : Meaning) : Call → Meaning
  | .op s =>
    { leaves := M.leaves ++ [leafOf s]
      wellScoped := M.wellScoped ∧ (∀ a ∈ s.args, a < M.leaves.length) ∧ ∀ name sh, s = .placeholder name sh → some (.placeholder name) ∉ M.leaves
      value := fun I => M.value I ++ [opValue I (M.at_ I) s]
      dom := fun I => M.dom I ∧ CallOk I (M.at_ I) s }
  | .grad ys xs =>
    { leaves := M.leaves ++ xs.map (fun _ => none)
      wellScoped := M.wellScoped ∧ (∀ y ∈ ys, y < M.leaves.length) ∧ ∃ ls : List Leaf, List.Forall₂ (fun x leaf => M.leaves[x]? = some (some leaf)) xs ls ∧ ls.Nodup
      value := fun I => M.value I ++ xs.map (M.partials ys I)
      dom := M.dom }

/-- The meaning of a program. -/
noncomputable def meaning (l : List Call) : Meaning := l.foldl Meaning.add ⟨[], True, fun _ => [], fun _ => True⟩

/-- A number of tensors that is enough for the graph after a call, if `n` is enough before: a call needs at most three tensors for shapes besides its own, and a call of `grad` multiplies
the number by at most 32. -/
def Call.room (n : Nat) : Call → Nat
  | .op _ => n + 4
  | .grad ys xs => 32 * (n + ys.length + xs.length + 1)

/-- A number of tensors that is enough for a program. -/
def room (l : List Call) : Nat := l.foldl Call.room 0

end Verif.Prog
