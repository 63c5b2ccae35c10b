import Mathlib.Algebra.Field.Defs
import Verif.Spec.Eval
import Verif.Spec.NdArray

/-!
# What the optimizers and assignments should do

The recurrences of the update rules for one element with gradients `g 0, g 1, ..`, and the vocabulary for update ops in a graph.
-/

namespace Verif.Spec
open Verif Verif.Nd

/-! ## Recurrences -/

section
variable {R : Type} [Field R]

/-- SGD: `p ← p - α g`. -/
def sgdParam (alpha p0 : R) (g : Nat → R) : Nat → R
  | 0 => p0
  | k + 1 => sgdParam alpha p0 g k - alpha * g k

/-- The velocity of MomentumSGD: `v ← μ v - η g`, from 0. -/
def momentumVel (lr mu : R) (g : Nat → R) : Nat → R
  | 0 => 0
  | k + 1 => mu * momentumVel lr mu g k - lr * g k

/-- MomentumSGD: `p ← p + v`, with the new velocity. -/
def momentumParam (lr mu p0 : R) (g : Nat → R) : Nat → R
  | 0 => p0
  | k + 1 => momentumParam lr mu p0 g k + momentumVel lr mu g (k + 1)

/-- The accumulator of AdaGrad: the sum of the squared gradients. -/
def adagradAcc (g : Nat → R) : Nat → R
  | 0 => 0
  | k + 1 => adagradAcc g k + g k ^ 2

/-- AdaGrad: `p ← p - η g / (√h + 10⁻⁷)`, with the new accumulator. -/
def adagradParam (sqrt : R → R) (lr p0 : R) (g : Nat → R) : Nat → R
  | 0 => p0
  | k + 1 => adagradParam sqrt lr p0 g k - lr * g k / (sqrt (adagradAcc g (k + 1)) + 1 / 10 ^ 7)

/-- An exponential moving average of `f`: `m ← β m + (1 - β) f`, from 0. -/
def movingAvg (b : R) (f : Nat → R) : Nat → R
  | 0 => 0
  | k + 1 => b * movingAvg b f k + (1 - b) * f k

/-- Adam (Kingma, Ba; Algorithm 1): in step `k + 1` the moments are divided by `1 - β^(k+1)`. -/
def adamParam (sqrt : R → R) (alpha eps b1 b2 p0 : R) (g : Nat → R) : Nat → R
  | 0 => p0
  | k + 1 => adamParam sqrt alpha eps b1 b2 p0 g k -
      alpha * ((movingAvg b1 g (k + 1) / (1 - b1 ^ (k + 1))) /
        (sqrt (movingAvg b2 (fun j => g j ^ 2) (k + 1) / (1 - b2 ^ (k + 1))) + eps))

/-- `g k` is, for every `k`, the element of the `k`-th gradient array that belongs to position `idx` of the parameter (the gradient may
have to be broadcast). -/
def GradAt (gs : List (Arr R)) (idx : List Nat) (g : Nat → R) : Prop :=
  ∀ (k : Nat) (a : Arr R), gs[k]? = some a → ∃ o, ReadsAt a.shape idx o ∧ g k = a.get o

end

/-! ## Update ops in a graph -/

variable {Op V E W : Type}

/-- The input is the tensor of variable `vid`, taken mutably. -/
def MutVar (g : Graph Op) (i : Incoming) (vid : Nat) : Prop :=
  i.allowMut = true ∧ ∃ m, g.nodes[i.id]? = some m ∧ m.placeholderName = none ∧ m.variableId = some vid

/-- Tensor `u` applies the update op `o` to the variable `pv` with the gradient input `gr` and the state variables `svs`. -/
def IsUpdate (g : Graph Op) (o : Op) (pv : Nat) (svs : List Nat) (u : Nat) (gr : Incoming) : Prop :=
  ∃ n p ss, g.nodes[u]? = some n ∧ n.op = o ∧ n.incoming = p :: gr :: ss ∧ MutVar g p pv ∧ gr.allowMut = false ∧
    List.Forall₂ (MutVar g) ss svs

/-- In the execution `log` (started with `env`, `w`), when the op of tensor `u` was called its input `i` had the value `x`. -/
def InputRead (S : Sem Op V E W) (g : Graph Op) (feeds : List (Feed V)) (env : List V) (w : W) (log : List (Nat × Bool))
    (u : Nat) (i : Incoming) (x : V) : Prop :=
  ∃ pre post s1 cv kind, log = pre ++ (u, true) :: post ∧ ExecList S g feeds (.start env w) pre s1 ∧
    (∀ b, Uses g u b → s1.results b = some (cv b)) ∧ InputIs S.shapeOf g feeds s1.env cv i (.ok ⟨kind, x⟩)

open Classical in
/-- The tensors of the log, in order of execution, whose op was called and which update variable `pv` with state `svs`. -/
noncomputable def updateCalls (g : Graph Op) (o : Op) (pv : Nat) (svs : List Nat) (log : List (Nat × Bool)) : List Nat :=
  (log.filter (fun e => decide (e.2 = true ∧ ∃ gr, IsUpdate g o pv svs e.1 gr))).map Prod.fst

/-- `gs` are the gradients, in order of execution, with which the variable `pv` was updated in the execution `log`. -/
def GradsRead (S : Sem Op V E W) (g : Graph Op) (feeds : List (Feed V)) (env : List V) (w : W) (o : Op) (pv : Nat) (svs : List Nat)
    (log : List (Nat × Bool)) (gs : List V) : Prop :=
  List.Forall₂ (fun u x => ∃ gr, IsUpdate g o pv svs u gr ∧ InputRead S g feeds env w log u gr x) (updateCalls g o pv svs log) gs

/-- Of the ops that are executed for the targets, only update ops of (`pv`, `svs`) may write to these variables. -/
def OnlyUpdates (g : Graph Op) (targets : List Nat) (o : Op) (pv : Nat) (svs : List Nat) : Prop :=
  ∀ a vid, Needed g targets a → vid ∈ pv :: svs → MayWrite g a vid → ∃ gr, IsUpdate g o pv svs a gr

/-- The op tensor `a` has the variable `vid` among its inputs. -/
def ReadsVar (g : Graph Op) (a vid : Nat) : Prop :=
  ∃ n, g.nodes[a]? = some n ∧ ∃ i ∈ n.incoming, ∃ m, g.nodes[i.id]? = some m ∧ m.variableId = some vid

/-- The input `i` has the value `x` in the mathematical sense, with the variables as in `env`. -/
def InputMeans (f : Op → List (OpInput V) → Option (Except E (List V))) (shapeOf : V → List Nat) (g : Graph Op) (feeds : List (Feed V))
    (env : List V) (i : Incoming) (x : V) : Prop :=
  ∃ cv kind, (IsOp g i.id → Means f shapeOf g feeds env i.id (cv i.id)) ∧ InputIs shapeOf g feeds env cv i (.ok ⟨kind, x⟩)

end Verif.Spec
