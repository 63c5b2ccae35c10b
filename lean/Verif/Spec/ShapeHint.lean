import Verif.Model.BinaryOps
import Verif.Model.ShapeHint
import Verif.Spec.Eval
import Verif.Spec.NdArray

/-!
# What shape tensors should hold

`enc s` is the array that holds the shape `s`. The rules say what is assumed of the ops of a list of constructor calls.
-/

namespace Verif.Spec
open Verif Verif.Hint Verif.Nd
variable {Op V E : Type}

/-- The ops that compute shapes: `Shape` gives the shape of its input, `InferBinOpShape` what `inferBinOpShape` gives, the constants what they were
made from; a shape vector has one dimension. -/
structure ShapeOps (H : HintOps Op) (f : Op → List (OpInput V) → Option (Except E (List V))) (shapeOf : V → List Nat) (enc : List Nat → V) : Prop where
  shape : ∀ x, f H.shapeOp [x] = some (.ok [enc (shapeOf x.val)])
  infer : ∀ (xa xb : OpInput V) (a b s : List Nat), xa.val = enc a → xb.val = enc b → inferBinOpShape a b = .ok s →
    f H.inferOp [xa, xb] = some (.ok [enc s])
  const : ∀ s : List Nat, f (H.constOp (s.map (fun n : Nat => (n : Int)))) [] = some (.ok [enc s])
  enc : ∀ s, shapeOf (enc s) = [s.length]

/-- Two shapes from which the shape of an arithmetic operation is inferred correctly: one is that of a scalar or both have the same number of
dimensions, and no dimension is 0. -/
def Inferable (a b : List Nat) : Prop := (a = [] ∨ b = [] ∨ a.length = b.length) ∧ (∀ n ∈ a, 0 < n) ∧ ∀ n ∈ b, 0 < n

/-- What a constructor call has to satisfy, in an evaluation (`feeds`, `env`) of the finished graph `g`:
* `like`: `x` is (the first output of) the `k`-th input, and the first result of the op, on the values of the inputs, has the shape of the `k`-th input;
* `binary`: the result has the common broadcast shape, and the evaluated operands are `Inferable`;
* `sized`: `t` is the `k`-th input and evaluates to a shape vector, and the first result has the shape that the `k`-th input holds;
* `const`, `scalar`: the constant has the shape recorded for it;
* `placeholder`: the first dimension is unknown, or all dimensions are known. -/
def CtorOk (f : Op → List (OpInput V) → Option (Except E (List V))) (shapeOf : V → List Nat) (enc : List Nat → V) (g : Graph Op) (feeds : List (Feed V))
    (env : List V) : Ctor Op → Prop
  | .plain _ _ => True
  | .like op ins x => ∃ (k : Nat) (i : Incoming), ins[k]? = some i ∧ i.id = x ∧ i.selector = 0 ∧
      ∀ xs (xi : OpInput V) y ys, xs[k]? = some xi → xs.length = ins.length →
        (∀ (j : Nat) i x, ins[j]? = some i → xs[j]? = some x → i.selector = 0 → TargetMeans f shapeOf g feeds env i.id (.ok x.val)) →
        f op xs = some (.ok (y :: ys)) → shapeOf y = shapeOf xi.val
  | .binary op a b => (∀ xa xb y ys, f op [xa, xb] = some (.ok (y :: ys)) → CommonShape (shapeOf xa.val) (shapeOf xb.val) (shapeOf y)) ∧
      ∀ va vb, TargetMeans f shapeOf g feeds env a (.ok va) → TargetMeans f shapeOf g feeds env b (.ok vb) → Inferable (shapeOf va) (shapeOf vb)
  | .sized op ins t => (∃ (k : Nat) (i : Incoming), ins[k]? = some i ∧ i.id = t ∧ i.selector = 0 ∧
      ∀ xs (xi : OpInput V) s y ys, xs[k]? = some xi → xi.val = enc s → f op xs = some (.ok (y :: ys)) → shapeOf y = s) ∧
      ∀ v, TargetMeans f shapeOf g feeds env t (.ok v) → ∃ s, v = enc s
  | .const s op => ∃ s' : List Nat, s = s'.map (fun n : Nat => (n : Int)) ∧ ∀ y ys, f op [] = some (.ok (y :: ys)) → shapeOf y = s'
  | .scalar op => ∀ y ys, f op [] = some (.ok (y :: ys)) → shapeOf y = []
  | .var _ => True
  | .placeholder _ s => s.head? = some (-1) ∨ ∀ d ∈ s, d ≠ -1
  | .shapeOf _ => True
  | .fixed _ _ => True

end Verif.Spec
