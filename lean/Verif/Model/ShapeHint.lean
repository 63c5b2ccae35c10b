import Verif.Model.Graph

/-!
# Model of the tensor constructors with respect to shape tensors

A tensor may record another tensor that holds its shape (`TensorInternal::shape`, set by `TensorBuilder::set_shape`, src/tensor.rs:702-711);
`shape(x)` returns it if there is one. The constructors of `tensor_ops` set it in a few ways, which are the cases of `Ctor`. Ops are elements of an
arbitrary type. Backprop inputs play no role for shapes and are left at their defaults.
-/

namespace Verif.Hint
open Verif Verif.Graph
variable {Op : Type}

/-- The ops `array_ops::Shape`, `array_ops::InferBinOpShape`, and those of `Graph.Ops`. -/
structure HintOps (Op : Type) extends Graph.Ops Op where
  shapeOp : Op
  inferOp : Op

/-- Models `tensor_ops::shape` (src/tensor_ops/mod.rs:266-279). -/
def shape (H : HintOps Op) (g : Graph Op) (x : Nat) : Except Panic (Graph Op × Nat) := do
  let n ← g.access x
  match n.shape with
  | some s => .ok (g, s)
  | none => g.build { inNodes := [{ id := x }], differentiable := false } H.shapeOp

/-- Calls of constructors.
* `plain`: no shape is recorded (`reshape`, `transpose`, `concat`, `softmax`, `nth_tensor`, ...);
* `like`: `.set_shape(&shape(x))` (elementwise functions, `identity`, `add_n`, `flatten`, `log_softmax`, `sigmoid_cross_entropy`:
  src/tensor_ops/mod.rs:341-484, 565, 663-754, 845, 1353, 1380-1576, 1657-1712, 1745, 1786; in gradients: src/tensor_ops/array_ops.rs:309, 394,
  548, 606, 720, 797, src/tensor_ops/activation_ops.rs:201, src/tensor_ops/math_ops.rs:459);
* `binary`: `add`, `sub`, `mul`, `div` (src/tensor_ops/mod.rs:589-651) with `infer_bin_op_shape` (src/tensor_ops/mod.rs:569-583);
* `sized`: `.set_shape(&t)` with `t` an input (random tensors, src/tensor_ops/mod.rs:2454-2674; `maybe_reduce`, src/tensor_ops/binary_ops.rs:291-302);
* `const`: `convert_to_tensor` (src/tensor_ops/mod.rs:2387-2402): a constant that holds the shape `s`, then the constant itself;
* `scalar`: `scalar` (src/tensor_ops/mod.rs:2415-2423): its shape tensor is the empty array of shape `[0]`, made by `convert_to_tensor`;
* `var`, `placeholder`: variables (no shape) and placeholders;
* `shapeOf`: `shape(x)` itself;
* `fixed`: no shape is recorded and the tensor is not differentiable (`size`, `rank`, `stop_gradient`: src/tensor_ops/mod.rs:242-253, 296-330). -/
inductive Ctor (Op : Type) where
  | plain (op : Op) (ins : List Incoming)
  | like (op : Op) (ins : List Incoming) (x : Nat)
  | binary (op : Op) (a b : Nat)
  | sized (op : Op) (ins : List Incoming) (t : Nat)
  | const (s : List Int) (op : Op)
  | scalar (op : Op)
  | var (vid : Nat)
  | placeholder (name : String) (s : List Int)
  | shapeOf (x : Nat)
  | fixed (op : Op) (ins : List Incoming)

/-- Executes one constructor call (lines as for `Ctor`). The calls `shape(..)` come before the tensor itself is built. -/
def construct (H : HintOps Op) (g : Graph Op) : Ctor Op → Except Panic (Graph Op × Nat)
  | .plain op ins => g.build { inNodes := ins } op
  | .like op ins x => do
    let (g1, s) ← shape H g x
    g1.build { inNodes := ins, shape := some s } op
  | .binary op a b => do
    let (g1, sa) ← shape H g a
    let (g2, sb) ← shape H g1 b
    let (g3, s) ← g2.build { inNodes := [{ id := sa }, { id := sb }] } H.inferOp
    g3.build { inNodes := [{ id := a }, { id := b }], shape := some s } op
  | .sized op ins t => g.build { inNodes := ins, shape := some t } op
  | .const s op => do
    let (g1, t) ← g.build {} (H.constOp s)
    g1.build { shape := some t } op
  | .scalar op => do
    let (g1, t) ← g.build {} (H.constOp [0])
    let (g2, s) ← g1.build { shape := some t } (H.constOp [])
    g2.build { shape := some s } op
  | .var vid => g.variableById H.varOp vid
  | .placeholder name s => g.placeholder H.constOp H.phOp name s
  | .shapeOf x => shape H g x
  | .fixed op ins => g.build { inNodes := ins, differentiable := false } op

/-- Executes a list of constructor calls; returns the final graph and the returned tensors in order. -/
def constructAll (H : HintOps Op) (g : Graph Op) : List (Ctor Op) → Except Panic (Graph Op × List Nat)
  | [] => .ok (g, [])
  | c :: cs => do
    let (g1, t) ← construct H g c
    let (g2, ts) ← constructAll H g1 cs
    .ok (g2, t :: ts)

end Verif.Hint
