/-!
# Model of the computation graph

Covers `src/graph.rs` (`Graph::install`, `access_inner`, `Context::clear`, `Context::placeholder`),
the tensor builder in `src/tensor.rs`, `control_dependencies` in `src/tensor_ops/mod.rs` and the
variable tensor cache in `src/variable.rs`.

`RefCell` borrows are not modelled (no overlapping borrow is possible in the functions below).
-/

namespace Verif

/-- Reasons for a Rust panic that the modelled code can raise. Only the fact that a panic is raised is
compared by the theorems; the constructor documents the place. -/
inductive Panic where
  /-- Vec index out of range in `access_inner` (src/graph.rs:50-53) -/
  | badTensorId (id : Nat)
  /-- "Maximum graph size exceeded" (src/graph.rs:37-43) -/
  | graphTooLarge
  /-- "Source tensor cannot depend on any other tensors." (src/tensor_ops/mod.rs:2969) -/
  | sourceDependsOn
  /-- "Given shape contains invalid dim size(s)" (src/tensor.rs:635-637) -/
  | invalidKnownShape
  /-- "Placeholder unfilled" (src/evaluation.rs:248) -/
  | placeholderUnfilled
  /-- shape of a fed array does not match (src/tensor.rs:374-386) -/
  | placeholderShape
  /-- Vec index out of range in `as_view`, `as_view_mut`, or result aggregation
  (src/variable.rs:685-703, src/evaluation.rs:349) -/
  | badVariableId
  /-- `ys[selector]` / `swap_remove(selector)` out of range (src/evaluation.rs:205, 217) -/
  | badSelector
  /-- `unwrap` on a missing storage entry (src/evaluation.rs:203, 215) -/
  | missingResult
  /-- panic raised by `Op::compute` -/
  | opPanic
  /-- `debug_assert!(!op_ctx.ys.is_empty())` (src/evaluation.rs:325) -/
  | emptyOutput
  /-- variable name lookup failed (src/variable.rs:739-751) -/
  | variableNotFound
deriving DecidableEq, Repr

/-- Models `IncomingTensor` (src/tensor.rs:542-550). -/
structure Incoming where
  id : Nat
  allowMut : Bool := false
  selector : Nat := 0
deriving DecidableEq, Repr

/-- Models `TensorInternal` (src/tensor.rs:408-440). The `id` field is not stored: `Graph::install`
(src/graph.rs:27-47) sets it to the position in the node list. The op is an element of an arbitrary
type `Op` (the `Option` used to steal the op during `grad` is not modelled). -/
structure Node (Op : Type) where
  op : Op
  incoming : List Incoming
  topoRank : Nat
  shape : Option Nat
  placeholderName : Option String
  differentiable : Bool
  backpropInputs : Option (List Incoming)
  knownShape : Option (List Int)
  variableId : Option Nat
deriving DecidableEq, Repr

namespace Node
variable {Op : Type}

/-- Models `TensorInternal::is_source` (src/tensor.rs:456-460). -/
def isSource (n : Node Op) : Bool := n.incoming.isEmpty

/-- Models `TensorInternal::is_variable` (src/tensor.rs:462-466). -/
def isVariable (n : Node Op) : Bool := n.variableId.isSome

/-- The part of `would_not_visit` that does not depend on the storage (src/evaluation.rs:366-371):
placeholders and variables are never computed. -/
def isLeafInput (n : Node Op) : Bool := n.placeholderName.isSome || n.isVariable

/-- Models `TensorInternal::get_backprop_inputs` (src/tensor.rs:482-490). -/
def bpInputs (n : Node Op) : List Incoming := n.backpropInputs.getD n.incoming

end Node

/-- Models `Graph` (src/graph.rs:16-19): the node set and the `variable2node` cache
(hash map as a partial function). -/
structure Graph (Op : Type) where
  nodes : List (Node Op)
  var2node : Nat → Option Nat

/-- `NUM_NODES_CRITICAL` (src/graph.rs:23). -/
def numNodesCritical : Nat := 500000

/-- Models `TensorBuilder` (src/tensor.rs:609-618) with its fields as set by the builder methods
(src/tensor.rs:688-766). `Tensor::builder` (src/tensor.rs:142-154) starts with `differentiable = true`
and everything else empty. -/
structure Builder where
  shape : Option Nat := none
  inNodes : List Incoming := []
  differentiable : Bool := true
  backpropInputs : Option (List Incoming) := none
  knownShape : Option (List Int) := none
  variableId : Option Nat := none
  placeholderName : Option String := none
deriving DecidableEq, Repr

/-- The node created by `TensorBuilder::build` from the fields of the builder (src/tensor.rs:786-798). -/
def Builder.toNode {Op : Type} (b : Builder) (op : Op) (rank : Nat) : Node Op :=
  { op := op, incoming := b.inNodes, topoRank := rank, shape := b.shape,
    placeholderName := b.placeholderName, differentiable := b.differentiable,
    backpropInputs := b.backpropInputs, knownShape := b.knownShape, variableId := b.variableId }

namespace Graph
variable {Op : Type}

/-- The empty graph created by `run` (src/graph.rs:86-102, src/variable.rs:670-683). -/
def empty : Graph Op := ⟨[], fun _ => none⟩

/-- Number of tensors in the graph. -/
def size (g : Graph Op) : Nat := g.nodes.length

/-- Models `access_inner` (src/graph.rs:49-53); out of range is a panic. -/
def access (g : Graph Op) (id : Nat) : Except Panic (Node Op) :=
  match g.nodes[id]? with
  | some n => .ok n
  | none => .error (.badTensorId id)

/-- Models `Graph::install` (src/graph.rs:26-47): the id is the old length; the warning printed at
50 000 nodes is not modelled. -/
def install (g : Graph Op) (n : Node Op) : Except Panic (Graph Op × Nat) :=
  if g.size > numNodesCritical then .error .graphTooLarge
  else .ok ({ g with nodes := g.nodes ++ [n] }, g.size)

/-- The topological rank computed by `TensorBuilder::build` (src/tensor.rs:774-784):
0 without inputs, otherwise maximum of the ranks of the inputs plus 1. -/
def buildRank (g : Graph Op) : List Incoming → Except Panic Nat
  | [] => .ok 0
  | i :: is => do
    let n ← g.access i.id
    let r ← g.buildRank is
    .ok (max (n.topoRank + 1) r)

/-- Models `TensorBuilder::build` (src/tensor.rs:768-802). That all the inputs belong to the same graph is
checked by `append_input` (src/tensor.rs:733, 756); a model graph only has its own ids. -/
def build (g : Graph Op) (b : Builder) (op : Op) : Except Panic (Graph Op × Nat) := do
  let rank ← g.buildRank b.inNodes
  g.install (b.toNode op rank)

/-- Replaces the node at position `id`. -/
def setNode (g : Graph Op) (id : Nat) (n : Node Op) : Graph Op :=
  { g with nodes := g.nodes.set id n }

/-- Models `control_dependencies` (src/tensor_ops/mod.rs:2951-2971): a new `ControlDependency` node takes
the first input of `x` (with selector 0, immutable) followed by `deps`; then only the *id* of the first input of `x` is
redirected to it. `x.get_incoming_tensor(0, g)` is `None` for a source (src/tensor.rs:65-67).
`ctrlOp` is the op `graph_ops::ControlDependency`. -/
def controlDependencies (g : Graph Op) (ctrlOp : Op) (x : Nat) (deps : List Nat) :
    Except Panic (Graph Op × Nat) := do
  let nx ← g.access x
  match nx.incoming with
  | [] => .error .sourceDependsOn
  | i0 :: rest =>
    let ins : List Incoming := { id := i0.id } :: deps.map (fun d => ({ id := d } : Incoming))
    let (g', c) ← g.build { inNodes := ins } ctrlOp
    let nx' : Node Op := { nx with incoming := { i0 with id := c } :: rest }
    .ok (g'.setNode x nx', x)

/-- Models `Graph::variable_by_id` (src/variable.rs:706-726). `varOp` is `basic_source_ops::Variable`. -/
def variableById (g : Graph Op) (varOp : Op) (vid : Nat) : Except Panic (Graph Op × Nat) :=
  match g.var2node vid with
  | some tid => .ok (g, tid)
  | none => do
    let (g', tid) ← g.build { variableId := some vid } varOp
    .ok ({ g' with var2node := fun v => if v = vid then some tid else g'.var2node v }, tid)

/-- Models `KnownShape::new` (src/tensor.rs:630-645): every dimension is positive or -1, else panic. -/
def knownShapeNew (s : List Int) : Except Panic (List Int) :=
  if s.all (fun a => a == -1 || (!(a ≤ -1) && a != 0)) then .ok s else .error .invalidKnownShape

/-- The shape hint made by `Context::placeholder` (src/graph.rs:181-196): when the rank is 0 or the first dimension is
not -1, a constant tensor holding the declared shape is created and recorded. `constOp s` is the constant op made by
`convert_to_tensor` (src/tensor_ops/mod.rs:2387-2402), which first creates the shape vector `[rank]` of that array. -/
def placeholderHint (g : Graph Op) (constOp : List Int → Op) (s : List Int) :
    Except Panic (Graph Op × Option Nat) :=
  if s.isEmpty || s.head? != some (-1) then do
    let (ga, sh) ← g.build {} (constOp [(s.length : Int)])
    let (gb, c) ← ga.build { shape := some sh } (constOp s)
    .ok (gb, some c)
  else .ok (g, none)

/-- Models `Context::placeholder` (src/graph.rs:177-199). -/
def placeholder (g : Graph Op) (constOp : List Int → Op) (phOp : Op) (name : String) (s : List Int) :
    Except Panic (Graph Op × Nat) := do
  let (g1, hint) ← g.placeholderHint constOp s
  let ks ← knownShapeNew s
  g1.build { placeholderName := some name, shape := hint, knownShape := some ks } phOp

/-- Models `Context::clear` (src/graph.rs:137-144). -/
def clear (_ : Graph Op) : Graph Op := empty

/-- Builder calls available to the user. Every op constructor of `tensor_ops` and every gradient
construction is a finite sequence of `build` calls. -/
inductive Cmd (Op : Type) where
  | build (b : Builder) (op : Op)
  | var (vid : Nat)
  | placeholder (name : String) (shape : List Int)
  | dependsOn (x : Nat) (deps : List Nat)

/-- The ops with a special role in the builder. -/
structure Ops (Op : Type) where
  ctrlOp : Op
  varOp : Op
  phOp : Op
  constOp : List Int → Op

/-- Executes one builder call; returns the new graph and the returned tensor. A `build` by the user goes through
`TensorBuilder`, which has no public way to set a variable id or placeholder name
(`set_variable`, `set_placeholder_name` are `pub(crate)`, src/tensor.rs:690, 744): these are reset. -/
def exec (O : Ops Op) (g : Graph Op) : Cmd Op → Except Panic (Graph Op × Nat)
  | .build b op => g.build { b with variableId := none, placeholderName := none } op
  | .var vid => g.variableById O.varOp vid
  | .placeholder name s => g.placeholder O.constOp O.phOp name s
  | .dependsOn x deps => g.controlDependencies O.ctrlOp x deps

/-- Executes a history of builder calls; returns the final graph and the returned tensors in order. -/
def execAll (O : Ops Op) (g : Graph Op) : List (Cmd Op) → Except Panic (Graph Op × List Nat)
  | [] => .ok (g, [])
  | c :: cs => do
    let (g1, t) ← g.exec O c
    let (g2, ts) ← g1.execAll O cs
    .ok (g2, t :: ts)

end Graph
end Verif
