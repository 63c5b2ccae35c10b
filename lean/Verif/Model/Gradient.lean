import Verif.Model.Graph

/-!
# Model of back-propagation

Covers `src/gradient.rs`, `grad` and `grad_with_default` of `src/tensor_ops/mod.rs` and the tensors that these functions themselves
add to the graph (`add_n`, `sum_all`, `zeros`, `scalar`, `shape`).

`Op::grad` of the ops is a parameter (`GradOps.opGrad`). The `debug_assert`s on the number of gradients (src/gradient.rs:61,
src/op.rs:375-378) are not modelled (release build). The stealing of the op during `Op::grad` (src/op.rs:368-374) is not modelled.
-/

namespace Verif.Gradient
open Verif Verif.Graph
variable {Op : Type}

/-- Panics of the gradient code. -/
inductive GPanic where
  /-- a panic while adding tensors to the graph or looking one up -/
  | graph (p : Panic)
  /-- `unwrap` of a missing `GradientInfo` (src/gradient.rs:143, 148, 180) -/
  | noInfo
  /-- index out of range in `self.gradients[0]` (src/gradient.rs:172) -/
  | noGradient
  /-- `ys.len()` must match `gys.len()` (src/gradient.rs:34) -/
  | lengths
  /-- index out of range in `ys[0]` (src/tensor_ops/mod.rs:101, 141) -/
  | noObjective
  /-- panic in `Op::grad`, e.g. `unreachable!` of source ops -/
  | opGrad
deriving DecidableEq, Repr

/-- The ops used by `grad` itself, and `Op::grad`: called with the op, the graph, the output tensor `y` and its gradient `gy`; may add
tensors to the graph and returns one optional gradient tensor per back-propagation input (src/op.rs:365-380). -/
structure GradOps (Op : Type) where
  addN : Op
  shapeOp : Op
  sumAll : Op
  zeros : Op
  one : Op
  constOp : List Int → Op
  opGrad : Op → Graph Op → Nat → Nat → Except GPanic (Graph Op × List (Option Nat))

/-- A panic of the graph code seen as a panic of the gradient code. -/
def lift {α : Type} : Except Panic α → Except GPanic α
  | .ok a => .ok a
  | .error p => .error (.graph p)

/-- Models `tensor_ops::shape` (src/tensor_ops/mod.rs:266-279). -/
def shapeTensor (O : GradOps Op) (g : Graph Op) (x : Nat) : Except Panic (Graph Op × Nat) := do
  let n ← g.access x
  match n.shape with
  | some s => .ok (g, s)
  | none => g.build { inNodes := [{ id := x }], differentiable := false } O.shapeOp

/-- Models `add_n` (src/tensor_ops/mod.rs:831-847) on a non-empty list `x :: xs`. -/
def addN (O : GradOps Op) (g : Graph Op) (x : Nat) (xs : List Nat) : Except Panic (Graph Op × Nat) :=
  match xs with
  | [] => .ok (g, x)
  | _ => do
    let (g1, s) ← shapeTensor O g x
    g1.build { inNodes := (x :: xs).map (fun i => ({ id := i } : Incoming)), shape := some s } O.addN

/-- Models `sum_all` (src/tensor_ops/mod.rs:1149-1158). -/
def sumAll (O : GradOps Op) (g : Graph Op) (x : Nat) : Except Panic (Graph Op × Nat) :=
  g.build { inNodes := [{ id := x }] } O.sumAll

/-- Models `zeros(&x.shape(), g)` (src/tensor_ops/mod.rs:110, 2690-2697). -/
def zerosLike (O : GradOps Op) (g : Graph Op) (x : Nat) : Except Panic (Graph Op × Nat) := do
  let (g1, s) ← shapeTensor O g x
  g1.build { inNodes := [{ id := s }] } O.zeros

/-- Models `scalar(F::one(), g)` (src/tensor_ops/mod.rs:2415-2423) with its shape constant (`convert_to_tensor` of an empty vector,
src/tensor_ops/mod.rs:2387-2401). -/
def scalarOne (O : GradOps Op) (g : Graph Op) : Except Panic (Graph Op × Nat) := do
  let (g1, s) ← g.build {} (O.constOp [0])
  let (g2, c) ← g1.build { shape := some s } (O.constOp [])
  g2.build { shape := some c } O.one

/-- Models `GradientInfo` (src/gradient.rs:153-156). -/
structure Info where
  gradients : List Nat
  onPath : Bool
deriving DecidableEq, Repr

/-- Models `GradientMap` (src/gradient.rs:126-128), a hash map as a partial function. -/
abbrev GMap := Nat → Option Info

/-- Hash map insertion. -/
def GMap.insert (m : GMap) (k : Nat) (v : Info) : GMap := fun i => if i = k then some v else m i

/-- Models `has_child_on_path` (src/gradient.rs:177-185). -/
def hasChildOnPath (m : GMap) : List Incoming → Except GPanic Bool
  | [] => .ok false
  | i :: is =>
    match m i.id with
    | none => .error .noInfo
    | some info => if info.onPath then .ok true else hasChildOnPath m is

/-- The loop over the children of `curr` (src/gradient.rs:229-244); the stack has its top at the head. -/
def pushChildren (g : Graph Op) (xs : List Nat) (curr : Nat) :
    List Incoming → List (Nat × Bool) × GMap → Except GPanic (List (Nat × Bool) × GMap)
  | [], s => .ok s
  | i :: is, (stack, m) => do
    let child ← lift (g.access i.id)
    if (m curr).isNone then
      if child.isSource || !child.differentiable then
        pushChildren g xs curr is (stack, m.insert i.id ⟨[], child.differentiable && decide (i.id ∈ xs)⟩)
      else pushChildren g xs curr is ((i.id, false) :: stack, m)
    else pushChildren g xs curr is (stack, m)

/-- One iteration of the depth-first search (src/gradient.rs:218-245), `none` when the stack is empty. -/
def initStep (g : Graph Op) (xs : List Nat) :
    List (Nat × Bool) × GMap → Except GPanic (Option (List (Nat × Bool) × GMap))
  | ([], _) => .ok none
  | ((curr, true) :: stack, m) => do
    let n ← lift (g.access curr)
    let b ← if n.differentiable then (if curr ∈ xs then .ok true else hasChildOnPath m n.bpInputs) else .ok false
    .ok (some (stack, m.insert curr ⟨[], b⟩))
  | ((curr, false) :: stack, m) => do
    let n ← lift (g.access curr)
    let s ← pushChildren g xs curr n.bpInputs ((curr, true) :: stack, m)
    .ok (some s)

/-- The depth-first search with a bound on the number of iterations; `none` means that the bound was exceeded. -/
def initLoop (g : Graph Op) (xs : List Nat) : Nat → List (Nat × Bool) × GMap → Option (Except GPanic GMap)
  | 0, _ => none
  | fuel + 1, s =>
    match initStep g xs s with
    | .error p => some (.error p)
    | .ok none => some (.ok s.2)
    | .ok (some s') => initLoop g xs fuel s'

/-- Models `init_gradient_map` (src/gradient.rs:203-248). -/
def initMap (g : Graph Op) (ys xs : List Nat) (fuel : Nat) : Option (Except GPanic GMap) :=
  initLoop g xs fuel ((ys.map (fun y => (y, false))).reverse, fun _ => none)

/-- Models `GradientMap::push_grad` (src/gradient.rs:147-149). -/
def pushGrad (m : GMap) (k : Nat) (t : Nat) : Except GPanic GMap :=
  match m k with
  | none => .error .noInfo
  | some info => .ok (m.insert k { info with gradients := info.gradients ++ [t] })

/-- Models `GradientInfo::gradient` of key `k` (src/gradient.rs:168-173): several gradients are added up and the sum *replaces the first of
them*; the others stay in the list. -/
def gradient (O : GradOps Op) (g : Graph Op) (m : GMap) (k : Nat) : Except GPanic (Graph Op × GMap × Nat) :=
  match m k with
  | none => .error .noInfo
  | some info =>
    match info.gradients with
    | [] => .error .noGradient
    | [a] => .ok (g, m, a)
    | a :: as => do
      let (g', s) ← lift (addN O g a as)
      .ok (g', m.insert k { info with gradients := s :: as }, s)

/-- State of the main loop: the graph, the map, the heap (in any order) and the tensors whose `Op::grad` was called. -/
structure BpState (Op : Type) where
  g : Graph Op
  m : GMap
  heap : List Nat
  log : List Nat

/-- "Register computed gradients" (src/gradient.rs:66-80). -/
def register (g : Graph Op) : List (Incoming × Option Nat) → GMap × List Nat → Except GPanic (GMap × List Nat)
  | [], s => .ok s
  | (i, gx) :: rest, (m, heap) => do
    let nx ← lift (g.access i.id)
    match m i.id with
    | none => .error .noInfo
    | some info =>
      if info.onPath then
        match gx with
        | some t => do
          let m' ← pushGrad m i.id t
          register g rest (m', if !nx.isSource && info.gradients.isEmpty then i.id :: heap else heap)
        | none => register g rest (m, heap)
      else register g rest (m, heap)

/-- One iteration of the main loop for the popped tensor `y` (src/gradient.rs:52-81). -/
def bpVisit (O : GradOps Op) (s : BpState Op) (y : Nat) : Except GPanic (BpState Op) := do
  let (g1, m1, gy) ← gradient O s.g s.m y
  let n ← lift (g1.access y)
  let (g2, gxs) ← O.opGrad n.op g1 y gy
  let n2 ← lift (g2.access y)
  let (m2, heap2) ← register g2 (n2.bpInputs.zip gxs) (m1, s.heap.erase y)
  .ok ⟨g2, m2, heap2, s.log ++ [y]⟩

/-- The main loop, with a bound on the number of iterations. `BinaryHeap::pop` returns *some* element of maximal `topo_rank`
(src/gradient.rs:86-105); which one among equals is left to `pick`. -/
def bpLoop (O : GradOps Op) (pick : Graph Op → List Nat → Nat) : Nat → BpState Op → Option (Except GPanic (BpState Op))
  | 0, _ => none
  | fuel + 1, s =>
    if s.heap = [] then some (.ok s)
    else match bpVisit O s (pick s.g s.heap) with
      | .error p => some (.error p)
      | .ok s' => bpLoop O pick fuel s'

/-- Setting the gradients of the `ys` (src/gradient.rs:32-43). -/
def pushAll : List (Nat × Nat) → GMap → Except GPanic GMap
  | [], m => .ok m
  | (y, gy) :: rest, m => do pushAll rest (← pushGrad m y gy)

/-- Models `compute_gradients` (src/gradient.rs:20-84). -/
def computeGradients (O : GradOps Op) (pick : Graph Op → List Nat → Nat) (fuel : Nat) (g : Graph Op) (ys xs : List Nat)
    (gys : Option (List Nat)) : Option (Except GPanic (BpState Op)) :=
  match initMap g ys xs fuel with
  | none => none
  | some (.error p) => some (.error p)
  | some (.ok m) =>
    let start : Except GPanic (Graph Op × GMap) :=
      match gys with
      | some gys =>
        if ys.length = gys.length then do
          let m' ← pushAll (ys.zip gys) m
          .ok (g, m')
        else .error .lengths
      | none => do
        let (g', one) ← lift (scalarOne O g)
        let m' ← pushAll (ys.map (fun y => (y, one))) m
        .ok (g', m')
    match start with
    | .error p => some (.error p)
    | .ok (g', m') => bpLoop O pick fuel ⟨g', m', ys, []⟩

/-- `extract_grad` of one x, a zero tensor if there is no gradient (src/gradient.rs:131-139, src/tensor_ops/mod.rs:105-111). -/
def extractOne (O : GradOps Op) (g : Graph Op) (m : GMap) (x : Nat) : Except GPanic (Graph Op × GMap × Nat) :=
  match m x with
  | some info =>
    if info.onPath then gradient O g m x
    else do
      let (g', z) ← lift (zerosLike O g x)
      .ok (g', m, z)
  | none => do
    let (g', z) ← lift (zerosLike O g x)
    .ok (g', m, z)

/-- The loop over the xs (src/tensor_ops/mod.rs:104-112). -/
def extractAll (O : GradOps Op) : List Nat → Graph Op → GMap → Except GPanic (Graph Op × List Nat)
  | [], g, _ => .ok (g, [])
  | x :: xs, g, m => do
    let (g1, m1, t) ← extractOne O g m x
    let (g2, ts) ← extractAll O xs g1 m1
    .ok (g2, t :: ts)

/-- What `grad` and `grad_with_default` return, with the list of `Op::grad` calls. -/
structure GradResult (Op : Type) where
  g : Graph Op
  grads : List Nat
  log : List Nat

/-- Models `grad_with_default` (src/tensor_ops/mod.rs:130-153). -/
def gradWithDefault (O : GradOps Op) (pick : Graph Op → List Nat → Nat) (fuel : Nat) (g : Graph Op) (ys xs gys : List Nat) :
    Option (Except GPanic (GradResult Op)) :=
  if ys = [] then some (.error .noObjective) else
  match computeGradients O pick fuel g ys xs (some gys) with
  | none => none
  | some (.error p) => some (.error p)
  | some (.ok s) =>
    match extractAll O xs s.g s.m with
    | .error p => some (.error p)
    | .ok (g', ts) => some (.ok ⟨g', ts, s.log⟩)

/-- `sum_all` of each y (src/tensor_ops/mod.rs:102). -/
def sumAlls (O : GradOps Op) : Graph Op → List Nat → Except Panic (Graph Op × List Nat)
  | g, [] => .ok (g, [])
  | g, y :: ys => do
    let (g1, t) ← sumAll O g y
    let (g2, ts) ← sumAlls O g1 ys
    .ok (g2, t :: ts)

/-- Models `grad` (src/tensor_ops/mod.rs:94-114). -/
def grad (O : GradOps Op) (pick : Graph Op → List Nat → Nat) (fuel : Nat) (g : Graph Op) (ys xs : List Nat) :
    Option (Except GPanic (GradResult Op)) :=
  if ys = [] then some (.error .noObjective) else
  match sumAlls O g ys with
  | .error p => some (.error (.graph p))
  | .ok (g0, sys) =>
    match computeGradients O pick fuel g0 sys xs none with
    | none => none
    | some (.error p) => some (.error p)
    | some (.ok s) =>
      match extractAll O xs s.g s.m with
      | .error p => some (.error p)
      | .ok (g', ts) => some (.ok ⟨g', ts, s.log⟩)

end Verif.Gradient
