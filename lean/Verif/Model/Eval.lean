import Verif.Model.Graph

/-!
# Model of graph evaluation

Covers `src/evaluation.rs` (`Graph::eval`, `OpOutputStorage`, `find_placeholder_value_by_key`, `would_not_visit`) and
the input/output protocol of `src/op.rs` (`OpInput`, `ComputeContext`).

Arrays are an arbitrary type `V`, errors an arbitrary type `E`. `W` is everything else an op may touch (random generators, files,
the terminal, captured state); it is threaded through all `compute` calls. In this file every op output is an array *value*;
outputs that are views into other memory are modelled in `Verif.Model.Aliasing` and shown in `Verif.Props.Aliasing` to be equivalent.
-/

namespace Verif

/-- The three kinds of `OpInput` (src/op.rs:126-130). -/
inductive InKind where
  | nonVariable
  | rdOnly
  | rdWr
deriving DecidableEq, Repr

/-- Models `OpInput` (src/op.rs:126-130): kind and array. -/
structure OpInput (V : Type) where
  kind : InKind
  val : V
deriving DecidableEq, Repr

/-- Effect of one `Op::compute` call (src/op.rs:97, src/evaluation.rs:322-328): it may panic; otherwise it has left the world in
a new state, has written new contents into mutable inputs (list of input position and new array, in order of writing),
has appended outputs `ys` to the context and has returned a status. -/
inductive Outcome (V E W : Type) where
  | panic
  | done (world : W) (writes : List (Nat × V)) (ys : List V) (status : Except E Unit)

/-- The semantics of ops, the shape of arrays, and the build profile (`debug_assert!` is active in debug builds only). -/
structure Sem (Op V E W : Type) where
  compute : Op → W → List (OpInput V) → Outcome V E W
  shapeOf : V → List Nat
  debug : Bool

/-- Models `PlaceholderKey` (src/evaluation.rs:14-17; a tensor is keyed by its id, a string by name, 24-34). -/
inductive PlaceholderKey where
  | id (t : Nat)
  | name (s : String)
deriving DecidableEq, Repr

/-- Models `Feed` (src/evaluation.rs:174-180). -/
structure Feed (V : Type) where
  key : PlaceholderKey
  value : V
deriving DecidableEq, Repr

/-- Models `KnownShape::validate` (src/tensor.rs:651-661). -/
def validateShape (known : List Int) (target : List Nat) : Bool :=
  if known.length != target.length then false
  else (known.zip target).all (fun p => !(decide (p.1 > 0) && p.1 != (p.2 : Int)))

/-- Models `Tensor::validate_using_known_shape` (src/tensor.rs:374-386); "This is not a placeholder" is unreachable for
placeholders made by `Context::placeholder` and is reported as the same panic. -/
def validateKnown (known : Option (List Int)) (shape : List Nat) : Except Panic Unit :=
  match known with
  | some k => if validateShape k shape then .ok () else .error .placeholderShape
  | none => .error .placeholderShape

/-- Models `find_placeholder_value_by_key` (src/evaluation.rs:225-249). -/
def findFeed {V : Type} (shapeOf : V → List Nat) (id : Nat) (known : Option (List Int)) (name : String) :
    List (Feed V) → Except Panic V
  | [] => .error .placeholderUnfilled
  | f :: fs =>
    match f.key with
    | .id t => if id = t then do validateKnown known (shapeOf f.value); .ok f.value
               else findFeed shapeOf id known name fs
    | .name s => if name = s then do validateKnown known (shapeOf f.value); .ok f.value
                 else findFeed shapeOf id known name fs

/-- Contents of `OpOutputStorage` (src/evaluation.rs:183-185): a hash map as a partial function. -/
abbrev Storage (V E : Type) := Nat → Option (Except E (List V))

/-- State of the loop in `Graph::eval` (src/evaluation.rs:261-341). `stack` has its top first. `log` is a ghost: for each
`storage.insert` the tensor id and whether `compute` was called, newest first. -/
structure EvalState (V E W : Type) where
  stack : List (Nat × Bool)
  storage : Storage V E
  env : List V
  world : W
  log : List (Nat × Bool)

namespace Eval
variable {Op V E W : Type}

/-- Models `OpOutputStorage::get` (src/evaluation.rs:201-212). -/
def storageGet (s : Storage V E) (key selector : Nat) : Except Panic (Except E V) :=
  match s key with
  | none => .error .missingResult
  | some (.error e) => .ok (.error e)
  | some (.ok ys) =>
    match ys[selector]? with
    | some y => .ok (.ok y)
    | none => .error .badSelector

/-- Models the collection of one input (src/evaluation.rs:291-309). -/
def gatherOne (S : Sem Op V E W) (g : Graph Op) (feeds : List (Feed V)) (s : Storage V E) (env : List V)
    (i : Incoming) : Except Panic (Except E (OpInput V)) := do
  let n ← g.access i.id
  match n.placeholderName with
  | some name => do
    let v ← findFeed S.shapeOf i.id n.knownShape name feeds
    .ok (.ok ⟨.nonVariable, v⟩)
  | none =>
    match n.variableId with
    | some vid =>
      match env[vid]? with
      | none => .error .badVariableId
      | some a => .ok (.ok ⟨if i.allowMut then .rdWr else .rdOnly, a⟩)
    | none => do
      let r ← storageGet s i.id i.selector
      match r with
      | .ok y => .ok (.ok ⟨.nonVariable, y⟩)
      | .error e => .ok (.error e)

/-- Models the input loop with its `break` at the first error (src/evaluation.rs:284-317). -/
def gather (S : Sem Op V E W) (g : Graph Op) (feeds : List (Feed V)) (s : Storage V E) (env : List V) :
    List Incoming → Except Panic (Except E (List (OpInput V)))
  | [] => .ok (.ok [])
  | i :: is => do
    let r ← gatherOne S g feeds s env i
    match r with
    | .error e => .ok (.error e)
    | .ok x => do
      let rs ← gather S g feeds s env is
      match rs with
      | .error e => .ok (.error e)
      | .ok xs => .ok (.ok (x :: xs))

/-- The variable (if any) which the `k`-th input can write to: a variable tensor that was appended with `allow_mut`
(src/evaluation.rs:297-303). -/
def writeTarget (g : Graph Op) (incoming : List Incoming) (k : Nat) : Option Nat :=
  match incoming[k]? with
  | none => none
  | some i =>
    match g.nodes[i.id]? with
    | none => none
    | some n => if n.placeholderName.isNone && i.allowMut then n.variableId else none

/-- In-place writes through mutable inputs (`ComputeContext::input_mut`, src/op.rs:239-259, on the view from
`VariableEnvironment::as_view_mut`, src/variable.rs:695-703). -/
def applyWrites (g : Graph Op) (incoming : List Incoming) : List (Nat × V) → List V → List V
  | [], env => env
  | (k, v) :: ws, env =>
    match writeTarget g incoming k with
    | some vid => applyWrites g incoming ws (env.set vid v)
    | none => applyWrites g incoming ws env

/-- Models `would_not_visit` (src/evaluation.rs:366-371). -/
def wouldNotVisit (n : Node Op) (id : Nat) (s : Storage V E) : Bool :=
  n.placeholderName.isSome || n.isVariable || (s id).isSome

/-- `storage.insert` (src/evaluation.rs:196-199). -/
def insert (s : Storage V E) (id : Nat) (r : Except E (List V)) : Storage V E :=
  fun k => if k = id then some r else s k

/-- Models the visit of a node, i.e. the `should_visit` branch (src/evaluation.rs:275-329). -/
def visit (S : Sem Op V E W) (g : Graph Op) (feeds : List (Feed V)) (n : Node Op) (id : Nat)
    (st : EvalState V E W) : Except Panic (EvalState V E W) :=
  if wouldNotVisit n id st.storage then .ok st
  else do
    let ins ← gather S g feeds st.storage st.env n.incoming
    match ins with
    | .error e => .ok { st with storage := insert st.storage id (.error e), log := (id, false) :: st.log }
    | .ok xs =>
      match S.compute n.op st.world xs with
      | .panic => .error .opPanic
      | .done w ws ys status =>
        if S.debug && ys.isEmpty then .error .emptyOutput
        else
          let r : Except E (List V) := match status with
            | .ok () => .ok ys
            | .error e => .error e
          .ok { st with
            storage := insert st.storage id r
            env := applyWrites g n.incoming ws st.env
            world := w
            log := (id, true) :: st.log }

/-- The children pushed by the expansion of a node, in the order of the inputs (src/evaluation.rs:333-339). -/
def childrenToPush (g : Graph Op) (s : Storage V E) : List Incoming → Except Panic (List Nat)
  | [] => .ok []
  | i :: is => do
    let n ← g.access i.id
    let rest ← childrenToPush g s is
    .ok (if wouldNotVisit n i.id s then rest else i.id :: rest)

/-- One iteration of the loop (src/evaluation.rs:272-341); `st.stack` is the stack after the pop. -/
def step (S : Sem Op V E W) (g : Graph Op) (feeds : List (Feed V)) (entry : Nat × Bool)
    (st : EvalState V E W) : Except Panic (EvalState V E W) := do
  let n ← g.access entry.1
  if entry.2 then visit S g feeds n entry.1 st
  else do
    let cs ← childrenToPush g st.storage n.incoming
    .ok { st with stack := (cs.map (fun c => (c, false))).reverse ++ (entry.1, true) :: st.stack }

/-- The `while let Some(..) = dfs_stack.pop()` loop (src/evaluation.rs:272-341) with fuel; `none` means that the fuel ran out. -/
def loop (S : Sem Op V E W) (g : Graph Op) (feeds : List (Feed V)) :
    Nat → EvalState V E W → Option (Except Panic (EvalState V E W))
  | fuel, st =>
    match st.stack with
    | [] => some (.ok st)
    | e :: rest =>
      match fuel with
      | 0 => none
      | fuel + 1 =>
        match step S g feeds e { st with stack := rest } with
        | .error p => some (.error p)
        | .ok st' => loop S g feeds fuel st'

/-- Models `OpOutputStorage::take` with selector 0 (src/evaluation.rs:214-222): the entry is removed. -/
def take (s : Storage V E) (key : Nat) : Except Panic (Except E V × Storage V E) :=
  match s key with
  | none => .error .missingResult
  | some (.error e) => .ok (.error e, fun k => if k = key then none else s k)
  | some (.ok ys) =>
    match ys[0]? with
    | some y => .ok (.ok y, fun k => if k = key then none else s k)
    | none => .error .badSelector

/-- Models the aggregation of return values (src/evaluation.rs:343-361). -/
def aggregate (S : Sem Op V E W) (g : Graph Op) (feeds : List (Feed V)) (env : List V) :
    List Nat → Storage V E → Except Panic (List (Except E V))
  | [], _ => .ok []
  | t :: ts, s => do
    let n ← g.access t
    match n.variableId with
    | some vid =>
      match env[vid]? with
      | none => .error .badVariableId
      | some a => do
        let rs ← aggregate S g feeds env ts s
        .ok (.ok a :: rs)
    | none =>
      match n.placeholderName with
      | some name => do
        let v ← findFeed S.shapeOf t n.knownShape name feeds
        let rs ← aggregate S g feeds env ts s
        .ok (.ok v :: rs)
      | none => do
        let (r, s') ← take s t
        let rs ← aggregate S g feeds env ts s'
        .ok (r :: rs)

/-- Initial state (src/evaluation.rs:261-270): targets are pushed in order, so the last one is on top. -/
def initState (targets : List Nat) (env : List V) (w : W) : EvalState V E W :=
  { stack := (targets.map (fun t => (t, false))).reverse, storage := fun _ => none, env := env, world := w, log := [] }

/-- What an evaluation leaves behind: results, variable arrays, world, ghost log (oldest first). -/
structure EvalResult (V E W : Type) where
  results : List (Except E V)
  env : List V
  world : W
  log : List (Nat × Bool)

/-- Models `Graph::eval` (src/evaluation.rs:252-362), hence `Evaluator::run` (src/evaluation.rs:168-171). -/
def eval (S : Sem Op V E W) (g : Graph Op) (fuel : Nat) (targets : List Nat) (feeds : List (Feed V)) (env : List V) (w : W) :
    Option (Except Panic (EvalResult V E W)) :=
  match loop S g feeds fuel (initState targets env w) with
  | none => none
  | some (.error p) => some (.error p)
  | some (.ok st) =>
    match aggregate S g feeds st.env targets st.storage with
    | .error p => some (.error p)
    | .ok rs => some (.ok ⟨rs, st.env, st.world, st.log.reverse⟩)

end Eval
end Verif
