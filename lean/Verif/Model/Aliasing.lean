import Verif.Model.Eval

/-!
# Model of graph evaluation with memory

The same functions as in `Verif.Model.Eval`, but op outputs may be views into the memory of inputs (`OpOutput::View`, src/op.rs:133-137), variables
are memory that ops write to in place, and dropping an array frees its memory. Reading freed memory is the explicit fault `dangling`.

A location is the array of a variable, a fed array, or the array which an op appended as its `j`-th output. A view is a location with a list of
projections (slices, transpositions, ...), each an element of an arbitrary type `D` interpreted by `proj`. Inputs are read when the op is
called; an op that writes to a variable and then appends a view of it is described as appending an owned array with the new value (the view is
copied in any case, because the op has a variable input). Moving an owned array (growth of the hash map, return to the caller) does not
move its elements.
-/

namespace Verif

/-- One output of an op: an owned array (`append_output`, `append_empty_output`, src/op.rs:289-303) or a view of the `k`-th input
(`append_output_view`, `append_output_view_raw`, src/op.rs:261-287; every op of the crate that calls them passes a view of an input). -/
inductive Out (V D : Type) where
  | owned (v : V)
  | view (k : Nat) (d : D)

/-- Effect of one `Op::compute` call, as `Outcome` but with outputs that may be views. -/
inductive MOutcome (V D E W : Type) where
  | panic
  | done (world : W) (writes : List (Nat × V)) (ys : List (Out V D)) (status : Except E Unit)

/-- The semantics of ops with views; `proj d v` is what is seen through the projection `d` of the array `v`. -/
structure MSem (Op V D E W : Type) where
  compute : Op → W → List (OpInput V) → MOutcome V D E W
  proj : D → V → V
  shapeOf : V → List Nat
  debug : Bool

/-- Memory locations. A fed array is borrowed immutably during the evaluation (src/evaluation.rs:174-180), so that its location is represented by its
contents. -/
inductive Loc (V : Type) where
  | var (vid : Nat)
  | feed (v : V)
  | res (id j : Nat)

/-- A raw view (`RawNdArrayView`): location and projections, first applied first. -/
structure Place (V D : Type) where
  loc : Loc V
  path : List D

/-- Models `OpOutput` (src/op.rs:133-137) as it is kept in the storage; the contents of owned arrays are kept in `MState.heap`. -/
inductive Slot (V D : Type) where
  | owned
  | view (p : Place V D)

/-- Models `OpOutputStorage::get` on one slot (src/evaluation.rs:205-208): the raw view of an owned array, or the stored view itself. -/
def Slot.place {V D : Type} (id j : Nat) : Slot V D → Place V D
  | .owned => ⟨.res id j, []⟩
  | .view p => p

/-- A panic, or a read of freed memory (undefined behaviour). -/
inductive Fault where
  | panic (p : Panic)
  | dangling
deriving DecidableEq, Repr

/-- Raises a panic of a shared function as a fault. -/
def liftPanic {α : Type} : Except Panic α → Except Fault α
  | .ok a => .ok a
  | .error p => .error (.panic p)

/-- State of the loop in `Graph::eval`, as `EvalState`, with the memory of owned results: `none` is memory that was not allocated or is freed. -/
structure MState (V D E W : Type) where
  stack : List (Nat × Bool)
  storage : Storage (Slot V D) E
  heap : Nat → Nat → Option V
  env : List V
  world : W
  log : List (Nat × Bool)

/-- One collected input: kind, raw view, and what is read through it. -/
structure MInput (V D : Type) where
  kind : InKind
  place : Place V D
  val : V

namespace Mem
open Eval
variable {Op V D E W : Type}

/-- What is read through a raw view (`deref_into_view`, src/evaluation.rs:219, 306). -/
def read (proj : D → V → V) (env : List V) (heap : Nat → Nat → Option V) (p : Place V D) : Option V :=
  (match p.loc with
    | .var vid => env[vid]?
    | .feed v => some v
    | .res id j => heap id j).map (fun v => p.path.foldl (fun v d => proj d v) v)

/-- Models the collection of one input (src/evaluation.rs:291-309). -/
def gatherOne (M : MSem Op V D E W) (g : Graph Op) (feeds : List (Feed V)) (st : MState V D E W) (i : Incoming) :
    Except Fault (Except E (MInput V D)) := do
  let n ← liftPanic (g.access i.id)
  match n.placeholderName with
  | some name => do
    let v ← liftPanic (findFeed M.shapeOf i.id n.knownShape name feeds)
    .ok (.ok ⟨.nonVariable, ⟨.feed v, []⟩, v⟩)
  | none =>
    match n.variableId with
    | some vid =>
      match st.env[vid]? with
      | none => .error (.panic .badVariableId)
      | some a => .ok (.ok ⟨if i.allowMut then .rdWr else .rdOnly, ⟨.var vid, []⟩, a⟩)
    | none => do
      let r ← liftPanic (storageGet st.storage i.id i.selector)
      match r with
      | .error e => .ok (.error e)
      | .ok slot =>
        match read M.proj st.env st.heap (slot.place i.id i.selector) with
        | none => .error .dangling
        | some v => .ok (.ok ⟨.nonVariable, slot.place i.id i.selector, v⟩)

/-- Models the input loop with its `break` at the first error (src/evaluation.rs:284-317). -/
def gather (M : MSem Op V D E W) (g : Graph Op) (feeds : List (Feed V)) (st : MState V D E W) :
    List Incoming → Except Fault (Except E (List (MInput V D)))
  | [] => .ok (.ok [])
  | i :: is => do
    let r ← gatherOne M g feeds st i
    match r with
    | .error e => .ok (.error e)
    | .ok x => do
      let rs ← gather M g feeds st is
      match rs with
      | .error e => .ok (.error e)
      | .ok xs => .ok (.ok (x :: xs))

/-- `contains_variable_input` (src/op.rs:274-280). -/
def containsVariable (xs : List (MInput V D)) : Bool := xs.any (fun x => x.kind != .nonVariable)

/-- Models `append_output` and `append_output_view_raw` (src/op.rs:273-287, 300-303): the slot, and the contents of newly allocated memory. A view of
an input that does not exist is impossible; it is a panic (src/op.rs:207-210). -/
def appendOut (proj : D → V → V) (xs : List (MInput V D)) : Out V D → Except Fault (Slot V D × Option V)
  | .owned v => .ok (.owned, some v)
  | .view k d =>
    match xs[k]? with
    | none => .error (.panic .opPanic)
    | some x =>
      if containsVariable xs then .ok (.owned, some (proj d x.val))
      else .ok (.view ⟨x.place.loc, x.place.path ++ [d]⟩, none)

/-- All outputs of a call, in order. -/
def appendAll (proj : D → V → V) (xs : List (MInput V D)) : List (Out V D) → Except Fault (List (Slot V D × Option V))
  | [] => .ok []
  | y :: ys => do
    let s ← appendOut proj xs y
    let ss ← appendAll proj xs ys
    .ok (s :: ss)

/-- Models the visit of a node (src/evaluation.rs:275-329). If the op fails its outputs are dropped (src/evaluation.rs:326). -/
def visit (M : MSem Op V D E W) (g : Graph Op) (feeds : List (Feed V)) (n : Node Op) (id : Nat)
    (st : MState V D E W) : Except Fault (MState V D E W) :=
  if wouldNotVisit n id st.storage then .ok st
  else do
    let ins ← gather M g feeds st n.incoming
    match ins with
    | .error e => .ok { st with storage := insert st.storage id (.error e), log := (id, false) :: st.log }
    | .ok xs =>
      match M.compute n.op st.world (xs.map (fun x => ⟨x.kind, x.val⟩)) with
      | .panic => .error (.panic .opPanic)
      | .done w ws ys status => do
        let ss ← appendAll M.proj xs ys
        if M.debug && ys.isEmpty then .error (.panic .emptyOutput)
        else
          match status with
          | .ok () => .ok { st with
              storage := insert st.storage id (.ok (ss.map Prod.fst))
              heap := fun a j => if a = id then (ss[j]?).bind Prod.snd else st.heap a j
              env := applyWrites g n.incoming ws st.env
              world := w
              log := (id, true) :: st.log }
          | .error e => .ok { st with
              storage := insert st.storage id (.error e)
              env := applyWrites g n.incoming ws st.env
              world := w
              log := (id, true) :: st.log }

/-- One iteration of the loop (src/evaluation.rs:272-341). -/
def step (M : MSem Op V D E W) (g : Graph Op) (feeds : List (Feed V)) (entry : Nat × Bool)
    (st : MState V D E W) : Except Fault (MState V D E W) := do
  let n ← liftPanic (g.access entry.1)
  if entry.2 then visit M g feeds n entry.1 st
  else do
    let cs ← liftPanic (childrenToPush g st.storage n.incoming)
    .ok { st with stack := (cs.map (fun c => (c, false))).reverse ++ (entry.1, true) :: st.stack }

/-- The loop (src/evaluation.rs:272-341) with fuel. -/
def loop (M : MSem Op V D E W) (g : Graph Op) (feeds : List (Feed V)) :
    Nat → MState V D E W → Option (Except Fault (MState V D E W))
  | fuel, st =>
    match st.stack with
    | [] => some (.ok st)
    | e :: rest =>
      match fuel with
      | 0 => none
      | fuel + 1 =>
        match step M g feeds e { st with stack := rest } with
        | .error p => some (.error p)
        | .ok st' => loop M g feeds fuel st'

/-- Models `OpOutputStorage::take` with selector 0 (src/evaluation.rs:214-222): an owned array is moved out (its memory now belongs to the caller and
stays valid), a view is copied; then the other outputs of the entry are dropped, which frees the owned ones. -/
def take (M : MSem Op V D E W) (env : List V) (s : Storage (Slot V D) E) (heap : Nat → Nat → Option V) (key : Nat) :
    Except Fault (Except E V × Storage (Slot V D) E × (Nat → Nat → Option V)) :=
  match s key with
  | none => .error (.panic .missingResult)
  | some (.error e) => .ok (.error e, fun k => if k = key then none else s k, heap)
  | some (.ok ys) =>
    match ys[0]? with
    | none => .error (.panic .badSelector)
    | some slot =>
      match read M.proj env heap (slot.place key 0) with
      | none => .error .dangling
      | some v => .ok (.ok v, fun k => if k = key then none else s k, fun a j => if a = key ∧ j ≠ 0 then none else heap a j)

/-- Models the aggregation of return values (src/evaluation.rs:343-361). -/
def aggregate (M : MSem Op V D E W) (g : Graph Op) (feeds : List (Feed V)) (env : List V) :
    List Nat → Storage (Slot V D) E → (Nat → Nat → Option V) → Except Fault (List (Except E V))
  | [], _, _ => .ok []
  | t :: ts, s, heap => do
    let n ← liftPanic (g.access t)
    match n.variableId with
    | some vid =>
      match env[vid]? with
      | none => .error (.panic .badVariableId)
      | some a => do
        let rs ← aggregate M g feeds env ts s heap
        .ok (.ok a :: rs)
    | none =>
      match n.placeholderName with
      | some name => do
        let v ← liftPanic (findFeed M.shapeOf t n.knownShape name feeds)
        let rs ← aggregate M g feeds env ts s heap
        .ok (.ok v :: rs)
      | none => do
        let (r, s', heap') ← take M env s heap t
        let rs ← aggregate M g feeds env ts s' heap'
        .ok (r :: rs)

/-- Initial state (src/evaluation.rs:261-270). -/
def initState (targets : List Nat) (env : List V) (w : W) : MState V D E W :=
  { stack := (targets.map (fun t => (t, false))).reverse, storage := fun _ => none, heap := fun _ _ => none, env := env, world := w, log := [] }

/-- Models `Graph::eval` (src/evaluation.rs:252-362) with memory. -/
def eval (M : MSem Op V D E W) (g : Graph Op) (fuel : Nat) (targets : List Nat) (feeds : List (Feed V)) (env : List V) (w : W) :
    Option (Except Fault (EvalResult V E W)) :=
  match loop M g feeds fuel (initState targets env w) with
  | none => none
  | some (.error p) => some (.error p)
  | some (.ok st) =>
    match aggregate M g feeds st.env targets st.storage st.heap with
    | .error p => some (.error p)
    | .ok rs => some (.ok ⟨rs, st.env, st.world, st.log.reverse⟩)

end Mem
end Verif
