import Verif.Model.Eval

/-!
# Model of evaluators and feeders

Covers `Evaluator` and `Feeder` (src/evaluation.rs:56-172) together with the builder calls that may happen in between.
-/

namespace Verif
open Graph

variable {Op V E W : Type}

/-- Models `Evaluator` (src/evaluation.rs:56-61): the buffered targets and the feeds of its feeder. Graph and variables are shared by all evaluators of a context
and are kept in `Session`. -/
structure Evaluator (V : Type) where
  targets : List Nat
  feeds : List (Feed V)

/-- The calls of a user who works with evaluators. The number `e` says which evaluator is meant. A `Feeder` is the list of its pushes (src/evaluation.rs:88-111). -/
inductive Call (Op V : Type) where
  | push (e t : Nat)
  | extend (e : Nat) (ts : List Nat)
  | feed (e : Nat) (key : PlaceholderKey) (v : V)
  | setFeeder (e : Nat) (fs : List (Feed V))
  | run (e : Nat)
  | build (c : Cmd Op)

/-- A context (graph and variables), the world, and the evaluators. Evaluators are created empty (src/evaluation.rs:114-125), so that their creation is no step. -/
structure Session (Op V W : Type) where
  graph : Graph Op
  env : List V
  world : W
  evaluators : Nat → Evaluator V

namespace Session

/-- A new context, or an old one to which no evaluator belongs. -/
def start (g : Graph Op) (env : List V) (w : W) : Session Op V W := ⟨g, env, w, fun _ => ⟨[], []⟩⟩

/-- A change of one evaluator. -/
def update (s : Session Op V W) (e : Nat) (f : Evaluator V → Evaluator V) : Session Op V W :=
  { s with evaluators := fun k => if k = e then f (s.evaluators k) else s.evaluators k }

/-- One call: `Evaluator::push` (src/evaluation.rs:130-136), `extend` (157-163), `feed` (139-145, by `Feeder::push`, 100-110), `set_feeder` (149-152),
`run` (167-170), or a builder call. `run` returns results and leaves the evaluator as it is. -/
def call (O : Ops Op) (S : Sem Op V E W) (fuel : Nat) (s : Session Op V W) :
    Call Op V → Option (Except Panic (Session Op V W × List (Except E V)))
  | .push e t => some (.ok (s.update e fun v => { v with targets := v.targets ++ [t] }, []))
  | .extend e ts => some (.ok (s.update e fun v => { v with targets := v.targets ++ ts }, []))
  | .feed e key v => some (.ok (s.update e fun u => { u with feeds := u.feeds ++ [⟨key, v⟩] }, []))
  | .setFeeder e fs => some (.ok (s.update e fun u => { u with feeds := fs }, []))
  | .run e =>
    match Eval.eval S s.graph fuel (s.evaluators e).targets (s.evaluators e).feeds s.env s.world with
    | none => none
    | some (.error p) => some (.error p)
    | some (.ok r) => some (.ok ({ s with env := r.env, world := r.world }, r.results))
  | .build c =>
    match s.graph.exec O c with
    | .error p => some (.error p)
    | .ok (g, _) => some (.ok ({ s with graph := g }, []))

/-- A list of calls; the second component has the results of each call (none but for `run`). A panic ends the session; `none` if the fuel of an evaluation did not suffice. -/
def calls (O : Ops Op) (S : Sem Op V E W) (fuel : Nat) : Session Op V W → List (Call Op V) →
    Option (Except Panic (Session Op V W × List (List (Except E V))))
  | s, [] => some (.ok (s, []))
  | s, c :: cs =>
    match s.call O S fuel c with
    | none => none
    | some (.error p) => some (.error p)
    | some (.ok (s1, r)) =>
      match calls O S fuel s1 cs with
      | none => none
      | some (.error p) => some (.error p)
      | some (.ok (s2, rs)) => some (.ok (s2, r :: rs))

end Session
end Verif
