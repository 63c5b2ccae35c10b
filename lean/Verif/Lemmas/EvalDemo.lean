import Verif.Lemmas.Reachable
import Verif.Lemmas.EvalFeeds

/-! A few ops and graphs, for the examples beside the theorems about evaluation. -/

namespace Verif.Props
open Verif Verif.Spec Verif.Eval Verif.Graph Relation

/-- A few ops of the crate, on scalar integer arrays. -/
inductive DemoOp where
  | ctrl | var | ph | const (s : List Int) | num (k : Int) | double | add | assign | two | fail
deriving DecidableEq

/-- `ControlDependency` and `second output` return an input; `assign` needs a mutable first input (otherwise `input_mut` panics,
src/op.rs:239-259) and appends an empty output. -/
def demoCompute : DemoOp → Unit → List (OpInput Int) → Outcome Int String Unit
  | .ctrl, w, x :: _ => .done w [] [x.val] (.ok ())
  | .num k, w, _ => .done w [] [k] (.ok ())
  | .double, w, [x] => .done w [] [2 * x.val] (.ok ())
  | .add, w, [x, y] => .done w [] [x.val + y.val] (.ok ())
  | .assign, w, [⟨.rdWr, _⟩, y] => .done w [(0, y.val)] [0] (.ok ())
  | .two, w, [x] => .done w [] [x.val, x.val + 1] (.ok ())
  | .fail, w, _ => .done w [] [] (.error "failed")
  | _, _, _ => .panic

def demoSem : Sem DemoOp Int String Unit := ⟨demoCompute, fun _ => [], false⟩
def demoOps : Ops DemoOp := ⟨.ctrl, .var, .ph, .const⟩

/-- `v`, `u = assign(v, 5)`, `y = 0 + double(v)`. -/
def demoCmds : List (Cmd DemoOp) :=
  [.var 0, .build {} (.num 5), .build { inNodes := [⟨0, true, 0⟩, ⟨1, false, 0⟩] } .assign, .build {} (.num 0),
   .build { inNodes := [⟨0, false, 0⟩] } .double, .build { inNodes := [⟨3, false, 0⟩, ⟨4, false, 0⟩] } .add]

/-- A variable, a placeholder, shared sums, a failing op and an assignment. -/
def demoHist : List (Cmd DemoOp) :=
  [.var 0, .placeholder "p" [-1], .build {} (.num 5), .build { inNodes := [⟨0, false, 0⟩, ⟨2, false, 0⟩] } .add,
   .build { inNodes := [⟨3, false, 0⟩, ⟨3, false, 0⟩] } .add, .build {} .fail, .build { inNodes := [⟨4, false, 0⟩, ⟨5, false, 0⟩] } .add,
   .build { inNodes := [⟨0, true, 0⟩, ⟨2, false, 0⟩] } .assign]

/-- The graph of this history. -/
def demoEvalGraph : Graph DemoOp :=
  match (Graph.empty : Graph DemoOp).execAll demoOps demoHist with
  | .ok (g, _) => g
  | .error _ => Graph.empty

theorem demo_reach {g : Graph DemoOp} {ts : List Nat} (h : (Graph.empty : Graph DemoOp).execAll demoOps demoHist = .ok (g, ts)) :
    Reachable demoOps g := Reachable.all .init h

/-- What these ops compute. -/
def demoFn : DemoOp → List (OpInput Int) → Option (Except String (List Int)) :=
  fun op xs => outcomeResult false (demoCompute op () xs)

end Verif.Props
