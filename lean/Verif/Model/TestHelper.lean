import Verif.Model.ArrayOps
import Verif.Model.Gradient
import Verif.Model.Eval
import Mathlib.Algebra.Field.Defs
import Mathlib.Algebra.Order.Group.Unbundled.Abs

/-!
# Model of the gradient checker

Covers `check_theoretical_grads` (src/test_helper.rs:7-148). The numbers are an abstract ordered field (no rounding, no NaN).
-/

namespace Verif.TestHelper
open Verif Verif.Nd Verif.Graph Verif.Gradient Verif.Eval

/-- How the check can end without returning: a panic of the graph or the evaluator, the `unwrap` of an error of an op (lines 32-39, 79, 104), a tensor that is not a variable or has no
array (lines 43-53, 59-68), a panic of the subtraction (line 131), a read or write outside of the memory of an array (undefined behaviour, lines 70-71, 132), or the
panic "Gradient checking failed" (lines 137-142), here with the state of the variables. -/
inductive CheckFail (R E : Type) where
  | graph (p : Panic)
  | eval (p : Panic)
  | opError (e : E)
  | notVariable
  | noArray
  | array (f : Fail)
  | outside
  | tooLarge (num th : R) (env : List (Arr R))

/-- All positions of an array of the given shape. -/
def positions (s : List Nat) : List (List Nat) := (List.range (size s)).map (unflat s)

/-- `*head.offset(i)` for the pointer `head` of an array (src/test_helper.rs:69-70): the element stored `i` places after the first one. `none` if there is no such element. -/
def readMem {R : Type} (a : Arr R) (i : Nat) : Option R :=
  ((positions a.shape).find? (fun o => offset a.strides o == (i : Int))).map a.get

/-- `*head.offset(i) = x` (src/test_helper.rs:71, 97, 127). -/
def writeMem {R : Type} (a : Arr R) (i : Nat) (x : R) : Arr R :=
  ⟨a.shape, a.strides, fun j => if j ∈ positions a.shape ∧ offset a.strides j = (i : Int) then x else a.get j⟩

variable {Op R E W : Type}

/-- A step of the check that may fail, and may run out of fuel. -/
abbrev Step (R E α : Type) := Option (Except (CheckFail R E) α)

/-- Sequential composition of steps. -/
def andThen {α β : Type} (x : Step R E α) (f : α → Step R E β) : Step R E β :=
  match x with
  | none => none
  | some (.error p) => some (.error p)
  | some (.ok a) => f a

/-- `g.evaluator().push(t).set_feeder(feeder.clone()).run().remove(0).unwrap()` (src/test_helper.rs:75-81, 100-106). The copy of arrays that are not row-major (lines 82-86, 107-111) does not change
the elements. -/
def evalOne (S : Sem Op (Arr R) E W) (g : Graph Op) (fuel : Nat) (feeds : List (Feed (Arr R))) (t : Nat) (env : List (Arr R)) (w : W) : Step R E (Arr R × List (Arr R) × W) :=
  match eval S g fuel [t] feeds env w with
  | none => none
  | some (.error p) => some (.error (.eval p))
  | some (.ok r) =>
    match r.results with
    | .ok v :: _ => some (.ok (v, r.env, r.world))
    | .error e :: _ => some (.error (.opError e))
    | [] => some (.error (.eval .missingResult))

/-- `g.env().get_array_by_id(id).expect(..)` (src/test_helper.rs:43-52, 59-67). -/
def arrayOf (env : List (Arr R)) (vid : Nat) : Step R E (Arr R) :=
  match env[vid]? with
  | some a => some (.ok a)
  | none => some (.error .noArray)

/-- A read that must stay inside of the array. -/
def inside : Option R → Step R E R
  | some x => some (.ok x)
  | none => some (.error .outside)

/-- The body of the inner loop (src/test_helper.rs:56-143): the element is read, changed by `eps` and by `-eps` for two evaluations of the objective, and restored before the comparison. -/
def checkElem [Field R] [LinearOrder R] (S : Sem Op (Arr R) E W) (g : Graph Op) (fuel : Nat) (feeds : List (Feed (Arr R))) (obj vid : Nat) (th : Arr R) (eps tol : R) (i : Nat)
    (env : List (Arr R)) (w : W) : Step R E (List (Arr R) × W) :=
  andThen (arrayOf env vid) fun a =>
  andThen (inside (readMem a i)) fun old =>
  andThen (evalOne S g fuel feeds obj (env.set vid (writeMem a i (old + eps))) w) fun pos =>
  andThen (arrayOf pos.2.1 vid) fun a1 =>
  andThen (evalOne S g fuel feeds obj (pos.2.1.set vid (writeMem a1 i (old - eps))) pos.2.2) fun neg =>
  andThen (arrayOf neg.2.1 vid) fun a2 =>
  match zipOp (fun x y => x - y) pos.1 neg.1 with
  | .error f => some (.error (.array f))
  | .ok d =>
    andThen (inside (toList th)[i]?) fun t =>
    let num := (toList d).sum / ((1 + 1) * eps)
    let env3 := neg.2.1.set vid (writeMem a2 i old)
    if tol < |num - t| then some (.error (.tooLarge num t env3)) else some (.ok (env3, neg.2.2))

/-- The loop over the elements of one variable (src/test_helper.rs:55-143). -/
def checkElems [Field R] [LinearOrder R] (S : Sem Op (Arr R) E W) (g : Graph Op) (fuel : Nat) (feeds : List (Feed (Arr R))) (obj vid : Nat) (th : Arr R) (eps tol : R) :
    List Nat → List (Arr R) → W → Step R E (List (Arr R) × W)
  | [], env, w => some (.ok (env, w))
  | i :: is, env, w => andThen (checkElem S g fuel feeds obj vid th eps tol i env w) fun s => checkElems S g fuel feeds obj vid th eps tol is s.1 s.2

/-- `var_node.get_variable_id().expect(..)` (src/test_helper.rs:45-49). -/
def variableOf (g : Graph Op) (x : Nat) : Step R E Nat :=
  match g.access x with
  | .error p => some (.error (.graph p))
  | .ok n =>
    match n.variableId with
    | some vid => some (.ok vid)
    | none => some (.error .notVariable)

/-- The loop over the variables and their gradient arrays (src/test_helper.rs:28-144). `toList th` stands for the row-major copy of the gradient array (lines 30-39). -/
def checkVars [Field R] [LinearOrder R] (S : Sem Op (Arr R) E W) (g : Graph Op) (fuel : Nat) (feeds : List (Feed (Arr R))) (obj : Nat) (eps tol : R) :
    List (Nat × Except E (Arr R)) → List (Arr R) → W → Step R E (List (Arr R) × W)
  | [], env, w => some (.ok (env, w))
  | (_, .error e) :: _, _, _ => some (.error (.opError e))
  | (x, .ok th) :: rest, env, w =>
    andThen (variableOf g x) fun vid =>
    andThen (arrayOf env vid) fun a =>
    andThen (checkElems S g fuel feeds obj vid th eps tol (List.range (size a.shape)) env w) fun s =>
    checkVars S g fuel feeds obj eps tol rest s.1 s.2

/-- Models `check_theoretical_grads` (src/test_helper.rs:9-145). Returns the arrays of the variables and the world after the check. -/
def checkGrads [Field R] [LinearOrder R] (O : GradOps Op) (S : Sem Op (Arr R) E W) (g : Graph Op) (fuel : Nat) (objective : Nat) (gradients variables : List Nat)
    (feeds : List (Feed (Arr R))) (eps tol : R) (env : List (Arr R)) (w : W) : Step R E (List (Arr R) × W) :=
  match sumAll O g objective with
  | .error p => some (.error (.graph p))
  | .ok (g1, obj) =>
    match eval S g1 fuel gradients feeds env w with
    | none => none
    | some (.error p) => some (.error (.eval p))
    | some (.ok r) => checkVars S g1 fuel feeds obj eps tol (variables.zip r.results) r.env r.world

end Verif.TestHelper
