import Mathlib.Data.Rat.Defs
import Mathlib.Algebra.Order.Ring.Rat
import Mathlib.Tactic.IntervalCases
import Verif.Lemmas.TestHelper

/-! Examples for the gradient checker. -/

namespace Verif.Props
open Verif Verif.Spec Verif.Nd Verif.Graph Verif.Gradient Verif.Eval Verif.TestHelper

variable {R : Type} [Field R]

/-- Ops of the examples: a weighted sum of the elements of a 2 x 2 array, `sum_all`, and the array given as the gradient. -/
inductive CkOp where
  | leaf | weigh | sum | claimed
deriving DecidableEq

/-- The weighted sum. -/
def ckFun (x : Arr R) : R := x.get [0, 0] + 2 * x.get [0, 1] + 3 * x.get [1, 0] + 4 * x.get [1, 1]

def ckSem (claimed : Arr R) : Sem CkOp (Arr R) Unit Unit where
  compute := fun op w xs =>
    match op, xs with
    | .weigh, [x] => .done w [] [ofFn [] (fun _ => ckFun x.val)] (.ok ())
    | .sum, [x] => .done w [] [ofFn [] (fun _ => (toList x.val).sum)] (.ok ())
    | .claimed, [] => .done w [] [claimed] (.ok ())
    | _, _ => .panic
  shapeOf := Arr.shape
  debug := true

def ckOps : GradOps CkOp := ⟨.leaf, .leaf, .sum, .leaf, .leaf, fun _ => .leaf, fun _ _ _ _ => .error .opGrad⟩

/-- The variable is tensor 0, the objective tensor 1, the array given as gradient tensor 2. -/
def ckGraph : Graph CkOp :=
  match (Graph.empty : Graph CkOp).execAll ⟨.leaf, .leaf, .leaf, fun _ => .leaf⟩ [.var 0, .build { inNodes := [{ id := 0 }] } .weigh, .build {} .claimed] with
  | .ok (g, _) => g
  | .error _ => Graph.empty

/-- The graph after `sum_all`. -/
def ckGraph1 : Graph CkOp :=
  match sumAll ckOps ckGraph 1 with
  | .ok (g, _) => g
  | .error _ => Graph.empty

theorem ck_sum : sumAll ckOps ckGraph 1 = .ok (ckGraph1, 3) := rfl

theorem ck_gives (claimed a : Arr R) : GivesNumber (ckSem claimed) ckGraph1 20 [] 3 [a] () (ckFun a) :=
  ⟨_, _, rfl, rfl, rfl, by show ([ckFun a] : List R).sum = _; simp, rfl, rfl⟩

theorem ck_eval (claimed a : Arr R) : ∃ r, eval (ckSem claimed) ckGraph1 20 [2] [] [a] () = some (.ok r) ∧ r.results = [.ok claimed] ∧ r.env = [a] ∧ r.world = () :=
  ⟨_, rfl, rfl, rfl, rfl⟩

/-- The objective as a function of the variables. -/
def ckOf (env : List (Arr R)) : R := ckFun (env.getD 0 (ofFn [] (fun _ => 0)))

/-- The gradient of the objective. -/
def ckTrue : Arr R := ofFn [2, 2] (fun i => if i = [0, 0] then 1 else if i = [0, 1] then 2 else if i = [1, 0] then 3 else 4)

/-- Its transpose. -/
def ckWrong : Arr R := ofFn [2, 2] (fun i => if i = [0, 0] then 1 else if i = [0, 1] then 3 else if i = [1, 0] then 2 else 4)

theorem ck_cases {i : List Nat} (h : InB i [2, 2]) : i = [0, 0] ∨ i = [0, 1] ∨ i = [1, 0] ∨ i = [1, 1] := by
  match i, h with
  | [a, b], h =>
    obtain ⟨h1, h2⟩ := List.forall₂_cons.1 h
    obtain ⟨h3, _⟩ := List.forall₂_cons.1 h2
    interval_cases a <;> interval_cases b <;> simp

theorem ck_linear (a : Arr R) (i : List Nat) (hi : InB i [2, 2]) (u : R) : ckFun (bump a i u) = ckFun a + u * ckTrue.get i := by
  rcases ck_cases hi with rfl | rfl | rfl | rfl <;> simp [ckFun, bump, ckTrue, ofFn] <;> ring

omit [Field R] in
theorem ck_inMemory {a : Arr R} (ha : a.shape = [2, 2]) (hst : a.strides = [1, 2]) : InMemory a (fun k => [k % 2, k / 2]) := by
  intro k hk
  rw [ha] at hk ⊢
  rw [hst]
  have hk : k < 4 := hk
  refine ⟨by interval_cases k <;> decide, fun j hj => ?_⟩
  rcases ck_cases hj with rfl | rfl | rfl | rfl <;> interval_cases k <;> decide

end Verif.Props
