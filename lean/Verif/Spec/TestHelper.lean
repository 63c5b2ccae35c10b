import Mathlib.Algebra.Field.Defs
import Verif.Model.ArrayOps
import Verif.Model.Eval
import Verif.Spec.NdArray

/-!
# Specification vocabulary for the gradient checker
-/

namespace Verif.Spec
open Verif Verif.Nd Verif.Eval

variable {Op R E W : Type}

/-- The array with `u` added to the element at index `i`. -/
def bump [Add R] (a : Arr R) (i : List Nat) (u : R) : Arr R := ⟨a.shape, a.strides, fun j => if j = i then a.get j + u else a.get j⟩

/-- The array is row-major in memory. -/
def RowMajor (a : Arr R) : Prop := a.strides.length = a.shape.length ∧ isStandard a.shape a.strides = true

/-- The elements of the array are stored without gaps behind its first element, in the order `pos 0`, `pos 1`, ... of indices. -/
def InMemory (a : Arr R) (pos : Nat → List Nat) : Prop :=
  ∀ k < size a.shape, InB (pos k) a.shape ∧ ∀ j, InB j a.shape → (offset a.strides j = (k : Int) ↔ j = pos k)

/-- Evaluating the tensor `t` returns the number `y` and leaves the variables and the world as they were. -/
def GivesNumber (S : Sem Op (Arr R) E W) (g : Graph Op) (fuel : Nat) (feeds : List (Feed (Arr R))) (t : Nat) (env : List (Arr R)) (w : W) (y : R) : Prop :=
  ∃ (res : EvalResult (Arr R) E W) (v : Arr R), eval S g fuel [t] feeds env w = some (.ok res) ∧ res.results = [.ok v] ∧ v.shape = [] ∧ v.get [] = y ∧ res.env = env ∧ res.world = w

/-- A variable that is checked: its tensor, its number, its array, and the array that is claimed to be the gradient. -/
structure Item (R : Type) where
  tensor : Nat
  vid : Nat
  arr : Arr R
  grad : Arr R

/-- The item describes a variable of the environment, and the claimed gradient has the shape of the variable. -/
structure Item.Fits (g : Graph Op) (env : List (Arr R)) (it : Item R) : Prop where
  variable_ : ∃ nd, g.nodes[it.tensor]? = some nd ∧ nd.variableId = some it.vid
  array : env[it.vid]? = some it.arr
  shape : it.grad.shape = it.arr.shape

/-- The variables after the element `i` of the variable of the item was changed by `u`. -/
def Item.moved [Add R] (it : Item R) (env : List (Arr R)) (i : List Nat) (u : R) : List (Arr R) := env.set it.vid (bump it.arr i u)

/-- The central difference quotient of `f` for the element `i` of the variable. -/
def Item.quotient [Field R] (it : Item R) (f : List (Arr R) → R) (env : List (Arr R)) (i : List Nat) (eps : R) : R :=
  (f (it.moved env i eps) - f (it.moved env i (-eps))) / (2 * eps)

end Verif.Spec
