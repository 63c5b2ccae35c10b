import Verif.Model.Variables
/-!
# What a variable environment should contain

Everything here speaks about the *history* of an environment only: the list of registrations and in-place updates that were made.
-/

namespace Verif.Spec
open Verif

/-- What a user can do to an environment: register an array under a namespace and a name, or replace the contents of the array with
a given id (by hand, or by evaluating an op that mutates the variable). -/
inductive VarAction (A : Type) where
  | register (ns name : Str) (a : A)
  | update (vid : Nat) (a : A)

variable {A : Type}

/-- The registrations of a history in order. -/
def regs : List (VarAction A) → List (FullName × A)
  | [] => []
  | .register ns name a :: h => (⟨ns, name⟩, a) :: regs h
  | .update _ _ :: h => regs h

/-- The `k`-th registration (counting from 0) was made under this name, and no later one was. -/
def IsLatest (h : List (VarAction A)) (ns name : Str) (k : Nat) : Prop :=
  ((regs h).map (·.1))[k]? = some ⟨ns, name⟩ ∧
    ∀ j : Nat, k < j → ((regs h).map (·.1))[j]? ≠ some ⟨ns, name⟩

/-- `e`, coming after the history `pre`, gives the `k`-th registered variable the value `a`: it is the `k`-th registration, with array
`a`, or an update of variable `k` to `a`. -/
def GivesValue (pre : List (VarAction A)) (e : VarAction A) (k : Nat) (a : A) : Prop :=
  e = .update k a ∨ ∃ ns name, e = .register ns name a ∧ (regs pre).length = k

/-- `a` is the value of the `k`-th registered variable after the history `h`: the last action on it gave it this value. -/
def CurrentValue (h : List (VarAction A)) (k : Nat) (a : A) : Prop :=
  ∃ pre e post, h = pre ++ e :: post ∧ GivesValue pre e k a ∧ ∀ b : A, VarAction.update k b ∉ post

/-- The environment `env` arises by the actions `h`, starting from a new environment. -/
inductive VarHist : List (VarAction A) → VarEnv A → Prop where
  | new : VarHist [] VarEnv.new
  | register {h : List (VarAction A)} {env : VarEnv A} (ns name : Str) (a : A) : VarHist h env →
      VarHist (h ++ [.register ns name a]) (env.register ns name a).1
  | update {h : List (VarAction A)} {env env' : VarEnv A} (vid : Nat) (a : A) : VarHist h env →
      env.setById vid a = some env' → VarHist (h ++ [.update vid a]) env'

end Verif.Spec
