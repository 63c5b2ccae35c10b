import Verif.Model.Variables
/-!
# Model of the state arrays of the optimizers

Covers `Adam::new`, `MomentumSGD::new`, `AdaGrad::new` and the lookups of state in their `compute_updates`
(src/optimizers/adam.rs, momentum_sgd.rs, adagrad.rs). `zerosLike a` is `ndarray_ext::zeros(a.shape())`, `one` is
`ndarray_ext::from_scalar(1)`.
-/

namespace Verif.OptState
open Verif
variable {A : Type}

/-- `format!("{}", vid)` (src/variable.rs:108-112): decimal digits. -/
def decimal (vid : Nat) : Str := (Nat.repr vid).toList

/-- The names of Adam's state arrays of a variable (src/optimizers/adam.rs:86-88, 131-133). -/
def nameM (vid : Nat) : Str := decimal vid ++ ['m']
def nameV (vid : Nat) : Str := decimal vid ++ ['v']
def nameT (vid : Nat) : Str := decimal vid ++ ['t']

/-- Models the loop of `Adam::new` (src/optimizers/adam.rs:75-115); an unknown variable is a panic ("variable array not found"). -/
def adamNew (zerosLike : A → A) (one : A) (ns : Str) : VarEnv A → List Nat → Except Panic (VarEnv A)
  | env, [] => .ok env
  | env, vid :: vids =>
    match env.getById vid with
    | none => .error .variableNotFound
    | some a =>
      let e1 := (env.register ns (nameM vid) (zerosLike a)).1
      let e2 := (e1.register ns (nameV vid) (zerosLike a)).1
      let e3 := (e2.register ns (nameT vid) one).1
      adamNew zerosLike one ns e3 vids

/-- Models the loops of `MomentumSGD::new` (src/optimizers/momentum_sgd.rs:57-83) and `AdaGrad::new`
(src/optimizers/adagrad.rs:32-55), which are the same: one state array per variable, named by the variable id. -/
def singleNew (zerosLike : A → A) (ns : Str) : VarEnv A → List Nat → Except Panic (VarEnv A)
  | env, [] => .ok env
  | env, vid :: vids =>
    match env.getById vid with
    | none => .error .variableNotFound
    | some a => singleNew zerosLike ns (env.register ns (decimal vid) (zerosLike a)).1 vids

/-- The state variables found by `Adam::compute_updates` for the parameter `vid` (src/optimizers/adam.rs:129-133):
a missing one is a panic in `variable_by_name`. -/
def adamState (env : VarEnv A) (ns : Str) (vid : Nat) : Option (Nat × Nat × Nat) :=
  match env.names.get ⟨ns, nameM vid⟩, env.names.get ⟨ns, nameV vid⟩, env.names.get ⟨ns, nameT vid⟩ with
  | some m, some v, some t => some (m, v, t)
  | _, _, _ => none

/-- The state variable found by `MomentumSGD::compute_updates` and `AdaGrad::compute_updates` for the parameter `vid`
(src/optimizers/momentum_sgd.rs:101-103, src/optimizers/adagrad.rs:74-76). -/
def singleState (env : VarEnv A) (ns : Str) (vid : Nat) : Option Nat := env.names.get ⟨ns, decimal vid⟩

end Verif.OptState
