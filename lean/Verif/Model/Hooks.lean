import Verif.Model.Eval

/-!
# Model of hooks

Covers `src/hooks.rs`, `src/tensor_ops/hook_ops.rs` and the methods of `Tensor` that set hooks (`src/tensor.rs:177-320`).
-/

namespace Verif
open Graph

variable {Op V E W T H : Type}

/-- The hooks of src/hooks.rs:42-57. `T` is what hooks can change: the terminal, and whatever the closure of a raw hook has captured. -/
inductive Hook (V T : Type) where
  | print (text : String)
  | show_
  | showPrefixed (prefix_ : String)
  | showShape
  | showPrefixedShape (prefix_ : String)
  | raw (f : V → T → T)

/-- Models the implementations of `Hook::call` (src/hooks.rs:59-92). `arr` and `shape` are the texts of `{:?}` for an array and its shape, `println` writes a line. Closures of raw
hooks are assumed to return (a panic is not modelled). -/
def Hook.call (arr shape : V → String) (println : String → T → T) : Hook V T → V → T → T
  | .print s, _, t => println s t
  | .show_, v, t => println (arr v) t
  | .showPrefixed s, v, t => println (s ++ " " ++ arr v) t
  | .showShape, v, t => println (shape v) t
  | .showPrefixedShape s, v, t => println (s ++ "\n" ++ shape v) t
  | .raw f, v, t => f v t

/-- The other ops, and `HookOp` (src/tensor_ops/hook_ops.rs:5-8). -/
inductive HookedOp (Op H : Type) where
  | op (o : Op)
  | hook (h : H)

/-- Models `HookOp::compute` (src/tensor_ops/hook_ops.rs:21-26): `ctx.input(0)` (panics without an input), the call of the hook, and the input as output. `T` is what the hooks change; the other
ops do not touch it and keep their world. The output is a view of the input; outputs are values here, see Model/Aliasing. -/
def withHooks (S : Sem Op V E W) (call : H → V → T → T) : Sem (HookedOp Op H) V E (W × T) where
  compute
    | .op o, (w, t), xs =>
      match S.compute o w xs with
      | .panic => .panic
      | .done w' ws ys status => .done (w', t) ws ys status
    | .hook h, (w, t), x :: _ => .done (w, call h x.val t) [] [x.val] (.ok ())
    | .hook _, _, [] => .panic
  shapeOf := S.shapeOf
  debug := S.debug

/-- Models `Tensor::register_hook` (src/tensor.rs:198-202), called by `show`, `show_prefixed`, `show_shape`, `show_prefixed_shape`, `print` and `raw_hook`
(src/tensor.rs:220-320) with the hook of that name: a new tensor. -/
def registerHook (g : Graph (HookedOp Op H)) (x : Nat) (h : H) : Except Panic (Graph (HookedOp Op H) × Nat) :=
  g.build { inNodes := [{ id := x }] } (.hook h)

end Verif
