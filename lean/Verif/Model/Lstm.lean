import Verif.Model.Calls

/-!
# The LSTM language model of the example `lstm_lm`

The functions of the example, as calls of a program. The tensors that a function uses and returns are given by the numbers of the calls that returned them.
-/

namespace Verif.Prog
open Verif Verif.Nd

/-- Makes one call after the calls made so far, and returns its number (the local variable that holds its result). -/
def emit (s : Stmt) : StateM (List Stmt) Nat := fun l => (l.length, l ++ [s])

/-- `LSTM::step` (examples/lstm_lm.rs:23-51): `last` is the previous output and cell, if there is one (`self.hs.pop()`, `self.cells.pop()`); returns the new output and cell. `dim` is `vector_dim`;
`wx`, `wh` and `b` are the variables of these names. -/
def lstmStep (dim wx wh b x : Nat) (last : Option (Nat × Nat)) : StateM (List Stmt) (Nat × Nat) := do
  let lastOutput ← match last with
    | some (h, _) => pure h
    | none => do
      let s ← emit (.shapeOf x)
      emit (.zeros s)
  let lastCell ← match last with
    | some (_, c) => pure c
    | none => do
      let s ← emit (.shapeOf x)
      emit (.zeros s)
  let p ← emit (.matmul x wx)
  let q ← emit (.matmul lastOutput wh)
  let pq ← emit (.add p q)
  let xh ← emit (.add pq b)
  let i ← emit (.slice xh [0, 0] [-1, dim])
  let f ← emit (.slice xh [0, dim] [-1, 2 * dim])
  let c ← emit (.slice xh [0, 2 * dim] [-1, 3 * dim])
  let o ← emit (.slice xh [0, 3 * dim] [-1, 4 * dim])
  let sf ← emit (.un .sigmoid f)
  let keep ← emit (.mul sf lastCell)
  let si ← emit (.un .sigmoid i)
  let tc ← emit (.un .tanh c)
  let new ← emit (.mul si tc)
  let cell ← emit (.add keep new)
  let so ← emit (.un .sigmoid o)
  let th ← emit (.un .tanh cell)
  let h ← emit (.mul so th)
  pure (h, cell)

/-- The body of the closure that computes the loss of word `i + 1` (examples/lstm_lm.rs:104-111). Returns the loss, the output and the cell. `squeeze(.., &[1])` makes the constant `[1]`. -/
noncomputable def lstmWord (bot : ℝ) (lay : Arr ℝ → List Int) (dim wx wh b table pred sentences i : Nat) (last : Option (Nat × Nat)) : StateM (List Stmt) (Nat × Nat × Nat) := do
  let cur ← emit (.slice sentences [0, i] [-1, i + 1])
  let next ← emit (.slice sentences [0, i + 1] [-1, i + 2])
  let e ← emit (.gather false cur table 0)
  let axes ← emit (.const (vec [1]))
  let x ← emit (.squeeze e axes)
  let (h, c) ← lstmStep dim wx wh b x last
  let prediction ← emit (.matmul h pred)
  let loss ← emit (.sparseCE bot lay prediction next)
  pure (loss, h, c)

/-- The losses of the first `n` words (examples/lstm_lm.rs:103-112), and the output and cell after them. -/
noncomputable def lstmWords (bot : ℝ) (lay : Arr ℝ → List Int) (dim wx wh b table pred sentences : Nat) : Nat → StateM (List Stmt) (List Nat × Option (Nat × Nat))
  | 0 => pure ([], none)
  | n + 1 => do
    let (losses, last) ← lstmWords bot lay dim wx wh b table pred sentences n
    let (loss, h, c) ← lstmWord bot lay dim wx wh b table pred sentences n last
    pure (losses ++ [loss], some (h, c))

/-- `add_n` (src/tensor_ops/mod.rs:831-847): one tensor is returned as it is; none is a panic, here tensor 0. -/
def emitAddN : List Nat → StateM (List Stmt) Nat
  | [] => pure 0
  | [x] => pure x
  | x :: y :: zs => emit (.addN x y zs)

/-- The loss (examples/lstm_lm.rs:98-115) for sentences of `words + 1` words (`max_sent`, 85); returns the call that is the loss and the five variables in the order of `vars` (118-124). The
variables have the numbers that `init_vars` (54-79) gives them (0 is the unused one of namespace "a"). Their tensors are made in the order of `vars`; `var_tensors_by_name` (99) makes them in
the order of a hash map. -/
noncomputable def lstmLoss (bot : ℝ) (lay : Arr ℝ → List Int) (dim words : Nat) : StateM (List Stmt) (Nat × List Nat) := do
  let wx ← emit (.var 2)
  let wh ← emit (.var 3)
  let b ← emit (.var 4)
  let table ← emit (.var 1)
  let pred ← emit (.var 5)
  let sentences ← emit (.placeholder "sents" [-1, words + 1])
  let (losses, _) ← lstmWords bot lay dim wx wh b table pred sentences words
  let loss ← emitAddN losses
  pure (loss, [wx, wh, b, table, pred])

/-- The calls of the program, and the numbers of the loss and of the variables. -/
noncomputable def lstmCalls (bot : ℝ) (lay : Arr ℝ → List Int) (dim words : Nat) : List Stmt := (lstmLoss bot lay dim words []).2
noncomputable def lstmResult (bot : ℝ) (lay : Arr ℝ → List Int) (dim words : Nat) : Nat × List Nat := (lstmLoss bot lay dim words []).1

end Verif.Prog
