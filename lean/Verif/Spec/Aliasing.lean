import Verif.Model.Aliasing

/-!
# What evaluation with views should do

Nothing is observable of views and in-place writes: the evaluation is the one in which every output of an op is a value of its own.
-/

namespace Verif.Spec
open Verif
variable {Op V D E W : Type}

/-- The value which an output has when the op is called with the inputs `xs`. -/
def outValue (proj : D → V → V) (xs : List (OpInput V)) : Out V D → Option V
  | .owned v => some v
  | .view k d => xs[k]?.map (fun x => proj d x.val)

/-- The values of all outputs (`none` if one of them is a view of a missing input). -/
def outValues (proj : D → V → V) (xs : List (OpInput V)) : List (Out V D) → Option (List V)
  | [] => some []
  | y :: ys => (outValue proj xs y).bind fun v => (outValues proj xs ys).map (v :: ·)

/-- The ops with values instead of views. -/
def valueSem (M : MSem Op V D E W) : Sem Op V E W where
  compute op w xs := match M.compute op w xs with
    | .panic => .panic
    | .done w' ws ys st => match outValues M.proj xs ys with
      | none => .panic
      | some vs => .done w' ws vs st
  shapeOf := M.shapeOf
  debug := M.debug

/-- Called with inputs none of which is a variable, the op may return as its `j`-th output a view of its `k`-th input. -/
def MayView (M : MSem Op V D E W) (op : Op) (k j : Nat) : Prop :=
  ∃ w xs w' ws ys st d, M.compute op w xs = .done w' ws ys st ∧ (∀ x ∈ xs, x.kind = .nonVariable) ∧ ys[j]? = some (.view k d)

/-- Output `j` of tensor `a` may be a view (through any number of views) of output `s` of tensor `t`. -/
inductive MayAlias (M : MSem Op V D E W) (g : Graph Op) : Nat → Nat → Nat → Nat → Prop where
  | direct {a j k : Nat} {n : Node Op} {i : Incoming} : g.nodes[a]? = some n → n.incoming[k]? = some i → MayView M n.op k j →
      MayAlias M g a j i.id i.selector
  | through {a j k t s : Nat} {n : Node Op} {i : Incoming} : g.nodes[a]? = some n → n.incoming[k]? = some i → MayView M n.op k j →
      MayAlias M g i.id i.selector t s → MayAlias M g a j t s

/-- What is read from output `j` of tensor `id` in a state of the evaluation. -/
def ReadsOutput (M : MSem Op V D E W) (st : MState V D E W) (id j : Nat) (v : V) : Prop :=
  ∃ ss s, st.storage id = some (.ok ss) ∧ ss[j]? = some s ∧ Mem.read M.proj st.env st.heap (s.place id j) = some v

/-- One iteration of the evaluation loop. -/
def OneStep (M : MSem Op V D E W) (g : Graph Op) (feeds : List (Feed V)) (st st' : MState V D E W) : Prop :=
  ∃ e rest, st.stack = e :: rest ∧ Mem.step M g feeds e { st with stack := rest } = .ok st'

/-- One iteration of the evaluation loop in which every output is a value of its own. -/
def ValueStep (S : Sem Op V E W) (g : Graph Op) (feeds : List (Feed V)) (es es' : EvalState V E W) : Prop :=
  ∃ e rest, es.stack = e :: rest ∧ Eval.step S g feeds e { es with stack := rest } = .ok es'

/-- The two states differ only in that results of the first are read from memory. -/
def SameResults (M : MSem Op V D E W) (st : MState V D E W) (es : EvalState V E W) : Prop :=
  st.stack = es.stack ∧ st.env = es.env ∧ st.world = es.world ∧ st.log = es.log ∧
  ∀ id, (st.storage id = none ↔ es.storage id = none) ∧ (∀ e, st.storage id = some (.error e) ↔ es.storage id = some (.error e)) ∧
    ∀ vs, es.storage id = some (.ok vs) → (∃ ss, st.storage id = some (.ok ss) ∧ ss.length = vs.length) ∧
      ∀ (j : Nat) v, vs[j]? = some v → ReadsOutput M st id j v

end Verif.Spec
