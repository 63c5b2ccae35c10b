import Verif.Spec.Graph
import Verif.Model.Eval

/-!
# Specification vocabulary for evaluation

Needed ops, feeds, and the mathematical meaning of a graph. Nothing here uses the functions of the evaluator model; only the data types
(nodes, op inputs, feeds) are shared.
-/

namespace Verif.Spec
open Verif

variable {Op V E W : Type}

/-- The tensor is computed by an op (it is neither a placeholder nor a variable). -/
def IsOp (g : Graph Op) (id : Nat) : Prop :=
  ∃ n, g.nodes[id]? = some n ∧ n.placeholderName = none ∧ n.variableId = none

/-- Tensor `a` uses the result of the op tensor `b` directly. -/
def Uses (g : Graph Op) (a b : Nat) : Prop := DependsDirectly g a b ∧ IsOp g b

/-- Op tensor `b` is needed for the targets: it is one of them or is used, through op results, by one of them. -/
def Needed (g : Graph Op) (targets : List Nat) (b : Nat) : Prop :=
  ∃ t ∈ targets, IsOp g t ∧ Relation.ReflTransGen (Uses g) t b

/-- In the list (oldest first) every entry comes after the op tensors it uses. -/
def InDependencyOrder (g : Graph Op) (l : List Nat) : Prop :=
  ∀ pre a post, l = pre ++ a :: post → ∀ b, Uses g a b → b ∈ pre

/-- A feed names a placeholder by tensor or by name. -/
def FeedMatches (id : Nat) (name : String) (f : Feed V) : Prop :=
  f.key = .id id ∨ f.key = .name name

/-- `v` is the value of the first matching feed. -/
def FirstFeed (id : Nat) (name : String) (feeds : List (Feed V)) (v : V) : Prop :=
  ∃ pre f post, feeds = pre ++ f :: post ∧ FeedMatches id name f ∧ f.value = v ∧ ∀ f' ∈ pre, ¬ FeedMatches id name f'

/-- A declared placeholder shape accepts an array shape: same rank, and equal in each dimension that is not declared as -1. -/
def ShapeAccepts (declared : List Int) (shape : List Nat) : Prop :=
  declared.length = shape.length ∧
    ∀ (k : Nat) (d : Int) (u : Nat), declared[k]? = some d → shape[k]? = some u → d = -1 ∨ d = (u : Int)

/-- The placeholder (tensor `id`, node `n`) is fed with the array `v`. -/
def FedWith (shapeOf : V → List Nat) (feeds : List (Feed V)) (id : Nat) (n : Node Op) (v : V) : Prop :=
  ∃ name declared, n.placeholderName = some name ∧ n.knownShape = some declared ∧
    FirstFeed id name feeds v ∧ ShapeAccepts declared (shapeOf v)

/-- Which value an op gets for one of its inputs, given the results `cv` of op tensors. Errors of op tensors are inherited. -/
inductive InputIs (shapeOf : V → List Nat) (g : Graph Op) (feeds : List (Feed V)) (env : List V)
    (cv : Nat → Except E (List V)) (i : Incoming) : Except E (OpInput V) → Prop where
  | placeholder {n v} : g.nodes[i.id]? = some n → FedWith shapeOf feeds i.id n v →
      InputIs shapeOf g feeds env cv i (.ok ⟨.nonVariable, v⟩)
  | variable_ {n vid a} : g.nodes[i.id]? = some n → n.placeholderName = none → n.variableId = some vid → env[vid]? = some a →
      InputIs shapeOf g feeds env cv i (.ok ⟨if i.allowMut then .rdWr else .rdOnly, a⟩)
  | result {ys y} : IsOp g i.id → cv i.id = .ok ys → ys[i.selector]? = some y →
      InputIs shapeOf g feeds env cv i (.ok ⟨.nonVariable, y⟩)
  | failed {e} : IsOp g i.id → cv i.id = .error e → InputIs shapeOf g feeds env cv i (.error e)

/-- The list of input values, or the error of the first failing input. -/
inductive InputsAre (shapeOf : V → List Nat) (g : Graph Op) (feeds : List (Feed V)) (env : List V)
    (cv : Nat → Except E (List V)) : List Incoming → Except E (List (OpInput V)) → Prop where
  | nil : InputsAre shapeOf g feeds env cv [] (.ok [])
  | cons {i is x xs} : InputIs shapeOf g feeds env cv i (.ok x) → InputsAre shapeOf g feeds env cv is (.ok xs) →
      InputsAre shapeOf g feeds env cv (i :: is) (.ok (x :: xs))
  | later {i is x e} : InputIs shapeOf g feeds env cv i (.ok x) → InputsAre shapeOf g feeds env cv is (.error e) →
      InputsAre shapeOf g feeds env cv (i :: is) (.error e)
  | first {i is e} : InputIs shapeOf g feeds env cv i (.error e) → InputsAre shapeOf g feeds env cv (i :: is) (.error e)

/-- The mathematical meaning of an op tensor, for ops that are functions `f` of their inputs (`none`: the op panics): apply the op to the
meanings of its inputs; an op with a failing input fails with the error of the first failing input. -/
inductive Means (f : Op → List (OpInput V) → Option (Except E (List V))) (shapeOf : V → List Nat)
    (g : Graph Op) (feeds : List (Feed V)) (env : List V) : Nat → Except E (List V) → Prop where
  | run {id n r} {cv : Nat → Except E (List V)} {xs : List (OpInput V)} :
      g.nodes[id]? = some n → IsOp g id →
      (∀ b, Uses g id b → Means f shapeOf g feeds env b (cv b)) →
      InputsAre shapeOf g feeds env cv n.incoming (.ok xs) →
      f n.op xs = some r → Means f shapeOf g feeds env id r
  | fail {id n e} {cv : Nat → Except E (List V)} :
      g.nodes[id]? = some n → IsOp g id →
      (∀ b, Uses g id b → Means f shapeOf g feeds env b (cv b)) →
      InputsAre shapeOf g feeds env cv n.incoming (.error e) →
      Means f shapeOf g feeds env id (.error e)

/-- The meaning of any tensor as a requested target (the first output of an op). -/
inductive TargetMeans (f : Op → List (OpInput V) → Option (Except E (List V))) (shapeOf : V → List Nat)
    (g : Graph Op) (feeds : List (Feed V)) (env : List V) (t : Nat) : Except E V → Prop where
  | placeholder {n v} : g.nodes[t]? = some n → n.variableId = none → FedWith shapeOf feeds t n v →
      TargetMeans f shapeOf g feeds env t (.ok v)
  | variable_ {n vid a} : g.nodes[t]? = some n → n.variableId = some vid → env[vid]? = some a →
      TargetMeans f shapeOf g feeds env t (.ok a)
  | result {ys y} : Means f shapeOf g feeds env t (.ok ys) → ys[0]? = some y → TargetMeans f shapeOf g feeds env t (.ok y)
  | failed {e} : Means f shapeOf g feeds env t (.error e) → TargetMeans f shapeOf g feeds env t (.error e)

/-- What one call of `compute` amounts to: `none` for a panic (in debug builds an op that appends no output also panics), otherwise the
outputs or the error. -/
def outcomeResult (debug : Bool) : Outcome V E W → Option (Except E (List V))
  | .panic => none
  | .done _ _ ys status =>
    if debug = true ∧ ys = [] then none
    else match status with
      | .ok () => some (.ok ys)
      | .error e => some (.error e)

/-- The op computes the function `f` of its inputs: the result does not depend on the world. -/
def Computes (S : Sem Op V E W) (op : Op) (f : List (OpInput V) → Option (Except E (List V))) : Prop :=
  ∀ w xs, outcomeResult S.debug (S.compute op w xs) = f xs

/-- Some input of the op tensor `a` allows it to write to variable `vid`. -/
def MayWrite (g : Graph Op) (a vid : Nat) : Prop :=
  ∃ n, g.nodes[a]? = some n ∧ ∃ i ∈ n.incoming, i.allowMut = true ∧
    ∃ m, g.nodes[i.id]? = some m ∧ m.placeholderName = none ∧ m.variableId = some vid

/-! ## Sequential execution of ops in a given order

The reference semantics for graphs whose ops may have side effects. -/

/-- The `k`-th input of the node lets the op write to variable `vid`. -/
def WritesVar (g : Graph Op) (n : Node Op) (k vid : Nat) : Prop :=
  ∃ i m, n.incoming[k]? = some i ∧ i.allowMut = true ∧ g.nodes[i.id]? = some m ∧ m.placeholderName = none ∧
    m.variableId = some vid

/-- The variable arrays after an op has made the writes `ws`: a variable has the array written last, or is unchanged. -/
def EnvAfter (g : Graph Op) (n : Node Op) (ws : List (Nat × V)) (env env' : List V) : Prop :=
  env'.length = env.length ∧ ∀ vid, vid < env.length →
    (∃ pre k v post, ws = pre ++ (k, v) :: post ∧ WritesVar g n k vid ∧ (∀ p ∈ post, ¬ WritesVar g n p.1 vid) ∧
      env'[vid]? = some v) ∨
    ((∀ p ∈ ws, ¬ WritesVar g n p.1 vid) ∧ env'[vid]? = env[vid]?)

/-- Results so far, variable arrays, world. -/
structure ExecState (V E W : Type) where
  results : Nat → Option (Except E (List V))
  env : List V
  world : W

/-- Execution of one op tensor `id` (flag `true`: its op is called): the inputs are the results of the ops it uses, the feeds, and the
*current* variable arrays. If an input failed, the op is not called (flag `false`) and its result is the error of the first failing input;
variables and world stay as they are. -/
inductive ExecOne (S : Sem Op V E W) (g : Graph Op) (feeds : List (Feed V)) (s : ExecState V E W) :
    Nat × Bool → ExecState V E W → Prop where
  | run {id n cv xs w ws ys status r env'} : g.nodes[id]? = some n → IsOp g id →
      (∀ b, Uses g id b → s.results b = some (cv b)) →
      InputsAre S.shapeOf g feeds s.env cv n.incoming (.ok xs) →
      S.compute n.op s.world xs = .done w ws ys status →
      outcomeResult S.debug (.done w ws ys status) = some r →
      EnvAfter g n ws s.env env' →
      ExecOne S g feeds s (id, true) ⟨fun k => if k = id then some r else s.results k, env', w⟩
  | skip {id n cv e} : g.nodes[id]? = some n → IsOp g id →
      (∀ b, Uses g id b → s.results b = some (cv b)) →
      InputsAre S.shapeOf g feeds s.env cv n.incoming (.error e) →
      ExecOne S g feeds s (id, false) ⟨fun k => if k = id then some (.error e) else s.results k, s.env, s.world⟩

/-- Execution of a list of op tensors, first to last. -/
inductive ExecList (S : Sem Op V E W) (g : Graph Op) (feeds : List (Feed V)) (s : ExecState V E W) :
    List (Nat × Bool) → ExecState V E W → Prop where
  | nil : ExecList S g feeds s [] s
  | snoc {l s1 e s2} : ExecList S g feeds s l s1 → ExecOne S g feeds s1 e s2 → ExecList S g feeds s (l ++ [e]) s2

/-- What is returned for a target in the final state: the current array of a variable, the fed array of a placeholder, the first output
(or the error) of an op. -/
inductive TargetReturns (S : Sem Op V E W) (g : Graph Op) (feeds : List (Feed V)) (s : ExecState V E W) (t : Nat) :
    Except E V → Prop where
  | variable_ {n vid a} : g.nodes[t]? = some n → n.variableId = some vid → s.env[vid]? = some a →
      TargetReturns S g feeds s t (.ok a)
  | placeholder {n v} : g.nodes[t]? = some n → n.variableId = none → FedWith S.shapeOf feeds t n v →
      TargetReturns S g feeds s t (.ok v)
  | result {ys y} : IsOp g t → s.results t = some (.ok ys) → ys[0]? = some y → TargetReturns S g feeds s t (.ok y)
  | failed {e} : IsOp g t → s.results t = some (.error e) → TargetReturns S g feeds s t (.error e)

/-- Nothing computed yet. -/
def ExecState.start (env : List V) (w : W) : ExecState V E W := ⟨fun _ => none, env, w⟩

/-- In the execution `log` (started with `env`, `w`) the op of tensor `b` was called and its result was `r`. -/
def CallResult (S : Sem Op V E W) (g : Graph Op) (feeds : List (Feed V)) (env : List V) (w : W) (log : List (Nat × Bool))
    (b : Nat) (r : Except E (List V)) : Prop :=
  ∃ pre post s1 s2, log = pre ++ (b, true) :: post ∧ ExecList S g feeds (.start env w) pre s1 ∧
    ExecOne S g feeds s1 (b, true) s2 ∧ s2.results b = some r

/-- The legitimate reasons for an evaluation to panic. -/
inductive PanicCause (S : Sem Op V E W) (g : Graph Op) (targets : List Nat) (feeds : List (Feed V)) (env : List V) : Panic → Prop where
  /-- the code of a needed op panics -/
  | op {a n w xs} : Needed g targets a → g.nodes[a]? = some n → S.compute n.op w xs = .panic → PanicCause S g targets feeds env .opPanic
  /-- debug build: a needed op appends no output -/
  | noOutput {a n w xs w' ws st} : S.debug = true → Needed g targets a → g.nodes[a]? = some n →
      S.compute n.op w xs = .done w' ws [] st → PanicCause S g targets feeds env .emptyOutput
  /-- a placeholder that is a target or an input of a needed op is not fed -/
  | unfed {t n name} : (t ∈ targets ∨ ∃ a, Needed g targets a ∧ DependsDirectly g a t) → g.nodes[t]? = some n →
      n.placeholderName = some name → (∀ v, ¬ FirstFeed t name feeds v) → PanicCause S g targets feeds env .placeholderUnfilled
  /-- ... or is fed with an array of an unacceptable shape -/
  | shape {t n name d v} : (t ∈ targets ∨ ∃ a, Needed g targets a ∧ DependsDirectly g a t) → g.nodes[t]? = some n →
      n.placeholderName = some name → n.knownShape = some d → FirstFeed t name feeds v → ¬ ShapeAccepts d (S.shapeOf v) →
      PanicCause S g targets feeds env .placeholderShape
  /-- a variable tensor that is a target or an input of a needed op is bound to a variable that is not in the environment -/
  | variable_ {t n vid} : (t ∈ targets ∨ ∃ a, Needed g targets a ∧ DependsDirectly g a t) → g.nodes[t]? = some n →
      n.variableId = some vid → env.length ≤ vid → PanicCause S g targets feeds env .badVariableId
  /-- a needed op asks for an output which the producing op did not append -/
  | selector {a n i m w xs w' ws ys} : Needed g targets a → g.nodes[a]? = some n → i ∈ n.incoming → IsOp g i.id →
      g.nodes[i.id]? = some m → S.compute m.op w xs = .done w' ws ys (.ok ()) → ys.length ≤ i.selector →
      PanicCause S g targets feeds env .badSelector
  /-- a target appends no output -/
  | noFirst {t n w xs w' ws} : t ∈ targets → IsOp g t → g.nodes[t]? = some n → S.compute n.op w xs = .done w' ws [] (.ok ()) →
      PanicCause S g targets feeds env .badSelector
  /-- an op tensor is requested twice -/
  | repeated {t pre mid post} : targets = pre ++ t :: mid ++ t :: post → IsOp g t → PanicCause S g targets feeds env .missingResult

end Verif.Spec
