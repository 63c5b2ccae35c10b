import Verif.Model.Calls
import Verif.Spec.Program

/-!
# The values of a program

What a list of calls computes, stated without graphs, tensors or evaluation: a function from the arrays of the variables and placeholders to arrays.
-/

namespace Verif.Prog
open Verif Verif.Nd Verif.Spec

/-- Arguments are results of earlier calls. -/
def Scoped (l : List Stmt) : Prop := ∀ (k : Nat) (s : Stmt), l[k]? = some s → ∀ a ∈ s.args, a < k

/-- The dimensions of placeholders are -1 or positive (else the call panics). -/
def DimsOk (l : List Stmt) : Prop := ∀ name s, Stmt.placeholder name s ∈ l → ∀ d ∈ s, d = -1 ∨ 0 < d

/-- The array fed to the placeholder `name`: the first one given for this name. -/
def FedAs (fs : List (String × Arr ℝ)) (name : String) (v : Arr ℝ) : Prop := ∃ pre post, fs = pre ++ (name, v) :: post ∧ ∀ f ∈ pre, f.1 ≠ name

/-- What the six comparisons ask of two numbers. -/
def Compares : Cmp → ℝ → ℝ → Prop
  | .eq => fun a b => a = b
  | .ne => fun a b => a ≠ b
  | .gt => fun a b => b < a
  | .lt => fun a b => a < b
  | .ge => fun a b => b ≤ a
  | .le => fun a b => a ≤ b

open Classical in
/-- One for a statement that holds, else zero. -/
noncomputable def truth (p : Prop) : ℝ := if p then 1 else 0

/-- The call returns `v` when its arguments are the arrays `val`, placeholders are fed with `fs` and variables hold `env`. The functions of arrays are those of C24-C42. -/
def Returns (fs : List (String × Arr ℝ)) (env : List (Arr ℝ)) (val : Nat → Arr ℝ) (v : Arr ℝ) : Stmt → Prop
  | .var vid => env[vid]? = some v
  | .placeholder name s => FedAs fs name v ∧ ShapeAccepts s v.shape
  | .const a => v = a
  | .scalar c => v = ofFn [] (fun _ => c)
  | .add a b => addOp (val a) (val b) = .ok v
  | .sub a b => subOp (val a) (val b) = .ok v
  | .mul a b => mulOp (val a) (val b) = .ok v
  | .div a b => divOp (val a) (val b) = .ok v
  | .un op x => v = Nd.map op.f (val x)
  | .matmul a b => Nd.matMul false false (toView (val a)) (toView (val b)) = .ok v
  | .sumAll x => v = ofFn [] (fun _ => total (val x))
  | .reduceSum x axes keep => Nd.reduceSum (val x) (readAxes (val axes)) keep = .ok v
  | .addN x y zs => Nd.addN ((x :: y :: zs).map val) = .ok v
  | .shapeOf x => v = encShape (val x).shape
  | .sizeOf x => v = ofFn [] (fun _ => ((idxs (val x).shape).card : ℝ))
  | .reduceMean x axes keep => Nd.reduceMean (val x) (readAxes (val axes)) keep = .ok v
  | .softmax bot lay x axis => softmaxImpl bot (lay (val x)) (val x) axis = .ok v
  | .logSoftmax bot lay x axis => Nd.logSoftmax bot (lay (val x)) (val x) axis = .ok v
  | .sigmoidCE x t => Nd.sigmoidCE (val x) (val t) = .ok v
  | .sparseCE bot lay x t => ∃ logp, Nd.sparseCE bot (lay (val x)) (val x) (val t) = .ok (v, logp)
  | .zeros s => ∃ t, readShape (val s) = .ok t ∧ v = ofFn t (fun _ => 0)
  | .ones s => ∃ t, readShape (val s) = .ok t ∧ v = ofFn t (fun _ => 1)
  | .ident x => v = val x
  | .slice x starts stops => Nd.slice (val x) starts stops = .ok v
  | .squeeze x axes => Nd.squeeze (val x) (readInts (val axes)) = .ok v
  | .reshape x s => Nd.reshape (val x) (readDims (val s)) = .ok v
  | .gather normalize indices param axis => Nd.gather normalize (val param) (if normalize then ints (val indices) else truncs (val indices)) axis = .ok v
  | .expandDims x axes => expandDimsOp (val x) (readInts (val axes)) = .ok v
  | .conv2d pad stride dil x w => ∃ cols, Nd.conv2d (val x) (val w) pad stride dil = .ok (v, cols)
  | .maxPool bot k pad stride x => ∃ ind, Nd.maxPool false bot (val x) k pad stride = .ok (v, ind)
  | .dropout true _ mask x => zipOp (· * ·) (ofFn (val x).shape (mask (val x).shape)) (val x) = .ok v
  | .dropout false ratio _ x => v = Nd.map (fun a => a * (1 - ratio)) (val x)
  | .argMax bot lay x axis keep => Nd.argMax bot (val x) (lay (val x)) axis keep = .ok v
  | .cmp c a b => cmpOp (fun u v => truth (Compares c u v)) (val a) (val b) = .ok v
  | .transpose x axes => transposeBy false (val x) (val axes) = .ok v
  | .hook x => v = val x
  | .extremum mx a b => cmpOp (if mx then max else min) (val a) (val b) = .ok v
  | .reduceExt mx lim x axes keep => (if mx then Nd.reduceMax lim else Nd.reduceMin lim) (val x) (readAxes (val axes)) keep = .ok v
  | .stopGradient x => v = val x

/-- `val k` is the value of the `k`-th call, for every call of the program. -/
def Denotes (fs : List (String × Arr ℝ)) (env : List (Arr ℝ)) (l : List Stmt) (val : Nat → Arr ℝ) : Prop :=
  ∀ (k : Nat) (s : Stmt), l[k]? = some s → Returns fs env val (val k) s

/-- The `k`-th call does not depend on the variables `vids` in a way that is differentiated: it is another variable, a shape or a size, a `stop_gradient`, or a function
of calls that do not depend on them. -/
inductive Fixed (l : List Stmt) (vids : List Nat) : Nat → Prop where
  | var {k vid} : l[k]? = some (.var vid) → vid ∉ vids → Fixed l vids k
  | shapeOf {k x} : l[k]? = some (.shapeOf x) → Fixed l vids k
  | sizeOf {k x} : l[k]? = some (.sizeOf x) → Fixed l vids k
  | stop {k x} : l[k]? = some (.stopGradient x) → Fixed l vids k
  | call {k s} : l[k]? = some s → (∀ vid, s ≠ .var vid) → (∀ a ∈ s.args, Fixed l vids a) → Fixed l vids k

/-- The `k`-th call is an elementwise op whose derivative is zero at the element with index `i`. -/
def FlatIn (l : List Stmt) (val : Nat → Arr ℝ) (k : Nat) (i : List Nat) : Prop := ∃ op x, l[k]? = some (.un op x) ∧ HasDerivAt op.f 0 ((val x).get i)

/-- Feeds given by name. -/
def named (fs : List (String × Arr ℝ)) : List (Feed (Arr ℝ)) := fs.map (fun f => ⟨.name f.1, f.2⟩)

end Verif.Prog
