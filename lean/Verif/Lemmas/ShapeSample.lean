import Verif.Lemmas.ShapeHint
import Verif.Model.ArrayOps

/-! Sample ops and constructor calls for the examples about shape tensors. -/

namespace Verif.Props
open Verif Verif.Spec Verif.Hint Verif.Eval Verif.Nd

/-! ## Sample ops on integer arrays -/

/-- Sample ops: those of `HintOps`, constants, an elementwise function, a broadcasting function, `Reshape`, an array of a given shape, `ConcatGrad` and `GatherGrad`. -/
inductive ShOp where
  | shape
  | infer
  | const (s : List Int)
  | scalar (c : Int)
  | arr (a : Arr Int)
  | var
  | ph
  | ctrl
  | map (f : Int → Int)
  | bin (f : Int → Int → Int)
  | reshape
  | fill (c : Int)
  | concatGrad (axis : Int) (index : Nat)
  | gatherGrad (axis : Int)

/-- The array that holds a shape. -/
def shEnc (s : List Nat) : Arr Int := ofFn [s.length] (fun i => (s.getD (i.headD 0) 0 : Nat))

/-- The elements of a scalar or a vector. -/
def shElems (a : Arr Int) : List Int := match a.shape with
  | [] => [a.get []]
  | n :: _ => (List.range n).map (fun k => a.get [k])

/-- Results of array functions as results of ops. -/
def shRes : Res (Arr Int) → Option (Except Unit (List (Arr Int)))
  | .ok a => some (.ok [a])
  | .error .opError => some (.error ())
  | .error .panic => none

/-- What the sample ops compute. -/
def shFun : ShOp → List (OpInput (Arr Int)) → Option (Except Unit (List (Arr Int)))
  | .shape, [x] => some (.ok [shEnc x.val.shape])
  | .infer, [a, b] => shRes ((inferBinOpShape ((shElems a.val).map Int.toNat) ((shElems b.val).map Int.toNat)).map shEnc)
  | .const s, [] => some (.ok [ofFn [s.length] (fun i => s.getD (i.headD 0) 0)])
  | .scalar c, [] => some (.ok [ofFn [] (fun _ => c)])
  | .arr a, [] => some (.ok [a])
  | .map f, [x] => some (.ok [Nd.map f x.val])
  | .bin f, [x, y] => shRes (binForward f x.val y.val)
  | .reshape, [x, y] => shRes (Nd.reshape x.val (shElems y.val))
  | .fill c, [x] => some (.ok [ofFn ((shElems x.val).map Int.toNat) (fun _ => c)])
  | .concatGrad axis index, gy :: xs => shRes (Nd.concatGrad gy.val (xs.map OpInput.val) axis index)
  | .gatherGrad axis, [i, p, gy] => shRes (Nd.gatherGrad p.val.shape i.val axis gy.val)
  | _, _ => none

/-- The same as a semantics. -/
def shSem : Sem ShOp (Arr Int) Unit Unit where
  compute op w xs := match shFun op xs with
    | none => .panic
    | some (.ok ys) => .done w [] ys (.ok ())
    | some (.error e) => .done w [] [] (.error e)
  shapeOf a := a.shape
  debug := false

/-- The special ops. -/
def shOps : HintOps ShOp := { ctrlOp := .ctrl, varOp := .var, phOp := .ph, constOp := .const, shapeOp := .shape, inferOp := .infer }

theorem shOps_ok : ShapeOps shOps shFun (fun a : Arr Int => a.shape) shEnc := by
  have hdec : ∀ s, (shElems (shEnc s)).map Int.toNat = s := by
    intro s
    apply List.ext_getElem?
    intro k
    simp only [shElems, shEnc, ofFn, List.map_map]
    by_cases hk : k < s.length
    · simp [List.getElem?_eq_getElem hk, List.getElem?_range hk]
    · rw [List.getElem?_eq_none (by simpa using hk), List.getElem?_eq_none (by simpa using hk)]
  refine ⟨fun _ => rfl, ?_, ?_, fun _ => rfl⟩
  · intro xa xb a b s ha hb h
    simp only [shOps, shFun, ha, hb, hdec, h]
    rfl
  · intro s
    simp only [shOps, shFun, shEnc, List.length_map]
    have : (fun i : List Nat => (s.map (fun n : Nat => (n : Int))).getD (i.headD 0) 0) = fun i => ((s.getD (i.headD 0) 0 : Nat) : Int) := by
      funext i
      simp only [List.getD_eq_getElem?_getD, List.getElem?_map]
      cases s[i.headD 0]? <;> rfl
    rw [this]

/-- Calls that satisfy the conditions: a constant `x` of shape `[2, 3]`, `x + 5` (with a scalar), an elementwise function of it, the sum of both,
and the shape of the sum. -/
def shCalls : List (Ctor ShOp) :=
  [.const [2, 3] (.arr (ofFn [2, 3] (fun i => i.headD 0))), .scalar (.scalar 5), .binary (.bin (· + ·)) 1 4, .like (.map (fun a => a * a)) [{ id := 6 }] 6,
    .binary (.bin (· + ·)) 6 7, .shapeOf 9]

theorem shSem_pure (op : ShOp) : Computes shSem op (shFun op) := by
  intro w xs
  simp only [shSem]
  cases h : shFun op xs with
  | none => rfl
  | some r => cases r <;> rfl

end Verif.Props
