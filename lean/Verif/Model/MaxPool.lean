import Verif.Model.NdArray

/-!
# Model of max pooling

`src/tensor_ops/conv_ops/max_pool2d.rs`. `usize` is taken to have 64 bits where its wrapping matters. The writes with `get_unchecked_mut` behind the length
of an empty `Vec` (lines 73-76, before `set_len`) are taken as plain writes. The positions of the maxima, which the code stores as floats, are natural
numbers here: the rounding of positions from 2^24 on in `f32` is not modelled.
-/

namespace Verif.Nd
variable {R : Type}

/-- `usize` subtraction: panics on underflow in debug builds and wraps around in release builds. -/
def uSub (debug : Bool) (a b : Nat) : Res Nat :=
  if b ≤ a then .ok (a - b) else if debug then .error .panic else .ok (2 ^ 64 - (b - a))

/-- `usize` addition. -/
def uAdd (debug : Bool) (a b : Nat) : Res Nat :=
  if a + b < 2 ^ 64 then .ok (a + b) else if debug then .error .panic else .ok (a + b - 2 ^ 64)

/-- First position and end of window `i` along an axis of length `n` (src/tensor_ops/conv_ops/max_pool2d.rs:43-49, 53-59). Line 49 does nothing:
`h_start` is unsigned. -/
def poolBounds (debug : Bool) (n size pad stride i : Nat) : Res (Nat × Nat) := do
  let start ← uSub debug (i * stride) pad
  let stop ← uAdd debug start size
  .ok (start, if stop > n then n else stop)

/-- One step of the search for the maximum (src/tensor_ops/conv_ops/max_pool2d.rs:64-69). -/
def maxStep [LT R] [DecidableLT R] (input : Nat → R) (acc : R × Nat) (index : Nat) : R × Nat :=
  if acc.1 < input index then (input index, index) else acc

/-- The maximum in a window and its position (src/tensor_ops/conv_ops/max_pool2d.rs:51-52, 60-71). -/
def windowMax [LT R] [DecidableLT R] (minValue : R) (input : Nat → R) (xw cBase : Nat) (hb wb : Nat × Nat) : R × Nat :=
  (List.range' hb.1 (hb.2 - hb.1)).foldl (fun acc h =>
    (List.range' wb.1 (wb.2 - wb.1)).foldl (fun acc w => maxStep input acc (w + xw * (h + cBase))) acc) (minValue, 0)

/-- Output size along an axis (src/tensor_ops/conv_ops/max_pool2d.rs:183-184, 314-315). An underflow wraps to a size that cannot be allocated in release
builds: a panic as well. -/
def poolOut (n size pad stride : Nat) : Res Nat :=
  if n + 2 * pad < size ∨ stride = 0 then .error .panic else .ok ((n + 2 * pad - size) / stride + 1)

/-- Models `MaxPool2D::compute` (src/tensor_ops/conv_ops/max_pool2d.rs:167-226) with `max_pool_f32`/`max_pool_f64` (lines 21-83): the two outputs. `minValue`
is `T::min_value()`, the lowest finite float. `x` is copied if it is not row-major. Ranks other than 4: rank below 4 panics; a higher rank is not modelled
(panics here). -/
def maxPool [LT R] [DecidableLT R] (debug : Bool) (minValue : R) (x : Arr R) (size pad stride : Nat) : Res (Arr R × Arr Nat) :=
  match x.shape with
  | [batch, ch, xh, xw] => do
    let yh ← poolOut xh size pad stride
    let yw ← poolOut xw size pad stride
    let hb ← if batch * ch = 0 then .ok [] else (List.range yh).mapM (poolBounds debug xh size pad stride)
    let wb ← if batch * ch = 0 then .ok [] else (List.range yw).mapM (poolBounds debug xw size pad stride)
    let at_ := fun (idx : List Nat) =>
      windowMax minValue (fun k => x.get (unflat x.shape k)) xw (xh * (idx.getD 1 0 + idx.getD 0 0 * ch)) (hb.getD (idx.getD 2 0) (0, 0)) (wb.getD (idx.getD 3 0) (0, 0))
    .ok (ofFn [batch, ch, yh, yw] (fun idx => (at_ idx).1), ofFn [batch, ch, yh, yw] (fun idx => (at_ idx).2))
  | _ => .error .panic

/-- The loop of `max_pool_grad_f32`/`max_pool_grad_f64` (src/tensor_ops/conv_ops/max_pool2d.rs:123-132) over the remaining pairs of a position and
an incoming gradient; `none` is a write outside of the allocated memory (undefined behaviour). -/
def poolScatter [Add R] (len : Nat) : List (Nat × R) → (Nat → R) → Option (Nat → R)
  | [], gx => some gx
  | (p, v) :: l, gx => if p < len then poolScatter len l (fun q => if q = p then gx q + v else gx q) else none

/-- Input size assumed by the gradient (src/tensor_ops/conv_ops/max_pool2d.rs:263-264); `yh - 1` underflows if `yh = 0` (not modelled, panics). -/
def poolIn (debug : Bool) (m size pad stride : Nat) : Res Nat :=
  if m = 0 then .error .panic
  else do
    let d ← uSub debug (stride * (m - 1)) (2 * pad)
    uAdd debug d size

/-- Models `MaxPool2DGrad::compute` (src/tensor_ops/conv_ops/max_pool2d.rs:246-278); `.ok none` stands for a write outside of the allocated memory. -/
def maxPoolGrad [Zero R] [Add R] (debug : Bool) (gy : Arr R) (argmax : Arr Nat) (size pad stride : Nat) : Res (Option (Arr R)) :=
  match gy.shape with
  | [batch, c, yh, yw] => do
    let xh ← poolIn debug yh size pad stride
    let xw ← poolIn debug yw size pad stride
    let pairs := (List.range (yh * yw * c * batch)).map (fun n => (argmax.get (unflat argmax.shape n), gy.get (unflat gy.shape n)))
    .ok ((poolScatter (batch * c * xh * xw) pairs (fun _ => 0)).map (fun gx => ofFn [batch, c, xh, xw] (fun o => gx (flat [batch, c, xh, xw] o))))
  | _ => .error .panic

/-- Models `MaxPool2DGradGrad::compute` (src/tensor_ops/conv_ops/max_pool2d.rs:298-331), the gradient of `MaxPool2DGrad` for its first input (the second gets
none); `.ok none` stands for a read outside of the allocated memory. -/
def maxPoolGradGrad (ggx : Arr R) (argmax : Arr Nat) (size pad stride : Nat) : Res (Option (Arr R)) :=
  match ggx.shape with
  | [batch, c, xh, xw] => do
    let yh ← poolOut xh size pad stride
    let yw ← poolOut xw size pad stride
    if ∀ n ∈ List.range (yh * yw * c * batch), argmax.get (unflat argmax.shape n) < batch * c * xh * xw then
      .ok (some (ofFn [batch, c, yh, yw] (fun o => ggx.get (unflat ggx.shape (argmax.get (unflat argmax.shape (flat [batch, c, yh, yw] o)))))))
    else .ok none
  | _ => .error .panic

end Verif.Nd
