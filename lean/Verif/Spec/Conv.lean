import Mathlib.Algebra.BigOperators.Group.Finset.Basic
import Verif.Spec.MaxPool
import Verif.Spec.MatMul

/-!
# Specification of convolutions
-/

namespace Verif.Nd
open Finset
variable {R : Type}

/-- The extent of a filter of size `k` with dilation `dil`. -/
def extent (k dil : Nat) : Nat := dil * (k - 1) + 1

/-- The element at row `h` and column `w` of channel `c` of image `b` after padding with zeros on all four sides. -/
def padGet [Zero R] (x : Arr R) (xh xw pad b c h w : Nat) : R :=
  if (pad ≤ h ∧ h < pad + xh) ∧ (pad ≤ w ∧ w < pad + xw) then x.get [b, c, h - pad, w - pad] else 0

/-- `y` is the cross-correlation of the padded images `x` with the filters `w`, read with gaps `dil` and moved in steps of `stride`. -/
def IsConv [AddCommMonoid R] [Mul R] (batch xch xh xw ych kh kw pad stride dil : Nat) (x w y : Arr R) : Prop :=
  y.shape = [batch, ych, outSize xh (extent kh dil) pad stride, outSize xw (extent kw dil) pad stride] ∧
  ∀ b < batch, ∀ o < ych, ∀ i < outSize xh (extent kh dil) pad stride, ∀ j < outSize xw (extent kw dil) pad stride,
    y.get [b, o, i, j] = ∑ c ∈ range xch, ∑ a ∈ range kh, ∑ e ∈ range kw, w.get [o, c, a, e] * padGet x xh xw pad b c (i * stride + a * dil) (j * stride + e * dil)

/-- The size that results from a transposed convolution. -/
def transSize (m k pad stride dil : Nat) : Nat := stride * (m - 1) + extent k dil - 2 * pad

end Verif.Nd
