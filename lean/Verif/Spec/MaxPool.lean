import Verif.Spec.NdArray

/-!
# Specification of max pooling
-/

namespace Verif.Nd

/-- Position `h` of an axis of length `n` belongs to window `i` of the axis padded by `pad` on both sides. -/
def InWin (n size pad stride i h : Nat) : Prop := h < n ∧ i * stride ≤ h + pad ∧ h + pad < i * stride + size

/-- The number of windows along an axis: all windows that fit into the padded axis. -/
def outSize (n size pad stride : Nat) : Nat := (n + 2 * pad - size) / stride + 1

/-- `p` is a position of the input where the window of output position `o` has its maximum. -/
def IsArgMax {R : Type} [LE R] (x : Arr R) (xh xw size pad stride : Nat) (o p : List Nat) : Prop :=
  ∃ b c i j h w, o = [b, c, i, j] ∧ p = [b, c, h, w] ∧ InWin xh size pad stride i h ∧ InWin xw size pad stride j w ∧
    ∀ h' w', InWin xh size pad stride i h' → InWin xw size pad stride j w' → x.get [b, c, h', w'] ≤ x.get [b, c, h, w]

end Verif.Nd
