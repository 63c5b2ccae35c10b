import Mathlib.Data.Finset.Prod
import Mathlib.Data.Finset.Range
import Mathlib.Data.List.Forall2
import Verif.Model.NdArray

/-!
# Indices, broadcasting and sums over index sets

Independent vocabulary for the statements about array ops. Only the `Arr` structure is shared with the model.
-/

namespace Verif.Nd

/-- `idx` is a position of an array of shape `s`. -/
def InB (idx s : List Nat) : Prop := List.Forall₂ (· < ·) idx s

instance (idx s : List Nat) : Decidable (InB idx s) := inferInstanceAs (Decidable (List.Forall₂ _ _ _))

/-- The set of all positions of an array of shape `s`. -/
def idxs : List Nat → Finset (List Nat)
  | [] => {[]}
  | n :: s => (Finset.range n ×ˢ idxs s).image (fun p => p.1 :: p.2)

/-- Two arrays have the same shape and the same elements (strides are ignored). -/
def Same {R : Type} (a b : Arr R) : Prop := a.shape = b.shape ∧ ∀ idx, InB idx a.shape → a.get idx = b.get idx

/-- `s` can be broadcast to `t`: aligned at the last dimension, every dimension of `s` is 1 or equals that of `t`. -/
def BroadcastsTo (s t : List Nat) : Prop :=
  s.length ≤ t.length ∧ ∀ k (h : k < s.length) (h' : k + (t.length - s.length) < t.length),
    s[k] = t[k + (t.length - s.length)] ∨ s[k] = 1

/-- `t` is the common broadcast shape of `s0` and `s1`: both can be broadcast to it, it is as long as the longer one, and every
dimension of it is a dimension of one of them. -/
def CommonShape (s0 s1 t : List Nat) : Prop :=
  BroadcastsTo s0 t ∧ BroadcastsTo s1 t ∧ t.length = max s0.length s1.length ∧
  ∀ k (h : k < t.length),
    (∃ j, ∃ h0 : j < s0.length, j + (t.length - s0.length) = k ∧ t[k] = s0[j]) ∨
    (∃ j, ∃ h1 : j < s1.length, j + (t.length - s1.length) = k ∧ t[k] = s1[j])

/-- `o` is the position of an array of shape `s` that is read at position `idx` of its broadcast: the trailing coordinates agree
wherever the dimension is not 1. -/
def ReadsAt (s idx o : List Nat) : Prop :=
  InB o s ∧ s.length ≤ idx.length ∧ ∀ k (h : k < o.length) (h' : k + (idx.length - s.length) < idx.length) (hs : k < s.length),
    s[k] ≠ 1 → o[k] = idx[k + (idx.length - s.length)]

/-- `y` is the elementwise application of `f` to the broadcast operands `x0`, `x1`, of shape `t`. -/
def Elementwise {R : Type} (f : R → R → R) (x0 x1 : Arr R) (t : List Nat) (y : Arr R) : Prop :=
  y.shape = t ∧ ∀ idx o0 o1, InB idx t → ReadsAt x0.shape idx o0 → ReadsAt x1.shape idx o1 →
    y.get idx = f (x0.get o0) (x1.get o1)

/-- The shape is that of a scalar or has the rank of the result: the shapes for which the ops are documented to broadcast. -/
def ScalarOrRank (s t : List Nat) : Prop := s = [] ∨ s.length = t.length

end Verif.Nd
