import Verif.Model.Elementwise

/-!
# Specification: where the elementwise functions are defined
-/

namespace Verif.Nd

/-- The points at which the float function of the op returns a number (not NaN or an infinity). -/
def EOp.Defined : EOp → ℝ → Prop
  | inv, a => a ≠ 0
  | invSqrt, a => 0 < a
  | pow p, a => 0 < a ∨ (a = 0 ∧ 0 ≤ p) ∨ (a < 0 ∧ ∃ n : ℤ, p = n)
  | sqrt, a => 0 ≤ a
  | ln, a => 0 < a
  | log2, a => 0 < a
  | log10, a => 0 < a
  | tan, a => Real.cos a ≠ 0
  | asin, a => -1 ≤ a ∧ a ≤ 1
  | acos, a => -1 ≤ a ∧ a ≤ 1
  | acosh, a => 1 ≤ a
  | atanh, a => -1 < a ∧ a < 1
  | _, _ => True

/-- The number denoted by a gradient expression for input `a`, output `b` and incoming gradient `g` of one element. -/
noncomputable def EExp.val (a b g : ℝ) : EExp → ℝ
  | .x => a
  | .y => b
  | .gy => g
  | const c => c
  | app op e => op.f (e.val a b g)
  | add u v => u.val a b g + v.val a b g
  | sub u v => u.val a b g - v.val a b g
  | mul u v => u.val a b g * v.val a b g
  | div u v => u.val a b g / v.val a b g
  | greater u v => if u.val a b g > v.val a b g then 1 else 0
  | eluGrad alpha u v => (if u.val a b g > 0 then 1 else alpha * Real.exp (u.val a b g)) * v.val a b g
  | clipGrad lo hi u v => if lo < u.val a b g ∧ u.val a b g < hi then v.val a b g else 0

/-- All functions in the expression are applied where they are defined, and no division is by zero: no NaN or infinity arises. -/
def EExp.DefinedAt (a b g : ℝ) : EExp → Prop
  | app op e => e.DefinedAt a b g ∧ op.Defined (e.val a b g)
  | add u v => u.DefinedAt a b g ∧ v.DefinedAt a b g
  | sub u v => u.DefinedAt a b g ∧ v.DefinedAt a b g
  | mul u v => u.DefinedAt a b g ∧ v.DefinedAt a b g
  | div u v => u.DefinedAt a b g ∧ v.DefinedAt a b g ∧ v.val a b g ≠ 0
  | greater u v => u.DefinedAt a b g ∧ v.DefinedAt a b g
  | eluGrad _ u v => u.DefinedAt a b g ∧ v.DefinedAt a b g
  | clipGrad _ _ u v => u.DefinedAt a b g ∧ v.DefinedAt a b g
  | _ => True

/-- The ops whose gradient divides two arrays of the shape of the input. -/
def EOp.DividesArrays : EOp → Prop
  | ln => True
  | log2 => True
  | log10 => True
  | tan => True
  | softplus => True
  | _ => False

/-- The ops whose gradient is computed into a copy of the input. -/
def EOp.KeepsLayout : EOp → Prop
  | elu _ => True
  | clip _ _ => True
  | _ => False

end Verif.Nd
