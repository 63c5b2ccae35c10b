import Verif.Lemmas.Elementwise
import Verif.Spec.HigherOrder

/-! The elementwise functions where they are smooth. -/

namespace Verif.Nd
open Filter Topology

/-- Ops allowed in a graph: either all, or all but `abs` and `sign`, whose gradients cannot always be differentiated. -/
def OpIn (all : Bool) (op : EOp) : Prop := all = true ∨ (op ≠ .abs ∧ op ≠ .sign)

/-- All functions in the expression are allowed and applied where they are smooth, and no division is by zero. -/
def EExp.SmoothAt (all : Bool) (a b g : ℝ) : EExp → Prop
  | app op e => e.SmoothAt all a b g ∧ op.SmoothAt (e.val a b g) ∧ ¬ op.DividesArrays ∧ OpIn all op
  | add u v => u.SmoothAt all a b g ∧ v.SmoothAt all a b g
  | sub u v => u.SmoothAt all a b g ∧ v.SmoothAt all a b g
  | mul u v => u.SmoothAt all a b g ∧ v.SmoothAt all a b g
  | div u v => u.SmoothAt all a b g ∧ v.SmoothAt all a b g ∧ v.val a b g ≠ 0
  | greater _ _ => False
  | eluGrad _ _ _ => False
  | clipGrad _ _ _ _ => False
  | _ => True

theorem smooth_grad {all : Bool} {op : EOp} {e : EExp} {a : ℝ} (h : op.SmoothAt a) (hin : OpIn all op) (he : op.grad = some e) (g : ℝ) : e.SmoothAt all a (op.f a) g := by
  have hl2 : Real.log (1 + 1) ≠ 0 := (Real.log_pos (by norm_num)).ne'
  have hl10 : Real.log 10 ≠ 0 := (Real.log_pos (by norm_num)).ne'
  cases op <;> simp only [EOp.grad, Option.some.injEq, reduceCtorEq] at he <;> subst he <;>
    simp only [EExp.SmoothAt, EOp.SmoothAt, EOp.DividesArrays, not_false_eq_true, EExp.val, EOp.f, true_and, and_true, and_self] at h ⊢ <;>
    simp only [OpIn, ne_eq, reduceCtorEq, not_false_eq_true, not_true_eq_false, and_self, and_true, true_and, or_true, or_false] at hin ⊢
  case invSqrt => exact .inl h
  case pow p =>
    rcases h with h | ⟨h, n, rfl⟩
    · exact .inl h
    · exact .inr ⟨h, n - 1, by push_cast; ring⟩
  case sqrt => exact .inl h
  case ln => exact h.ne'
  case log2 => exact mul_ne_zero hl2 h.ne'
  case log10 => exact mul_ne_zero hl10 h.ne'
  case tan => exact mul_ne_zero h h
  case asin => nlinarith [h.1, h.2]
  case acos => nlinarith [h.1, h.2]
  case atan => nlinarith [mul_self_nonneg a]
  case asinh =>
    have : 0 < a * a + 1 := by nlinarith [mul_self_nonneg a]
    exact ⟨this, (Real.sqrt_pos.2 this).ne'⟩
  case acosh =>
    have : 0 < a * a - 1 := by nlinarith
    exact ⟨this, (Real.sqrt_pos.2 this).ne'⟩
  case atanh =>
    have : 0 < 1 - a * a := by nlinarith [h.1, h.2]
    exact this.ne'
  case abs => exact ⟨h, hin⟩
  case softplus => have := Real.exp_pos a; linarith

theorem hasDerivAt_sign {a : ℝ} (h : a ≠ 0) : HasDerivAt EOp.sign.f 0 a := by
  rcases lt_or_gt_of_ne h with h | h
  · refine (hasDerivAt_const a (-1 : ℝ)).congr_of_eventuallyEq ?_
    filter_upwards [gt_mem_nhds h] with b hb
    simp [EOp.f, hb.ne, not_lt.2 hb.le]
  · refine (hasDerivAt_const a (1 : ℝ)).congr_of_eventuallyEq ?_
    filter_upwards [lt_mem_nhds h] with b hb
    simp [EOp.f, hb.ne', hb]

theorem smooth_ok {op : EOp} {a : ℝ} (h : op.SmoothAt a) : op.Defined a ∧ DifferentiableAt ℝ op.f a ∧ (op = .pow 0 → a ≠ 0) := by
  cases op <;> simp only [EOp.SmoothAt] at h <;> simp only [EOp.Defined, reduceCtorEq, false_implies, and_true, true_and]
  case neg => exact differentiableAt_id.neg
  case square => exact differentiableAt_id.mul differentiableAt_id
  case inv => exact ⟨h, differentiableAt_inv h⟩
  case invSqrt => exact ⟨h, ((Real.hasDerivAt_sqrt h.ne').differentiableAt).inv (Real.sqrt_pos.2 h).ne'⟩
  case pow p =>
    have h0 : a ≠ 0 := by rcases h with h | h; exact h.ne'; exact h.1.ne
    exact ⟨h.elim .inl (fun h => .inr (.inr h)), (Real.hasDerivAt_rpow_const (.inl h0)).differentiableAt, fun _ => h0⟩
  case sqrt => exact ⟨h.le, (Real.hasDerivAt_sqrt h.ne').differentiableAt⟩
  case ln => exact ⟨h, (Real.hasDerivAt_log h.ne').differentiableAt⟩
  case log2 => exact ⟨h, ((Real.hasDerivAt_log h.ne').div_const (Real.log 2)).differentiableAt⟩
  case log10 => exact ⟨h, ((Real.hasDerivAt_log h.ne').div_const (Real.log 10)).differentiableAt⟩
  case exp => exact (Real.hasDerivAt_exp a).differentiableAt
  case exp2 => exact (Real.hasStrictDerivAt_const_rpow (by norm_num : (0 : ℝ) < 2) a).hasDerivAt.differentiableAt
  case exp10 => exact (Real.hasStrictDerivAt_const_rpow (by norm_num : (0 : ℝ) < 10) a).hasDerivAt.differentiableAt
  case sin => exact (Real.hasDerivAt_sin a).differentiableAt
  case cos => exact (Real.hasDerivAt_cos a).differentiableAt
  case tan => exact ⟨h, (Real.hasDerivAt_tan h).differentiableAt⟩
  case asin => exact ⟨⟨h.1.le, h.2.le⟩, (Real.hasDerivAt_arcsin h.1.ne' h.2.ne).differentiableAt⟩
  case acos => exact ⟨⟨h.1.le, h.2.le⟩, (Real.hasDerivAt_arccos h.1.ne' h.2.ne).differentiableAt⟩
  case atan => exact (Real.hasDerivAt_arctan a).differentiableAt
  case sinh => exact (Real.hasDerivAt_sinh a).differentiableAt
  case cosh => exact (Real.hasDerivAt_cosh a).differentiableAt
  case tanh => exact (hasDerivAt_tanh a).differentiableAt
  case asinh => exact (Real.hasDerivAt_arsinh a).differentiableAt
  case acosh => exact ⟨h.le, (Real.hasDerivAt_arcosh h).differentiableAt⟩
  case atanh => exact ⟨h, (hasDerivAt_artanh h).differentiableAt⟩
  case abs => exact differentiableAt_abs h
  case sign => exact (hasDerivAt_sign h).differentiableAt
  case sigmoid =>
    exact ((((hasDerivAt_tanh _).comp a ((hasDerivAt_id a).mul_const (1 / 2 : ℝ))).mul_const (1 / 2 : ℝ)).add_const _).differentiableAt
  case softplus =>
    have hpos : Real.exp a + 1 ≠ 0 := by have := Real.exp_pos a; linarith
    exact (((Real.hasDerivAt_exp a).add_const 1).log hpos).differentiableAt

theorem smooth_open {op : EOp} {a : ℝ} (h : op.SmoothAt a) : ∀ᶠ b in 𝓝 a, op.SmoothAt b := by
  have hne : a ≠ 0 → ∀ᶠ b in 𝓝 a, b ≠ 0 := fun h => isOpen_ne.mem_nhds h
  have hpos : 0 < a → ∀ᶠ b in 𝓝 a, 0 < b := fun h => lt_mem_nhds h
  have hab : ∀ x y : ℝ, x < a ∧ a < y → ∀ᶠ b in 𝓝 a, x < b ∧ b < y := fun x y h => (lt_mem_nhds h.1).and (gt_mem_nhds h.2)
  cases op <;> simp only [EOp.SmoothAt] at h ⊢ <;> try exact Eventually.of_forall fun _ => trivial
  case inv => exact hne h
  case invSqrt => exact hpos h
  case pow p =>
    rcases h with h | ⟨h, n, hn⟩
    · exact (hpos h).mono fun b hb => .inl hb
    · exact (gt_mem_nhds h).mono fun b hb => .inr ⟨hb, n, hn⟩
  case sqrt => exact hpos h
  case ln => exact hpos h
  case log2 => exact hpos h
  case log10 => exact hpos h
  case tan => exact Real.continuous_cos.continuousAt.eventually_ne h
  case asin => exact hab _ _ h
  case acos => exact hab _ _ h
  case acosh => exact lt_mem_nhds h
  case atanh => exact hab _ _ h
  case abs => exact hne h
  case sign => exact hne h

end Verif.Nd
