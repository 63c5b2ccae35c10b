import Verif.Lemmas.Elementwise

/-!
# C36: the elementwise ops report their true derivatives
-/

namespace Verif.Props
open Verif.Nd

/-- An array of three positive numbers used in the examples. -/
noncomputable def elX : Arr ℝ := ofFn [3] (fun i => (i.getD 0 0 : ℝ) + 1)
/-- An incoming gradient used in the examples. -/
noncomputable def elG : Arr ℝ := ofFn [3] (fun i => 2 - (i.getD 0 0 : ℝ))

/-- C36: the gradient tensor built by an elementwise op, evaluated on arrays of any shape, has the shape of the input, and each of its elements is the
incoming gradient times the derivative of the forward function, at every input at which the forward function is differentiable; the evaluation applies no
function outside of its domain and does not divide by zero.
Missing from the full statement: the shapes `[0]` and `[1]` for the ops whose gradient divides arrays (`C36_shape_one_violated`,
`C36_shape_zero_violated`), and `pow(x, 0)` at zero (`C36_pow_zero_violated`). -/
theorem C36_gradient_partial (op : EOp) (e : EExp) (he : op.grad = some e) (x gy : Arr ℝ) (hs : gy.shape = x.shape)
    (hdiv : op.DividesArrays → x.shape ≠ [0] ∧ x.shape ≠ [1])
    (hdef : ∀ i, InB i x.shape → op.Defined (x.get i))
    (hdiff : ∀ i, InB i x.shape → DifferentiableAt ℝ op.f (x.get i))
    (hp : op = .pow 0 → ∀ i, InB i x.shape → x.get i ≠ 0) :
    ∃ g, op.gradOp x gy = some (.ok g) ∧ g.shape = x.shape ∧
      ∀ i, InB i x.shape → e.DefinedAt (x.get i) ((op.compute x).get i) (gy.get i) ∧
        ∃ d, HasDerivAt op.f d (x.get i) ∧ g.get i = gy.get i * d := by
  obtain ⟨hok, hfull⟩ := grad_ok he hdiv
  obtain ⟨g, hg, hrep⟩ := eval_rep x.shape (x := x) (y := op.compute x) (g := gy) rfl rfl hs e hok
  rw [hfull] at hrep
  refine ⟨g, by simp only [EOp.gradOp, he, Option.map_some, hg], hrep.1, fun i hi => ?_⟩
  have hgo := scalar_grad op e he (x.get i) (gy.get i) (hdef i hi) (hdiff i hi) (fun h => hp h i hi)
  refine ⟨hgo.defined, ?_⟩
  obtain ⟨d, hd, hv⟩ := hgo.deriv
  refine ⟨d, hd, ?_⟩
  have := hrep.2 i hi
  rw [show g.shape = x.shape from hrep.1, bIdx_self hi] at this
  exact this.trans hv

example : (EOp.ln.grad = some (.div .gy .x)) ∧ elG.shape = elX.shape ∧ elX.shape ≠ [0] ∧ elX.shape ≠ [1] ∧
    (∀ i, InB i elX.shape → EOp.ln.Defined (elX.get i)) ∧ (∀ i, InB i elX.shape → DifferentiableAt ℝ EOp.ln.f (elX.get i)) := by
  have hp : ∀ i, (0 : ℝ) < elX.get i := fun i => by show (0 : ℝ) < (i.getD 0 0 : ℝ) + 1; positivity
  exact ⟨rfl, rfl, by decide, by decide, fun i _ => hp i, fun i _ => Real.differentiableAt_log (hp i).ne'⟩

/-- C36: the only op that reports no gradient has derivative zero wherever it is differentiable. -/
theorem C36_no_gradient (op : EOp) (hn : op.grad = none) (a : ℝ) (hf : DifferentiableAt ℝ op.f a) : HasDerivAt op.f 0 a := by
  cases op <;> simp only [EOp.grad, reduceCtorEq] at hn
  rcases lt_trichotomy a 0 with h | h | h
  · refine (hasDerivAt_const a (-1 : ℝ)).congr_of_eventuallyEq ?_
    filter_upwards [gt_mem_nhds h] with b hb
    simp [EOp.f, hb.ne, not_lt.2 hb.le]
  · subst h
    exfalso
    have h1 := hf.continuousAt.tendsto.comp (tendsto_one_div_add_atTop_nhds_zero_nat (𝕜 := ℝ))
    have h2 : (EOp.sign.f ∘ fun n : ℕ => 1 / ((n : ℝ) + 1)) = fun _ => (1 : ℝ) := by
      funext n
      have : (0 : ℝ) < 1 / ((n : ℝ) + 1) := by positivity
      simp only [Function.comp, EOp.f, if_neg this.ne', if_pos this]
    rw [h2] at h1
    have := tendsto_nhds_unique h1 tendsto_const_nhds
    simp [EOp.f] at this
  · refine (hasDerivAt_const a (1 : ℝ)).congr_of_eventuallyEq ?_
    filter_upwards [lt_mem_nhds h] with b hb
    simp [EOp.f, hb.ne', hb]

example : EOp.sign.grad = none ∧ DifferentiableAt ℝ EOp.sign.f 2 := by
  refine ⟨rfl, ((hasDerivAt_const (2 : ℝ) (1 : ℝ)).congr_of_eventuallyEq ?_).differentiableAt⟩
  filter_upwards [lt_mem_nhds (show (0 : ℝ) < 2 by norm_num)] with b hb
  simp [EOp.f, hb.ne', hb]

/-- C36 is violated for one-element vectors: the gradients of `ln`, `log2`, `log10`, `tan` and `softplus` panic for every input of shape `[1]`
(and so for `ln` at 3, where it is differentiable): the division op takes a divisor of shape `[1]` for a scalar and reads it with an empty index. -/
theorem C36_shape_one_violated :
    (∀ op : EOp, op.DividesArrays → ∀ x gy : Arr ℝ, x.shape = [1] → gy.shape = [1] → op.gradOp x gy = some (.error .panic)) ∧
    EOp.ln.DividesArrays ∧ DifferentiableAt ℝ EOp.ln.f 3 ∧ EOp.ln.gradOp (ofFn [1] fun _ => 3) (ofFn [1] fun _ => 1) = some (.error .panic) := by
  have key : ∀ op : EOp, op.DividesArrays → ∀ x gy : Arr ℝ, x.shape = [1] → gy.shape = [1] → op.gradOp x gy = some (.error .panic) := by
    intro op hop x gy hx hg
    cases op <;> simp only [EOp.DividesArrays] at hop <;> simp only [EOp.gradOp, EOp.grad, Option.map_some, Option.some.injEq]
    case ln => simp only [EExp.eval, bind, Except.bind]; exact divOp_one_panics _ _ hg hx
    case tan => simp only [EExp.eval, bind, Except.bind]; exact divOp_one_panics _ _ hg hx
    case log2 =>
      obtain ⟨r, hr, hrep⟩ := eval_rep [1] (x := x) (y := EOp.log2.compute x) (g := gy) hx hx hg (.mul (.const (Real.log (1 + 1))) .x) ⟨trivial, trivial⟩
      rw [EExp.eval, hr]; exact divOp_one_panics _ _ hg hrep.1
    case log10 =>
      obtain ⟨r, hr, hrep⟩ := eval_rep [1] (x := x) (y := EOp.log10.compute x) (g := gy) hx hx hg (.mul (.const (Real.log 10)) .x) ⟨trivial, trivial⟩
      rw [EExp.eval, hr]; exact divOp_one_panics _ _ hg hrep.1
    case softplus =>
      obtain ⟨r, hr, hrep⟩ := eval_rep [1] (x := x) (y := EOp.softplus.compute x) (g := gy) hx hx hg (.add (.app .exp .x) (.const 1)) ⟨trivial, trivial⟩
      have : EExp.eval x (EOp.softplus.compute x) gy (.div (.app .exp .x) (.add (.app .exp .x) (.const 1))) = .error .panic := by
        rw [EExp.eval, hr]; exact divOp_one_panics _ _ hx hrep.1
      rw [EExp.eval, this]; rfl
  exact ⟨key, trivial, Real.differentiableAt_log (by norm_num), key .ln trivial _ _ rfl rfl⟩

/-- C36 is violated for empty vectors: the gradient of `ln` panics for inputs of shape `[0]`, where there is nothing to compute. -/
theorem C36_shape_zero_violated (x gy : Arr ℝ) (hx : x.shape = [0]) (hg : gy.shape = [0]) :
    EOp.ln.gradOp x gy = some (.error .panic) ∧ ∀ i, ¬ InB i x.shape := by
  refine ⟨?_, fun i hi => ?_⟩
  · simp only [EOp.gradOp, EOp.grad, Option.map_some, EExp.eval, bind, Except.bind]
    rw [divOp_zero_panics _ _ hg]
  · rw [hx] at hi
    cases hi with
    | cons h _ => exact absurd h (Nat.not_lt_zero _)

example : (ofFn [0] fun _ => (1 : ℝ)).shape = [0] := rfl

/-- C36 is violated for `pow(x, 0)` at zero: the function is constantly one, with derivative zero, but the gradient evaluates zero to the power `-1`, which
is an infinity (and zero times that is NaN). -/
theorem C36_pow_zero_violated : HasDerivAt (EOp.pow 0).f 0 0 ∧ (EOp.pow 0).Defined 0 ∧
    ∃ e, (EOp.pow 0).grad = some e ∧ ∀ b g, ¬ e.DefinedAt 0 b g := by
  refine ⟨?_, .inr (.inl ⟨rfl, le_rfl⟩), _, rfl, fun b g h => ?_⟩
  · have : (EOp.pow 0).f = fun _ => 1 := by funext a; simp [EOp.f]
    rw [this]; exact hasDerivAt_const _ _
  · have h : (0 : ℝ) < 0 ∨ ((0 : ℝ) = 0 ∧ (0 : ℝ) ≤ 0 - 1) ∨ ((0 : ℝ) < 0 ∧ ∃ n : ℤ, (0 - 1 : ℝ) = n) := h.2.2
    norm_num at h

/-- C36: `sigmoid`, computed with `tanh`, is the logistic function; `clip` clamps to the given range. -/
theorem C36_forward : (∀ a, EOp.sigmoid.f a = 1 / (1 + Real.exp (-a))) ∧
    ∀ lo hi a, lo ≤ hi → lo ≤ (EOp.clip lo hi).f a ∧ (EOp.clip lo hi).f a ≤ hi ∧ (lo ≤ a → a ≤ hi → (EOp.clip lo hi).f a = a) := by
  constructor
  · intro a
    have h1 : Real.exp (a * (1 / 2)) * Real.exp (-(a * (1 / 2))) = 1 := by rw [← Real.exp_add]; simp
    have h2 : Real.exp (-a) = Real.exp (-(a * (1 / 2))) * Real.exp (-(a * (1 / 2))) := by rw [← Real.exp_add]; congr 1; ring
    have p1 := Real.exp_pos (a * (1 / 2))
    have p2 := Real.exp_pos (-(a * (1 / 2)))
    simp only [EOp.f, Real.tanh_eq_sinh_div_cosh, Real.sinh_eq, Real.cosh_eq, h2]
    have hne : Real.exp (a * (1 / 2)) + Real.exp (-(a * (1 / 2))) ≠ 0 := by positivity
    have hne2 : 1 + Real.exp (-(a * (1 / 2))) * Real.exp (-(a * (1 / 2))) ≠ 0 := by positivity
    generalize Real.exp (a * (1 / 2)) = u at *
    generalize Real.exp (-(a * (1 / 2))) = v at *
    rw [div_div_div_cancel_right₀ (by norm_num : (2 : ℝ) ≠ 0), eq_div_iff hne2]
    field_simp
    linear_combination (2 * v) * h1
  · intro lo hi a h
    refine ⟨le_max_right _ _, max_le (min_le_right _ _) h, fun h1 h2 => ?_⟩
    simp [EOp.f, h1, h2]

example : EOp.sigmoid.f 0 = 1 / 2 ∧ (EOp.clip (-1) 1).f 5 = 1 := by constructor <;> norm_num [EOp.f]

end Verif.Props
