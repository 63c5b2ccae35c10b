import Mathlib.Analysis.Calculus.Deriv.Abs
import Mathlib.Analysis.Calculus.Deriv.Inv
import Mathlib.Analysis.Calculus.Deriv.Pow
import Mathlib.Analysis.SpecialFunctions.ExpDeriv
import Mathlib.Analysis.SpecialFunctions.Log.Deriv
import Mathlib.Analysis.SpecialFunctions.Pow.Deriv
import Mathlib.Analysis.SpecialFunctions.Sqrt
import Mathlib.Analysis.SpecialFunctions.Trigonometric.ArctanDeriv
import Mathlib.Analysis.SpecialFunctions.Trigonometric.InverseDeriv
import Mathlib.Analysis.SpecialFunctions.Trigonometric.DerivHyp
import Verif.Lemmas.Broadcast
import Verif.Lemmas.Compare
import Verif.Spec.Elementwise

/-!
# Lemmas: derivatives of the elementwise functions
-/

namespace Verif.Nd
open Set

/-- A differentiable function that agrees with `h` on the left of a point has the derivative of `h`. -/
theorem deriv_of_left {f h : ℝ → ℝ} {a d : ℝ} (hf : DifferentiableAt ℝ f a) (hh : HasDerivAt h d a) (he : ∀ b ≤ a, f b = h b) :
    HasDerivAt f d a := by
  have h1 : HasDerivWithinAt f (deriv f a) (Iic a) a := hf.hasDerivAt.hasDerivWithinAt
  have h2 : HasDerivWithinAt f d (Iic a) a := hh.hasDerivWithinAt.congr (fun b hb => he b hb) (he a le_rfl)
  have := (uniqueDiffWithinAt_Iic a).eq_deriv _ h1 h2
  rw [← this]; exact hf.hasDerivAt

theorem deriv_of_right {f h : ℝ → ℝ} {a d : ℝ} (hf : DifferentiableAt ℝ f a) (hh : HasDerivAt h d a) (he : ∀ b, a ≤ b → f b = h b) :
    HasDerivAt f d a := by
  have h1 : HasDerivWithinAt f (deriv f a) (Ici a) a := hf.hasDerivAt.hasDerivWithinAt
  have h2 : HasDerivWithinAt f d (Ici a) a := hh.hasDerivWithinAt.congr (fun b hb => he b hb) (he a le_rfl)
  have := (uniqueDiffWithinAt_Ici a).eq_deriv _ h1 h2
  rw [← this]; exact hf.hasDerivAt

theorem not_differentiableAt_sqrt_zero : ¬ DifferentiableAt ℝ Real.sqrt 0 := by
  have := Real.not_differentiableAt_rpow_const_zero (r := 1 / 2) (by norm_num) (by norm_num)
  rwa [show (fun x : ℝ => x ^ (1 / 2 : ℝ)) = Real.sqrt from funext fun x => (Real.sqrt_eq_rpow x).symm] at this

theorem not_differentiableAt_arcosh_one : ¬ DifferentiableAt ℝ Real.arcosh 1 := by
  intro h
  have h1 : HasDerivAt (fun x => Real.cosh (Real.arcosh x)) (Real.sinh (Real.arcosh 1) * deriv Real.arcosh 1) 1 := h.hasDerivAt.cosh
  rw [Real.arcosh_zero, Real.sinh_zero, zero_mul] at h1
  have h2 := deriv_of_right h1.differentiableAt (hasDerivAt_id (1 : ℝ)) (fun b hb => Real.cosh_arcosh hb)
  exact absurd (h1.unique h2) (by norm_num)

theorem hasDerivAt_tanh (a : ℝ) : HasDerivAt Real.tanh (1 - Real.tanh a * Real.tanh a) a := by
  have hc := (Real.cosh_pos a).ne'
  have h := (Real.hasDerivAt_sinh a).div (Real.hasDerivAt_cosh a) hc
  have he : Real.tanh = fun x => Real.sinh x / Real.cosh x := funext Real.tanh_eq_sinh_div_cosh
  rw [he]
  refine h.congr_deriv ?_
  field_simp

theorem hasDerivAt_artanh {a : ℝ} (h : -1 < a ∧ a < 1) : HasDerivAt Real.artanh (1 - a * a)⁻¹ a := by
  have h1 : (1 : ℝ) - a ≠ 0 := by linarith [h.2]
  have h2 : (1 : ℝ) + a ≠ 0 := by linarith [h.1]
  have hq : HasDerivAt (fun x : ℝ => 1 / 2 * Real.log ((1 + x) / (1 - x))) (1 - a * a)⁻¹ a := by
    have hq0 : HasDerivAt (fun x : ℝ => (1 + x) / (1 - x)) ((1 * (1 - a) - (1 + a) * -1) / (1 - a) ^ 2) a :=
      ((hasDerivAt_id a).const_add 1).div ((hasDerivAt_id a).const_sub 1) h1
    have := (hq0.log (div_ne_zero h2 h1)).const_mul (1 / 2)
    refine this.congr_deriv ?_
    have h3 : 1 - a * a ≠ 0 := by rw [show 1 - a * a = (1 - a) * (1 + a) by ring]; exact mul_ne_zero h1 h2
    have h4 : 1 - a ^ 2 ≠ 0 := by rwa [pow_two]
    field_simp
    ring
  refine hq.congr_of_eventuallyEq ?_
  filter_upwards [lt_mem_nhds h.1, gt_mem_nhds h.2] with b hb1 hb2
  exact Real.artanh_eq_half_log ⟨hb1.le, hb2.le⟩

/-- The function of an op with its derivative, and the gradient expression. -/
structure GradOk (op : EOp) (e : EExp) (a g : ℝ) : Prop where
  defined : e.DefinedAt a (op.f a) g
  deriv : ∃ d, HasDerivAt op.f d a ∧ e.val a (op.f a) g = g * d

theorem rpow_neg_half {a : ℝ} (ha : 0 < a) : a ^ (-(1 / (1 + 1) : ℝ)) = (Real.sqrt a)⁻¹ := by
  rw [Real.rpow_neg ha.le, Real.sqrt_eq_rpow]; norm_num

theorem rpow_neg_three_half {a : ℝ} (ha : 0 < a) : a ^ (-1.5 : ℝ) = (Real.sqrt a)⁻¹ * a⁻¹ := by
  rw [Real.sqrt_eq_rpow, ← Real.rpow_neg ha.le, ← Real.rpow_neg_one a, ← Real.rpow_add ha]; norm_num

theorem scalar_grad (op : EOp) (e : EExp) (he : op.grad = some e) (a g : ℝ) (hd : op.Defined a) (hf : DifferentiableAt ℝ op.f a)
    (hp : op = .pow 0 → a ≠ 0) : GradOk op e a g := by
  cases op <;> simp only [EOp.grad, Option.some.injEq, reduceCtorEq] at he <;> subst he
  case neg => exact ⟨⟨trivial, trivial⟩, -1, (hasDerivAt_id a).neg, by simp [EExp.val, EOp.f]⟩
  case square =>
    refine ⟨⟨⟨trivial, trivial⟩, trivial⟩, a + a, ((hasDerivAt_id a).mul (hasDerivAt_id a)).congr_deriv (by simp), ?_⟩
    simp only [EExp.val]; ring
  case inv =>
    have hd : a ≠ 0 := hd
    refine ⟨⟨⟨⟨trivial, trivial⟩, trivial⟩, trivial⟩, -(a ^ 2)⁻¹, hasDerivAt_inv hd, ?_⟩
    simp only [EExp.val, EOp.f]; field_simp
  case invSqrt =>
    have hd : 0 < a := hd
    have h0 : Real.sqrt a ≠ 0 := (Real.sqrt_pos.2 hd).ne'
    refine ⟨⟨⟨trivial, trivial, .inl hd⟩, trivial⟩, _, (Real.hasDerivAt_sqrt hd.ne').inv h0, ?_⟩
    simp only [EExp.val, EOp.f, rpow_neg_three_half hd, Real.sq_sqrt hd.le]
    field_simp; ring
  case pow p =>
    have hd : 0 < a ∨ (a = 0 ∧ 0 ≤ p) ∨ (a < 0 ∧ ∃ n : ℤ, p = n) := hd
    have hor : a ≠ 0 ∨ 1 ≤ p := by
      by_cases h0 : a = 0
      · right
        by_contra hlt
        push Not at hlt
        by_cases hp0 : p = 0
        · subst hp0; exact hp rfl h0
        · subst h0; exact Real.not_differentiableAt_rpow_const_zero hlt hp0 hf
      · exact .inl h0
    refine ⟨⟨⟨trivial, trivial⟩, trivial, ?_⟩, _, Real.hasDerivAt_rpow_const hor, ?_⟩
    · rcases hd with h | ⟨h, h'⟩ | ⟨h, n, hn⟩
      · exact .inl h
      · exact .inr (.inl ⟨h, by rcases hor with hc | hc; exact absurd h hc; linarith⟩)
      · exact .inr (.inr ⟨h, n - 1, by rw [hn]; push_cast; ring⟩)
    · simp only [EExp.val, EOp.f]; ring
  case sqrt =>
    have hd : 0 ≤ a := hd
    have h0 : 0 < a := lt_of_le_of_ne hd fun h => by subst h; exact not_differentiableAt_sqrt_zero hf
    refine ⟨⟨trivial, trivial, trivial, .inl h0⟩, _, Real.hasDerivAt_sqrt h0.ne', ?_⟩
    simp only [EExp.val, EOp.f, rpow_neg_half h0]
    have := (Real.sqrt_pos.2 h0).ne'
    field_simp; norm_num
  case ln =>
    have hd : 0 < a := hd
    refine ⟨⟨trivial, trivial, hd.ne'⟩, _, Real.hasDerivAt_log hd.ne', ?_⟩
    simp only [EExp.val]; field_simp
  case log2 =>
    have hd : 0 < a := hd
    have hl : Real.log 2 ≠ 0 := (Real.log_pos (by norm_num)).ne'
    have hd0 := hd.ne'
    refine ⟨⟨trivial, ⟨trivial, trivial⟩, ?_⟩, _, (Real.hasDerivAt_log hd.ne').div_const (Real.log 2), ?_⟩
    · rw [show (1 + 1 : ℝ) = 2 by norm_num]; exact mul_ne_zero hl hd0
    · simp only [EExp.val]; norm_num; field_simp
  case log10 =>
    have hd : 0 < a := hd
    have hl : Real.log 10 ≠ 0 := (Real.log_pos (by norm_num)).ne'
    have hd0 := hd.ne'
    refine ⟨⟨trivial, ⟨trivial, trivial⟩, ?_⟩, _, (Real.hasDerivAt_log hd.ne').div_const (Real.log 10), ?_⟩
    · exact mul_ne_zero hl hd0
    · simp only [EExp.val]; field_simp
  case exp => exact ⟨⟨trivial, trivial⟩, _, Real.hasDerivAt_exp a, by simp only [EExp.val, EOp.f]; ring⟩
  case exp2 =>
    exact ⟨⟨⟨trivial, trivial⟩, trivial⟩, _, (Real.hasStrictDerivAt_const_rpow (by norm_num : (0 : ℝ) < 2) a).hasDerivAt, by
      simp only [EExp.val, EOp.f]; rw [show (1 + 1 : ℝ) = 2 by norm_num]; ring⟩
  case exp10 =>
    exact ⟨⟨⟨trivial, trivial⟩, trivial⟩, _, (Real.hasStrictDerivAt_const_rpow (by norm_num : (0 : ℝ) < 10) a).hasDerivAt, by
      simp only [EExp.val, EOp.f]; ring⟩
  case sin => exact ⟨⟨⟨trivial, trivial⟩, trivial⟩, _, Real.hasDerivAt_sin a, by simp only [EExp.val, EOp.f]; ring⟩
  case cos => exact ⟨⟨⟨⟨trivial, trivial⟩, trivial⟩, trivial⟩, _, Real.hasDerivAt_cos a, by simp only [EExp.val, EOp.f]; ring⟩
  case tan =>
    have hd : Real.cos a ≠ 0 := hd
    refine ⟨⟨trivial, ⟨⟨trivial, trivial⟩, trivial⟩, mul_ne_zero hd hd⟩, _, Real.hasDerivAt_tan hd, ?_⟩
    simp only [EExp.val, EOp.f]; field_simp
  case asin =>
    have hd : -1 ≤ a ∧ a ≤ 1 := hd
    obtain ⟨h1, h2⟩ := Real.differentiableAt_arcsin.1 hf
    have hpos : 0 < 1 - a * a := by
      have := lt_of_le_of_ne hd.1 (Ne.symm h1); have := lt_of_le_of_ne hd.2 h2; nlinarith
    refine ⟨⟨⟨⟨trivial, trivial, trivial⟩, hpos⟩, trivial⟩, _, Real.hasDerivAt_arcsin h1 h2, ?_⟩
    simp only [EExp.val, EOp.f, pow_two]; ring
  case acos =>
    have hd : -1 ≤ a ∧ a ≤ 1 := hd
    obtain ⟨h1, h2⟩ := Real.differentiableAt_arccos.1 hf
    have hpos : 0 < 1 - a * a := by
      have := lt_of_le_of_ne hd.1 (Ne.symm h1); have := lt_of_le_of_ne hd.2 h2; nlinarith
    refine ⟨⟨⟨⟨⟨trivial, trivial, trivial⟩, hpos⟩, trivial⟩, trivial⟩, _, Real.hasDerivAt_arccos h1 h2, ?_⟩
    simp only [EExp.val, EOp.f, pow_two]; ring
  case atan =>
    refine ⟨⟨⟨⟨⟨trivial, trivial⟩, trivial⟩, ?_⟩, trivial⟩, _, Real.hasDerivAt_arctan a, ?_⟩
    · show a * a + 1 ≠ 0
      nlinarith [mul_self_nonneg a]
    · simp only [EExp.val, EOp.f, pow_two, one_div]; ring
  case sinh => exact ⟨⟨⟨trivial, trivial⟩, trivial⟩, _, Real.hasDerivAt_sinh a, by simp only [EExp.val, EOp.f]; ring⟩
  case cosh => exact ⟨⟨⟨trivial, trivial⟩, trivial⟩, _, Real.hasDerivAt_cosh a, by simp only [EExp.val, EOp.f]; ring⟩
  case tanh =>
    refine ⟨⟨trivial, trivial, trivial, trivial⟩, _, hasDerivAt_tanh a, ?_⟩
    simp only [EExp.val, EOp.f]
  case asinh =>
    have hpos : 0 < a * a + 1 := by nlinarith [mul_self_nonneg a]
    refine ⟨⟨⟨⟨⟨⟨trivial, trivial⟩, trivial⟩, hpos.le⟩, (Real.sqrt_pos.2 hpos).ne'⟩, trivial⟩, _, Real.hasDerivAt_arsinh a, ?_⟩
    simp only [EExp.val, EOp.f, pow_two]; rw [add_comm]; ring
  case acosh =>
    have hd : 1 ≤ a := hd
    have h1 : 1 < a := lt_of_le_of_ne hd fun h => by subst h; exact not_differentiableAt_arcosh_one hf
    have hpos : 0 < a * a - 1 := by nlinarith
    refine ⟨⟨⟨⟨⟨⟨trivial, trivial⟩, trivial⟩, hpos.le⟩, (Real.sqrt_pos.2 hpos).ne'⟩, trivial⟩, _, Real.hasDerivAt_arcosh h1, ?_⟩
    simp only [EExp.val, EOp.f, pow_two]; ring
  case atanh =>
    have hd : -1 < a ∧ a < 1 := hd
    have hpos : 0 < 1 - a * a := by nlinarith [hd.1, hd.2]
    refine ⟨⟨⟨⟨trivial, trivial, trivial⟩, hpos.ne'⟩, trivial⟩, _, hasDerivAt_artanh hd, ?_⟩
    simp only [EExp.val, EOp.f]; ring
  case abs =>
    have h0 : a ≠ 0 := fun h => by subst h; exact not_differentiableAt_abs_zero hf
    refine ⟨⟨trivial, trivial, trivial⟩, ?_⟩
    rcases lt_or_gt_of_ne h0 with h | h
    · exact ⟨-1, hasDerivAt_abs_neg h, by simp [EExp.val, EOp.f, h0, not_lt.2 h.le]⟩
    · exact ⟨1, hasDerivAt_abs_pos h, by simp [EExp.val, EOp.f, h0, h]⟩
  case sigmoid =>
    refine ⟨⟨trivial, trivial, trivial, trivial⟩, _, (((hasDerivAt_tanh _).comp a ((hasDerivAt_id a).mul_const (1 / 2 : ℝ))).mul_const (1 / 2 : ℝ)).add_const _, ?_⟩
    simp only [EExp.val, EOp.f, id]; ring
  case softplus =>
    have hpos : Real.exp a + 1 ≠ 0 := by have := Real.exp_pos a; linarith
    refine ⟨⟨trivial, ⟨trivial, trivial⟩, ⟨⟨trivial, trivial⟩, trivial⟩, hpos⟩, _, ((Real.hasDerivAt_exp a).add_const 1).log hpos, ?_⟩
    simp only [EExp.val, EOp.f]
  case relu =>
    refine ⟨⟨⟨trivial, trivial⟩, trivial⟩, ?_⟩
    by_cases h : 0 < a
    · refine ⟨1, ?_, by simp [EExp.val, h]⟩
      refine (hasDerivAt_id a).congr_of_eventuallyEq ?_
      filter_upwards [lt_mem_nhds h] with b hb
      exact max_eq_left hb.le
    · push Not at h
      refine ⟨0, deriv_of_left hf (hasDerivAt_const a (0 : ℝ)) (fun b hb => max_eq_right (hb.trans h)), by simp [EExp.val, not_lt.2 h]⟩
  case elu alpha =>
    refine ⟨⟨trivial, trivial⟩, ?_⟩
    by_cases h : 0 < a
    · refine ⟨1, ?_, by simp [EExp.val, h]⟩
      refine (hasDerivAt_id a).congr_of_eventuallyEq ?_
      filter_upwards [lt_mem_nhds h] with b hb
      simp [EOp.f, hb]
    · push Not at h
      refine ⟨alpha * Real.exp a, deriv_of_left hf (((Real.hasDerivAt_exp a).sub_const 1).const_mul alpha) (fun b hb => ?_), ?_⟩
      · simp [EOp.f, not_lt.2 (hb.trans h)]
      · simp [EExp.val, not_lt.2 h]; ring
  case clip lo hi =>
    refine ⟨⟨trivial, trivial⟩, ?_⟩
    by_cases h1 : a ≤ lo
    · refine ⟨0, deriv_of_left hf (hasDerivAt_const a lo) (fun b hb => ?_), by simp [EExp.val, not_lt.2 h1]⟩
      simp [EOp.f, hb.trans h1]
    · by_cases h2 : hi ≤ a
      · refine ⟨0, deriv_of_right hf (hasDerivAt_const a (max hi lo)) (fun b hb => ?_), by simp [EExp.val, not_lt.2 h2]⟩
        simp [EOp.f, h2.trans hb]
      · push Not at h1 h2
        refine ⟨1, ?_, by simp [EExp.val, h1, h2]⟩
        refine (hasDerivAt_id a).congr_of_eventuallyEq ?_
        filter_upwards [lt_mem_nhds h1, gt_mem_nhds h2] with b hb1 hb2
        simp [EOp.f, hb1.le, hb2.le]

/-- The expression mentions an array of the shape of the input (it is not a constant). -/
def EExp.full : EExp → Bool
  | .x => true
  | .y => true
  | .gy => true
  | const _ => false
  | app _ e => e.full
  | add u v => u.full || v.full
  | sub u v => u.full || v.full
  | mul u v => u.full || v.full
  | div u v => u.full || v.full
  | greater u v => u.full || v.full
  | eluGrad _ u v => u.full || v.full
  | clipGrad _ _ u v => u.full || v.full

/-- What an expression needs for its evaluation on inputs of shape `s` not to panic. -/
def EExp.Ok (s : List Nat) : EExp → Prop
  | app _ e => e.Ok s
  | add u v => u.Ok s ∧ v.Ok s
  | sub u v => u.Ok s ∧ v.Ok s
  | mul u v => u.Ok s ∧ v.Ok s
  | div u v => u.Ok s ∧ v.Ok s ∧ s ≠ [0] ∧ s ≠ [1]
  | greater u v => u.Ok s ∧ v.Ok s ∧ v.full = false
  | eluGrad _ u v => u.Ok s ∧ v.Ok s
  | clipGrad _ _ u v => u.Ok s ∧ v.Ok s ∧ u.full = true
  | _ => True

/-- The shape of the evaluated expression. -/
def shp (s : List Nat) (b : Bool) : List Nat := if b then s else []

theorem commonShape_shp (s : List Nat) (a b : Bool) : CommonShape (shp s a) (shp s b) (shp s (a || b)) := by
  cases a <;> cases b <;> simp only [shp, Bool.or_self, Bool.or_false, Bool.or_true, Bool.false_eq_true, if_true, if_false]
  · exact commonShape_left (broadcastsTo_self _)
  · exact commonShape_comm (commonShape_left (broadcastsTo_nil _))
  · exact commonShape_left (broadcastsTo_nil _)
  · exact commonShape_left (broadcastsTo_self _)

theorem bIdx_shp {s i : List Nat} (hi : InB i s) (a b : Bool) : bIdx (shp s a) (bIdx (shp s (a || b)) i) = bIdx (shp s a) i := by
  cases a <;> cases b <;> simp [shp, bIdx_nil, bIdx_self hi]

theorem bIdx_shp' {s i : List Nat} (hi : InB i s) (a b : Bool) : bIdx (shp s b) (bIdx (shp s (a || b)) i) = bIdx (shp s b) i := by
  cases a <;> cases b <;> simp [shp, bIdx_nil, bIdx_self hi]

theorem inB_shp {s i : List Nat} (hi : InB i s) (a : Bool) : InB (bIdx (shp s a) i) (shp s a) := by
  cases a
  · simp [shp, bIdx_nil, InB]
  · simpa [shp, bIdx_self hi] using hi

theorem cmpOp_nil_right {R : Type} (f : R → R → R) {x0 x1 : Arr R} (h : x1.shape = []) :
    cmpOp f x0 x1 = .ok (map (fun a => f a (x1.get [])) x0) := by
  have hs1 : isScalarShape x1.shape = true := isScalarShape_iff.2 (.inl h)
  unfold cmpOp
  cases h0 : isScalarShape x0.shape <;> simp [hs1, scalarElem_nil h, bind, Except.bind]

/-- The evaluated expression `r` of shape `s` or of rank zero has the values of `v`. -/
def Rep (s : List Nat) (full : Bool) (r : Arr ℝ) (v : List Nat → ℝ) : Prop :=
  r.shape = shp s full ∧ ∀ i, InB i s → r.get (bIdx r.shape i) = v i

theorem rep_binary {s : List Nat} {a b : Bool} {u v y : Arr ℝ} {f : ℝ → ℝ → ℝ} {p q : List Nat → ℝ} (hu : Rep s a u p) (hv : Rep s b v q)
    (hy : IsBinary f u v (shp s (a || b)) y) : Rep s (a || b) y (fun i => f (p i) (q i)) := by
  refine ⟨hy.1, fun i hi => ?_⟩
  rw [hy.1, hy.2 _ (inB_shp hi _)]
  have h1 := hu.2 i hi
  have h2 := hv.2 i hi
  rw [hu.1] at h1 ⊢
  rw [hv.1] at h2 ⊢
  rw [bIdx_shp hi, bIdx_shp' hi, h1, h2]

theorem binForward_shp {s : List Nat} {a b : Bool} {u v : Arr ℝ} {f : ℝ → ℝ → ℝ} (hf : ∀ x y, f x y = f y x) (hu : u.shape = shp s a)
    (hv : v.shape = shp s b) : ∃ y, binForward f u v = .ok y ∧ IsBinary f u v (shp s (a || b)) y := by
  refine binForward_spec hf (by rw [hu, hv]; exact commonShape_shp s a b) ?_ ?_
  · rw [hu, hv]
    cases a <;> cases b <;> simp +contextual [shp, isScalarShape_iff]
  · rw [hu, hv]
    cases a <;> cases b <;> simp +contextual [shp, isScalarShape_iff]

theorem eval_rep (s : List Nat) {x y g : Arr ℝ} (hx : x.shape = s) (hy : y.shape = s) (hg : g.shape = s) (e : EExp) (ho : e.Ok s) :
    ∃ r, e.eval x y g = .ok r ∧ Rep s e.full r (fun i => e.val (x.get i) (y.get i) (g.get i)) := by
  induction e with
  | x => exact ⟨x, rfl, hx, fun i hi => by rw [hx, bIdx_self hi]; rfl⟩
  | y => exact ⟨y, rfl, hy, fun i hi => by rw [hy, bIdx_self hi]; rfl⟩
  | gy => exact ⟨g, rfl, hg, fun i hi => by rw [hg, bIdx_self hi]; rfl⟩
  | const c => exact ⟨_, rfl, rfl, fun i hi => rfl⟩
  | app op e ih =>
    obtain ⟨r, hr, hrep⟩ := ih ho
    refine ⟨op.compute r, by simp only [EExp.eval, hr, bind, Except.bind], hrep.1, fun i hi => ?_⟩
    show op.f (r.get (bIdx r.shape i)) = _
    rw [hrep.2 i hi]; rfl
  | add u v ihu ihv =>
    obtain ⟨r, hr, hrep⟩ := ihu ho.1
    obtain ⟨r', hr', hrep'⟩ := ihv ho.2
    obtain ⟨z, hz, hb⟩ := binForward_shp (f := (· + ·)) (fun x y => add_comm x y) hrep.1 hrep'.1
    exact ⟨z, by simp only [EExp.eval, hr, hr', bind, Except.bind]; exact hz, rep_binary hrep hrep' hb⟩
  | mul u v ihu ihv =>
    obtain ⟨r, hr, hrep⟩ := ihu ho.1
    obtain ⟨r', hr', hrep'⟩ := ihv ho.2
    obtain ⟨z, hz, hb⟩ := binForward_shp (f := (· * ·)) (fun x y => mul_comm x y) hrep.1 hrep'.1
    exact ⟨z, by simp only [EExp.eval, hr, hr', bind, Except.bind]; exact hz, rep_binary hrep hrep' hb⟩
  | sub u v ihu ihv =>
    obtain ⟨r, hr, hrep⟩ := ihu ho.1
    obtain ⟨r', hr', hrep'⟩ := ihv ho.2
    obtain ⟨z, hz, hb⟩ := subOp_spec (x0 := r) (x1 := r') (by rw [hrep.1, hrep'.1]; exact commonShape_shp s _ _)
    exact ⟨z, by simp only [EExp.eval, hr, hr', bind, Except.bind]; exact hz, rep_binary hrep hrep' hb⟩
  | div u v ihu ihv =>
    obtain ⟨r, hr, hrep⟩ := ihu ho.1
    obtain ⟨r', hr', hrep'⟩ := ihv ho.2.1
    obtain ⟨z, hz, hb⟩ := divOp_spec (x0 := r) (x1 := r') (by rw [hrep.1, hrep'.1]; exact commonShape_shp s _ _)
      (by rw [hrep.1]; cases u.full <;> simp [shp, ho.2.2.1]) (fun _ => by rw [hrep'.1]; cases v.full <;> simp [shp, ho.2.2.2])
    exact ⟨z, by simp only [EExp.eval, hr, hr', bind, Except.bind]; exact hz, rep_binary hrep hrep' hb⟩
  | greater u v ihu ihv =>
    obtain ⟨r, hr, hrep⟩ := ihu ho.1
    obtain ⟨r', hr', hrep'⟩ := ihv ho.2.1
    have hn : r'.shape = [] := by rw [hrep'.1, ho.2.2]; rfl
    refine ⟨map (fun a => greaterFn a (r'.get [])) r, by simp only [EExp.eval, hr, hr', bind, Except.bind]; exact cmpOp_nil_right _ hn, ?_, fun i hi => ?_⟩
    · show r.shape = _
      rw [hrep.1, EExp.full, ho.2.2, Bool.or_false]
    · show greaterFn (r.get (bIdx r.shape i)) (r'.get []) = _
      have := hrep'.2 i hi
      rw [hn, bIdx_nil] at this
      rw [hrep.2 i hi, this]; rfl
  | eluGrad alpha u v ihu ihv =>
    obtain ⟨r, hr, hrep⟩ := ihu ho.1
    obtain ⟨r', hr', hrep'⟩ := ihv ho.2
    have hrep2 : Rep s u.full (map (eluFactor alpha) r) (fun i => eluFactor alpha (u.val (x.get i) (y.get i) (g.get i))) :=
      ⟨hrep.1, fun i hi => by
        show eluFactor alpha (r.get (bIdx r.shape i)) = _
        rw [hrep.2 i hi]⟩
    obtain ⟨z, hz, hb⟩ := ownedOp_spec (f := (· * ·)) (x0 := map (eluFactor alpha) r) (x1 := r') (by rw [hrep2.1, hrep'.1]; exact commonShape_shp s _ _)
    refine ⟨z, by simp only [EExp.eval, hr, hr', bind, Except.bind]; exact hz, ?_⟩
    have := rep_binary hrep2 hrep' hb
    refine ⟨this.1, fun i hi => (this.2 i hi).trans ?_⟩
    simp only [eluFactor, EExp.val]
    congr 2
    ring
  | clipGrad lo up u v ihu ihv =>
    obtain ⟨r, hr, hrep⟩ := ihu ho.1
    obtain ⟨r', hr', hrep'⟩ := ihv ho.2.1
    have hrs : r.shape = s := by rw [hrep.1, ho.2.2]; rfl
    have hb : BroadcastsTo r'.shape r.shape := by
      rw [hrs, hrep'.1]; cases v.full
      · exact broadcastsTo_nil _
      · exact broadcastsTo_self _
    have hok : bcastOk r'.shape.reverse r.shape.reverse = true := bcastOk_iff.2 (broadcastsTo_iff.1 hb)
    refine ⟨⟨r.shape, (map (clipFactor lo up) r).strides, fun i => clipFactor lo up (r.get i) * r'.get (bIdx r'.shape i)⟩, ?_, ?_, fun i hi => ?_⟩
    · simp only [EExp.eval, hr, hr', bind, Except.bind, clipGradOp, broadcast, hok, if_true, unwrap, map]
    · show r.shape = _
      rw [hrep.1, EExp.full, ho.2.2, Bool.true_or]
    · have h1 := hrep.2 i hi
      rw [hrs, bIdx_self hi] at h1
      have h2 := hrep'.2 i hi
      simp only [hrs, bIdx_self hi, h1, h2, clipFactor, EExp.val]
      by_cases c1 : lo < u.val (x.get i) (y.get i) (g.get i) <;> by_cases c2 : u.val (x.get i) (y.get i) (g.get i) < up <;> simp [c1, c2]

/-- The gradients of the elementwise ops evaluate without panic, unless they divide and the shape is `[0]` or `[1]`. -/
theorem grad_ok {op : EOp} {e : EExp} (he : op.grad = some e) {s : List Nat} (hs : op.DividesArrays → s ≠ [0] ∧ s ≠ [1]) :
    e.Ok s ∧ e.full = true := by
  cases op <;> simp only [EOp.grad, Option.some.injEq, reduceCtorEq] at he <;> subst he <;>
    simp only [EExp.Ok, EExp.full, EOp.DividesArrays, true_implies, and_true, true_and, and_self, Bool.or_true, Bool.or_self, Bool.or_false] at hs ⊢ <;>
    exact hs

theorem divOp_one_panics (x0 x1 : Arr ℝ) (h0 : x0.shape = [1]) (h1 : x1.shape = [1]) : divOp x0 x1 = .error .panic := by
  simp [divOp, h0, h1, scalarElem, bind, Except.bind]

theorem divOp_zero_panics (x0 x1 : Arr ℝ) (h0 : x0.shape = [0]) : divOp x0 x1 = .error .panic := by
  simp [divOp, h0, scalarElem, bind, Except.bind]

end Verif.Nd
