import Verif.RealSpec
import Verif.BwSpec
import Mathlib.Analysis.SpecialFunctions.Sqrt
import Mathlib.Analysis.SpecialFunctions.Trigonometric.Deriv
import Mathlib.Analysis.SpecialFunctions.Trigonometric.ArctanDeriv
import Mathlib.Analysis.SpecialFunctions.Trigonometric.DerivHyp
import Mathlib.Analysis.SpecialFunctions.Log.Deriv
import Mathlib.Analysis.SpecialFunctions.ExpDeriv
import Mathlib.Analysis.SpecialFunctions.Pow.Deriv
import Mathlib.Analysis.Calculus.Deriv.ZPow
import Mathlib.Analysis.Calculus.Deriv.Abs

/-!
# Derivatives of the element-wise functions over the reals
-/

namespace Verif

attribute [local instance] realFlt

theorem tanh_eq (x : ℝ) : Real.tanh x = (Real.exp (2 * x) - 1) / (Real.exp (2 * x) + 1) := by
  have h : Real.exp x ≠ 0 := Real.exp_ne_zero x
  have h2 : Real.exp (2 * x) = Real.exp x * Real.exp x := by rw [← Real.exp_add]; ring_nf
  have hp := Real.exp_pos x
  rw [Real.tanh_eq_sinh_div_cosh, Real.sinh_eq, Real.cosh_eq, Real.exp_neg, h2]
  field_simp

/-- `0.5 + 0.5 * tanh(0.5 * x)` is the logistic function. -/
theorem sigmoid_eq (x : ℝ) : Scalar.sigmoidFw x = 1 / (1 + Real.exp (-x)) := by
  show (1 / 2 : ℝ) + 1 / 2 * Real.tanh (1 / 2 * x) = _
  rw [tanh_eq, show 2 * (1 / 2 * x) = x by ring, Real.exp_neg]
  have h := Real.exp_pos x
  have : Real.exp x + 1 ≠ 0 := by positivity
  have : Real.exp x ≠ 0 := by positivity
  field_simp
  ring

theorem gt_real (a b : ℝ) : (Flt.gt a b : Bool) = decide (b < a) := rfl
theorem le_real (a b : ℝ) : (Flt.le a b : Bool) = decide (a ≤ b) := rfl

theorem softplus_eq (x : ℝ) : Scalar.softplusFw x = Real.log (1 + Real.exp x) := by
  show Real.log (1 + Real.exp (-|x|)) + (if (decide ((0 : ℝ) < x)) = true then (1 : ℝ) else 0) * x = _
  by_cases h : 0 < x
  · rw [abs_of_pos h]
    simp only [h, decide_true, if_true, one_mul]
    have : 1 + Real.exp x = Real.exp x * (1 + Real.exp (-x)) := by
      rw [mul_add, ← Real.exp_add]; simp [add_comm]
    rw [this, Real.log_mul (Real.exp_ne_zero _) (by positivity), Real.log_exp, add_comm]
  · rw [abs_of_nonpos (not_lt.mp h)]
    simp [h]

/-- The kernels compute the textbook functions. -/
theorem Un.fn_real (u : Un) (x : ℝ) : (u.fn x : ℝ) = u.real x := by
  cases u
  case sigmoid => exact sigmoid_eq x
  case softplus => exact softplus_eq x
  all_goals rfl

theorem Cn.fn_real (o : Cn) (k x : ℝ) : (o.fn x k : ℝ) = o.real k x := by
  cases o
  case prelu =>
    show x * ((if decide ((0 : ℝ) < x) = true then (1 : ℝ) else 0) + (if decide (x ≤ (0 : ℝ)) = true then (1 : ℝ) else 0) * k) = if 0 < x then x else k * x
    by_cases h : 0 < x
    · simp [h, not_le.mpr h]
    · simp [h, not_lt.mp h, mul_comm]
  case elu =>
    show (if decide ((0 : ℝ) < x) = true then x else k * (Real.exp x - 1)) = if 0 < x then x else k * (Real.exp x - 1)
    simp
  all_goals rfl

theorem Bi.fn_real (o : Bi) (a b : ℝ) : (o.fn a b : ℝ) = o.real a b := by cases o <;> rfl

/-- Derivative of a unary function, as the backward formula computes it from `x` and `y = f x` (`softplus`: from the sigmoid). -/
theorem Un.hasDerivAt (u : Un) {f : ℝ → ℝ → ℝ → ℝ} (hf : u.bwFn = some f) {x : ℝ} (hx : u.Dom x) (gy : ℝ) :
    ∃ d, HasDerivAt u.real d x ∧ f x (u.real x) gy = gy * d := by
  cases u <;> simp only [Un.bwFn, Option.some.injEq, reduceCtorEq] at hf <;> subst hf
  case sqrt =>
    refine ⟨_, Real.hasDerivAt_sqrt (ne_of_gt hx), ?_⟩
    show gy * (1 / 2) / Real.sqrt x = _
    have := Real.sqrt_pos.mpr hx
    field_simp
  case abs =>
    have hx' : x ≠ 0 := hx
    show ∃ d, HasDerivAt (fun x => |x|) d x ∧ gy * (((if decide ((0 : ℝ) < x) = true then 1 else 0) - (if decide (x < (0 : ℝ)) = true then 1 else 0) : ℤ) : ℝ) = _
    rcases lt_or_gt_of_ne hx' with h | h
    · refine ⟨-1, hasDerivAt_abs_neg h, ?_⟩
      simp [h, not_lt.mpr h.le]
    · refine ⟨1, hasDerivAt_abs_pos h, ?_⟩
      simp [h, not_lt.mpr h.le]
  case sin => exact ⟨_, Real.hasDerivAt_sin x, rfl⟩
  case cos => exact ⟨_, Real.hasDerivAt_cos x, by show -gy * Real.sin x = _; ring⟩
  case tan =>
    refine ⟨_, HasStrictDerivAt.hasDerivAt (Real.hasStrictDerivAt_tan hx), ?_⟩
    show gy * (1 + Real.tan x * Real.tan x) = _
    have hx' : Real.cos x ≠ 0 := hx
    rw [Real.tan_eq_sin_div_cos]
    have := Real.sin_sq_add_cos_sq x
    field_simp
    linear_combination gy * this
  case exp => exact ⟨_, Real.hasDerivAt_exp x, rfl⟩
  case ln => exact ⟨_, Real.hasDerivAt_log (ne_of_gt hx), by show gy / x = _; rw [div_eq_mul_inv]⟩
  case tanh =>
    have hc : Real.cosh x ≠ 0 := (Real.cosh_pos x).ne'
    have h := (Real.hasDerivAt_sinh x).div (Real.hasDerivAt_cosh x) hc
    refine ⟨1 - Real.tanh x * Real.tanh x, ?_, rfl⟩
    have e : (fun x => Real.sinh x / Real.cosh x) = Real.tanh := by funext y; rw [Real.tanh_eq_sinh_div_cosh]
    have h' : HasDerivAt Real.tanh ((Real.cosh x * Real.cosh x - Real.sinh x * Real.sinh x) / Real.cosh x ^ 2) x := by
      rw [← e]; exact h
    refine h'.congr_deriv ?_
    rw [Real.tanh_eq_sinh_div_cosh]
    field_simp
  case sigmoid =>
    have hp : (1 : ℝ) + Real.exp (-x) ≠ 0 := by positivity
    have h1 : HasDerivAt (fun x : ℝ => 1 + Real.exp (-x)) (-Real.exp (-x)) x := by
      refine (((hasDerivAt_neg x).exp).const_add 1).congr_deriv ?_
      ring
    have h := h1.inv hp
    refine ⟨-(-Real.exp (-x)) / (1 + Real.exp (-x)) ^ 2, ?_, ?_⟩
    · show HasDerivAt (fun x : ℝ => 1 / (1 + Real.exp (-x))) _ x
      simp only [one_div]
      exact h
    · show gy * (1 / (1 + Real.exp (-x))) * (1 - 1 / (1 + Real.exp (-x))) = _
      field_simp
      ring

/-- The derivative of softplus is the logistic function. -/
theorem softplus_hasDerivAt (x : ℝ) : HasDerivAt (Un.softplus.real) (Un.sigmoid.real x) x := by
  have h : HasDerivAt (fun x : ℝ => 1 + Real.exp x) (Real.exp x) x := by simpa using (Real.hasDerivAt_exp x).const_add 1
  have hp : (1 : ℝ) + Real.exp x ≠ 0 := by positivity
  have h2 := h.log hp
  refine h2.congr_deriv ?_
  show _ = 1 / (1 + Real.exp (-x))
  rw [Real.exp_neg]
  have := Real.exp_pos x
  field_simp
  ring

theorem Cn.hasDerivAt (o : Cn) {k x : ℝ} (hx : o.Dom k x) (gy : ℝ) :
    ∃ d, HasDerivAt (o.real k) d x ∧ (o.bwFn x (o.real k x) gy k : ℝ) = gy * d := by
  cases o
  case add => exact ⟨1, (hasDerivAt_id x).add_const k, by show gy = _; ring⟩
  case subL => exact ⟨-1, (hasDerivAt_id x).const_sub k, by show -gy = _; ring⟩
  case subR => exact ⟨1, (hasDerivAt_id x).sub_const k, by show gy = _; ring⟩
  case mul => exact ⟨1 * k, (hasDerivAt_id x).mul_const k, by show k * gy = _; ring⟩
  case divL =>
    have hx' : x ≠ 0 := hx
    have h := (hasDerivAt_inv hx').const_mul k
    refine ⟨k * -(x ^ 2)⁻¹, ?_, ?_⟩
    · show HasDerivAt (fun x => k / x) _ x
      simp only [div_eq_mul_inv]; exact h
    · show -gy * (k / x) / x = _
      field_simp
  case divR => exact ⟨1 / k, (hasDerivAt_id x).div_const k, by show gy / k = _; ring⟩
  case powfL =>
    refine ⟨_, (Real.hasStrictDerivAt_const_rpow hx x).hasDerivAt, ?_⟩
    show gy * Real.log k * k ^ x = _
    ring
  case powfR =>
    have hx' : 0 < x := hx
    refine ⟨_, Real.hasDerivAt_rpow_const (.inl hx'.ne'), ?_⟩
    show gy * k * x ^ (k - 1) = _
    ring
  case prelu =>
    have hx' : x ≠ 0 := hx
    show ∃ d, HasDerivAt (fun x => if 0 < x then x else k * x) d x ∧
      gy * ((if decide ((0 : ℝ) < x) = true then (1 : ℝ) else 0) + (if decide (x ≤ (0 : ℝ)) = true then (1 : ℝ) else 0) * k) = gy * d
    rcases lt_or_gt_of_ne hx' with h | h
    · refine ⟨k * 1, ((hasDerivAt_id x).const_mul k).congr_of_eventuallyEq ?_, ?_⟩
      · filter_upwards [gt_mem_nhds h] with y hy
        simp [not_lt.mpr hy.le]
      · simp [h.le, not_lt.mpr h.le]
    · refine ⟨1, (hasDerivAt_id x).congr_of_eventuallyEq ?_, ?_⟩
      · filter_upwards [lt_mem_nhds h] with y hy
        simp [hy]
      · simp [h, not_le.mpr h]
  case elu =>
    have hx' : x ≠ 0 := hx
    show ∃ d, HasDerivAt (fun x => if 0 < x then x else k * (Real.exp x - 1)) d x ∧
      (if decide ((0 : ℝ) < x) = true then gy else gy * ((if 0 < x then x else k * (Real.exp x - 1)) + k)) = gy * d
    rcases lt_or_gt_of_ne hx' with h | h
    · refine ⟨k * Real.exp x, (((Real.hasDerivAt_exp x).sub_const 1).const_mul k).congr_of_eventuallyEq ?_, ?_⟩
      · filter_upwards [gt_mem_nhds h] with y hy
        simp [not_lt.mpr hy.le]
      · simp [not_lt.mpr h.le]
        left; ring
    · refine ⟨1, (hasDerivAt_id x).congr_of_eventuallyEq ?_, ?_⟩
      · filter_upwards [lt_mem_nhds h] with y hy
        simp [hy]
      · simp [h]

theorem powi_hasDerivAt (k : ℤ) {x : ℝ} (hx : x ≠ 0 ∨ 0 ≤ k) : HasDerivAt (fun x : ℝ => x ^ k) (k * x ^ (k - 1)) x :=
  hasDerivAt_zpow k x hx

/-- A curve through a two-operand function: the two backward formulas give its derivative. -/
theorem Bi.hasDerivAt (o : Bi) {a b : ℝ → ℝ} {t a' b' : ℝ} (ha : HasDerivAt a a' t) (hb : HasDerivAt b b' t) (h : o.Dom (a t) (b t)) :
    ∃ da db : ℝ, HasDerivAt (fun s => o.real (a s) (b s)) (da * a' + db * b') t ∧
      (∀ acc gy : ℝ, o.stepA acc (a t) (b t) gy = acc + gy * da) ∧
      (∀ acc gy : ℝ, o.stepB acc (a t) (b t) (o.real (a t) (b t)) gy = acc + gy * db) := by
  cases o
  case add =>
    refine ⟨1, 1, ?_, fun acc gy => by show acc + gy = _; ring, fun acc gy => by show acc + gy = _; ring⟩
    exact (ha.add hb).congr_deriv (by ring)
  case sub =>
    refine ⟨1, -1, ?_, fun acc gy => by show acc + gy = _; ring, fun acc gy => by show acc - gy = _; ring⟩
    exact (ha.sub hb).congr_deriv (by ring)
  case mul =>
    refine ⟨b t, a t, ?_, fun acc gy => by show acc + b t * gy = _; ring, fun acc gy => by show acc + a t * gy = _; ring⟩
    exact (ha.mul hb).congr_deriv (by ring)
  case div =>
    have hb' : b t ≠ 0 := h
    refine ⟨1 / b t, -(a t / b t / b t), ?_, fun acc gy => by show acc + gy / b t = _; ring, fun acc gy => by
      show acc - gy * (a t / b t) / b t = _; ring⟩
    refine (ha.div hb hb').congr_deriv ?_
    field_simp
    ring
  case powf =>
    have ha' : 0 < a t := h
    refine ⟨b t * (a t) ^ (b t - 1), Real.log (a t) * (a t) ^ (b t), ?_, fun acc gy => by
      show acc + gy * b t * (a t) ^ (b t - 1) = _; ring, fun acc gy => by
      show acc + gy * Real.log (a t) * (a t) ^ (b t) = _; ring⟩
    exact (ha.rpow hb ha').congr_deriv (by ring)

end Verif
