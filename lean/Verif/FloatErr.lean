import Verif.FloatSoft
import Mathlib.Data.Int.Log
import Mathlib.Algebra.Order.Round
import Mathlib.Analysis.SpecialFunctions.Log.Deriv
import Mathlib.Analysis.SpecialFunctions.ExpDeriv

/-!
# Rounding errors
-/

set_option linter.unusedSectionVars false
set_option linter.style.haveILetI false

namespace Verif
open Fmt

namespace Near
variable {F : Fmt} (N : Near F)

/-- The error of rounding is at most half a unit `2^e` in the last place, for any `e` of the format that is large enough. -/
theorem err_unit {x : ℝ} {e : ℤ} (h1 : F.emin ≤ e) (h2 : e ≤ F.emax) (h3 : |x| ≤ 2 ^ F.prec * (2 : ℝ) ^ e) : |x - N.near x| ≤ (2 : ℝ) ^ e / 2 := by
  have hp : (0 : ℝ) < 2 ^ e := zpow_pos (by norm_num) e
  have hr := abs_sub_round (x / 2 ^ e)
  generalize hm : round (x / 2 ^ e) = m at hr
  have h4 : |x / 2 ^ e| ≤ 2 ^ F.prec := by rw [abs_div, abs_of_pos hp, div_le_iff₀ hp]; exact h3
  have h5 : |m| ≤ 2 ^ F.prec := by
    have h6 : |(m : ℝ)| < 2 ^ F.prec + 1 := by
      have := abs_sub_abs_le_abs_sub (m : ℝ) (x / 2 ^ e)
      rw [abs_sub_comm] at this
      linarith
    rw [← Int.cast_abs] at h6
    have : |m| < 2 ^ F.prec + 1 := by exact_mod_cast h6
    omega
  refine (N.best x _ (grid_mk m e h5 h1 h2)).trans ?_
  have : x - m * 2 ^ e = (x / 2 ^ e - m) * 2 ^ e := by rw [sub_mul, div_mul_cancel₀ _ hp.ne']
  rw [this, abs_mul, abs_of_pos hp]
  nlinarith

/-- The error of rounding: relative `2^-prec`, plus half of the smallest positive number. -/
theorem err {x : ℝ} (h0 : F.emin ≤ F.emax) (hx : |x| < F.top) : |x - N.near x| ≤ |x| / 2 ^ F.prec + (2 : ℝ) ^ F.emin / 2 := by
  have hp : (0 : ℝ) < 2 ^ F.prec := by positivity
  have hpe : (0 : ℝ) < (2 : ℝ) ^ F.emin := zpow_pos (by norm_num) _
  by_cases hs : |x| ≤ 2 ^ F.prec * (2 : ℝ) ^ F.emin
  · have := N.err_unit le_rfl h0 hs
    have := div_nonneg (abs_nonneg x) hp.le
    linarith
  have hs := not_le.mp hs
  have hx0 : 0 < |x| := lt_trans (by positivity) hs
  have hk1 := Int.zpow_log_le_self (b := 2) (by norm_num) hx0
  have hk2 := Int.lt_zpow_succ_log_self (b := 2) (by norm_num) |x|
  generalize Int.log 2 |x| = k at *
  simp only [Nat.cast_ofNat] at hk1 hk2
  have e1 : ∀ e : ℤ, (2 : ℝ) ^ F.prec * (2 : ℝ) ^ e = (2 : ℝ) ^ ((F.prec : ℤ) + e) := fun e => by
    rw [zpow_add₀ (by norm_num), zpow_natCast]
  rw [e1] at hs
  unfold top at hx
  rw [e1] at hx
  have h1 : (F.prec : ℤ) + F.emin < k + 1 := (zpow_lt_zpow_iff_right₀ (by norm_num : (1 : ℝ) < 2)).mp (hs.trans hk2)
  have h2 : k < (F.prec : ℤ) + F.emax := (zpow_lt_zpow_iff_right₀ (by norm_num : (1 : ℝ) < 2)).mp (hk1.trans_lt hx)
  have h3 := N.err_unit (x := x) (e := k + 1 - F.prec) (by omega) (by omega) (by
    rw [e1, show (F.prec : ℤ) + (k + 1 - F.prec) = k + 1 by ring]; exact hk2.le)
  have h4 : (2 : ℝ) ^ (k + 1 - F.prec : ℤ) / 2 = 2 ^ k / 2 ^ F.prec := by
    rw [zpow_sub₀ (by norm_num), zpow_add₀ (by norm_num), zpow_natCast, zpow_one]; ring
  rw [h4] at h3
  have h5 : (2 : ℝ) ^ k / 2 ^ F.prec ≤ |x| / 2 ^ F.prec := div_le_div_of_nonneg_right hk1 hp.le
  linarith

theorem err32 (N : Near f32) {x : ℝ} (hx : |x| < 2 ^ 128) : |x - N.near x| ≤ |x| / 2 ^ 24 + 1 / 2 ^ 150 := by
  have h := N.err (by norm_num [f32]) (by rw [top32]; exact hx)
  have : ((2 : ℝ) ^ f32.emin) / 2 = 1 / 2 ^ 150 := by show (2 : ℝ) ^ (-149 : ℤ) / 2 = _; norm_num
  rw [this] at h
  exact h

theorem err64 (N : Near f64) {x : ℝ} (hx : |x| < 2 ^ 1024) : |x - N.near x| ≤ |x| / 2 ^ 53 + 1 / 2 ^ 1075 := by
  have h := N.err (by norm_num [f64]) (by rw [top64]; exact hx)
  have : ((2 : ℝ) ^ f64.emin) / 2 = 1 / 2 ^ 1075 := by
    show (2 : ℝ) ^ (-1074 : ℤ) / 2 = _
    rw [show (-1074 : ℤ) = -((1074 : ℕ) : ℤ) by norm_num, zpow_neg, zpow_natCast, show (1075 : ℕ) = 1074 + 1 by norm_num, pow_succ]
    field_simp
  rw [this] at h
  exact h

end Near

/-- `exp` varies slowly below 0. -/
theorem exp_lip {a b : ℝ} (ha : a ≤ 0) (hb : b ≤ 0) : |Real.exp a - Real.exp b| ≤ |a - b| := by
  have key : ∀ {a b : ℝ}, a ≤ b → b ≤ 0 → Real.exp b - Real.exp a ≤ b - a := by
    intro a b hab hb
    have h1 := Real.add_one_le_exp (a - b)
    have h2 : Real.exp a = Real.exp b * Real.exp (a - b) := by rw [← Real.exp_add]; ring_nf
    have h3 : Real.exp b ≤ 1 := Real.exp_le_one_iff.mpr hb
    have h4 := Real.exp_pos b
    rw [h2]
    nlinarith
  rcases le_total a b with h | h
  · have h1 := Real.exp_le_exp.mpr h
    rw [abs_sub_comm, abs_of_nonneg (by linarith), abs_sub_comm, abs_of_nonneg (by linarith)]
    exact key h hb
  · have h1 := Real.exp_le_exp.mpr h
    rw [abs_of_nonneg (by linarith), abs_of_nonneg (by linarith)]
    exact key h ha

/-- `log` varies slowly above 1. -/
theorem log_lip {a b : ℝ} (ha : 1 ≤ a) (hb : 1 ≤ b) : |Real.log a - Real.log b| ≤ |a - b| := by
  have key : ∀ {a b : ℝ}, 1 ≤ a → a ≤ b → Real.log b - Real.log a ≤ b - a := by
    intro a b ha hab
    have ha0 : 0 < a := by linarith
    have h1 := Real.log_le_sub_one_of_pos (show 0 < b / a from div_pos (by linarith) ha0)
    rw [Real.log_div (by linarith) ha0.ne'] at h1
    have h2 : b / a - 1 ≤ b - a := by
      rw [div_sub_one ha0.ne', div_le_iff₀ ha0]
      nlinarith
    linarith
  rcases le_total a b with h | h
  · have h1 := Real.log_le_log (by linarith) h
    rw [abs_sub_comm, abs_of_nonneg (by linarith), abs_sub_comm, abs_of_nonneg (by linarith)]
    exact key ha h
  · have h1 := Real.log_le_log (by linarith) h
    rw [abs_of_nonneg (by linarith), abs_of_nonneg (by linarith)]
    exact key hb h

/-- `ln(e^u + e^v)` varies at most as much as `u`. -/
theorem lse_lip (u u' v : ℝ) : |Real.log (Real.exp u + Real.exp v) - Real.log (Real.exp u' + Real.exp v)| ≤ |u - u'| := by
  have key : ∀ {a b : ℝ}, a ≤ b → Real.log (Real.exp b + Real.exp v) - Real.log (Real.exp a + Real.exp v) ≤ b - a ∧
      Real.log (Real.exp a + Real.exp v) ≤ Real.log (Real.exp b + Real.exp v) := by
    intro a b hab
    have h0 := Real.exp_pos v
    have h1 := Real.exp_pos a
    have h2 := Real.exp_le_exp.mpr hab
    refine ⟨?_, Real.log_le_log (by linarith) (by linarith)⟩
    have h3 : Real.exp b + Real.exp v ≤ Real.exp (b - a) * (Real.exp a + Real.exp v) := by
      rw [mul_add, ← Real.exp_add]
      have h4 : (1 : ℝ) ≤ Real.exp (b - a) := Real.one_le_exp (by linarith)
      have h5 : b - a + a = b := by ring
      rw [h5]
      nlinarith
    have h4 := Real.log_le_log (by linarith) h3
    rw [Real.log_mul (Real.exp_ne_zero _) (by linarith), Real.log_exp] at h4
    linarith
  rcases le_total u u' with h | h
  · obtain ⟨h1, h2⟩ := key h
    rw [abs_sub_comm, abs_of_nonneg (by linarith), abs_sub_comm, abs_of_nonneg (by linarith)]
    exact h1
  · obtain ⟨h1, h2⟩ := key h
    rw [abs_of_nonneg (by linarith), abs_of_nonneg (by linarith)]
    exact h1

end Verif
