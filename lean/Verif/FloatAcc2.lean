import Verif.FloatAcc
import Mathlib.Analysis.Calculus.MeanValue
import Mathlib.Analysis.SpecialFunctions.Trigonometric.DerivHyp

/-!
# Accuracy of sigmoid, softplus, logsumexp and softmax in f32: results
-/

set_option linter.unusedSectionVars false
set_option linter.style.haveILetI false

namespace Verif
open Fmt

/-- `tanh` varies slowly. -/
theorem tanh_lip (a b : ℝ) : |Real.tanh a - Real.tanh b| ≤ |a - b| := by
  have hd : ∀ x ∈ (Set.univ : Set ℝ), HasDerivWithinAt Real.tanh (1 - Real.tanh x ^ 2) Set.univ x := by
    intro x _
    have e : (fun x => Real.sinh x / Real.cosh x) = Real.tanh := by funext y; rw [Real.tanh_eq_sinh_div_cosh]
    have h := (Real.hasDerivAt_sinh x).div (Real.hasDerivAt_cosh x) (Real.cosh_pos x).ne'
    refine HasDerivAt.hasDerivWithinAt (HasDerivAt.congr_deriv (by rw [← e]; exact h) ?_)
    have := (Real.cosh_pos x).ne'
    rw [Real.tanh_eq_sinh_div_cosh]
    field_simp
  have h := convex_univ.norm_image_sub_le_of_norm_hasDerivWithin_le (C := 1) hd (fun x _ => by
    rw [Real.norm_eq_abs]
    have := Real.tanh_sq_lt_one x
    have := sq_nonneg (Real.tanh x)
    exact abs_le.mpr ⟨by linarith, by linarith⟩) (Set.mem_univ b) (Set.mem_univ a)
  rwa [Real.norm_eq_abs, Real.norm_eq_abs, one_mul] at h

section
variable {N : Near f32} {M : Near f64} {L : Libm f32} {W : Libm f64}

/-- Halving is exact except for the smallest numbers. -/
theorem near_half {v : ℝ} (hv : f32.Has v) : |1 / 2 * v - N.near (1 / 2 * v)| ≤ 1 / 2 ^ 150 := by
  obtain ⟨⟨m, e, h1, h2, h3, rfl⟩, h4⟩ := hv
  have h0 : (1 / 2 : ℝ) * (m * 2 ^ e) = m * (2 : ℝ) ^ (e - 1) := by rw [zpow_sub_one₀ (by norm_num)]; ring
  rw [h0]
  by_cases h5 : f32.emin ≤ e - 1
  · rw [N.near_grid (grid_mk m (e - 1) h1 h5 (by omega)), sub_self, abs_zero]; positivity
  · have he : e = -149 := by change ¬ (-149 : ℤ) ≤ e - 1 at h5; change (-149 : ℤ) ≤ e at h2; omega
    have h6 := N.err_unit (x := m * (2 : ℝ) ^ (e - 1)) (e := -149) (by norm_num [f32]) (by norm_num [f32]) (by
      rw [he, abs_mul, ← Int.cast_abs, abs_of_pos (zpow_pos (by norm_num : (0 : ℝ) < 2) _)]
      have h7 : ((|m| : ℤ) : ℝ) ≤ 2 ^ f32.prec := by exact_mod_cast h1
      exact mul_le_mul h7 (zpow_le_zpow_right₀ (by norm_num) (by norm_num)) (zpow_pos (by norm_num) _).le (by positivity))
    refine h6.trans ?_
    norm_num

/-- Sigmoid. -/
theorem sigmoid_acc (hL : L.Sane) {ε : ℝ} (hA : L.Accurate ε) {x : Fl f32} {v : ℝ} (hx : x.Is v) :
    letI := floatFlt N M L W; ∃ w, (Scalar.sigmoidFw x).Is w ∧ |w - 1 / (1 + Real.exp (-v))| ≤ ε / 2 + 1 / 2 ^ 24 + 1 / 2 ^ 148 := by
  letI := floatFlt N M L W
  have hh : (Fl.lit (1 / 2) Fl.half_ok (by norm_num) : Fl f32).Is (1 / 2) := ⟨le_rfl, le_rfl⟩
  have hv := hx.has
  have hfin : ∀ {u : ℝ}, f32.Has u → |N.near (1 / 2 * u)| < f32.top := fun {u} hu => by
    have h1 := N.near_le (g := |u|) (x := 1 / 2 * u) (by rcases abs_choice u with e | e <;> rw [e]; exacts [hu.1, hu.neg.1])
      (by have := le_abs_self u; have := abs_nonneg u; linarith)
    have h2 := N.le_near (g := -|u|) (x := 1 / 2 * u) (by rcases abs_choice u with e | e <;> rw [e]; exacts [hu.neg.1, hu.neg.neg.1])
      (by have := neg_abs_le u; have := abs_nonneg u; linarith)
    have := hu.2
    exact abs_lt.mpr ⟨by linarith, by linarith⟩
  obtain ⟨z, e⟩ := Fl.mul_eq (N := N) hh hx
  have h1 : (Fl.mul N (Fl.lit (1 / 2) Fl.half_ok (by norm_num)) x).Is (N.near (1 / 2 * v)) := by rw [e]; exact Fl.round_eq z _ (hfin hv)
  have h2 := near_half (N := N) hv
  obtain ⟨t, ht, ht'⟩ := hA.tanh _ _ h1
  obtain ⟨ht1, ht2⟩ := ht.in (hL.tanh _ (by intro hc; rw [hc] at h1; exact h1.elim))
  obtain ⟨z', e'⟩ := Fl.mul_eq (N := N) hh ht
  have h3 : (Fl.mul N (Fl.lit (1 / 2) Fl.half_ok (by norm_num)) (L.tanh (Fl.mul N (Fl.lit (1 / 2) Fl.half_ok (by norm_num)) x))).Is (N.near (1 / 2 * t)) := by
    rw [e']; exact Fl.round_eq z' _ (hfin ht.has)
  have h4 := near_half (N := N) ht.has
  have h5 := N.near_le (x := 1 / 2 * t) hasHalf.1 (by linarith)
  have h6 := N.le_near (x := 1 / 2 * t) hasHalf.neg.1 (by linarith)
  obtain ⟨z'', e''⟩ := Fl.add_eq (N := N) hh h3
  have h7 := N.near_le (x := 1 / 2 + N.near (1 / 2 * t)) has1.1 (by linarith)
  have h8 := N.le_near (x := 1 / 2 + N.near (1 / 2 * t)) has0.1 (by linarith)
  have h9 : (Scalar.sigmoidFw x).Is (N.near (1 / 2 + N.near (1 / 2 * t))) := by
    rw [show Scalar.sigmoidFw x = _ from e'']
    have := has1.2
    rw [abs_one] at this
    exact Fl.round_eq z'' _ (abs_lt.mpr ⟨by linarith, by linarith⟩)
  refine ⟨_, h9, ?_⟩
  have h10 := N.err32 (x := 1 / 2 + N.near (1 / 2 * t)) (abs_lt.mpr ⟨by linarith, by linarith⟩)
  have h11 : |1 / 2 + N.near (1 / 2 * t)| / 2 ^ 24 ≤ 1 / 2 ^ 24 :=
    div_le_div_of_nonneg_right (abs_le.mpr ⟨by linarith, by linarith⟩) (by positivity)
  have h12 : 1 / (1 + Real.exp (-v)) = 1 / 2 + 1 / 2 * Real.tanh (1 / 2 * v) := by
    rw [tanh_eq, show 2 * (1 / 2 * v) = v by ring, Real.exp_neg]
    have := Real.exp_pos v
    field_simp
    ring
  rw [h12]
  have h13 := tanh_lip (N.near (1 / 2 * v)) (1 / 2 * v)
  rw [abs_sub_comm (N.near (1 / 2 * v)) (1 / 2 * v)] at h13
  generalize N.near (1 / 2 + N.near (1 / 2 * t)) = w at *
  generalize N.near (1 / 2 * t) = p at *
  generalize N.near (1 / 2 * v) = q at *
  have h14 : w - (1 / 2 + 1 / 2 * Real.tanh (1 / 2 * v)) =
      -(1 / 2 + p - w) + (-(1 / 2 * t - p) + (1 / 2 * (t - Real.tanh q) + 1 / 2 * (Real.tanh q - Real.tanh (1 / 2 * v)))) := by ring
  rw [h14]
  have h15 := abs_add_le (-(1 / 2 + p - w)) (-(1 / 2 * t - p) + (1 / 2 * (t - Real.tanh q) + 1 / 2 * (Real.tanh q - Real.tanh (1 / 2 * v))))
  have h16 := abs_add_le (-(1 / 2 * t - p)) (1 / 2 * (t - Real.tanh q) + 1 / 2 * (Real.tanh q - Real.tanh (1 / 2 * v)))
  have h17 := abs_add_le (1 / 2 * (t - Real.tanh q)) (1 / 2 * (Real.tanh q - Real.tanh (1 / 2 * v)))
  rw [abs_mul, abs_mul, abs_of_pos (by norm_num : (0 : ℝ) < 1 / 2)] at h17
  rw [abs_neg] at h15 h16
  have h18 : (1 : ℝ) / 2 ^ 148 = 4 * (1 / 2 ^ 150) := by norm_num
  rw [h18]
  have h19 : (0 : ℝ) ≤ 1 / 2 ^ 150 := by positivity
  linarith

/-- Softplus. -/
theorem softplus_acc (hL : L.Sane) {ε : ℝ} (hA : L.Accurate ε) {x : Fl f32} {v : ℝ} (hx : x.Is v) :
    letI := floatFlt N M L W; ∃ w, (Scalar.softplusFw x).Is w ∧ |w - Real.log (1 + Real.exp v)| ≤ 2 * ε + (max 0 v + 3) / 2 ^ 24 + 1 / 2 ^ 149 := by
  letI := floatFlt N M L W
  have hh := hx.has
  obtain ⟨-, hfin⟩ := softplus_in (N := N) (M := M) (W := W) hL hh hx
  have ha : (Fl.neg (Fl.abs x)).Is (-|v|) := by
    cases x with
    | fin s u hu =>
      obtain rfl := le_antisymm hx.1 hx.2
      exact ⟨le_rfl, le_rfl⟩
    | inf s => exact hx.elim
    | nan => exact hx.elim
  obtain ⟨l, hl, hl0, hl1, hle⟩ := log1p_acc (N := N) hL (ε := ε) (η := 2 / 2 ^ 24 + 1 / 2 ^ 150) hA (fun x hx1 hx2 => by
    have hx : |x| ≤ 2 := abs_le.mpr ⟨by linarith, hx2⟩
    have := N.err32 (x := x) (lt_of_le_of_lt hx (by norm_num))
    have h := div_le_div_of_nonneg_right hx (show (0 : ℝ) ≤ 2 ^ 24 by positivity)
    linarith) (o := Fl.lit 1 Fl.one_ok zero_le_one) ⟨le_rfl, le_rfl⟩ ha (by have := abs_nonneg v; linarith) has1 has2
  have h2 : (Fl.mul N (Scalar.b2f (Fl.gt x (Fl.lit 0 Fl.zero_ok le_rfl)) : Fl f32) x).Is (max 0 v) := by
    have hz : (Fl.lit 0 Fl.zero_ok le_rfl : Fl f32).In 0 0 := ⟨le_rfl, le_rfl⟩
    have ho : (Fl.lit 1 Fl.one_ok zero_le_one : Fl f32).In 1 1 := ⟨le_rfl, le_rfl⟩
    by_cases h0 : 0 < v
    · rw [(Fl.gt_in hx hz).mpr h0, max_eq_right h0.le]
      obtain ⟨z, e⟩ := Fl.mul_eq (N := N) ho hx
      show (Fl.mul N (Fl.lit 1 Fl.one_ok zero_le_one) x).In v v
      rw [e, one_mul]
      exact Fl.round_in hh hh le_rfl le_rfl
    · have : Fl.gt x (Fl.lit 0 Fl.zero_ok le_rfl) = false := by rw [← Bool.not_eq_true, Fl.gt_in hx hz]; exact h0
      rw [this, max_eq_left (not_lt.mp h0)]
      obtain ⟨z, e⟩ := Fl.mul_eq (N := N) hz hx
      show (Fl.mul N (Fl.lit 0 Fl.zero_ok le_rfl) x).In 0 0
      rw [e, zero_mul]
      exact Fl.round_in has0 has0 le_rfl le_rfl
  obtain ⟨z, e⟩ := Fl.add_eq (N := N) hl h2
  have hm0 := le_max_left 0 v
  have hmm : max 0 v ≤ maxF32 := by
    have h3 := hh.le_max
    have h4 := le_abs_self v
    exact max_le (le_trans (abs_nonneg v) h3) (h4.trans h3)
  have hmax := (abs_lt.mp maxF32_has.2).2
  have h7 := N.near_mono (show l + max 0 v ≤ maxF32 + 1 by linarith)
  rw [near32_max] at h7
  have h8 := N.le_near has0.1 (show 0 ≤ l + max 0 v by linarith)
  have hr : (Scalar.softplusFw x).Is (N.near (l + max 0 v)) := by
    rw [show Scalar.softplusFw x = _ from e]
    exact Fl.round_eq z _ (abs_lt.mpr ⟨by linarith, by linarith⟩)
  refine ⟨_, hr, ?_⟩
  have hlt : l + max 0 v < 2 ^ 128 := by
    have : maxF32 + 1 < 2 ^ 128 := by unfold maxF32; norm_num
    linarith
  have h9 := N.err32 (x := l + max 0 v) (abs_lt.mpr ⟨by linarith, hlt⟩)
  have h10 : |l + max 0 v| / 2 ^ 24 ≤ (max 0 v + 1) / 2 ^ 24 := div_le_div_of_nonneg_right (abs_le.mpr ⟨by linarith, by linarith⟩) (by positivity)
  have h11 : Real.log (1 + Real.exp v) = max 0 v + Real.log (1 + Real.exp (-|v|)) := by
    by_cases h0 : 0 < v
    · rw [max_eq_right h0.le, abs_of_pos h0]
      have : 1 + Real.exp v = Real.exp v * (1 + Real.exp (-v)) := by rw [mul_add, ← Real.exp_add, mul_one, add_neg_cancel, Real.exp_zero, add_comm]
      rw [this, Real.log_mul (Real.exp_ne_zero _) (by positivity), Real.log_exp]
    · rw [max_eq_left (not_lt.mp h0), abs_of_nonpos (not_lt.mp h0), neg_neg, zero_add]
  rw [h11]
  generalize N.near (l + max 0 v) = w at *
  have h12 : w - (max 0 v + Real.log (1 + Real.exp (-|v|))) = -(l + max 0 v - w) + (l - Real.log (1 + Real.exp (-|v|))) := by ring
  rw [h12]
  have h13 := abs_add_le (-(l + max 0 v - w)) (l - Real.log (1 + Real.exp (-|v|)))
  rw [abs_neg] at h13
  have e1 : (max 0 v + 3) / 2 ^ 24 = (max 0 v + 1) / 2 ^ 24 + 2 / 2 ^ 24 := by ring
  have e2 : (1 : ℝ) / 2 ^ 149 = 1 / 2 ^ 150 + 1 / 2 ^ 150 := by norm_num
  rw [e1, e2]
  linarith

/-- logsumexp, with the final conversion to f32. -/
theorem lse32_acc (hW : W.Sane) {ε R : ℝ} (hA : W.Accurate ε) (r : Nat → Fl f32) (v : Nat → ℝ) (n : Nat)
    (hR : R + n + 1 ≤ 2 ^ 100) (hr : ∀ j, j ≤ n → (r j).Is (v j)) (hv : ∀ j, j ≤ n → |v j| ≤ R) (hS : n * stepErr ε (R + n + 1) ≤ 1) (hε : 0 ≤ ε) :
    letI := floatFlt N M L W
    ∃ w, (Flt.down (foldN n (fun j a => Scalar.lseStep (α := Fl f32) a (Flt.up (r (j + 1)))) (Flt.up (r 0))) : Fl f32).Is w ∧
      |w - Real.log (∑ j ∈ Finset.range (n + 1), Real.exp (v j))| ≤ lseErr ε R n := by
  letI := floatFlt N M L W
  have hR0 : 0 ≤ R := (abs_nonneg _).trans (hv 0 (by omega))
  have hn0 : (0 : ℝ) ≤ n := Nat.cast_nonneg n
  have hS0 : 0 ≤ stepErr ε (R + n + 1) := by unfold stepErr; positivity
  obtain ⟨w, h1, h2⟩ := lse_acc (N := N) (M := M) (L := L) hW hA r v n hR hr hv hS hε n le_rfl
  have h3 := lse_bounds n v R hv
  generalize Real.log (∑ j ∈ Finset.range (n + 1), Real.exp (v j)) = Λ at *
  show ∃ w, Fl.Is (Fl.narrow N _) w ∧ _
  generalize (foldN n (fun j a => Scalar.lseStep (α := Fl f32) a (Flt.up (r (j + 1)))) (Flt.up (r 0)) : Flt.Wide (Fl f32)) = t at *
  change Fl f64 at t
  have hw : |w| ≤ R + n + n * stepErr ε (R + n + 1) := by
    have := abs_sub_abs_le_abs_sub w Λ
    linarith
  have hw' : |w| ≤ 2 ^ 100 := by linarith
  have hP : f32.Has (2 ^ 100) := ⟨grid_nat 1 100 (by norm_num) (by norm_num [f32]) (by norm_num [f32]) (by norm_num [f32]), by rw [top32, abs_of_pos (by positivity)]; norm_num⟩
  have h4 : (Fl.narrow N t).Is (N.near w) := by
    cases t with
    | fin s u hu =>
      obtain rfl := le_antisymm h1.1 h1.2
      have h5 := N.near_le hP.1 (abs_le.mp hw').2
      have h6 := N.le_near hP.neg.1 (abs_le.mp hw').1
      have h7 := (abs_lt.mp hP.2).2
      exact Fl.round_eq s _ (abs_lt.mpr ⟨by linarith, by linarith⟩)
    | inf s => exact h1.elim
    | nan => exact h1.elim
  refine ⟨_, h4, ?_⟩
  have h5 := N.err32 (x := w) (lt_of_le_of_lt hw' (by norm_num))
  have h6 : |w| / 2 ^ 24 ≤ (R + n + n * stepErr ε (R + n + 1)) / 2 ^ 24 := div_le_div_of_nonneg_right hw (by positivity)
  have h7 := abs_sub_le (N.near w) w Λ
  rw [abs_sub_comm (N.near w) w] at h7
  unfold lseErr
  have h8 : (0 : ℝ) ≤ n * stepErr ε (R + n + 1) := mul_nonneg hn0 hS0
  generalize (n : ℝ) * stepErr ε (R + n + 1) = Q at *
  have e1 : (R + n + Q) / 2 ^ 24 = (R + n) / 2 ^ 24 + Q / 2 ^ 24 := by ring
  have e2 : Q / 2 ^ 24 ≤ Q := div_le_self h8 (by norm_num)
  linarith

/-- `x - logsumexp`. -/
theorem lnSoftmax_acc {ε R Λ : ℝ} {n : Nat} {x y : Fl f32} {v w : ℝ} (hx : x.Is v) (hy : y.Is w) (hv : |v| ≤ R) (hΛ : |Λ| ≤ R + n)
    (hw : |w - Λ| ≤ lseErr ε R n) (hR : R + n ≤ 2 ^ 100) (hE : lseErr ε R n ≤ 2 ^ 100) :
    ∃ z, (Fl.sub N x y).Is z ∧ |z - (v - Λ)| ≤ lnErr ε R n := by
  have hR0 : 0 ≤ R := (abs_nonneg _).trans hv
  have hn0 : (0 : ℝ) ≤ n := Nat.cast_nonneg n
  have hE0 : 0 ≤ lseErr ε R n := (abs_nonneg _).trans hw
  obtain ⟨s, e⟩ := Fl.sub_eq (N := N) hx hy
  have hd : |v - w| ≤ 2 * R + n + lseErr ε R n := by
    obtain ⟨a1, a2⟩ := abs_le.mp hv
    obtain ⟨a3, a4⟩ := abs_le.mp hΛ
    obtain ⟨a5, a6⟩ := abs_le.mp hw
    exact abs_le.mpr ⟨by linarith, by linarith⟩
  have hd' : |v - w| ≤ 2 ^ 102 := by
    have : (2 : ℝ) ^ 102 = 4 * 2 ^ 100 := by norm_num
    linarith
  have hP : f32.Has (2 ^ 102) := ⟨grid_nat 1 102 (by norm_num) (by norm_num [f32]) (by norm_num [f32]) (by norm_num [f32]), by rw [top32, abs_of_pos (by positivity)]; norm_num⟩
  have h5 := N.near_le hP.1 (abs_le.mp hd').2
  have h6 := N.le_near hP.neg.1 (abs_le.mp hd').1
  have h7 := (abs_lt.mp hP.2).2
  rw [e]
  refine ⟨_, Fl.round_eq s _ (abs_lt.mpr ⟨by linarith, by linarith⟩), ?_⟩
  have h8 := N.err32 (x := v - w) (lt_of_le_of_lt hd' (by norm_num))
  have h9 : |v - w| / 2 ^ 24 ≤ (2 * R + n + lseErr ε R n) / 2 ^ 24 := div_le_div_of_nonneg_right hd (by positivity)
  generalize N.near (v - w) = z at *
  have h10 : z - (v - Λ) = -(v - w - z) + -(w - Λ) := by ring
  have h11 := abs_add_le (-(v - w - z)) (-(w - Λ))
  rw [h10]
  rw [abs_neg, abs_neg] at h11
  unfold lnErr
  generalize lseErr ε R n = Q at *
  have e1 : (2 * R + n + Q) / 2 ^ 24 = (2 * R + n) / 2 ^ 24 + Q / 2 ^ 24 := by ring
  have e2 : Q / 2 ^ 24 ≤ Q := div_le_self hE0 (by norm_num)
  linarith

end
end Verif
