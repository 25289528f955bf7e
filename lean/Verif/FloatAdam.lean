import Verif.FloatGap
import Verif.FloatOpt
import Verif.PropsFloat4

/-!
# The arithmetic of Adam in f32
-/

set_option linter.unusedSectionVars false

namespace Verif
open Fmt
namespace Fl
variable {N : Near f32} {x y g r b c m e : Fl f32} {A B C v w γ : ℝ}

/-- Products of numbers of bounded magnitude. -/
theorem mul_mag (hx : x.In (-A) A) (hy : y.In (-B) B) (hC : f32.Has C) (h : A * B ≤ C) : (mul N x y).In (-C) C := by
  obtain ⟨u, _, hu, u1, u2⟩ := hx.exists_in
  obtain ⟨t, _, ht, t1, t2⟩ := hy.exists_in
  obtain ⟨z, e⟩ := mul_eq (N := N) hu ht
  rw [e]
  have h1 : |u * t| ≤ C := by
    rw [abs_mul]
    exact (mul_le_mul (abs_le.mpr ⟨u1, u2⟩) (abs_le.mpr ⟨t1, t2⟩) (abs_nonneg _) (by linarith)).trans h
  exact round_in hC.neg hC (abs_le.mp h1).1 (abs_le.mp h1).2

/-- Quotients by numbers that are not small. -/
theorem div_mag (hx : x.In (-A) A) (hy : y.In B 1) (hB : 0 < B) (hC : f32.Has C) (h : A / B ≤ C) : (div N x y).In (-C) C := by
  obtain ⟨u, _, hu, u1, u2⟩ := hx.exists_in
  obtain ⟨t, _, ht, t1, t2⟩ := hy.exists_in
  have t0 : 0 < t := lt_of_lt_of_le hB t1
  obtain ⟨z, e⟩ := div_is (N := N) hu ht t0.ne'
  rw [e]
  have h1 : |u / t| ≤ C := by
    rw [abs_div, abs_of_pos t0]
    exact (div_le_div₀ (by linarith) (abs_le.mpr ⟨u1, u2⟩) hB t1).trans h
  exact round_in hC.neg hC (abs_le.mp h1).1 (abs_le.mp h1).2

theorem hasBig : f32.Has (2 ^ 100 - 2 ^ 80) :=
  ⟨grid_nat (2 ^ 20 - 1) 80 (by norm_num) (by norm_num [f32]) (by norm_num [f32]) (by norm_num [f32]), by rw [top32, abs_lt]; constructor <;> norm_num⟩

theorem hasTwo (k : ℕ) (h2 : k ≤ 104) : f32.Has ((2 : ℝ) ^ k) := by
  have := has_pow k (by omega) (by exact_mod_cast h2)
  rwa [zpow_natCast] at this

/-- The first moment stays within `2^100` when the gradients are within `2^80`. -/
theorem moment_in (hx : x.In (-2 ^ 100) (2 ^ 100)) (hg : g.In (-2 ^ 80) (2 ^ 80)) (hb : b.In 0 (1 - 1 / 2 ^ 20)) (hr : r.In 0 1) :
    (add N (mul N x b) (mul N g r)).In (-2 ^ 100) (2 ^ 100) := by
  have h1 : (mul N x b).In (-(2 ^ 100 - 2 ^ 80)) (2 ^ 100 - 2 ^ 80) :=
    mul_mag hx (hb.mono (c := -(1 - 1 / 2 ^ 20)) (by norm_num) le_rfl) hasBig (by norm_num)
  have h2 : (mul N g r).In (-(2 ^ 80)) (2 ^ 80) := mul_mag hg (hr.mono (c := -1) (by norm_num) le_rfl) (hasTwo 80 (by norm_num)) (by norm_num)
  exact add_in h1 h2 (hasTwo 100 (by norm_num)).neg (hasTwo 100 (by norm_num)) (by norm_num) (by norm_num)

/-- The square of the gradient, times `1 - beta2`, is not negative. -/
theorem square_nonneg (hg : g.Is γ) (hr : r.In (1 / 2 ^ 20) 1) : (mul N (mul N g r) g).NonNeg := by
  have h1 := mul_shrink (N := N) hg (hr.mono (c := 0) (by positivity) le_rfl)
  obtain ⟨t, _, ht, t1, t2⟩ := h1.exists_in
  obtain ⟨z, e⟩ := mul_eq (N := N) ht hg
  rw [e]
  refine round_nonneg _ ?_
  rcases le_total 0 γ with h | h
  · rw [min_eq_left h] at t1; exact mul_nonneg t1 h
  · rw [max_eq_left h] at t2; exact mul_nonneg_of_nonpos_of_nonpos t2 h

/-- It overflows when the gradient is large. -/
theorem square_inf (hg : g.Is γ) (h1 : 2 ^ 75 ≤ |γ|) (h2 : |γ| ≤ 2 ^ 80) (hr : r.In (1 / 2 ^ 20) 1) : mul N (mul N g r) g = inf false := by
  obtain ⟨ρ, _, hρ, r1, r2⟩ := hr.exists_in
  obtain ⟨z, e⟩ := mul_eq (N := N) hg hρ
  have hw : ∃ w, (mul N g r).Is w ∧ 2 ^ 55 ≤ |w| ∧ 0 ≤ w * γ := by
    rw [e]
    rcases le_total 0 γ with h | h
    · rw [abs_of_nonneg h] at h1 h2
      obtain ⟨t, _, ht, t1, t2⟩ := (round_in (N := N) (z := z) (v := γ * ρ) (hasTwo 55 (by norm_num)) (hasTwo 80 (by norm_num))
        (by nlinarith) (by nlinarith)).exists_in
      exact ⟨t, ht, t1.trans (le_abs_self t), mul_nonneg (by linarith [show (0 : ℝ) < 2 ^ 55 by positivity]) h⟩
    · rw [abs_of_nonpos h] at h1 h2
      obtain ⟨t, _, ht, t1, t2⟩ := (round_in (N := N) (z := z) (v := γ * ρ) (hasTwo 80 (by norm_num)).neg (hasTwo 55 (by norm_num)).neg
        (by nlinarith) (by nlinarith)).exists_in
      exact ⟨t, ht, by linarith [neg_abs_le t], mul_nonneg_of_nonpos_of_nonpos (by linarith [show (0 : ℝ) < 2 ^ 55 by positivity]) h⟩
  obtain ⟨w, hw, w1, w2⟩ := hw
  obtain ⟨z', e'⟩ := mul_eq (N := N) hw hg
  rw [e']
  have hgr : ((2 : ℝ) ^ 128) ∈ f32.grid := grid_nat (2 ^ 24) 104 (by norm_num) (by norm_num [f32]) (by norm_num [f32]) (by norm_num [f32])
  have hbig : (2 : ℝ) ^ 128 ≤ w * γ := by
    rw [← abs_of_nonneg w2, abs_mul]
    have := mul_le_mul w1 h1 (by positivity) (abs_nonneg _)
    norm_num at this ⊢
    linarith
  have h3 := N.le_near hgr hbig
  unfold round
  rw [dif_neg (by rw [top32, not_lt]; exact h3.trans (le_abs_self _)), decide_eq_false (not_lt.mpr (le_trans (by positivity) h3))]

theorem mul_nonneg' (hx : x.NonNeg) (hb : b.Is w) (hw : 0 < w) : (mul N x b).NonNeg ∧ (x = inf false → mul N x b = inf false) := by
  cases b with
  | nan => exact hb.elim
  | inf t => exact hb.elim
  | fin t u hu =>
    have hu0 : 0 < u := lt_of_lt_of_le hw hb.1
    have ht : t = false := by
      cases t with
      | false => rfl
      | true => exact absurd (hu.2.2.1 rfl) (by linarith)
    cases x with
    | nan => exact hx.elim
    | fin s k hk => exact ⟨round_nonneg _ (mul_nonneg hx hu0.le), fun h => by cases h⟩
    | inf s =>
      obtain rfl : s = false := hx
      have : mul N (inf false) (fin t u hu) = inf false := by
        simp only [mul]
        rw [if_neg hu0.ne', ht]
        rfl
      exact ⟨by rw [this]; rfl, fun _ => this⟩

theorem div_nonneg' (hx : x.NonNeg) (hb : b.In A 1) (hA : 0 < A) : (div N x b).NonNeg ∧ (x = inf false → div N x b = inf false) := by
  cases b with
  | nan => exact hb.elim
  | inf t => exact hb.elim
  | fin t u hu =>
    have hu0 : 0 < u := lt_of_lt_of_le hA hb.1
    have ht : t = false := by
      cases t with
      | false => rfl
      | true => exact absurd (hu.2.2.1 rfl) (by linarith)
    cases x with
    | nan => exact hx.elim
    | fin s k hk =>
      have : div N (fin s k hk) (fin t u hu) = round N (s ^^ t) (k / u) := by simp only [div]; rw [if_neg hu0.ne']
      rw [this]
      exact ⟨round_nonneg _ (div_nonneg hx hu0.le), fun h => by cases h⟩
    | inf s =>
      obtain rfl : s = false := hx
      have : div N (inf false) (fin t u hu) = inf false := by
        simp only [div]
        rw [ht]
        rfl
      exact ⟨by rw [this]; rfl, fun _ => this⟩

theorem sqrt_nonneg' (hx : x.NonNeg) : (sqrt N x).NonNeg ∧ (x = inf false → sqrt N x = inf false) := by
  cases x with
  | nan => exact hx.elim
  | fin s k hk =>
    have : sqrt N (fin s k hk) = round N s (Real.sqrt k) := by simp only [sqrt]; rw [if_neg (not_lt.mpr hx)]
    rw [this]
    exact ⟨round_nonneg _ (Real.sqrt_nonneg k), fun h => by cases h⟩
  | inf s =>
    obtain rfl : s = false := hx
    exact ⟨rfl, fun _ => rfl⟩

/-- Infinite, or finite and positive. -/
def Above (x : Fl f32) : Prop := x = inf false ∨ ∃ w, x.Is w ∧ 0 < w

theorem add_pos' (hx : x.NonNeg) (he : e.Is w) (hw : 0 < w) : (add N x e).Above := by
  cases x with
  | nan => exact hx.elim
  | inf s =>
    obtain rfl : s = false := hx
    cases e with
    | nan => exact he.elim
    | inf t => exact he.elim
    | fin t u hu => exact .inl rfl
  | fin s k hk =>
    obtain ⟨z, e'⟩ := add_eq (N := N) (x := fin s k hk) (u := k) ⟨le_rfl, le_rfl⟩ he
    rw [e']
    have h1 : w ≤ N.near (k + w) := N.le_near (Appr.has_of_is he).1 (by have : 0 ≤ k := hx; linarith)
    unfold round
    split
    · split
      · exact .inr ⟨_, ⟨le_rfl, le_rfl⟩, by linarith⟩
      · exact .inr ⟨_, ⟨le_rfl, le_rfl⟩, by linarith⟩
    · left
      rw [decide_eq_false (not_lt.mpr (by linarith))]

/-- A finite number divided by a positive one. -/
theorem div_pos' (hx : x.Is v) (hy : y.Above) : div N x y ≠ nan ∧ (y = inf false → (div N x y).Is 0) := by
  rcases hy with rfl | ⟨w, hw, w0⟩
  · cases x with
    | nan => exact hx.elim
    | inf s => exact hx.elim
    | fin s u hu => exact ⟨round_ne_nan _ _, fun _ => round_in has0 has0 le_rfl le_rfl⟩
  · obtain ⟨z, e⟩ := div_is (N := N) hx hw w0.ne'
    rw [e]
    refine ⟨round_ne_nan _ _, fun h => ?_⟩
    rw [h] at hw
    exact hw.elim

theorem sub_zero_is (hx : x.Is v) (hy : y.Is 0) : (sub N x y).Is v := by
  obtain ⟨z, e⟩ := sub_eq (N := N) hx hy
  rw [e, sub_zero]
  exact round_in (Appr.has_of_is hx) (Appr.has_of_is hx) le_rfl le_rfl

/-- What an update of Adam leaves of an element: the rate is `r`, the corrections are `c` and `c'`. -/
theorem adam_value {c' : Fl f32} (hx : x.Is v) (hm : m.In (-2 ^ 100) (2 ^ 100)) (hy : y.NonNeg) (hc : c.In (1 / 2 ^ 20) 1) (hc' : c'.In (1 / 2 ^ 20) 1)
    (hr : r.In (-1) 1) (he : e.Is w) (hw : 0 < w) :
    sub N x (div N (mul N (div N m c) r) (add N (sqrt N (div N y c')) e)) ≠ nan ∧
      (y = inf false → (sub N x (div N (mul N (div N m c) r) (add N (sqrt N (div N y c')) e))).Is v) := by
  have h120 : f32.Has (2 ^ 120) := ⟨grid_nat (2 ^ 16) 104 (by norm_num) (by norm_num [f32]) (by norm_num [f32]) (by norm_num [f32]), by rw [top32, abs_lt]; constructor <;> norm_num⟩
  have h1 : (div N m c).In (-2 ^ 120) (2 ^ 120) := div_mag hm hc (by positivity) h120 (by norm_num)
  have h2 : (mul N (div N m c) r).In (-2 ^ 120) (2 ^ 120) := mul_mag h1 hr h120 (by norm_num)
  obtain ⟨u, _, hu, _, _⟩ := h2.exists_in
  obtain ⟨d1, d2⟩ := div_nonneg' (N := N) hy hc' (by positivity)
  obtain ⟨s1, s2⟩ := sqrt_nonneg' (N := N) d1
  have hp := add_pos' (N := N) s1 he hw
  obtain ⟨q1, q2⟩ := div_pos' (N := N) hu hp
  refine ⟨(sub_side hx q1).1, fun h => sub_zero_is hx (q2 ?_)⟩
  rw [s2 (d2 h), inf_add (he.nonneg hw.le)]

/-- Zero times a finite number. -/
theorem mul_zero_in (hx : x.Is 0) (hy : y.In A B) : (mul N x y).Is 0 := by
  obtain ⟨t, _, ht, _, _⟩ := hy.exists_in
  obtain ⟨z, e⟩ := mul_eq (N := N) hx ht
  rw [e, zero_mul]
  exact round_in has0 has0 le_rfl le_rfl

theorem add_zeros (hx : x.Is 0) (hy : y.Is 0) : (add N x y).Is 0 := by
  obtain ⟨z, e⟩ := add_eq (N := N) hx hy
  rw [e, add_zero]
  exact round_in has0 has0 le_rfl le_rfl

theorem div_zero_in (hx : x.Is 0) (hy : y.In A B) (hA : 0 < A) : (div N x y).Is 0 := by
  obtain ⟨t, _, ht, h1, _⟩ := hy.exists_in
  obtain ⟨z, e⟩ := div_is (N := N) hx ht (lt_of_lt_of_le hA h1).ne'
  rw [e, zero_div]
  exact round_in has0 has0 le_rfl le_rfl

theorem sub_nan (x : Fl f32) : sub N x nan = nan := by cases x <;> rfl

theorem div_zeros (hx : x.Is 0) (hy : y.Is 0) : div N x y = nan := by
  cases x with
  | nan => exact hx.elim
  | inf s => exact hx.elim
  | fin s u hu =>
    cases y with
    | nan => exact hy.elim
    | inf s => exact hy.elim
    | fin t k hk =>
      simp only [div]
      rw [if_pos (le_antisymm hy.2 hy.1), if_pos (le_antisymm hx.2 hx.1)]

/-- Adam without `eps`, with statistics that are zero. -/
theorem adam_zero {c' : Fl f32} (hm : m.Is 0) (hy : y.Is 0) (hc : c.In (1 / 2 ^ 20) 1) (hc' : c'.In (1 / 2 ^ 20) 1) (hr : r.In (-1) 1) (he : e.Is 0) :
    sub N x (div N (mul N (div N m c) r) (add N (sqrt N (div N y c')) e)) = nan := by
  have h1 : (mul N (div N m c) r).Is 0 := mul_zero_in (div_zero_in hm hc (by positivity)) hr
  have h2 := sqrt_is (N := N) (div_zero_in (N := N) hy hc' (by positivity)) le_rfl
  rw [Real.sqrt_zero, N.near_grid has0.1] at h2
  rw [div_zeros h1 (add_zeros h2 he), sub_nan]

end Fl
end Verif
