import Verif.FloatInst

/-!
# Bounds on results of IEEE operations
-/

set_option linter.unusedSectionVars false

namespace Verif

/-- A finite number of the format. -/
def Fmt.Has (F : Fmt) (a : ℝ) : Prop := a ∈ F.grid ∧ |a| < F.top

namespace Fmt
variable {F : Fmt} {a : ℝ}
theorem Has.neg (h : F.Has a) : F.Has (-a) := ⟨grid_neg h.1, by rw [abs_neg]; exact h.2⟩
theorem Has.up (h : f32.Has a) : f64.Has a := ⟨grid_up h.1, h.2.trans top_lt⟩
theorem has0 : f32.Has 0 := Fl.zero_ok
theorem has1 : f32.Has 1 := Fl.one_ok
theorem hasHalf : f32.Has (1 / 2) := Fl.half_ok
theorem has2 : f32.Has 2 := ⟨grid_nat 2 0 (by norm_num) (by norm_num [f32]) (by norm_num [f32]) (by norm_num [f32]), by rw [top32]; norm_num⟩
end Fmt

namespace Near
variable {F : Fmt} (N : Near F)

/-- Adding 1 to a large number changes nothing. -/
theorem absorb {B : ℝ} {b : ℤ} {j : ℕ} (hB : B ∈ F.grid) (hb : B = b * 2 ^ j) (hj : 2 ≤ j) (hlt : (2 : ℝ) ^ F.prec * 2 ^ (j - 1) < B) : N.near (B + 1) = B := by
  have h1 := N.best (B + 1) B hB
  have h2 := N.le_near hB (show B ≤ B + 1 by linarith)
  obtain ⟨m, e, hm, -, -, he⟩ := N.mem (B + 1)
  generalize N.near (B + 1) = g at *
  have h3 : g ≤ B + 2 := by
    rw [show B + 1 - B = 1 by ring, abs_one] at h1
    linarith [(abs_le.mp h1).1]
  have hj' : (j : ℤ) ≤ e := by
    by_contra hc
    have hc : e ≤ ((j - 1 : ℕ) : ℤ) := by omega
    have h4 : (2 : ℝ) ^ e ≤ 2 ^ (j - 1) := by
      have := zpow_le_zpow_right₀ (show (1 : ℝ) ≤ 2 by norm_num) hc
      rwa [zpow_natCast] at this
    have h5 : (m : ℝ) ≤ 2 ^ F.prec := by
      have := (le_abs_self m).trans hm
      exact_mod_cast this
    have h6 : g ≤ 2 ^ F.prec * 2 ^ (j - 1) := by
      rw [he]
      exact mul_le_mul h5 h4 (zpow_pos (by norm_num) _).le (by positivity)
    linarith
  obtain ⟨k, hk⟩ := Int.eq_ofNat_of_zero_le (show 0 ≤ e - j by omega)
  have hg : g = (m * 2 ^ k : ℤ) * (2 : ℝ) ^ j := by
    rw [he, show e = ((k + j : ℕ) : ℤ) by push_cast; omega, zpow_natCast, pow_add]
    push_cast; ring
  generalize m * 2 ^ k = q at hg
  have h4 : (4 : ℝ) ≤ 2 ^ j := by
    calc (4 : ℝ) = 2 ^ 2 := by norm_num
      _ ≤ _ := pow_le_pow_right₀ (by norm_num) hj
  have h5 : q = b := by
    have h6 : ¬ (b + 1 ≤ q) := fun h => by
      have : (b : ℝ) + 1 ≤ q := by exact_mod_cast h
      have := mul_le_mul_of_nonneg_right this (show (0 : ℝ) ≤ 2 ^ j by positivity)
      rw [← hg, add_mul, ← hb] at this
      linarith
    have h7 : ¬ (q < b) := fun h => by
      have h : q + 1 ≤ b := h
      have : (q : ℝ) + 1 ≤ b := by exact_mod_cast h
      have := mul_le_mul_of_nonneg_right this (show (0 : ℝ) ≤ 2 ^ j by positivity)
      rw [← hb, add_mul, ← hg] at this
      linarith
    omega
  rw [hg, h5, ← hb]

end Near

namespace Fl
variable {F : Fmt} {N : Near F} {x y : Fl F} {a b c d : ℝ}

theorem In.mono (h : x.In a b) (h1 : c ≤ a) (h2 : b ≤ d) : x.In c d := by
  cases x with
  | fin s v hv => exact ⟨h1.trans h.1, h.2.trans h2⟩
  | inf s => exact h.elim
  | nan => exact h.elim

theorem In.finite (h : x.In a b) : x.Finite := by
  cases x with
  | fin s v hv => trivial
  | inf s => exact h.elim
  | nan => exact h.elim

/-- The number a finite value stands for. -/
theorem Finite.exists_in (h : x.Finite) : ∃ v, F.Has v ∧ x.In v v := by
  cases x with
  | fin s v hv => exact ⟨v, ⟨hv.1, hv.2.1⟩, le_rfl, le_rfl⟩
  | inf s => exact h.elim
  | nan => exact h.elim

theorem In.exists_in (h : x.In a b) : ∃ v, F.Has v ∧ x.In v v ∧ a ≤ v ∧ v ≤ b := by
  cases x with
  | fin s v hv => exact ⟨v, ⟨hv.1, hv.2.1⟩, ⟨le_rfl, le_rfl⟩, h⟩
  | inf s => exact h.elim
  | nan => exact h.elim

theorem round_eq (z : Bool) (v : ℝ) (h : |N.near v| < F.top) : (round N z v).In (N.near v) (N.near v) := by
  unfold round
  rw [dif_pos h]
  split <;> exact ⟨le_rfl, le_rfl⟩

/-- A bound that does not overflow. -/
theorem round_in {z : Bool} {v : ℝ} (ha : F.Has a) (hb : F.Has b) (h1 : a ≤ v) (h2 : v ≤ b) : (round N z v).In a b := by
  have h3 := N.le_near ha.1 h1
  have h4 := N.near_le hb.1 h2
  have h5 := (abs_lt.mp ha.2).1
  have h6 := (abs_lt.mp hb.2).2
  exact (round_eq z v (abs_lt.mpr ⟨by linarith, by linarith⟩)).mono h3 h4

theorem round_in' {z : Bool} {v : ℝ} (ha : F.Has a) (hb : F.Has b) (h1 : a ≤ v) (h2 : N.near v ≤ b) : (round N z v).In a b := by
  have h3 := N.le_near ha.1 h1
  have h5 := (abs_lt.mp ha.2).1
  have h6 := (abs_lt.mp hb.2).2
  exact (round_eq z v (abs_lt.mpr ⟨by linarith, by linarith⟩)).mono h3 h2

theorem round_ne_nan (z : Bool) (v : ℝ) : round N z v ≠ nan := by
  unfold round
  split
  · split <;> nofun
  · nofun

theorem neg_in (h : x.In a b) : (neg x).In (-b) (-a) := by
  cases x with
  | fin s v hv => exact ⟨neg_le_neg h.2, neg_le_neg h.1⟩
  | inf s => exact h.elim
  | nan => exact h.elim

theorem abs_in (h : x.Finite) : ∃ v, (abs x).In v v ∧ 0 ≤ v := by
  cases x with
  | fin s v hv => exact ⟨|v|, ⟨le_rfl, le_rfl⟩, abs_nonneg v⟩
  | inf s => exact h.elim
  | nan => exact h.elim

/-- The sum of two finite values is the rounded exact sum. -/
theorem add_eq {u v : ℝ} (hx : x.In u u) (hy : y.In v v) : ∃ z, add N x y = round N z (u + v) := by
  cases x with
  | fin s a' ha =>
    cases y with
    | fin t b' hb =>
      obtain rfl := le_antisymm hx.1 hx.2
      obtain rfl := le_antisymm hy.1 hy.2
      exact ⟨_, rfl⟩
    | inf s => exact hy.elim
    | nan => exact hy.elim
  | inf s => exact hx.elim
  | nan => exact hx.elim

theorem add_in (hx : x.In a b) (hy : y.In c d) {l u : ℝ} (hl : F.Has l) (hu : F.Has u) (h1 : l ≤ a + c) (h2 : b + d ≤ u) : (add N x y).In l u := by
  obtain ⟨v, -, hv, h3, h4⟩ := hx.exists_in
  obtain ⟨w, -, hw, h5, h6⟩ := hy.exists_in
  obtain ⟨z, e⟩ := add_eq (N := N) hv hw
  rw [e]
  exact round_in hl hu (by linarith) (by linarith)

theorem sub_eq {u v : ℝ} (hx : x.In u u) (hy : y.In v v) : ∃ z, sub N x y = round N z (u - v) := by
  unfold sub
  rw [sub_eq_add_neg]
  exact add_eq hx (neg_in hy)

theorem sub_in (hx : x.In a b) (hy : y.In c d) {l u : ℝ} (hl : F.Has l) (hu : F.Has u) (h1 : l ≤ a - d) (h2 : b - c ≤ u) : (sub N x y).In l u :=
  add_in hx (neg_in hy) hl hu (by linarith) (by linarith)

theorem mul_eq {u v : ℝ} (hx : x.In u u) (hy : y.In v v) : ∃ z, mul N x y = round N z (u * v) := by
  cases x with
  | fin s a' ha =>
    cases y with
    | fin t b' hb =>
      obtain rfl := le_antisymm hx.1 hx.2
      obtain rfl := le_antisymm hy.1 hy.2
      exact ⟨_, rfl⟩
    | inf s => exact hy.elim
    | nan => exact hy.elim
  | inf s => exact hx.elim
  | nan => exact hx.elim

theorem widen_in {x : Fl f32} : (widen x).In a b ↔ x.In a b := by cases x <;> rfl

theorem narrow_in {N : Near f32} {x : Fl f64} (h : x.In a b) (ha : f32.Has a) (hb : f32.Has b) : (narrow N x).In a b := by
  cases x with
  | fin s v hv => exact round_in ha hb h.1 h.2
  | inf s => exact h.elim
  | nan => exact h.elim

theorem In.nonPos (h : x.In a b) (hb : b ≤ 0) : x.NonPos := by
  cases x with
  | fin s v hv => exact h.2.trans hb
  | inf s => exact h.elim
  | nan => exact h.elim

theorem gt_in {u v : ℝ} (hx : x.In u u) (hy : y.In v v) : gt x y = true ↔ v < u := by
  cases x with
  | fin s a' ha =>
    cases y with
    | fin t b' hb =>
      obtain rfl := le_antisymm hx.1 hx.2
      obtain rfl := le_antisymm hy.1 hy.2
      exact decide_eq_true_iff
    | inf s => exact hy.elim
    | nan => exact hy.elim
  | inf s => exact hx.elim
  | nan => exact hx.elim

theorem le_in {u v : ℝ} (hx : x.In u u) (hy : y.In v v) : le x y = true ↔ u ≤ v := by
  unfold le
  rw [Bool.or_eq_true, gt_in hy hx, le_iff_lt_or_eq]
  refine or_congr Iff.rfl ?_
  cases x with
  | fin s a' ha =>
    cases y with
    | fin t b' hb =>
      obtain rfl := le_antisymm hx.1 hx.2
      obtain rfl := le_antisymm hy.1 hy.2
      exact decide_eq_true_iff
    | inf s => exact hy.elim
    | nan => exact hy.elim
  | inf s => exact hx.elim
  | nan => exact hx.elim

end Fl
end Verif
