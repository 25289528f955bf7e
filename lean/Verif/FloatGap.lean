import Verif.FloatAct
import Verif.FloatOrder
import Verif.FloatErr

/-!
# Neighbouring floats, and sums that do not change
-/

set_option linter.unusedSectionVars false

namespace Verif
open Fmt

namespace Fmt
variable {F : Fmt}

/-- A number that is a whole multiple of a power of two and not zero is at least that power. -/
theorem mult_ge {x : ℝ} {e : ℤ} {k : ℤ} (h : x = k * (2 : ℝ) ^ e) (h0 : x ≠ 0) : (2 : ℝ) ^ e ≤ |x| := by
  have hp : (0 : ℝ) < (2 : ℝ) ^ e := by positivity
  have hk : k ≠ 0 := by rintro rfl; simp at h; exact h0 h
  have h1 : (1 : ℝ) ≤ |(k : ℝ)| := by exact_mod_cast Int.one_le_abs hk
  rw [h, abs_mul, abs_of_pos hp]
  nlinarith

/-- A multiple of a power of two is one of every smaller power. -/
theorem mult_lower (m : ℤ) {e e' : ℤ} (h : e' ≤ e) : ∃ k : ℤ, (m : ℝ) * (2 : ℝ) ^ e = k * (2 : ℝ) ^ e' := by
  refine ⟨m * 2 ^ (e - e').toNat, ?_⟩
  push_cast
  rw [mul_assoc, ← zpow_natCast, ← zpow_add₀ (by norm_num), Int.toNat_of_nonneg (by omega)]
  congr 2
  ring

/-- Different numbers of the format are at least `|g| / 2^prec` apart. -/
theorem grid_gap (hp : 1 ≤ F.prec) {g g' : ℝ} (h : g ∈ F.grid) (h' : g' ∈ F.grid) (hne : g ≠ g') : |g| / 2 ^ F.prec ≤ |g - g'| := by
  obtain ⟨m, e, h1, h2, h3, rfl⟩ := h
  obtain ⟨m', e', h1', h2', h3', rfl⟩ := h'
  have hP : (0 : ℝ) < 2 ^ F.prec := by positivity
  have hE : (0 : ℝ) < (2 : ℝ) ^ e := by positivity
  have hE' : (0 : ℝ) < (2 : ℝ) ^ e' := by positivity
  have b1 : |(m : ℝ)| ≤ 2 ^ F.prec := by exact_mod_cast h1
  have b1' : |(m' : ℝ)| ≤ 2 ^ F.prec := by exact_mod_cast h1'
  have hg : |(m : ℝ) * (2 : ℝ) ^ e| / 2 ^ F.prec ≤ (2 : ℝ) ^ e := by
    rw [div_le_iff₀ hP, abs_mul, abs_of_pos hE, mul_comm]
    exact mul_le_mul_of_nonneg_left b1 hE.le
  have hsub : (m : ℝ) * (2 : ℝ) ^ e - m' * (2 : ℝ) ^ e' ≠ 0 := sub_ne_zero.mpr hne
  rcases le_or_gt e e' with he | he
  · obtain ⟨k, hk⟩ := mult_lower m' he
    exact hg.trans (mult_ge (k := m - k) (by rw [hk]; push_cast; ring) hsub)
  · obtain ⟨k, hk⟩ := mult_lower m he.le
    have hlow : (2 : ℝ) ^ e' ≤ |(m : ℝ) * (2 : ℝ) ^ e - m' * (2 : ℝ) ^ e'| := mult_ge (k := k - m') (by rw [hk]; push_cast; ring) hsub
    by_cases hb : |(m : ℝ) * (2 : ℝ) ^ e| ≤ 2 ^ F.prec * (2 : ℝ) ^ e'
    · refine le_trans ?_ hlow
      rw [div_le_iff₀ hP]; linarith
    · have hb := not_le.mp hb
      have hg' : |(m' : ℝ) * (2 : ℝ) ^ e'| ≤ 2 ^ F.prec * (2 : ℝ) ^ e' := by
        rw [abs_mul, abs_of_pos hE']
        exact mul_le_mul_of_nonneg_right b1' hE'.le
      have hdiff : |(m : ℝ) * (2 : ℝ) ^ e| - 2 ^ F.prec * (2 : ℝ) ^ e' ≤ |(m : ℝ) * (2 : ℝ) ^ e - m' * (2 : ℝ) ^ e'| :=
        le_trans (by linarith) (abs_sub_abs_le_abs_sub _ _)
      refine le_trans ?_ hdiff
      have habs : |(m : ℝ) * (2 : ℝ) ^ e| = ((|m| : ℤ) : ℝ) * (2 : ℝ) ^ e := by rw [abs_mul, abs_of_pos hE]; push_cast; rfl
      have hT : (2 : ℝ) ^ F.prec * (2 : ℝ) ^ e' = ((1 : ℤ) : ℝ) * (2 : ℝ) ^ ((F.prec : ℤ) + e') := by
        rw [zpow_add₀ (by norm_num), zpow_natCast]; push_cast; ring
      rcases le_or_gt e ((F.prec : ℤ) + e') with hc | hc
      · obtain ⟨k', hk'⟩ := mult_lower 1 hc
        have := mult_ge (x := |(m : ℝ) * (2 : ℝ) ^ e| - 2 ^ F.prec * (2 : ℝ) ^ e') (e := e) (k := |m| - k')
          (by rw [habs, hT, hk']; push_cast; ring) (by linarith)
        rw [abs_of_pos (by linarith)] at this
        exact hg.trans this
      · obtain ⟨k', hk'⟩ := mult_lower |m| hc.le
        have h4 := mult_ge (x := |(m : ℝ) * (2 : ℝ) ^ e| - 2 ^ F.prec * (2 : ℝ) ^ e') (e := (F.prec : ℤ) + e') (k := k' - 1)
          (by rw [habs, hT, hk']; push_cast; ring) (by linarith)
        rw [abs_of_pos (by linarith), show (2 : ℝ) ^ ((F.prec : ℤ) + e') = 2 ^ F.prec * (2 : ℝ) ^ e' by rw [hT]; push_cast; ring] at h4
        -- |g| ≥ 2T, so |g| - T ≥ |g| / 2
        have h2p : (2 : ℝ) ≤ 2 ^ F.prec := by
          calc (2 : ℝ) = 2 ^ 1 := by norm_num
            _ ≤ 2 ^ F.prec := pow_le_pow_right₀ (by norm_num) hp
        rw [div_le_iff₀ hP]
        nlinarith

end Fmt

/-- Adding a number that is small beside `v` changes nothing. -/
theorem Near.absorbs {F : Fmt} (N : Near F) (hp : 1 ≤ F.prec) {v t : ℝ} (hv : v ∈ F.grid) (ht : |t| < |v| / 2 ^ F.prec / 2) : N.near (v + t) = v := by
  by_contra hne
  have h1 := grid_gap hp hv (N.mem (v + t)) (Ne.symm hne)
  have h2 := N.best (v + t) v hv
  rw [add_sub_cancel_left] at h2
  have h3 : |v - N.near (v + t)| ≤ |v + t - N.near (v + t)| + |t| := by
    have := abs_sub (v + t - N.near (v + t)) t
    rw [show v + t - N.near (v + t) - t = v - N.near (v + t) by ring] at this
    exact this
  linarith

namespace Fl
variable {F : Fmt} {N : Near F} {x y : Fl F} {v w a : ℝ}

theorem Is.rank (h : x.Is v) : x.rank = (v : EReal) := by
  cases x with
  | nan => exact h.elim
  | inf s => exact h.elim
  | fin s u hu => show ((u : ℝ) : EReal) = _; rw [le_antisymm h.2 h.1]

/-- A rounded number is on the same side of a number of the format as the exact one, also if it overflows. -/
theorem rank_round_le {z : Bool} (ha : F.Has a) (h : v ≤ a) : (round N z v).rank ≤ (a : EReal) := by
  have h1 := N.near_le ha.1 h
  unfold round
  split
  · split
    · exact EReal.coe_le_coe_iff.mpr h1
    · exact EReal.coe_le_coe_iff.mpr h1
  · rename_i hov
    have h2 := (abs_lt.mp ha.2).2
    have h3 : N.near v < 0 := by
      by_contra hn
      rw [abs_of_nonneg (not_lt.mp hn)] at hov
      linarith
    rw [decide_eq_true h3]
    exact bot_le

theorem le_rank_round {z : Bool} (ha : F.Has a) (h : a ≤ v) : (a : EReal) ≤ (round N z v).rank := by
  have h1 := N.le_near ha.1 h
  unfold round
  split
  · split
    · exact EReal.coe_le_coe_iff.mpr h1
    · exact EReal.coe_le_coe_iff.mpr h1
  · rename_i hov
    have h2 := (abs_lt.mp ha.2).1
    have h3 : ¬ N.near v < 0 := by
      intro hn
      rw [abs_of_nonpos hn.le] at hov
      linarith
    rw [decide_eq_false h3]
    exact le_top

/-- Subtracting something that is not negative does not increase a number, and the other way round. -/
theorem sub_side (hx : x.Is v) (hn : y ≠ nan) : sub N x y ≠ nan ∧ ((0 : EReal) ≤ y.rank → (sub N x y).rank ≤ (v : EReal)) ∧
    (y.rank ≤ (0 : EReal) → (v : EReal) ≤ (sub N x y).rank) := by
  cases hy : y with
  | nan => exact absurd hy hn
  | inf s =>
    cases x with
    | nan => exact hx.elim
    | inf t => exact hx.elim
    | fin t u hu =>
      refine ⟨fun e => (by cases e), ?_⟩
      cases s with
      | true => exact ⟨fun h => absurd h (by show ¬ (0 : EReal) ≤ ⊥; simp), fun _ => le_top⟩
      | false => exact ⟨fun _ => bot_le, fun h => absurd h (by show ¬ (⊤ : EReal) ≤ 0; simp)⟩
  | fin s u hu =>
    obtain ⟨z, e⟩ := sub_eq (N := N) hx (y := fin s u hu) (v := u) ⟨le_rfl, le_rfl⟩
    rw [e]
    refine ⟨round_ne_nan _ _, fun h => rank_round_le hx.has ?_, fun h => le_rank_round hx.has ?_⟩
    · have : 0 ≤ u := EReal.coe_le_coe_iff.mp h
      linarith
    · have : u ≤ 0 := EReal.coe_le_coe_iff.mp h
      linarith

end Fl

section
variable {N : Near f32} {x g r : Fl f32} {v γ ρ : ℝ}

/-- The step of SGD does not move a parameter in the direction of its gradient. -/
theorem sgd_side (hx : x.Is v) (hg : g.Is γ) (hr : r.Is ρ) (h0 : 0 ≤ ρ) : Fl.sub N x (Fl.mul N g r) ≠ .nan ∧
    (0 ≤ γ → (Fl.sub N x (Fl.mul N g r)).rank ≤ (v : EReal)) ∧ (γ ≤ 0 → (v : EReal) ≤ (Fl.sub N x (Fl.mul N g r)).rank) := by
  obtain ⟨z, e⟩ := Fl.mul_eq (N := N) hg hr
  obtain ⟨k1, k2, k3⟩ := Fl.sub_side (N := N) hx (y := Fl.mul N g r) (by rw [e]; exact Fl.round_ne_nan _ _)
  refine ⟨k1, fun h => k2 ?_, fun h => k3 ?_⟩
  · rw [e]; exact Fl.le_rank_round (a := 0) has0 (mul_nonneg h h0)
  · rw [e]; exact Fl.rank_round_le (a := 0) has0 (mul_nonpos_of_nonpos_of_nonneg h h0)

/-- Accuracy of the step. -/
theorem sgd_acc (hx : x.Is v) (hg : g.Is γ) (hr : r.Is ρ) (h1 : |v| ≤ 2 ^ 126) (h2 : |γ * ρ| ≤ 2 ^ 126) :
    ∃ w, (Fl.sub N x (Fl.mul N g r)).Is w ∧ |w - (v - γ * ρ)| ≤ (|v| + 3 * |γ * ρ|) / 2 ^ 24 + 1 / 2 ^ 148 := by
  obtain ⟨z, e⟩ := Fl.mul_eq (N := N) hg hr
  have hT := top32
  have e1 := N.err32 (x := γ * ρ) (lt_of_le_of_lt h2 (by norm_num))
  have n1 : |N.near (γ * ρ)| ≤ |γ * ρ| * (1 + 1 / 2 ^ 24) + 1 / 2 ^ 150 := by
    have := abs_sub_abs_le_abs_sub (N.near (γ * ρ)) (γ * ρ)
    rw [abs_sub_comm] at this
    linarith
  have n1' : |N.near (γ * ρ)| ≤ 2 ^ 127 - 2 ^ 126 + 2 ^ 104 := n1.trans (by nlinarith [abs_nonneg (γ * ρ), (by norm_num : (2 : ℝ) ^ 126 * (1 + 1 / 2 ^ 24) + 1 / 2 ^ 150 ≤ 2 ^ 127 - 2 ^ 126 + 2 ^ 104)])
  have hm : (Fl.mul N g r).Is (N.near (γ * ρ)) := by
    rw [e]; exact Fl.round_eq _ _ (by rw [hT]; exact lt_of_le_of_lt n1' (by norm_num))
  obtain ⟨z', e'⟩ := Fl.sub_eq (N := N) hx hm
  have hs : |v - N.near (γ * ρ)| ≤ |v| + |N.near (γ * ρ)| := abs_sub _ _
  have hs' : |v - N.near (γ * ρ)| ≤ 2 ^ 127 + 2 ^ 104 := by linarith
  have e2 := N.err32 (x := v - N.near (γ * ρ)) (lt_of_le_of_lt hs' (by norm_num))
  refine ⟨N.near (v - N.near (γ * ρ)), ?_, ?_⟩
  · rw [e']
    refine Fl.round_eq _ _ ?_
    rw [hT]
    have := abs_sub_abs_le_abs_sub (N.near (v - N.near (γ * ρ))) (v - N.near (γ * ρ))
    rw [abs_sub_comm (N.near (v - N.near (γ * ρ)))] at this
    have k : (2 : ℝ) ^ 127 + 2 ^ 104 + ((2 ^ 127 + 2 ^ 104) / 2 ^ 24 + 1 / 2 ^ 150) < 2 ^ 128 := by norm_num
    have k2 : |v - N.near (γ * ρ)| / 2 ^ 24 ≤ (2 ^ 127 + 2 ^ 104) / 2 ^ 24 := div_le_div_of_nonneg_right hs' (by positivity)
    linarith
  · have t1 : |N.near (v - N.near (γ * ρ)) - (v - γ * ρ)| ≤ |v - N.near (γ * ρ) - N.near (v - N.near (γ * ρ))| + |γ * ρ - N.near (γ * ρ)| := by
      rw [show N.near (v - N.near (γ * ρ)) - (v - γ * ρ) = -(v - N.near (γ * ρ) - N.near (v - N.near (γ * ρ))) + (γ * ρ - N.near (γ * ρ)) by ring]
      exact (abs_add_le _ _).trans (by rw [abs_neg])
    have k2 : |v - N.near (γ * ρ)| / 2 ^ 24 ≤ (|v| + (|γ * ρ| * (1 + 1 / 2 ^ 24) + 1 / 2 ^ 150)) / 2 ^ 24 :=
      div_le_div_of_nonneg_right (hs.trans (by linarith)) (by positivity)
    have k3 : (1 : ℝ) / 2 ^ 150 / 2 ^ 24 + 1 / 2 ^ 150 + 1 / 2 ^ 150 ≤ 1 / 2 ^ 148 := by norm_num
    have k4 : |γ * ρ| * (1 + 1 / 2 ^ 24) / 2 ^ 24 + |γ * ρ| / 2 ^ 24 ≤ 3 * |γ * ρ| / 2 ^ 24 := by
      rw [← add_div]
      refine div_le_div_of_nonneg_right ?_ (by positivity)
      nlinarith [abs_nonneg (γ * ρ)]
    rw [add_div, add_div] at k2
    rw [add_div]
    linarith

/-- A step that is small beside the value does not move it. -/
theorem sgd_stall (hx : x.Is v) (hg : g.Is γ) (hr : r.Is ρ) (hv : 1 / 2 ^ 99 ≤ |v|) (h : |γ * ρ| ≤ |v| / 2 ^ 26) : (Fl.sub N x (Fl.mul N g r)).Is v := by
  have hvpos : 0 < |v| := lt_of_lt_of_le (by positivity) hv
  have hq : f32.Has (|v| / 2 ^ 26) := by
    obtain ⟨⟨m, e, h1, h2, h3, hm⟩, h4⟩ := hx.has
    change |m| ≤ 2 ^ 24 at h1
    change e ≤ 104 at h3
    have he : -123 ≤ e := by
      by_contra hlt
      have : (2 : ℝ) ^ e ≤ (2 : ℝ) ^ (-124 : ℤ) := zpow_le_zpow_right₀ (by norm_num) (by omega)
      have hm1 : |(m : ℝ)| ≤ 2 ^ 24 := by exact_mod_cast h1
      have : |v| ≤ 2 ^ 24 * (2 : ℝ) ^ (-124 : ℤ) := by
        rw [hm, abs_mul, abs_of_pos (by positivity : (0 : ℝ) < (2 : ℝ) ^ e)]
        exact mul_le_mul hm1 this (by positivity) (by positivity)
      have h6 : (2 : ℝ) ^ 24 * (2 : ℝ) ^ (-124 : ℤ) < 1 / 2 ^ 99 := by
        rw [show (-124 : ℤ) = -((124 : ℕ) : ℤ) by norm_num, zpow_neg, zpow_natCast]; norm_num
      exact absurd (hv.trans this) (not_le.mpr h6)
    refine ⟨⟨|m|, e - 26, by rw [abs_abs]; exact h1, show (-149 : ℤ) ≤ e - 26 by omega, show e - 26 ≤ (104 : ℤ) by omega, ?_⟩, ?_⟩
    · rw [hm, abs_mul, abs_of_pos (by positivity : (0 : ℝ) < (2 : ℝ) ^ e), zpow_sub₀ (by norm_num)]
      push_cast
      rw [show ((2 : ℝ) ^ (26 : ℤ)) = 2 ^ 26 by norm_cast]
      ring
    · rw [abs_of_pos (by positivity)]
      exact lt_of_le_of_lt (div_le_self (abs_nonneg v) (by norm_num)) h4
  obtain ⟨z, e⟩ := Fl.mul_eq (N := N) hg hr
  have hm : (Fl.mul N g r).In (-(|v| / 2 ^ 26)) (|v| / 2 ^ 26) := by
    rw [e]; exact Fl.round_in hq.neg hq (abs_le.mp h).1 (abs_le.mp h).2
  obtain ⟨t, -, ht, t1, t2⟩ := hm.exists_in
  obtain ⟨z', e'⟩ := Fl.sub_eq (N := N) hx ht
  have hn : N.near (v - t) = v := by
    rw [sub_eq_add_neg]
    refine N.absorbs (by norm_num [f32]) hx.has.1 ?_
    rw [abs_neg]
    refine lt_of_le_of_lt (abs_le.mpr ⟨t1, t2⟩) ?_
    show |v| / 2 ^ 26 < |v| / 2 ^ 24 / 2
    rw [div_div]
    exact div_lt_div_of_pos_left hvpos (by norm_num) (by norm_num)
  rw [e']
  have := Fl.round_eq (N := N) z' (v - t) (by rw [hn]; exact hx.has.2)
  rwa [hn] at this

end
end Verif
