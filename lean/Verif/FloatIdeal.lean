import Verif.FloatAcc2
import Mathlib.Analysis.SpecialFunctions.Pow.Real

/-!
# A mathematical library that rounds the exact results

It shows that the assumptions of C67 and C68 on the library can be met.
-/

set_option linter.unusedSectionVars false

namespace Verif
open Fmt

/-- Every function gives the exact result, rounded (powers only of positive bases with finite exponents). -/
noncomputable def Libm.ideal {F : Fmt} (N : Near F) : Libm F where
  exp := fun
    | .fin _ x _ => Fl.round N false (Real.exp x)
    | .inf s => if s then Fl.round N false 0 else .inf false
    | .nan => .nan
  ln := fun
    | .fin _ x _ => if x < 0 then .nan else if x = 0 then .inf true else Fl.round N false (Real.log x)
    | .inf s => if s then .nan else .inf false
    | .nan => .nan
  sin := fun
    | .fin s x _ => Fl.round N s (Real.sin x)
    | _ => .nan
  cos := fun
    | .fin _ x _ => Fl.round N false (Real.cos x)
    | _ => .nan
  tan := fun
    | .fin s x _ => Fl.round N s (Real.tan x)
    | _ => .nan
  tanh := fun
    | .fin s x _ => Fl.round N s (Real.tanh x)
    | .inf s => Fl.round N s (if s then -1 else 1)
    | .nan => .nan
  powf := fun
    | .fin _ x _, .fin _ y _ => if 0 < x then Fl.round N false (x ^ y) else .nan
    | _, _ => .nan
  powi := fun
    | .fin _ x _, n => if 0 < x then Fl.round N false (x ^ n) else .nan
    | _, _ => .nan

section
variable {F : Fmt} (N : Near F)

theorem log_le_one {x : ℝ} (h1 : 1 ≤ x) (h2 : x ≤ 2) : 0 ≤ Real.log x ∧ Real.log x ≤ 1 :=
  ⟨Real.log_nonneg h1, by have := Real.log_le_sub_one_of_pos (show 0 < x by linarith); linarith⟩

theorem Libm.ideal_sane (h0 : F.Has 0) (h1 : F.Has 1) : (Libm.ideal N).Sane where
  exp := fun x hx => by
    cases x with
    | fin s v hv => exact Fl.round_in h0 h1 (Real.exp_pos v).le (Real.exp_le_one_iff.mpr hx)
    | inf s =>
      obtain rfl : s = true := hx
      exact Fl.round_in h0 h1 le_rfl zero_le_one
    | nan => exact hx.elim
  ln := fun x hx => by
    cases x with
    | fin s v hv =>
      obtain ⟨h2, h3⟩ := log_le_one hx.1 hx.2
      show (if v < 0 then Fl.nan else if v = 0 then .inf true else Fl.round N false (Real.log v)).In 0 1
      have := hx.1
      rw [if_neg (by linarith), if_neg (by linarith)]
      exact Fl.round_in h0 h1 h2 h3
    | inf s => exact hx.elim
    | nan => exact hx.elim
  tanh := fun x hx => by
    cases x with
    | fin s v hv => exact Fl.round_in h1.neg h1 (Real.neg_one_lt_tanh v).le (Real.tanh_lt_one v).le
    | inf s => exact Fl.round_in h1.neg h1 (by cases s <;> norm_num) (by cases s <;> norm_num)
    | nan => exact absurd rfl hx

theorem Libm.ideal_accurate (h1 : F.Has 1) {ε : ℝ} (hε : ∀ x, |x| ≤ 1 → |x - N.near x| ≤ ε) : (Libm.ideal N).Accurate ε := by
  have key : ∀ (z : Bool) (x : ℝ), |x| ≤ 1 → ∃ w, (Fl.round N z x).Is w ∧ |w - x| ≤ ε := by
    intro z x hx
    obtain ⟨h2, h3⟩ := abs_le.mp hx
    have h4 := N.near_le h1.1 h3
    have h5 := N.le_near h1.neg.1 h2
    have h6 := h1.2
    rw [abs_one] at h6
    refine ⟨_, Fl.round_eq z x (abs_lt.mpr ⟨by linarith, by linarith⟩), ?_⟩
    rw [abs_sub_comm]
    exact hε x hx
  refine ⟨fun x v hx hv => ?_, fun x v hx hv1 hv2 => ?_, fun x v hx => ?_⟩
  · cases x with
    | fin s u hu =>
      obtain rfl := le_antisymm hx.1 hx.2
      exact key _ _ (abs_le.mpr ⟨by linarith [Real.exp_pos v], Real.exp_le_one_iff.mpr hv⟩)
    | inf s => exact hx.elim
    | nan => exact hx.elim
  · cases x with
    | fin s u hu =>
      obtain rfl := le_antisymm hx.1 hx.2
      obtain ⟨h2, h3⟩ := log_le_one hv1 hv2
      show ∃ w, Fl.Is (if v < 0 then Fl.nan else if v = 0 then .inf true else Fl.round N false (Real.log v)) w ∧ _
      rw [if_neg (by linarith), if_neg (by linarith)]
      exact key _ _ (abs_le.mpr ⟨by linarith, h3⟩)
    | inf s => exact hx.elim
    | nan => exact hx.elim
  · cases x with
    | fin s u hu =>
      obtain rfl := le_antisymm hx.1 hx.2
      exact key _ _ (Real.abs_tanh_lt_one v).le
    | inf s => exact hx.elim
    | nan => exact hx.elim

end

theorem ideal_acc32 (N : Near f32) : (Libm.ideal N).Accurate (1 / 2 ^ 23) := Libm.ideal_accurate N has1 fun x hx => by
  have h := N.err32 (x := x) (lt_of_le_of_lt hx (by norm_num))
  have h2 := div_le_div_of_nonneg_right hx (show (0 : ℝ) ≤ 2 ^ 24 by positivity)
  have h3 : (1 : ℝ) / 2 ^ 24 + 1 / 2 ^ 150 ≤ 1 / 2 ^ 23 := by norm_num
  linarith

theorem ideal_acc64 (N : Near f64) : (Libm.ideal N).Accurate (1 / 2 ^ 52) := Libm.ideal_accurate N has1.up fun x hx => by
  have h := N.err64 (x := x) (lt_of_le_of_lt hx (by
    calc (1 : ℝ) = 2 ^ 0 := by norm_num
      _ < _ := pow_lt_pow_right₀ (by norm_num) (by norm_num)))
  have h2 := div_le_div_of_nonneg_right hx (show (0 : ℝ) ≤ 2 ^ 53 by positivity)
  have h3 := tiny_le
  have h4 : (1 : ℝ) / 2 ^ 1075 ≤ 3 / 2 ^ 1075 := div_le_div_of_nonneg_right (by norm_num) (by positivity)
  have h5 : (1 : ℝ) / 2 ^ 53 + 1 / 2 ^ 53 = 1 / 2 ^ 52 := by norm_num
  generalize (1 : ℝ) / 2 ^ 1075 = T at *
  linarith

/-- Such an environment exists. -/
theorem Ieee.exists_ideal : ∃ E : Ieee, E.libm32 = Libm.ideal E.near32 ∧ E.libm64 = Libm.ideal E.near64 := by
  obtain ⟨N⟩ := Near.exists_near (F := f32) (by norm_num [f32])
  obtain ⟨M⟩ := Near.exists_near (F := f64) (by norm_num [f64])
  exact ⟨⟨N, M, Libm.ideal N, Libm.ideal M, Libm.ideal_sane N has0 has1, Libm.ideal_sane M has0.up has1.up⟩, rfl, rfl⟩

end Verif
