import Verif.FloatSoft
import Verif.FloatAcc

/-!
# Activations and their gradients on single floats
-/

set_option linter.unusedSectionVars false
set_option linter.style.haveILetI false

namespace Verif
open Fmt

/-- A number greater than 0, or `∞`. -/
def Fl.Pos {F : Fmt} : Fl F → Prop
  | .fin _ x _ => 0 < x
  | .inf s => s = false
  | .nan => False

/-- `relu` of a float as it is computed: `x` if it is positive, a zero with the sign of `x` if it is finite and not positive, NaN for `-∞` and NaN. -/
noncomputable def Fl.relu : Fl f32 → Fl f32
  | .fin s x h => haveI := Classical.dec (0 < x); if 0 < x then .fin s x h else .fin s 0 ⟨has0.1, has0.2, fun _ => le_rfl, fun _ => le_rfl⟩
  | .inf s => if s then .nan else .inf false
  | .nan => .nan

namespace Fl
variable {F : Fmt} {N : Near F}

theorem round_fin (s : Bool) (x : ℝ) (h) : round N s x = fin s x h := by
  unfold round
  have e := N.near_grid h.1
  rw [dif_pos (by rw [e]; exact h.2.1)]
  by_cases h0 : x = 0
  · rw [dif_pos (by rw [e]; exact h0)]; simp only [e]
  · rw [dif_neg (by rw [e]; exact h0)]
    have hs : decide (x < 0) = s := by
      cases s with
      | true => exact decide_eq_true (lt_of_le_of_ne (h.2.2.1 rfl) h0)
      | false => exact decide_eq_false (not_lt.mpr (h.2.2.2 rfl))
    simp only [e, hs]

theorem round_zero (s : Bool) (h0 : F.Has 0) : round N s 0 = fin s 0 ⟨h0.1, h0.2, fun _ => le_rfl, fun _ => le_rfl⟩ := round_fin _ _ _

theorem round_val {z : Bool} {v a : ℝ} (h : (round N z v).Is a) : a = N.near v := by
  unfold round at h
  split at h
  · split at h <;> exact le_antisymm h.1 h.2
  · exact h.elim

theorem mul_one_right (x : Fl F) (h) : mul N x (lit 1 h zero_le_one) = x := by
  cases x with
  | nan => rfl
  | inf s =>
    show (if (1 : ℝ) = 0 then nan else inf (s ^^ false)) = inf s
    rw [if_neg one_ne_zero, Bool.xor_false]
  | fin s x hx =>
    show round N (s ^^ false) (x * 1) = _
    rw [Bool.xor_false, mul_one]
    exact round_fin _ _ _

theorem mul_one_left (x : Fl F) (h) : mul N (lit 1 h zero_le_one) x = x := by
  cases x with
  | nan => rfl
  | inf s =>
    show (if (1 : ℝ) = 0 then nan else inf (false ^^ s)) = inf s
    rw [if_neg one_ne_zero, Bool.false_xor]
  | fin s x hx =>
    show round N (false ^^ s) (1 * x) = _
    rw [Bool.false_xor, one_mul]
    exact round_fin _ _ _

theorem mul_neg_one (x : Fl F) (h) : mul N x (fin true (-1) h) = neg x := by
  cases x with
  | nan => rfl
  | inf s =>
    show (if (-1 : ℝ) = 0 then nan else inf (s ^^ true)) = inf (!s)
    rw [if_neg (by norm_num), Bool.xor_true]
  | fin s x hx =>
    show round N (s ^^ true) (x * -1) = _
    rw [Bool.xor_true, _root_.mul_neg_one]
    exact round_fin _ _ _

/-- Halving a number that is not too small does not give zero. -/
theorem mul_half_ne {N : Near f32} {x : Fl f32} {g : ℝ} (hx : x.Is g) (hg : 1 / 2 ^ 148 ≤ |g|) (h) : ¬ (mul N x (lit (1 / 2) h (by norm_num))).Is 0 ∧
    mul N x (lit (1 / 2) h (by norm_num)) ≠ nan := by
  obtain ⟨z, e⟩ := mul_eq (N := N) hx (y := lit (1 / 2) h (by norm_num)) (v := 1 / 2) ⟨le_rfl, le_rfl⟩
  rw [e]
  refine ⟨fun h0 => ?_, round_ne_nan _ _⟩
  have e0 := round_val h0
  have hq : (1 : ℝ) / 2 ^ 149 ∈ f32.grid := ⟨1, -149, by norm_num [f32], by norm_num [f32], by norm_num [f32], by
    rw [show (-149 : ℤ) = -((149 : ℕ) : ℤ) by norm_num, zpow_neg, zpow_natCast]; norm_num⟩
  have hp : (0 : ℝ) < 1 / 2 ^ 149 := by positivity
  rcases le_total 0 g with h' | h'
  · rw [abs_of_nonneg h'] at hg
    have := N.le_near hq (x := g * (1 / 2)) (by
      have : (1 : ℝ) / 2 ^ 149 = 1 / 2 ^ 148 * (1 / 2) := by norm_num
      rw [this]; linarith)
    linarith
  · rw [abs_of_nonpos h'] at hg
    have := N.near_le (Fmt.grid_neg hq) (x := g * (1 / 2)) (by
      have : (1 : ℝ) / 2 ^ 149 = 1 / 2 ^ 148 * (1 / 2) := by norm_num
      rw [this]; linarith)
    linarith

/-- Division by zero. -/
theorem div_zero_eq {x z : Fl F} (hz : z.Is 0) : (x.Is 0 → div N x z = nan) ∧ (¬ x.Is 0 → x ≠ nan → ∃ t, div N x z = inf t) := by
  cases z with
  | nan => exact hz.elim
  | inf t => exact hz.elim
  | fin t w hw =>
    have hw0 : w = 0 := le_antisymm hz.2 hz.1
    subst hw0
    cases x with
    | nan => exact ⟨fun h => h.elim, fun _ h => absurd rfl h⟩
    | inf s => exact ⟨fun h => h.elim, fun _ _ => ⟨_, rfl⟩⟩
    | fin s v hv =>
      refine ⟨fun h => ?_, fun h _ => ⟨s ^^ t, ?_⟩⟩
      · show (if (0 : ℝ) = 0 then _ else _) = _
        rw [if_pos rfl, if_pos (le_antisymm h.2 h.1)]
      · show (if (0 : ℝ) = 0 then _ else _) = _
        rw [if_pos rfl, if_neg (fun h0 => h ⟨h0.ge, h0.le⟩)]

theorem add_nan (x : Fl F) : add N x nan = nan := by cases x <;> rfl

theorem mul_is_zero {x z : Fl F} (hx : x.Finite) (hz : z.Is 0) (h0 : F.Has 0) : (mul N x z).Is 0 := by
  obtain ⟨v, -, hv⟩ := hx.exists_in
  obtain ⟨t, e⟩ := mul_eq (N := N) hv hz
  rw [e, mul_zero, round_zero t h0]
  exact ⟨le_rfl, le_rfl⟩

theorem Pos.ne_nan {x : Fl F} (h : x.Pos) : x ≠ nan := by rintro rfl; exact h

theorem Pos.gt {x z : Fl F} (h : x.Pos) (hz : z.Is 0) : gt x z = true ∧ le x z = false := by
  cases z with
  | nan => exact hz.elim
  | inf t => exact hz.elim
  | fin t w hw =>
    have hw0 : w = 0 := le_antisymm hz.2 hz.1
    subst hw0
    cases x with
    | nan => exact h.elim
    | inf s => cases s with
      | true => cases h
      | false => exact ⟨rfl, rfl⟩
    | fin s v hv =>
      change 0 < v at h
      refine ⟨decide_eq_true h, ?_⟩
      show (decide (v < 0) || decide (v = 0)) = false
      rw [decide_eq_false (not_lt.mpr h.le), decide_eq_false h.ne', Bool.or_false]

theorem NonPos.gt {x z : Fl F} (h : x.NonPos) (hz : z.Is 0) : Fl.gt x z = false ∧ le x z = true := by
  cases z with
  | nan => exact hz.elim
  | inf t => exact hz.elim
  | fin t w hw =>
    have hw0 : w = 0 := le_antisymm hz.2 hz.1
    subst hw0
    cases x with
    | nan => exact h.elim
    | inf s => cases s with
      | true => exact ⟨rfl, rfl⟩
      | false => cases h
    | fin s v hv =>
      change v ≤ 0 at h
      refine ⟨decide_eq_false (not_lt.mpr h), ?_⟩
      show (decide (v < 0) || decide (v = 0)) = true
      rcases h.lt_or_eq with h | h
      · rw [decide_eq_true h, Bool.true_or]
      · rw [decide_eq_true h, Bool.or_true]

theorem pos_or_nonPos {x : Fl F} (h : x ≠ nan) : x.Pos ∨ x.NonPos := by
  cases x with
  | nan => exact absurd rfl h
  | inf s => cases s with
    | true => exact .inr rfl
    | false => exact .inl rfl
  | fin s v hv => exact lt_or_ge 0 v

/-- A product lies between 0 and one factor if the other lies in [0, 1]. -/
theorem mul_between {x y : Fl F} {v a b : ℝ} (hx : x.Is v) (hy : y.In 0 1) (ha : F.Has a) (hb : F.Has b) (h1 : a ≤ 0) (h2 : 0 ≤ b) (h3 : a ≤ v) (h4 : v ≤ b) :
    (mul N x y).In a b := by
  obtain ⟨w, -, hw, h5, h6⟩ := hy.exists_in
  obtain ⟨z, e⟩ := mul_eq (N := N) hx hw
  rw [e]
  exact round_in ha hb (by nlinarith [mul_nonneg h5 (sub_nonneg.mpr h3), mul_nonneg h5 (sub_nonneg.mpr h4), mul_nonneg (sub_nonneg.mpr h6) (neg_nonneg.mpr h1)])
    (by nlinarith [mul_nonneg h5 (sub_nonneg.mpr h3), mul_nonneg h5 (sub_nonneg.mpr h4), mul_nonneg (sub_nonneg.mpr h6) h2])

end Fl

section
variable (N : Near f32) (M : Near f64) (L : Libm f32) (W : Libm f64)

/-- The factor of `prelu` and its gradient. -/
noncomputable def preluF (x k : Fl f32) : Fl f32 := letI := floatFlt N M L W
  Scalar.b2f (Flt.gt x 0) + Scalar.b2f (Flt.le x 0) * k

theorem lit0_is : (Fl.lit 0 Fl.zero_ok le_rfl : Fl f32).Is 0 := ⟨le_rfl, le_rfl⟩
theorem lit1_is : (Fl.lit 1 Fl.one_ok zero_le_one : Fl f32).Is 1 := ⟨le_rfl, le_rfl⟩

variable {N M L W} {x k : Fl f32} {κ : ℝ}

theorem preluF_pos (hk : k.Is κ) (hx : x.Pos) : preluF N M L W x k = Fl.lit 1 Fl.one_ok zero_le_one := by
  letI := floatFlt N M L W
  obtain ⟨h1, h2⟩ := hx.gt lit0_is
  show Fl.add N (if Fl.gt x (Fl.lit 0 Fl.zero_ok le_rfl) = true then _ else _) (Fl.mul N (if Fl.le x (Fl.lit 0 Fl.zero_ok le_rfl) = true then _ else _) k) = _
  rw [h1, h2, if_pos rfl, if_neg (by simp)]
  have hz : (Fl.mul N (Fl.lit 0 Fl.zero_ok le_rfl) k).Is 0 := by
    obtain ⟨z, e⟩ := Fl.mul_eq (N := N) (x := Fl.lit 0 Fl.zero_ok le_rfl) (u := 0) ⟨le_rfl, le_rfl⟩ hk
    rw [e, zero_mul, Fl.round_zero z has0]; exact ⟨le_rfl, le_rfl⟩
  obtain ⟨z, e⟩ := Fl.add_eq (N := N) lit1_is hz
  refine e.trans ?_
  rw [add_zero]
  unfold Fl.round
  have e1 := N.near_grid Fl.one_ok.1
  rw [dif_pos (by rw [e1]; exact Fl.one_ok.2), dif_neg (by rw [e1]; exact one_ne_zero)]
  simp only [e1]
  have : decide ((1 : ℝ) < 0) = false := decide_eq_false (by norm_num)
  simp only [this]
  rfl

theorem preluF_nonPos (hk : k.Is κ) (hx : x.NonPos) : (preluF N M L W x k).Is κ := by
  letI := floatFlt N M L W
  obtain ⟨h1, h2⟩ := hx.gt lit0_is
  show (Fl.add N (if Fl.gt x (Fl.lit 0 Fl.zero_ok le_rfl) = true then _ else _) (Fl.mul N (if Fl.le x (Fl.lit 0 Fl.zero_ok le_rfl) = true then _ else _) k)).Is κ
  rw [h1, h2, if_neg (by simp), if_pos rfl]
  have e1 : Fl.mul N (Fl.lit 1 Fl.one_ok zero_le_one) k = k := Fl.mul_one_left k _
  change (Fl.add N (Fl.lit 0 Fl.zero_ok le_rfl) (Fl.mul N (Fl.lit 1 Fl.one_ok zero_le_one) k)).Is κ
  rw [e1]
  obtain ⟨z, e⟩ := Fl.add_eq (N := N) lit0_is hk
  rw [e, zero_add]
  exact Fl.round_in hk.has hk.has le_rfl le_rfl

theorem preluF_nan (hk : k.Is κ) : (preluF N M L W .nan k).Is 0 := by
  letI := floatFlt N M L W
  show (Fl.add N (Fl.lit 0 Fl.zero_ok le_rfl) (Fl.mul N (Fl.lit 0 Fl.zero_ok le_rfl) k)).Is 0
  obtain ⟨z, e⟩ := Fl.mul_eq (N := N) (x := Fl.lit 0 Fl.zero_ok le_rfl) (u := 0) ⟨le_rfl, le_rfl⟩ hk
  have hz : (Fl.mul N (Fl.lit 0 Fl.zero_ok le_rfl) k).Is 0 := by
    rw [e, zero_mul, Fl.round_zero z has0]; exact ⟨le_rfl, le_rfl⟩
  obtain ⟨z, e⟩ := Fl.add_eq (N := N) lit0_is hz
  rw [e, zero_add, Fl.round_zero z has0]; exact ⟨le_rfl, le_rfl⟩

/-- The factor of `relu` for a number that is not positive. -/
theorem preluF_zero (hx : x.NonPos) : preluF N M L W x (Fl.lit 0 Fl.zero_ok le_rfl) = Fl.lit 0 Fl.zero_ok le_rfl := by
  letI := floatFlt N M L W
  obtain ⟨h1, h2⟩ := hx.gt lit0_is
  show (Fl.add N (if Fl.gt x (Fl.lit 0 Fl.zero_ok le_rfl) = true then _ else _) (Fl.mul N (if Fl.le x (Fl.lit 0 Fl.zero_ok le_rfl) = true then _ else _) _)) = _
  rw [h1, h2, if_neg (by simp), if_pos rfl]
  have e1 : Fl.mul N (Fl.lit 1 Fl.one_ok zero_le_one) (Fl.lit 0 Fl.zero_ok le_rfl) = Fl.lit 0 Fl.zero_ok le_rfl := Fl.mul_one_left _ _
  change (Fl.add N (Fl.lit 0 Fl.zero_ok le_rfl) (Fl.mul N (Fl.lit 1 Fl.one_ok zero_le_one) (Fl.lit 0 Fl.zero_ok le_rfl))) = _
  rw [e1]
  show Fl.round N (false && false) (0 + 0) = _
  rw [add_zero, Bool.false_and, Fl.round_zero false has0]
  rfl

/-- `relu` on single floats. -/
theorem relu_eq (x : Fl f32) : Fl.mul N x (preluF N M L W x (Fl.lit 0 Fl.zero_ok le_rfl)) = x.relu := by
  by_cases hn : x = .nan
  · subst hn; rfl
  rcases Fl.pos_or_nonPos hn with hp | hp
  · rw [preluF_pos lit0_is hp, Fl.mul_one_right]
    cases x with
    | nan => exact absurd rfl hn
    | inf s => cases s with
      | true => cases hp
      | false => rfl
    | fin s v h => exact (if_pos (show 0 < v from hp)).symm
  · rw [preluF_zero hp]
    cases x with
    | nan => exact absurd rfl hn
    | inf s => cases s with
      | true => exact if_pos rfl
      | false => cases hp
    | fin s v h =>
      change v ≤ 0 at hp
      show Fl.round N (s ^^ false) (v * 0) = _
      rw [Bool.xor_false, mul_zero, Fl.round_zero s has0]
      exact (if_neg (not_lt.mpr hp)).symm

end
end Verif
