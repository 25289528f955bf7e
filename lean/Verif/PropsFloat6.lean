import Verif.FloatAct
import Verif.PropsFloat3
import Verif.PropsBw

/-!
# C72: activation functions and their gradients in f32
-/

set_option linter.unusedSectionVars false
set_option linter.style.haveILetI false

namespace Verif
open Fmt Res Shape

section
variable [E : Ieee] {d : Nat} {x y gy gx : Tensor (Fl f32)} {s : Shape} {f fy fgy fg : Arr (Fl f32)}

/-- C72: `relu` returns positive numbers and `∞` unchanged, and a zero with the sign of `x` for finite numbers that are not positive.  Limit: `relu(-∞)` is NaN. -/
theorem C72_relu (hx : x.Holds d s f) (p : Profile) (m : Nat → Fl f32) : ∃ F, Yields (TF.relu p m x) d s F ∧ ∀ c b, s.Valid c b →
    ((f c b).Pos → F c b = f c b) ∧ (∀ v, (f c b).Is v → v ≤ 0 → (F c b).Is 0) ∧ (f c b = .inf true ∨ f c b = .nan → F c b = .nan) := by
  refine ⟨_, (C20_const hx p m 0).2.2.2.2.2.2.2.2.2.1, fun c b _ => ?_⟩
  have e : f c b * ((if Flt.gt (f c b) 0 then 1 else 0) + (if Flt.le (f c b) 0 then 1 else 0) * 0) = (f c b).relu :=
    relu_eq (N := E.near32) (M := E.near64) (L := E.libm32) (W := E.libm64) (f c b)
  rw [e]
  refine ⟨fun h => ?_, fun v h1 h2 => ?_, fun h => ?_⟩
  · cases hc : f c b with
    | nan => rw [hc] at h; exact h.elim
    | inf t => cases t with
      | true => rw [hc] at h; cases h
      | false => rfl
    | fin t w hw => rw [hc] at h; exact if_pos (show 0 < w from h)
  · cases hc : f c b with
    | nan => rw [hc] at h1; exact h1.elim
    | inf t => rw [hc] at h1; exact h1.elim
    | fin t w hw =>
      rw [hc] at h1
      rw [show (Fl.fin t w hw).relu = _ from if_neg (not_lt.mpr (h1.2.trans h2) : ¬ 0 < w)]
      exact ⟨le_rfl, le_rfl⟩
  · rcases h with h | h <;> rw [h] <;> rfl

/-- C72: `prelu(x, k)` with a finite `k`: positive numbers and `∞` unchanged, otherwise `k * x` rounded once; NaN stays NaN. -/
theorem C72_prelu {k : Fl f32} {κ : ℝ} (hk : k.Is κ) (hx : x.Holds d s f) (p : Profile) (m : Nat → Fl f32) :
    ∃ F, Yields (TF.prelu p m x k) d s F ∧ ∀ c b, s.Valid c b →
      ((f c b).Pos → F c b = f c b) ∧ (∀ v, (f c b).Is v → v ≤ 0 → ∃ z, F c b = Fl.round E.near32 z (κ * v)) ∧ (f c b = .nan → F c b = .nan) := by
  refine ⟨_, (C20_const hx p m k).2.2.2.2.2.2.2.2.2.2.2.1, fun c b _ => ?_⟩
  have e : f c b * ((if Flt.gt (f c b) 0 then 1 else 0) + (if Flt.le (f c b) 0 then 1 else 0) * k) =
    Fl.mul E.near32 (f c b) (preluF E.near32 E.near64 E.libm32 E.libm64 (f c b) k) := rfl
  rw [e]
  refine ⟨fun h => ?_, fun v h1 h2 => ?_, fun h => ?_⟩
  · rw [preluF_pos hk h, Fl.mul_one_right]
  · have hp : (f c b).NonPos := by
      cases hc : f c b with
      | nan => rw [hc] at h1; exact h1.elim
      | inf t => rw [hc] at h1; exact h1.elim
      | fin t w hw => rw [hc] at h1; exact h1.2.trans h2
    obtain ⟨z, e⟩ := Fl.mul_eq (N := E.near32) h1 (preluF_nonPos (N := E.near32) (M := E.near64) (L := E.libm32) (W := E.libm64) hk hp)
    exact ⟨z, by rw [e, mul_comm]⟩
  · rw [h]; rfl

/-- C72: `elu(x, k)` with finite `k ≥ 0`: positive numbers and `∞` unchanged, all others (`-∞` included) go to [-k, 0]. -/
theorem C72_elu {k : Fl f32} {κ : ℝ} (hk : k.Is κ) (h0 : 0 ≤ κ) (hx : x.Holds d s f) (p : Profile) (m : Nat → Fl f32) :
    ∃ F, Yields (TF.elu p m x k) d s F ∧ ∀ c b, s.Valid c b → ((f c b).Pos → F c b = f c b) ∧ ((f c b).NonPos → (F c b).In (-κ) 0) := by
  refine ⟨_, (C20_const hx p m k).2.2.2.2.2.2.2.2.2.2.2.2, fun c b _ => ⟨fun h => ?_, fun h => ?_⟩⟩
  · exact if_pos (h.gt lit0_is).1
  · rw [if_neg (by rw [show Flt.gt (f c b) 0 = false from (h.gt lit0_is).1]; simp)]
    have h1 : (E.libm32.exp (f c b)).In 0 1 := E.sane32.exp _ h
    have h2 : (Fl.sub E.near32 (E.libm32.exp (f c b)) (Fl.lit 1 Fl.one_ok zero_le_one)).In (-1) 0 :=
      Fl.sub_in h1 lit1_is has1.neg has0 (by norm_num) (by norm_num)
    obtain ⟨w, -, hw, h3, h4⟩ := h2.exists_in
    obtain ⟨z, e⟩ := Fl.mul_eq (N := E.near32) hk hw
    show (Fl.mul E.near32 k (Fl.sub E.near32 (E.libm32.exp (f c b)) (Fl.lit 1 Fl.one_ok zero_le_one))).In (-κ) 0
    rw [e]
    exact Fl.round_in hk.has.neg has0 (by nlinarith) (by nlinarith)

/-- C72: what the backward function of `relu` adds for a finite gradient: the gradient itself where `x` is positive, and zero elsewhere (also where `x` is NaN).
Limit: an infinite gradient becomes NaN where `x` is not positive. -/
theorem C72_relu_gradient (hx : x.Holds d s f) (hy : y.Holds d s fy) (hgy : gy.Holds d s fgy) (hgx : gx.Holds d s fg) (p : Profile) (m : Mem (Fl f32)) :
    ∃ T : Arr (Fl f32), Yields (Dev.bw (.cn .prelu 0) p d m [x] [y] gy gx) d s (fun c b => fg c b + T c b) ∧ ∀ c b,
      ((f c b).Pos → T c b = fgy c b) ∧ (¬ (f c b).Pos → (fgy c b).Finite → (T c b).Is 0) ∧
      (¬ (f c b).Pos → ∀ t, fgy c b = .inf t → T c b = .nan) := by
  refine ⟨_, (C29_const hx hy hgy hgx p m 0).2.2.2.2.2.2.2.2.1, fun c b => ?_⟩
  have e : fgy c b * ((if Flt.gt (f c b) 0 then 1 else 0) + (if Flt.le (f c b) 0 then 1 else 0) * 0) =
    Fl.mul E.near32 (fgy c b) (preluF E.near32 E.near64 E.libm32 E.libm64 (f c b) (Fl.lit 0 Fl.zero_ok le_rfl)) := rfl
  rw [e]
  have hz : ¬ (f c b).Pos → (preluF E.near32 E.near64 E.libm32 E.libm64 (f c b) (Fl.lit 0 Fl.zero_ok le_rfl)).Is 0 := fun h => by
    by_cases hn : f c b = .nan
    · rw [hn]; exact preluF_nan lit0_is
    · exact preluF_nonPos lit0_is ((Fl.pos_or_nonPos hn).resolve_left h)
  refine ⟨fun h => ?_, fun h hg => ?_, fun h t hg => ?_⟩
  · rw [preluF_pos lit0_is h, Fl.mul_one_right]
  · exact Fl.mul_is_zero hg (hz h) has0
  · have h1 := hz h
    rw [hg]
    cases hc : preluF E.near32 E.near64 E.libm32 E.libm64 (f c b) (Fl.lit 0 Fl.zero_ok le_rfl) with
    | nan => rfl
    | inf t => rw [hc] at h1; exact h1.elim
    | fin t w hw => rw [hc] at h1; exact if_pos (le_antisymm h1.2 h1.1)

/-- C72: what the backward function of `sigmoid` adds for a finite gradient `g`, the result being in [0, 1] as `sigmoid` returns it: a number between 0 and `g`,
of magnitude at most a quarter of `|g|` up to rounding. -/
theorem C72_sigmoid_gradient (hx : x.Holds d s f) (hy : y.Holds d s fy) (hy01 : ∀ c b, s.Valid c b → (fy c b).In 0 1) (hgy : gy.Holds d s fgy)
    (hgx : gx.Holds d s fg) (p : Profile) (m : Mem (Fl f32)) :
    ∃ T : Arr (Fl f32), Yields (Dev.bw (.un .sigmoid) p d m [x] [y] gy gx) d s (fun c b => fg c b + T c b) ∧ ∀ c b, s.Valid c b → ∀ g, (fgy c b).Is g →
      (T c b).In (min 0 g) (max 0 g) ∧ ∃ t, (T c b).Is t ∧ |t| ≤ |g| / 4 * (1 + 1 / 2 ^ 22) + 1 / 2 ^ 147 := by
  refine ⟨_, (C29_unary hx hy hgy hgx p m).2.2.2.2.2.2.2.2, fun c b hv g hg => ?_⟩
  have ha : f32.Has (min 0 g) := by rcases min_choice 0 g with h | h <;> rw [h]; exacts [has0, hg.has]
  have hb : f32.Has (max 0 g) := by rcases max_choice 0 g with h | h <;> rw [h]; exacts [has0, hg.has]
  obtain ⟨v, -, hv', h0, h1⟩ := (hy01 c b hv).exists_in
  have hv' : (fy c b).Is v := hv'
  obtain ⟨z1, e1⟩ := Fl.mul_eq (N := E.near32) hg hv'
  have i1 : (Fl.mul E.near32 (fgy c b) (fy c b)).In (min 0 g) (max 0 g) :=
    Fl.mul_between hg (hy01 c b hv) ha hb (min_le_left _ _) (le_max_left _ _) (min_le_right _ _) (le_max_right _ _)
  have i2 : (Fl.sub E.near32 (Fl.lit 1 Fl.one_ok zero_le_one) (fy c b)).In 0 1 := Fl.sub_in lit1_is (hy01 c b hv) has0 has1 (by norm_num) (by norm_num)
  obtain ⟨a, hah, hia, ha1, ha2⟩ := i1.exists_in
  have hia : (Fl.mul E.near32 (fgy c b) (fy c b)).Is a := hia
  have i3 : (Fl.mul E.near32 (Fl.mul E.near32 (fgy c b) (fy c b)) (Fl.sub E.near32 (Fl.lit 1 Fl.one_ok zero_le_one) (fy c b))).In (min 0 g) (max 0 g) :=
    Fl.mul_between hia i2 ha hb (min_le_left _ _) (le_max_left _ _) ha1 ha2
  refine ⟨i3, ?_⟩
  obtain ⟨t, -, hit, -, -⟩ := i3.exists_in
  have hit : Fl.Is _ t := hit
  refine ⟨t, hit, ?_⟩
  obtain ⟨q, -, hiq, hq0, hq1⟩ := i2.exists_in
  have hiq : Fl.Is _ q := hiq
  -- the three roundings
  have hg128 : |g| < 2 ^ 128 := by have := hg.has.2; rwa [top32] at this
  have na : a = E.near32.near (g * v) := Fl.round_val (e1 ▸ hia)
  have nq : q = E.near32.near (1 - v) := by
    obtain ⟨z, e⟩ := Fl.sub_eq (N := E.near32) lit1_is hv'
    exact Fl.round_val (e ▸ hiq)
  have nt : t = E.near32.near (a * q) := by
    obtain ⟨z, e⟩ := Fl.mul_eq (N := E.near32) hia hiq
    exact Fl.round_val (e ▸ hit)
  have hgv : |g * v| ≤ |g| * v := by rw [abs_mul, abs_of_nonneg h0]
  have b1 := E.near32.err32 (x := g * v) (hgv.trans_lt (by nlinarith [abs_nonneg g]))
  have b2 := E.near32.err32 (x := 1 - v) (by rw [abs_of_nonneg (by linarith)]; norm_num; linarith)
  rw [← na] at b1
  rw [← nq, abs_of_nonneg (show 0 ≤ 1 - v by linarith)] at b2
  have hag : |a| ≤ |g| := by
    rcases le_total 0 g with h | h
    · rw [min_eq_left h] at ha1; rw [max_eq_right h] at ha2; rw [abs_of_nonneg ha1, abs_of_nonneg h]; exact ha2
    · rw [min_eq_right h] at ha1; rw [max_eq_left h] at ha2; rw [abs_of_nonpos ha2, abs_of_nonpos h]; linarith
  have haq : |a * q| ≤ |a| * q := by rw [abs_mul, abs_of_nonneg hq0]
  have b3 := E.near32.err32 (x := a * q) (haq.trans_lt (by nlinarith [abs_nonneg a]))
  rw [← nt] at b3
  have c1 : |a| ≤ |g| * v * (1 + 1 / 2 ^ 24) + 1 / 2 ^ 150 := by
    have := abs_sub_abs_le_abs_sub a (g * v)
    rw [abs_sub_comm] at this
    have h2 : |g * v| / 2 ^ 24 ≤ |g| * v / 2 ^ 24 := div_le_div_of_nonneg_right hgv (by positivity)
    calc |a| ≤ |g * v| + (|g * v| / 2 ^ 24 + 1 / 2 ^ 150) := by linarith
      _ ≤ _ := by linarith
  have c2 : q ≤ (1 - v) * (1 + 1 / 2 ^ 24) + 1 / 2 ^ 150 := by
    have := (abs_le.mp b2).1
    linarith
  have c3 : |t| ≤ |a| * q * (1 + 1 / 2 ^ 24) + 1 / 2 ^ 150 := by
    have := abs_sub_abs_le_abs_sub t (a * q)
    rw [abs_sub_comm] at this
    have h2 : |a * q| / 2 ^ 24 ≤ |a| * q / 2 ^ 24 := div_le_div_of_nonneg_right haq (by positivity)
    linarith
  have hG := abs_nonneg g
  have c4 : |a| * q ≤ (|g| * v * (1 + 1 / 2 ^ 24) + 1 / 2 ^ 150) * q := mul_le_mul_of_nonneg_right c1 hq0
  have hvv : v * (1 - v) ≤ 1 / 4 := by nlinarith [sq_nonneg (v - 1 / 2)]
  have c5 : |g| * v * q ≤ |g| / 4 * (1 + 1 / 2 ^ 24) + |g| / 2 ^ 150 := by
    have h1' := mul_le_mul_of_nonneg_left c2 (mul_nonneg hG h0)
    have h2' := mul_le_mul_of_nonneg_left hvv hG
    have h3' : |g| * v ≤ |g| := by nlinarith
    nlinarith
  have c6 : |a| * q ≤ (|g| / 4 * (1 + 1 / 2 ^ 24) + |g| / 2 ^ 150) * (1 + 1 / 2 ^ 24) + 1 / 2 ^ 150 := by
    have h3' := mul_le_mul_of_nonneg_right c5 (show (0 : ℝ) ≤ 1 + 1 / 2 ^ 24 by positivity)
    have h4' : 1 / 2 ^ 150 * q ≤ (1 : ℝ) / 2 ^ 150 := by
      have : (0 : ℝ) ≤ 1 / 2 ^ 150 := by positivity
      nlinarith
    nlinarith
  have c7 := mul_le_mul_of_nonneg_right c6 (show (0 : ℝ) ≤ 1 + 1 / 2 ^ 24 by positivity)
  refine c3.trans ((add_le_add_left c7 _).trans ?_)
  have k1 : ((1 / 4 * (1 + 1 / 2 ^ 24) + 1 / 2 ^ 150) * (1 + 1 / 2 ^ 24)) * (1 + 1 / 2 ^ 24) ≤ (1 / 4 * (1 + 1 / 2 ^ 22) : ℝ) := by norm_num
  have k2 : (1 / 2 ^ 150 * (1 + 1 / 2 ^ 24) + 1 / 2 ^ 150 : ℝ) ≤ 1 / 2 ^ 147 := by norm_num
  have k3 := mul_le_mul_of_nonneg_left k1 hG
  calc _ = |g| * (((1 / 4 * (1 + 1 / 2 ^ 24) + 1 / 2 ^ 150) * (1 + 1 / 2 ^ 24)) * (1 + 1 / 2 ^ 24)) + (1 / 2 ^ 150 * (1 + 1 / 2 ^ 24) + 1 / 2 ^ 150) := by ring
    _ ≤ |g| * (1 / 4 * (1 + 1 / 2 ^ 22)) + 1 / 2 ^ 147 := add_le_add k3 k2
    _ = _ := by ring

/-- C72: what the backward function of `tanh` adds for a finite gradient `g`, the result being in [-1, 1] as `tanh` returns it: a number between 0 and `g`. -/
theorem C72_tanh_gradient (hx : x.Holds d s f) (hy : y.Holds d s fy) (hy1 : ∀ c b, s.Valid c b → (fy c b).In (-1) 1) (hgy : gy.Holds d s fgy)
    (hgx : gx.Holds d s fg) (p : Profile) (m : Mem (Fl f32)) :
    ∃ T : Arr (Fl f32), Yields (Dev.bw (.un .tanh) p d m [x] [y] gy gx) d s (fun c b => fg c b + T c b) ∧ ∀ c b, s.Valid c b → ∀ g, (fgy c b).Is g →
      (T c b).In (min 0 g) (max 0 g) := by
  refine ⟨_, (C29_unary hx hy hgy hgx p m).2.2.2.2.2.2.2.1, fun c b hv g hg => ?_⟩
  have ha : f32.Has (min 0 g) := by rcases min_choice 0 g with h | h <;> rw [h]; exacts [has0, hg.has]
  have hb : f32.Has (max 0 g) := by rcases max_choice 0 g with h | h <;> rw [h]; exacts [has0, hg.has]
  obtain ⟨v, -, hv', h0, h1⟩ := (hy1 c b hv).exists_in
  obtain ⟨z, e⟩ := Fl.mul_eq (N := E.near32) hv' hv'
  have i1 : (Fl.mul E.near32 (fy c b) (fy c b)).In 0 1 := by
    rw [e]; exact Fl.round_in has0 has1 (mul_self_nonneg v) (by nlinarith)
  have i2 : (Fl.sub E.near32 (Fl.lit 1 Fl.one_ok zero_le_one) (Fl.mul E.near32 (fy c b) (fy c b))).In 0 1 :=
    Fl.sub_in lit1_is i1 has0 has1 (by norm_num) (by norm_num)
  exact Fl.mul_between hg i2 ha hb (min_le_left _ _) (le_max_left _ _) (min_le_right _ _) (le_max_right _ _)

/-- C72: what the backward function of `abs` adds: the gradient where `x` is positive, its negative where `x` is negative, and zero (for a finite gradient) where
`x` is zero or NaN. -/
theorem C72_abs_gradient (hx : x.Holds d s f) (hy : y.Holds d s fy) (hgy : gy.Holds d s fgy) (hgx : gx.Holds d s fg) (p : Profile) (m : Mem (Fl f32)) :
    ∃ T : Arr (Fl f32), Yields (Dev.bw (.un .abs) p d m [x] [y] gy gx) d s (fun c b => fg c b + T c b) ∧ ∀ c b, s.Valid c b →
      ((f c b).Pos → T c b = fgy c b) ∧ ((-f c b).Pos → T c b = -fgy c b) ∧ ((f c b).Is 0 ∨ f c b = .nan → (fgy c b).Finite → (T c b).Is 0) := by
  refine ⟨_, (C29_unary hx hy hgy hgx p m).2.1, fun c b hv => ?_⟩
  have e : fgy c b * Flt.ofInt ((if Flt.gt (f c b) 0 then 1 else 0) - (if Flt.gt 0 (f c b) then 1 else 0)) =
    Fl.mul E.near32 (fgy c b) (Fl.round E.near32 false (((if Fl.gt (f c b) (Fl.lit 0 Fl.zero_ok le_rfl) then 1 else 0) -
      (if Fl.gt (Fl.lit 0 Fl.zero_ok le_rfl) (f c b) then 1 else 0) : ℤ) : ℝ)) := rfl
  rw [e]
  have hneg : ∀ z : Fl f32, (-z).Pos → Fl.gt z (Fl.lit 0 Fl.zero_ok le_rfl) = false ∧ Fl.gt (Fl.lit 0 Fl.zero_ok le_rfl) z = true := fun z h => by
    cases z with
    | nan => exact h.elim
    | inf t => cases t with
      | true => exact ⟨rfl, rfl⟩
      | false => cases h
    | fin t w hw =>
      have h' : 0 < -w := h
      exact ⟨decide_eq_false (by linarith), decide_eq_true (by linarith)⟩
  have hpos : ∀ z : Fl f32, z.Pos → Fl.gt z (Fl.lit 0 Fl.zero_ok le_rfl) = true ∧ Fl.gt (Fl.lit 0 Fl.zero_ok le_rfl) z = false := fun z h => by
    cases z with
    | nan => exact h.elim
    | inf t => cases t with
      | true => cases h
      | false => exact ⟨rfl, rfl⟩
    | fin t w hw =>
      have h' : 0 < w := h
      exact ⟨decide_eq_true h', decide_eq_false (by linarith)⟩
  have hzero : ∀ z : Fl f32, z.Is 0 ∨ z = .nan → Fl.gt z (Fl.lit 0 Fl.zero_ok le_rfl) = false ∧ Fl.gt (Fl.lit 0 Fl.zero_ok le_rfl) z = false := fun z h => by
    cases z with
    | nan => exact ⟨rfl, rfl⟩
    | inf t => rcases h with h | h <;> cases h
    | fin t w hw =>
      have h' : w = 0 := by
        rcases h with h | h
        · exact le_antisymm h.2 h.1
        · cases h
      exact ⟨decide_eq_false (by linarith), decide_eq_false (by linarith)⟩
  refine ⟨fun h => ?_, fun h => ?_, fun h hg => ?_⟩
  · obtain ⟨h1, h2⟩ := hpos _ h
    rw [h1, h2, if_pos rfl, if_neg (by simp), show (((1 : ℤ) - 0 : ℤ) : ℝ) = 1 by norm_num,
      Fl.round_fin false 1 ⟨has1.1, has1.2, fun e => (by cases e), fun _ => zero_le_one⟩]
    exact Fl.mul_one_right _ Fl.one_ok
  · obtain ⟨h1, h2⟩ := hneg _ h
    rw [h1, h2, if_pos rfl, if_neg (by simp), show (((0 : ℤ) - 1 : ℤ) : ℝ) = -1 by norm_num]
    have e1 : Fl.round E.near32 false (-1) = Fl.fin true (-1) ⟨has1.neg.1, has1.neg.2, fun _ => by norm_num, fun e => (by cases e)⟩ := by
      unfold Fl.round
      have e2 := E.near32.near_grid has1.neg.1
      rw [dif_pos (by rw [e2]; exact has1.neg.2), dif_neg (by rw [e2]; norm_num)]
      simp only [e2]
      have : decide ((-1 : ℝ) < 0) = true := decide_eq_true (by norm_num)
      simp only [this]
    rw [e1]
    exact Fl.mul_neg_one _ _
  · obtain ⟨h1, h2⟩ := hzero _ h
    rw [h1, h2, if_neg (by simp), show (((0 : ℤ) - 0 : ℤ) : ℝ) = 0 by norm_num, Fl.round_zero false has0]
    exact Fl.mul_is_zero hg ⟨le_rfl, le_rfl⟩ has0

/-- C72, a limit: where `x` is zero, the gradient of `sqrt` is infinite if the gradient of the result is not (almost) zero, and NaN if it is zero, whatever
was there before: a zero gradient does not protect from NaN. -/
theorem C72_sqrt_gradient_at_zero {p0 : Profile} {m0 : Nat → Fl f32} (hx : x.Holds d s f) (hy : TF.sqrt p0 m0 x = ok y) (hgy : gy.Holds d s fgy)
    (hgx : gx.Holds d s fg) (p : Profile) (m : Mem (Fl f32)) :
    ∃ F : Arr (Fl f32), Yields (Dev.bw (.un .sqrt) p d m [x] [y] gy gx) d s F ∧ ∀ c b, s.Valid c b → (f c b).Is 0 →
      (∀ g, (fgy c b).Is g → 1 / 2 ^ 148 ≤ |g| → (fg c b).Finite → ∃ t, F c b = .inf t) ∧ ((fgy c b).Is 0 → F c b = .nan) := by
  obtain ⟨y', e, hy'⟩ := (C20_unary hx p0 m0).2.1
  obtain rfl : y' = y := by rw [e] at hy; exact Res.ok.inj hy
  refine ⟨_, (C29_unary hx hy' hgy hgx p m).1, fun c b hv h0 => ?_⟩
  have hz : (Fl.sqrt E.near32 (f c b)).Is 0 := by
    cases hc : f c b with
    | nan => rw [hc] at h0; exact h0.elim
    | inf t => rw [hc] at h0; exact h0.elim
    | fin t w hw =>
      rw [hc] at h0
      obtain rfl : w = 0 := le_antisymm h0.2 h0.1
      show (if (0 : ℝ) < 0 then _ else _ : Fl f32).Is 0
      rw [if_neg (lt_irrefl _), Real.sqrt_zero, Fl.round_zero t has0]
      exact ⟨le_rfl, le_rfl⟩
  obtain ⟨k1, k2⟩ := Fl.div_zero_eq (N := E.near32) (x := Fl.mul E.near32 (fgy c b) (Fl.lit (1 / 2) Fl.half_ok (by norm_num))) hz
  refine ⟨fun g hg hg' hfin => ?_, fun hg => ?_⟩
  · obtain ⟨q1, q2⟩ := Fl.mul_half_ne (N := E.near32) hg hg' Fl.half_ok
    obtain ⟨t, e⟩ := k2 q1 q2
    refine ⟨t, ?_⟩
    show Fl.add E.near32 (fg c b) (Fl.div E.near32 (Fl.mul E.near32 (fgy c b) (Fl.lit (1 / 2) Fl.half_ok (by norm_num))) (Fl.sqrt E.near32 (f c b))) = _
    rw [e]
    cases hc : fg c b with
    | nan => rw [hc] at hfin; exact hfin.elim
    | inf t => rw [hc] at hfin; exact hfin.elim
    | fin t w hw => rfl
  · show Fl.add E.near32 (fg c b) (Fl.div E.near32 (Fl.mul E.near32 (fgy c b) (Fl.lit (1 / 2) Fl.half_ok (by norm_num))) (Fl.sqrt E.near32 (f c b))) = _
    rw [k1, Fl.add_nan]
    obtain ⟨z, e⟩ := Fl.mul_eq (N := E.near32) hg (y := Fl.lit (1 / 2) Fl.half_ok (by norm_num)) (v := 1 / 2) ⟨le_rfl, le_rfl⟩
    rw [e, zero_mul, Fl.round_zero z has0]
    exact ⟨le_rfl, le_rfl⟩

/-- C72, the same limit for `ln`. -/
theorem C72_ln_gradient_at_zero (hx : x.Holds d s f) (hy : y.Holds d s fy) (hgy : gy.Holds d s fgy) (hgx : gx.Holds d s fg) (p : Profile) (m : Mem (Fl f32)) :
    ∃ F : Arr (Fl f32), Yields (Dev.bw (.un .ln) p d m [x] [y] gy gx) d s F ∧ ∀ c b, s.Valid c b → (f c b).Is 0 →
      (∀ g, (fgy c b).Is g → g ≠ 0 → (fg c b).Finite → ∃ t, F c b = .inf t) ∧ ((fgy c b).Is 0 → F c b = .nan) := by
  refine ⟨_, (C29_unary hx hy hgy hgx p m).2.2.2.2.2.2.1, fun c b hv h0 => ?_⟩
  obtain ⟨k1, k2⟩ := Fl.div_zero_eq (N := E.near32) (x := fgy c b) h0
  refine ⟨fun g hg hg' hfin => ?_, fun hg => ?_⟩
  · obtain ⟨t, e⟩ := k2 (fun h => hg' (Fl.Is.unique hg h)) (fun h => by rw [h] at hg; exact hg.elim)
    refine ⟨t, ?_⟩
    show Fl.add E.near32 (fg c b) (Fl.div E.near32 _ _) = _
    rw [e]
    cases hc : fg c b with
    | nan => rw [hc] at hfin; exact hfin.elim
    | inf t => rw [hc] at hfin; exact hfin.elim
    | fin t w hw => rfl
  · show Fl.add E.near32 (fg c b) (Fl.div E.near32 _ _) = _
    rw [k1 hg, Fl.add_nan]

end

/-! ### The premises are met -/

/-- `relu` of -∞, 1. -/
example [Ieee] (p : Profile) (m : Nat → Fl f32) : ∃ (x : Tensor (Fl f32)) (F : Arr (Fl f32)), Yields (TF.relu p m x) 0 (vecShape 2 1) F ∧
    ∀ c b, (vecShape 2 1).Valid c b → F c b = if c 0 = 0 then .nan else fl1 := by
  obtain ⟨x, f, hx, hf⟩ := pair_exists (.inf true) fl1
  obtain ⟨F, h1, h2⟩ := C72_relu hx p m
  refine ⟨x, F, h1, fun c b hv => ?_⟩
  obtain ⟨k1, -, k3⟩ := h2 c b hv
  have e := hf c b hv
  by_cases h0 : c 0 = 0
  · rw [if_pos h0] at e ⊢; exact k3 (.inl e)
  · rw [if_neg h0] at e ⊢; rw [k1 (by rw [e]; exact (zero_lt_one : (0 : ℝ) < 1)), e]

/-- `prelu` and `elu` of ∞ and −1 with factor 1. -/
example [E : Ieee] (p : Profile) (m : Nat → Fl f32) : ∃ (x : Tensor (Fl f32)) (F G : Arr (Fl f32)), Yields (TF.prelu p m x 1) 0 (vecShape 2 1) F ∧
    Yields (TF.elu p m x 1) 0 (vecShape 2 1) G ∧ ∀ c b, (vecShape 2 1).Valid c b →
      if c 0 = 0 then F c b = .inf false ∧ G c b = .inf false else (F c b).Is (-1) ∧ (G c b).In (-1) 0 := by
  obtain ⟨x, f, hx, hf⟩ := pair_exists (.inf false) (-fl1)
  obtain ⟨F, h1, h2⟩ := C72_prelu (k := 1) (κ := 1) lit1_is hx p m
  obtain ⟨G, h3, h4⟩ := C72_elu (k := 1) (κ := 1) lit1_is zero_le_one hx p m
  refine ⟨x, F, G, h1, h3, fun c b hv => ?_⟩
  have e := hf c b hv
  obtain ⟨k1, k2, -⟩ := h2 c b hv
  obtain ⟨k4, k5⟩ := h4 c b hv
  by_cases h0 : c 0 = 0
  · rw [if_pos h0] at e ⊢
    exact ⟨(k1 (by rw [e]; rfl)).trans e, (k4 (by rw [e]; rfl)).trans e⟩
  · rw [if_neg h0] at e ⊢
    have h5 : (f c b).Is (-1) := by rw [e]; exact ⟨le_rfl, le_rfl⟩
    obtain ⟨z, e2⟩ := k2 (-1) h5 (by norm_num)
    refine ⟨?_, k5 (by rw [e]; show (-1 : ℝ) ≤ 0; norm_num)⟩
    rw [e2, one_mul]
    exact Fl.round_in has1.neg has1.neg le_rfl le_rfl

/-- Gradients: sigmoid of any pair of numbers, and `sqrt` of 0, 1 with gradient 0: the first element of the result is NaN. -/
example [E : Ieee] (p : Profile) (m : Nat → Fl f32) (m' : Mem (Fl f32)) : ∃ (x y g : Tensor (Fl f32)) (F : Arr (Fl f32)), TF.sqrt p m x = ok y ∧
    g.Holds 0 (vecShape 2 1) (fun _ _ => 0) ∧ Yields (Dev.bw (.un .sqrt) p 0 m' [x] [y] g g) 0 (vecShape 2 1) F ∧
    ∀ c b, (vecShape 2 1).Valid c b → c 0 = 0 → F c b = .nan := by
  obtain ⟨x, f, hx, hf⟩ := pair_exists 0 fl1
  obtain ⟨g, hg⟩ := exists_holds hx.wf hx.small 0 (fun _ => (0 : Fl f32))
  obtain ⟨y, hy, -⟩ := (C20_unary hx p m).2.1
  obtain ⟨F, h1, h2⟩ := C72_sqrt_gradient_at_zero hx hy hg hg p m'
  refine ⟨x, y, g, F, hy, hg, h1, fun c b hv h0 => (h2 c b hv ?_).2 lit0_is⟩
  rw [hf c b hv, if_pos h0]
  exact lit0_is

/-- Gradients of `sigmoid`, `tanh` and `relu` at a pair of any numbers with gradient 1: the results of the forward functions meet the premises. -/
example [E : Ieee] (u v : Fl f32) (hu : u ≠ .nan) (hv : v ≠ .nan) (p : Profile) (m : Nat → Fl f32) (m' : Mem (Fl f32)) :
    ∃ (x y g : Tensor (Fl f32)) (T : Arr (Fl f32)), TF.sigmoid p m x = ok y ∧ g.Holds 0 (vecShape 2 1) (fun _ _ => 1) ∧
      Yields (Dev.bw (.un .sigmoid) p 0 m' [x] [y] g g) 0 (vecShape 2 1) (fun c b => 1 + T c b) ∧
      ∀ c b, (vecShape 2 1).Valid c b → ∃ t, (T c b).Is t ∧ 0 ≤ t ∧ t ≤ 1 / 4 * (1 + 1 / 2 ^ 22) + 1 / 2 ^ 147 := by
  obtain ⟨x, f, hx, hf⟩ := pair_exists u v
  obtain ⟨fy, ⟨y, e, hy⟩, hy01⟩ := C67_sigmoid hx (fun c b h => by rw [hf c b h]; split <;> assumption) p m
  obtain ⟨g, hg⟩ := exists_holds hx.wf hx.small 0 (fun _ => (1 : Fl f32))
  obtain ⟨T, h1, h2⟩ := C72_sigmoid_gradient hx hy hy01 hg hg p m'
  refine ⟨x, y, g, T, e, hg, h1, fun c b hv => ?_⟩
  obtain ⟨k1, t, k2, k3⟩ := h2 c b hv 1 lit1_is
  have h0 := (k2.in k1).1
  rw [min_eq_left zero_le_one] at h0
  rw [abs_of_nonneg h0, abs_one] at k3
  exact ⟨t, k2, h0, k3⟩

/-- Gradients of `relu`, `abs`, `ln` and `tanh` at the pair -1, 0 with gradient 1 (`y` stands for the results; it meets the premise of `tanh`). -/
example [E : Ieee] (p : Profile) (m' : Mem (Fl f32)) : ∃ (x y g z : Tensor (Fl f32)) (R A L T : Arr (Fl f32)),
    Yields (Dev.bw (.cn .prelu 0) p 0 m' [x] [y] g z) 0 (vecShape 2 1) (fun c b => 0 + R c b) ∧
    Yields (Dev.bw (.un .abs) p 0 m' [x] [y] g z) 0 (vecShape 2 1) (fun c b => 0 + A c b) ∧
    Yields (Dev.bw (.un .ln) p 0 m' [x] [y] g z) 0 (vecShape 2 1) L ∧
    Yields (Dev.bw (.un .tanh) p 0 m' [x] [y] g z) 0 (vecShape 2 1) (fun c b => 0 + T c b) ∧
    ∀ c b, (vecShape 2 1).Valid c b → (R c b).Is 0 ∧ (T c b).In 0 1 ∧ (c 0 = 0 → A c b = -1) ∧ (c 0 ≠ 0 → (A c b).Is 0 ∧ ∃ t, L c b = .inf t) := by
  obtain ⟨x, f, hx, hf⟩ := pair_exists (-fl1) 0
  obtain ⟨g, hg⟩ := exists_holds hx.wf hx.small 0 (fun _ => (1 : Fl f32))
  obtain ⟨z, hz⟩ := exists_holds hx.wf hx.small 0 (fun _ => (0 : Fl f32))
  obtain ⟨R, r1, r2⟩ := C72_relu_gradient hx hg hg hz p m'
  obtain ⟨A, a1, a2⟩ := C72_abs_gradient hx hg hg hz p m'
  obtain ⟨L, l1, l2⟩ := C72_ln_gradient_at_zero hx hg hg hz p m'
  obtain ⟨T, t1, t2⟩ := C72_tanh_gradient hx hg (fun c b _ => lit1_is.mono (by norm_num) le_rfl) hg hz p m'
  refine ⟨x, g, g, z, R, A, L, T, r1, a1, l1, t1, fun c b hv => ?_⟩
  have e := hf c b hv
  have hT := t2 c b hv 1 lit1_is
  rw [min_eq_left zero_le_one, max_eq_right zero_le_one] at hT
  by_cases h0 : c 0 = 0
  · rw [if_pos h0] at e
    refine ⟨(r2 c b).2.1 ?_ trivial, hT, fun _ => (a2 c b hv).2.1 ?_, fun h => absurd h0 h⟩
    · rw [e]; show ¬ (0 : ℝ) < -1; norm_num
    · rw [e]; show (0 : ℝ) < - -1; norm_num
  · rw [if_neg h0] at e
    refine ⟨(r2 c b).2.1 ?_ trivial, hT, fun h => absurd h h0, fun _ => ⟨(a2 c b hv).2.2 (.inl ?_) trivial, (l2 c b hv ?_).1 1 lit1_is one_ne_zero trivial⟩⟩
    · rw [e]; exact lt_irrefl (0 : ℝ)
    · rw [e]; exact lit0_is
    · rw [e]; exact lit0_is

end Verif
