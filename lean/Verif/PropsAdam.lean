import Verif.PropsMomentum
import Mathlib.Analysis.Convex.SpecificFunctions.Pow

/-!
# Property C83: steps of Adam

`Graph.Training` (C63) is a run of `N` iterations; `ValuesAre` says what the values of the parameters are.
-/

set_option linter.unusedSectionVars false

namespace Verif
open Res
attribute [local instance] realFlt

/-! ## One element -/

/-- The corrections of the two moments. -/
theorem correction_le {a b : ℝ} (ha0 : 0 ≤ a) (h : 1 - b ≤ (1 - a) ^ 2) (ha1 : a ≤ 1) (t : Nat) :
    Real.sqrt (1 - b ^ t) ≤ 1 - a ^ t := by
  have hat : a ^ t ≤ 1 := pow_le_one₀ ha0 ha1
  refine Real.sqrt_le_iff.mpr ⟨by linarith, ?_⟩
  have h1 : (a * (2 - a)) ^ t ≤ b ^ t := pow_le_pow_left₀ (mul_nonneg ha0 (by linarith)) (by nlinarith) t
  have h2 : 2 ≤ (2 - a) ^ t + a ^ t := by
    have h3 := one_add_mul_le_pow (a := 1 - a) (by linarith) t
    have h4 := one_add_mul_le_pow (a := a - 1) (by linarith) t
    have e3 : (1 + (1 - a)) = 2 - a := by ring
    have e4 : (1 + (a - 1)) = a := by ring
    rw [e3] at h3
    rw [e4] at h4
    linarith
  rw [mul_pow] at h1
  have h0 : 0 ≤ a ^ t := pow_nonneg ha0 t
  nlinarith

/-- The first moment is bounded by the root of the second one. -/
theorem moment_step {a b m v x : ℝ} (hb0 : 0 < b) (hb1 : b < 1) (hab : a ^ 2 < b)
    (h : m ^ 2 ≤ (1 - a) ^ 2 / ((1 - b) * (1 - a ^ 2 / b)) * v) :
    (a * m + (1 - a) * x) ^ 2 ≤ (1 - a) ^ 2 / ((1 - b) * (1 - a ^ 2 / b)) * (b * v + (1 - b) * x ^ 2) := by
  have h1 : 0 < 1 - b := by linarith
  have h2 : 0 < b - a ^ 2 := by linarith
  have e : (1 - a) ^ 2 / ((1 - b) * (1 - a ^ 2 / b)) * ((1 - b) * x ^ 2) = (1 - a) ^ 2 * b / (b - a ^ 2) * x ^ 2 := by field_simp
  have hm := mul_le_mul_of_nonneg_left h hb0.le
  have hsq : 0 ≤ ((b - a ^ 2) * m - a * (1 - a) * x) ^ 2 / (b - a ^ 2) := div_nonneg (sq_nonneg _) h2.le
  have e2 : ((b - a ^ 2) * m - a * (1 - a) * x) ^ 2 / (b - a ^ 2) = b * m ^ 2 + (1 - a) ^ 2 * b / (b - a ^ 2) * x ^ 2 - (a * m + (1 - a) * x) ^ 2 := by
    field_simp
    ring
  rw [mul_add, e]
  linarith

/-- The size of a step. -/
theorem adam_step_le {lr S m v q1 q2 eps : ℝ} (hlr : 0 ≤ lr) (heps : 0 ≤ eps) (hS : 0 ≤ S) (hq1 : 0 < q1) (hq2 : 0 < q2) (hv : 0 ≤ v) (h : m ^ 2 ≤ S * v) :
    |lr * (m / q1) / (Real.sqrt (v / q2) + eps)| ≤ lr * Real.sqrt S * (Real.sqrt q2 / q1) := by
  have hm : |m| ≤ Real.sqrt S * Real.sqrt v := by
    rw [← Real.sqrt_mul hS]
    exact Real.abs_le_sqrt h
  have hs : Real.sqrt (v / q2) = Real.sqrt v / Real.sqrt q2 := Real.sqrt_div hv q2
  have hq : 0 < Real.sqrt q2 := Real.sqrt_pos.mpr hq2
  rw [abs_div, abs_mul, abs_div, abs_of_nonneg hlr, abs_of_pos hq1, abs_of_nonneg (add_nonneg (Real.sqrt_nonneg _) heps)]
  rcases (Real.sqrt_nonneg v).eq_or_lt with e | hp
  · rw [← e, mul_zero] at hm
    rw [le_antisymm hm (abs_nonneg m), zero_div, mul_zero, zero_div]
    exact mul_nonneg (mul_nonneg hlr (Real.sqrt_nonneg _)) (div_nonneg hq.le hq1.le)
  · have hd : 0 < Real.sqrt (v / q2) := by rw [hs]; exact div_pos hp hq
    refine (div_le_div_of_nonneg_left (mul_nonneg hlr (div_nonneg (abs_nonneg _) hq1.le)) hd (le_add_of_nonneg_right heps)).trans ?_
    rw [div_le_iff₀ hd, hs]
    have : lr * Real.sqrt S * (Real.sqrt q2 / q1) * (Real.sqrt v / Real.sqrt q2) = lr * (Real.sqrt S * Real.sqrt v / q1) := by field_simp
    rw [this]
    exact mul_le_mul_of_nonneg_left (div_le_div_of_nonneg_right hm hq1.le) hlr

namespace Graph

section
variable {p : Profile} {d : Nat} {m0 : Nat → ℝ} {N : Nat} {P : Nat → Nat → NodeOp ℝ} {g : Nat → Graph (Tensor ℝ)} {root : Nat → Nat}
  {θ : Nat → Nat × Nat → Arr ℝ} {leaf : Nat → Nat → Nat} {qs : Nat → List (Param ℝ)} {as : List (PArr ℝ)} {o : Opt ℝ} {scale : Nat → ℝ}
  {alpha beta1 beta2 eps : ℝ}

/-- C83.  Bias correction: in a run with Adam from zero statistics at epoch 0, after iteration `n` the statistics, divided by `1 - beta ^ (n + 1)`, are averages
of the gradients of all iterations so far and of their squares: they lie between any bounds of these.  The step is that of the corrected statistics; in
particular, while an element has the same gradient `x` in all iterations, it moves by exactly the rate times `x / (|x| + eps)` each time. -/
theorem C83_averages (h : Training p d m0 o scale N P g root θ leaf qs as) (hk : o.kind = .adam alpha beta1 beta2 eps) (hl2 : o.l2 ≤ 0) (hclip : o.clip ≤ 0)
    (he : o.epoch = 0) (hst : ∀ a ∈ as, a.stat "Adam.m1" = some (a.shape, fun _ _ => 0) ∧ a.stat "Adam.m2" = some (a.shape, fun _ _ => 0))
    (h10 : 0 ≤ beta1) (h11 : beta1 < 1) (h20 : 0 ≤ beta2) (h21 : beta2 < 1) :
    ∃ w D A1 A2 : Nat → Nat → Arr ℝ, (∀ k, k < as.length → w 0 k = PArr.vals as k) ∧ (∀ n, n ≤ N → ValuesAre d (as.map PArr.shape) (qs n) (w n)) ∧
      (∀ n, n < N → IsGradient (as.map PArr.shape) ((g n).loss (P n) (root n) (θ n) (leaf n) as.length) (w n) (D n)) ∧
      ∀ n, n < N → ∀ k, k < as.length →
        (∃ q t1 t2, (qs (n + 1))[k]? = some q ∧ q.stat "Adam.m1" = some t1 ∧ q.stat "Adam.m2" = some t2 ∧
          t1.Holds d (shp (as.map PArr.shape) k) (fun c b => (1 - beta1 ^ (n + 1)) * A1 n k c b) ∧
          t2.Holds d (shp (as.map PArr.shape) k) (fun c b => (1 - beta2 ^ (n + 1)) * A2 n k c b)) ∧
        (∀ c b, w (n + 1) k c b = w n k c b - scale n * alpha * A1 n k c b / (Real.sqrt (A2 n k c b) + eps)) ∧
        (∀ c b lo hi, (∀ j, j ≤ n → lo ≤ D j k c b ∧ D j k c b ≤ hi) → lo ≤ A1 n k c b ∧ A1 n k c b ≤ hi) ∧
        (∀ c b lo hi, (∀ j, j ≤ n → lo ≤ D j k c b ^ 2 ∧ D j k c b ^ 2 ≤ hi) → lo ≤ A2 n k c b ∧ A2 n k c b ≤ hi) ∧
        ∀ c b x, (∀ j, j ≤ n → D j k c b = x) → w (n + 1) k c b = w n k c b - scale n * alpha * (x / (|x| + eps)) := by
  obtain ⟨w, m1, m2, D, h0, h1, h2⟩ := C63_adam_run h hk hl2 hclip
  have hz : ∀ k, k < as.length → m1 0 k = (fun _ _ => 0) ∧ m2 0 k = fun _ _ => 0 := fun k hlt => by
    obtain ⟨-, z1, z2⟩ := h0 k _ (List.getElem?_eq_getElem hlt)
    obtain ⟨y1, y2⟩ := hst _ (List.getElem_mem hlt)
    rw [y1] at z1
    rw [y2] at z2
    exact ⟨by simpa using z1.symm, by simpa using z2.symm⟩
  have p1 : ∀ n : Nat, 0 < 1 - beta1 ^ (n + 1) := fun n => sub_pos.mpr (pow_lt_one₀ h10 h11 (Nat.succ_ne_zero n))
  have p2 : ∀ n : Nat, 0 < 1 - beta2 ^ (n + 1) := fun n => sub_pos.mpr (pow_lt_one₀ h20 h21 (Nat.succ_ne_zero n))
  have avg : ∀ (m D : Nat → ℝ) (β lo hi : ℝ), 0 ≤ β → β < 1 → m 0 = 0 → ∀ n, (∀ j, j ≤ n → lo ≤ D j ∧ D j ≤ hi) →
      (∀ j, j ≤ n → m (j + 1) = β * m j + (1 - β) * D j) → (1 - β ^ (n + 1)) * lo ≤ m (n + 1) ∧ m (n + 1) ≤ (1 - β ^ (n + 1)) * hi := by
    intro m D β lo hi hb0 hb1 hm0 n
    induction n with
    | zero =>
      intro hD hm
      obtain ⟨d1, d2⟩ := hD 0 le_rfl
      rw [hm 0 le_rfl, hm0]
      simp only [zero_add, pow_one, mul_zero]
      exact ⟨mul_le_mul_of_nonneg_left d1 (by linarith), mul_le_mul_of_nonneg_left d2 (by linarith)⟩
    | succ n ih =>
      intro hD hm
      obtain ⟨i1, i2⟩ := ih (fun j hj => hD j (by omega)) (fun j hj => hm j (by omega))
      obtain ⟨d1, d2⟩ := hD (n + 1) le_rfl
      rw [hm (n + 1) le_rfl]
      have hb : 0 ≤ 1 - β := by linarith
      have e : ∀ y : ℝ, (1 - β ^ (n + 1 + 1)) * y = β * ((1 - β ^ (n + 1)) * y) + (1 - β) * y := fun y => by ring
      rw [e, e]
      exact ⟨add_le_add (mul_le_mul_of_nonneg_left i1 hb0) (mul_le_mul_of_nonneg_left d1 hb),
        add_le_add (mul_le_mul_of_nonneg_left i2 hb0) (mul_le_mul_of_nonneg_left d2 hb)⟩
  have avg1 : ∀ n, n < N → ∀ k, k < as.length → ∀ c b lo hi, (∀ j, j ≤ n → lo ≤ D j k c b ∧ D j k c b ≤ hi) →
      lo ≤ m1 (n + 1) k c b / (1 - beta1 ^ (n + 1)) ∧ m1 (n + 1) k c b / (1 - beta1 ^ (n + 1)) ≤ hi := fun n hn k hlt c b lo hi hD => by
    obtain ⟨a1, a2⟩ := avg (fun j => m1 j k c b) (fun j => D j k c b) beta1 lo hi h10 h11 (by rw [(hz k hlt).1]) n hD
      (fun j hj => ((h2 j (by omega)).2 k hlt).1 c b)
    exact ⟨(le_div_iff₀ (p1 n)).mpr (by linarith), (div_le_iff₀ (p1 n)).mpr (by linarith)⟩
  have avg2 : ∀ n, n < N → ∀ k, k < as.length → ∀ c b lo hi, (∀ j, j ≤ n → lo ≤ D j k c b ^ 2 ∧ D j k c b ^ 2 ≤ hi) →
      lo ≤ m2 (n + 1) k c b / (1 - beta2 ^ (n + 1)) ∧ m2 (n + 1) k c b / (1 - beta2 ^ (n + 1)) ≤ hi := fun n hn k hlt c b lo hi hD => by
    obtain ⟨a1, a2⟩ := avg (fun j => m2 j k c b) (fun j => D j k c b ^ 2) beta2 lo hi h20 h21 (by rw [(hz k hlt).2]) n hD
      (fun j hj => ((h2 j (by omega)).2 k hlt).2.1 c b)
    exact ⟨(le_div_iff₀ (p2 n)).mpr (by linarith), (div_le_iff₀ (p2 n)).mpr (by linarith)⟩
  have hstep : ∀ n, n < N → ∀ k, k < as.length → ∀ c b, w (n + 1) k c b = w n k c b - scale n * alpha * (m1 (n + 1) k c b / (1 - beta1 ^ (n + 1))) /
      (Real.sqrt (m2 (n + 1) k c b / (1 - beta2 ^ (n + 1))) + eps) := fun n hn k hlt c b => by
    rw [((h2 n hn).2 k hlt).2.2 c b, he]
    simp only [Nat.zero_add, Real.rpow_natCast]
  refine ⟨w, D, fun n k c b => m1 (n + 1) k c b / (1 - beta1 ^ (n + 1)), fun n k c b => m2 (n + 1) k c b / (1 - beta2 ^ (n + 1)), fun k hlt => ?_,
    fun n hn => ⟨h.length hn, fun k hlt => ?_⟩, fun n hn => (h2 n hn).1,
    fun n hn k hlt => ⟨?_, fun c b => hstep n hn k hlt c b, fun c b lo hi hD => avg1 n hn k hlt c b lo hi hD,
      fun c b lo hi hD => avg2 n hn k hlt c b lo hi hD, fun c b x hD => ?_⟩⟩
  · rw [(h0 k _ (List.getElem?_eq_getElem hlt)).1, PArr.vals_some (List.getElem?_eq_getElem hlt)]
  · obtain ⟨q, t1, t2, e1, e2, -⟩ := h1 n hn k (by simpa using hlt)
    exact ⟨q, e1, e2⟩
  · obtain ⟨q, t1, t2, e1, -, e3, e4, e5, e6⟩ := h1 (n + 1) hn k hlt
    refine ⟨q, t1, t2, e1, e3, e5, ?_, ?_⟩
    · have : (fun c b => (1 - beta1 ^ (n + 1)) * (m1 (n + 1) k c b / (1 - beta1 ^ (n + 1)))) = m1 (n + 1) k := by
        funext c b
        exact mul_div_cancel₀ _ (p1 n).ne'
      rw [this]; exact e4
    · have : (fun c b => (1 - beta2 ^ (n + 1)) * (m2 (n + 1) k c b / (1 - beta2 ^ (n + 1)))) = m2 (n + 1) k := by
        funext c b
        exact mul_div_cancel₀ _ (p2 n).ne'
      rw [this]; exact e6
  · obtain ⟨a1, a2⟩ := avg1 n hn k hlt c b x x fun j hj => ⟨(hD j hj).ge, (hD j hj).le⟩
    obtain ⟨a3, a4⟩ := avg2 n hn k hlt c b (x ^ 2) (x ^ 2) fun j hj => by rw [hD j hj]; exact ⟨le_rfl, le_rfl⟩
    rw [hstep n hn k hlt c b, le_antisymm a2 a1, le_antisymm a4 a3, Real.sqrt_sq_eq_abs, mul_div_assoc]

/-- The statistics of a run. -/
theorem adam_moments (h : Training p d m0 o scale N P g root θ leaf qs as) (hk : o.kind = .adam alpha beta1 beta2 eps) (hl2 : o.l2 ≤ 0) (hclip : o.clip ≤ 0)
    (he : o.epoch = 0) (hst : ∀ a ∈ as, a.stat "Adam.m1" = some (a.shape, fun _ _ => 0) ∧ a.stat "Adam.m2" = some (a.shape, fun _ _ => 0))
    (h10 : 0 ≤ beta1) (h11 : beta1 < 1) (h20 : 0 < beta2) (h21 : beta2 < 1) (hb : beta1 ^ 2 < beta2) (heps : 0 ≤ eps)
    (hrate : ∀ n, n < N → 0 ≤ scale n * alpha) :
    ∃ w : Nat → Nat → Arr ℝ, (∀ k, k < as.length → w 0 k = PArr.vals as k) ∧ (∀ n, n ≤ N → ValuesAre d (as.map PArr.shape) (qs n) (w n)) ∧
      ∀ n, n < N → ∀ k, k < as.length → ∀ c b, |w (n + 1) k c b - w n k c b| ≤
        scale n * alpha * Real.sqrt ((1 - beta1) ^ 2 / ((1 - beta2) * (1 - beta1 ^ 2 / beta2))) *
          (Real.sqrt (1 - beta2 ^ (n + 1)) / (1 - beta1 ^ (n + 1))) := by
  obtain ⟨w, m1, m2, D, h0, h1, h2⟩ := C63_adam_run h hk hl2 hclip
  have hz : ∀ k, k < as.length → m1 0 k = (fun _ _ => 0) ∧ m2 0 k = fun _ _ => 0 := fun k hlt => by
    obtain ⟨-, z1, z2⟩ := h0 k _ (List.getElem?_eq_getElem hlt)
    obtain ⟨y1, y2⟩ := hst _ (List.getElem_mem hlt)
    rw [y1] at z1
    rw [y2] at z2
    exact ⟨by simpa using z1.symm, by simpa using z2.symm⟩
  have hS : 0 ≤ (1 - beta1) ^ 2 / ((1 - beta2) * (1 - beta1 ^ 2 / beta2)) :=
    div_nonneg (sq_nonneg _) (mul_nonneg (by linarith) (sub_nonneg.mpr ((div_le_one h20).mpr hb.le)))
  have hinv : ∀ n, n ≤ N → ∀ k, k < as.length → ∀ c b, 0 ≤ m2 n k c b ∧
      m1 n k c b ^ 2 ≤ (1 - beta1) ^ 2 / ((1 - beta2) * (1 - beta1 ^ 2 / beta2)) * m2 n k c b := by
    intro n
    induction n with
    | zero =>
      intro _ k hlt c b
      rw [(hz k hlt).1, (hz k hlt).2]
      simp
    | succ n ih =>
      intro hn k hlt c b
      obtain ⟨i1, i2⟩ := ih (by omega) k hlt c b
      obtain ⟨e1, e2, -⟩ := (h2 n (by omega)).2 k hlt
      rw [e1, e2]
      exact ⟨add_nonneg (mul_nonneg h20.le i1) (mul_nonneg (by linarith) (sq_nonneg _)), moment_step h20 h21 hb i2⟩
  refine ⟨w, fun k hlt => ?_, fun n hn => ⟨h.length hn, fun k hlt => ?_⟩, fun n hn k hlt c b => ?_⟩
  · rw [(h0 k _ (List.getElem?_eq_getElem hlt)).1, PArr.vals_some (List.getElem?_eq_getElem hlt)]
  · obtain ⟨q, t1, t2, e1, e2, -⟩ := h1 n hn k (by simpa using hlt)
    exact ⟨q, e1, e2⟩
  · obtain ⟨i1, i2⟩ := hinv (n + 1) hn k hlt c b
    rw [((h2 n hn).2 k hlt).2.2 c b, he]
    simp only [Nat.zero_add, Real.rpow_natCast]
    rw [sub_sub_cancel_left, abs_neg]
    exact adam_step_le (hrate n hn) heps hS (sub_pos.mpr (pow_lt_one₀ h10 h11 (Nat.succ_ne_zero n)))
      (sub_pos.mpr (pow_lt_one₀ h20.le h21 (Nat.succ_ne_zero n))) i1 i2

/-- C83.  No step of Adam is large, whatever the gradients are: in a run from zero statistics at epoch 0 with `1 - beta2 ≤ (1 - beta1) ^ 2`, every element moves in
every iteration by at most the learning rate times `(1 - beta1) / sqrt((1 - beta2) * (1 - beta1 ^ 2 / beta2))`. -/
theorem C83_bounded (h : Training p d m0 o scale N P g root θ leaf qs as) (hk : o.kind = .adam alpha beta1 beta2 eps) (hl2 : o.l2 ≤ 0) (hclip : o.clip ≤ 0)
    (he : o.epoch = 0) (hst : ∀ a ∈ as, a.stat "Adam.m1" = some (a.shape, fun _ _ => 0) ∧ a.stat "Adam.m2" = some (a.shape, fun _ _ => 0))
    (h10 : 0 ≤ beta1) (h11 : beta1 < 1) (h20 : 0 < beta2) (h21 : beta2 < 1) (hb : 1 - beta2 ≤ (1 - beta1) ^ 2) (heps : 0 ≤ eps)
    (hrate : ∀ n, n < N → 0 ≤ scale n * alpha) :
    ∃ w : Nat → Nat → Arr ℝ, (∀ k, k < as.length → w 0 k = PArr.vals as k) ∧ (∀ n, n ≤ N → ValuesAre d (as.map PArr.shape) (qs n) (w n)) ∧
      ∀ n, n < N → ∀ k, k < as.length → ∀ c b, |w (n + 1) k c b - w n k c b| ≤
        scale n * alpha * ((1 - beta1) / Real.sqrt ((1 - beta2) * (1 - beta1 ^ 2 / beta2))) := by
  have hab : beta1 ^ 2 < beta2 := by
    rcases h10.eq_or_lt with e | hp
    · rw [← e]; simpa using h20
    · nlinarith [mul_pos hp (sub_pos.mpr h11)]
  obtain ⟨w, h0, h1, h2⟩ := adam_moments h hk hl2 hclip he hst h10 h11 h20 h21 hab heps hrate
  refine ⟨w, h0, h1, fun n hn k hlt c b => (h2 n hn k hlt c b).trans ?_⟩
  rw [Real.sqrt_div (sq_nonneg _), Real.sqrt_sq (by linarith)]
  have hc := correction_le h10 hb h11.le (n + 1)
  have h3 : Real.sqrt (1 - beta2 ^ (n + 1)) / (1 - beta1 ^ (n + 1)) ≤ 1 :=
    div_le_one_of_le₀ hc (sub_nonneg.mpr (pow_le_one₀ h10 h11.le))
  refine mul_le_of_le_one_right (mul_nonneg (hrate n hn) (div_nonneg (by linarith) (Real.sqrt_nonneg _))) h3

/-- C83.  With other settings `beta1 ^ 2 < beta2`, the bound is the learning rate over `sqrt((1 - beta2) * (1 - beta1 ^ 2 / beta2))`. -/
theorem C83_bounded_any (h : Training p d m0 o scale N P g root θ leaf qs as) (hk : o.kind = .adam alpha beta1 beta2 eps) (hl2 : o.l2 ≤ 0) (hclip : o.clip ≤ 0)
    (he : o.epoch = 0) (hst : ∀ a ∈ as, a.stat "Adam.m1" = some (a.shape, fun _ _ => 0) ∧ a.stat "Adam.m2" = some (a.shape, fun _ _ => 0))
    (h10 : 0 ≤ beta1) (h11 : beta1 < 1) (h21 : beta2 < 1) (hb : beta1 ^ 2 < beta2) (heps : 0 ≤ eps)
    (hrate : ∀ n, n < N → 0 ≤ scale n * alpha) :
    ∃ w : Nat → Nat → Arr ℝ, (∀ k, k < as.length → w 0 k = PArr.vals as k) ∧ (∀ n, n ≤ N → ValuesAre d (as.map PArr.shape) (qs n) (w n)) ∧
      ∀ n, n < N → ∀ k, k < as.length → ∀ c b, |w (n + 1) k c b - w n k c b| ≤
        scale n * alpha / Real.sqrt ((1 - beta2) * (1 - beta1 ^ 2 / beta2)) := by
  have h20 : 0 < beta2 := (sq_nonneg _).trans_lt hb
  obtain ⟨w, h0, h1, h2⟩ := adam_moments h hk hl2 hclip he hst h10 h11 h20 h21 hb heps hrate
  refine ⟨w, h0, h1, fun n hn k hlt c b => (h2 n hn k hlt c b).trans ?_⟩
  rw [Real.sqrt_div (sq_nonneg _), Real.sqrt_sq (by linarith)]
  have hp : 0 < 1 - beta1 ^ (n + 1) := sub_pos.mpr (pow_lt_one₀ h10 h11 (Nat.succ_ne_zero n))
  have hle : 1 - beta1 ≤ 1 - beta1 ^ (n + 1) := by
    have : beta1 ^ (n + 1) ≤ beta1 := by
      simpa using pow_le_pow_of_le_one h10 h11.le (show 1 ≤ n + 1 by omega)
    linarith
  have hs : Real.sqrt (1 - beta2 ^ (n + 1)) ≤ 1 := Real.sqrt_le_one.mpr (by have := pow_nonneg h20.le (n + 1); linarith)
  have h3 : (1 - beta1) * (Real.sqrt (1 - beta2 ^ (n + 1)) / (1 - beta1 ^ (n + 1))) ≤ 1 := by
    rw [← mul_div_assoc]
    refine div_le_one_of_le₀ ?_ hp.le
    exact (mul_le_of_le_one_right (by linarith) hs).trans hle
  have := mul_le_mul_of_nonneg_left h3 (div_nonneg (hrate n hn) (Real.sqrt_nonneg ((1 - beta2) * (1 - beta1 ^ 2 / beta2))))
  rw [mul_one] at this
  refine le_trans (le_of_eq ?_) this
  ring

end

/-- Beside C83: with `beta1 = 0.9` and `beta2 = 0.999` the bound is below 7.28 times the learning rate, and there are such runs of every length. -/
example (p : Profile) (d : Nat) (m0 : Nat → ℝ) (x : Tensor ℝ) (fx : Arr ℝ) (hx : x.Holds d (vecShape 2 1) fx) (f0 : Nat → ℝ) (N : Nat) (hN : N < U32) :
    ∃ (P : Nat → Nat → NodeOp ℝ) (g : Nat → Graph (Tensor ℝ)) (qs : Nat → List (Param ℝ)) (as : List (PArr ℝ)) (w : Nat → Nat → Arr ℝ),
      as.length = 1 ∧ PArr.vals as 0 = (fun c b => f0 ((vecShape 2 1).offset c b)) ∧
      Training p d m0 ⟨0, 1, 0, 0, .adam (1 / 1000) (9 / 10) (999 / 1000) (1 / 100000000)⟩ (fun _ => 1) N P g (fun _ => 3) (fun _ _ => fx) (fun _ _ => 0) qs as ∧
      (∀ n, n ≤ N → ValuesAre d [vecShape 2 1] (qs n) (w n)) ∧ ∀ n, n < N → ∀ c b, |w (n + 1) 0 c b - w n 0 c b| ≤ 1 / 1000 * 7.28 := by
  obtain ⟨P, g, qs, as, hss, h2, hst, h4, hL⟩ := sq_run p d m0 x fx hx f0 N hN 0 0 (.adam (1 / 1000) (9 / 10) (999 / 1000) (1 / 100000000))
  have hlen : as.length = 1 := by simpa using congrArg List.length hss
  obtain ⟨w, e0, e1, e2⟩ := C83_bounded h4 rfl le_rfl le_rfl rfl
    (fun a ha => ⟨hst a ha _ (by simp [OptKind.names]), hst a ha _ (by simp [OptKind.names])⟩)
    (by norm_num) (by norm_num) (by norm_num) (by norm_num) (by norm_num) (by norm_num) (fun n _ => by norm_num)
  rw [hss] at e1
  refine ⟨P, g, qs, as, w, hlen, h2, h4, e1, fun n hn c b => (e2 n hn 0 (by omega) c b).trans ?_⟩
  have hs : (0.1 : ℝ) / 7.28 ≤ Real.sqrt ((1 - 999 / 1000) * (1 - (9 / 10) ^ 2 / (999 / 1000))) := Real.le_sqrt_of_sq_le (by norm_num)
  have : (1 - 9 / 10) / Real.sqrt ((1 - 999 / 1000) * (1 - (9 / 10) ^ 2 / (999 / 1000))) ≤ (7.28 : ℝ) := by
    rw [div_le_iff₀ (lt_of_lt_of_le (by norm_num) hs)]
    linarith
  linarith

end Graph
end Verif
