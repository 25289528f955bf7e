import Verif.Converge2
import Mathlib.Analysis.Calculus.LocalExtr.Basic

/-!
# Gradient descent with momentum

The argument for property C82 (Ghadimi, Feyzmahdavian and Johansson, "Global convergence of the heavy-ball method for convex optimization").
-/

set_option linter.unusedSectionVars false

namespace Verif
open Res
attribute [local instance] realFlt

section
variable {ss : List Shape} {L : (Nat → Arr ℝ) → ℝ} {K : ℝ}

theorem inner_congr_right {U V V' : Nat → Arr ℝ} (h : ∀ k, k < ss.length → V k = V' k) : inner ss U V = inner ss U V' := by
  unfold inner
  exact Finset.sum_congr rfl fun k hk => by rw [h k (Finset.mem_range.mp hk)]

theorem norm2_congr {U U' : Nat → Arr ℝ} (h : ∀ k, k < ss.length → U k = U' k) : norm2 ss U = norm2 ss U' := by
  unfold norm2 sumSq
  congr 1
  exact Finset.sum_congr rfl fun k hk => by rw [h k (Finset.mem_range.mp hk)]

theorem norm2_smul (r : ℝ) (U : Nat → Arr ℝ) : norm2 ss (fun k c b => r * U k c b) = |r| * norm2 ss U := by
  unfold norm2
  rw [sumSq_inner, inner_smul_right, inner_comm', inner_smul_right, ← mul_assoc, Real.sqrt_mul (mul_self_nonneg r), Real.sqrt_mul_self_eq_abs]
  rfl

/-- The gradient at a minimum is orthogonal to everything. -/
theorem IsGradient.at_min {u E : Nat → Arr ℝ} (h : IsGradient ss L u E) (hu : ∀ W, L u ≤ L W) (v : Nat → Arr ℝ) : inner ss E v = 0 := by
  refine IsLocalMin.hasDerivAt_eq_zero (a := (0 : ℝ)) ?_ (h.line0 v)
  refine Filter.Eventually.of_forall fun t => ?_
  have : (fun k c b => u k c b + 0 * v k c b) = u := by funext k c b; ring
  show L (fun k c b => u k c b + 0 * v k c b) ≤ _
  rw [this]
  exact hu _

/-- The tangent inequality at a minimum, sharpened by smoothness. -/
theorem ConvexLoss.tangent_min {w D u : Nat → Arr ℝ} (hK : 0 < K) (hL : LipschitzGradient ss L K) (hc : ConvexLoss L) (hD : IsGradient ss L w D)
    (hu : ∀ W, L u ≤ L W) : L w + inner ss D (fun k c b => u k c b - w k c b) + 1 / (2 * K) * sumSq ss D ≤ L u := by
  obtain ⟨E, hE⟩ := hL.1 u
  have h1 := hL.upper hK.le hE (fun k c b => 1 / K * D k c b)
  have h2 := hc.tangent hD (fun k c b => u k c b + 1 / K * D k c b)
  rw [hE.at_min hu, inner_smul_right, inner_comm', inner_smul_right] at h1
  have e : inner ss D (fun k c b => u k c b + 1 / K * D k c b - w k c b) =
      inner ss D (fun k c b => u k c b - w k c b) + 1 / K * sumSq ss D := by
    unfold inner sumSq dot
    rw [Finset.mul_sum, ← Finset.sum_add_distrib]
    refine Finset.sum_congr rfl fun k _ => ?_
    rw [Finset.mul_sum, ← Finset.sum_add_distrib]
    exact Finset.sum_congr rfl fun q _ => by ring
  rw [e] at h2
  rw [← sumSq_inner] at h1
  have e1 : K / 2 * (1 / K * (1 / K * sumSq ss D)) = 1 / (2 * K) * sumSq ss D := by field_simp
  have e2 : 1 / K * sumSq ss D = 2 * (1 / (2 * K) * sumSq ss D) := by field_simp
  linarith

/-- The heavy-ball method on a smooth convex loss. -/
theorem heavy_ball {N : Nat} {w v D : Nat → Nat → Arr ℝ} {mu r : ℝ} (hK : 0 < K) (hL : LipschitzGradient ss L K) (hc : ConvexLoss L) (hm0 : 0 ≤ mu) (hm1 : mu < 1)
    (hr : 0 < r) (hr1 : r ≤ (1 - mu) / K) (hv0 : ∀ k, k < ss.length → v 0 k = fun _ _ => 0) (hD : ∀ n, n < N → IsGradient ss L (w n) (D n))
    (hv : ∀ n, n < N → ∀ k, k < ss.length → v (n + 1) k = fun c b => mu * v n k c b - r * D n k c b)
    (hw : ∀ n, n < N → ∀ k, k < ss.length → w (n + 1) k = fun c b => w n k c b + v (n + 1) k c b) {u : Nat → Arr ℝ} (hu : ∀ W, L u ≤ L W) :
    ∑ n ∈ Finset.range N, (L (w n) - L u) ≤ mu / (1 - mu) * (L (w 0) - L u) + (1 - mu) / (2 * r) * sqDist ss (w 0) u := by
  have hm : 0 < 1 - mu := by linarith
  obtain ⟨x, hx⟩ : ∃ x, x = mu / (1 - mu) := ⟨_, rfl⟩
  obtain ⟨ρ, hρ⟩ : ∃ ρ, ρ = r / (1 - mu) := ⟨_, rfl⟩
  have hx0 : 0 ≤ x := hx ▸ div_nonneg hm0 hm.le
  have hρ0 : 0 < ρ := hρ ▸ div_pos hr hm
  have hρK : ρ * K ≤ 1 := by
    rw [hρ, div_mul_eq_mul_div, div_le_one hm]
    exact (le_div_iff₀ hK).mp hr1
  have hx1 : (1 + x) * mu = x := by rw [hx]; field_simp; ring
  have hρ1 : (1 + x) * r = ρ := by rw [hx, hρ]; field_simp; ring
  let z : Nat → Nat → Arr ℝ := fun n k c b => w n k c b + x * v n k c b
  let P : Nat → ℝ := fun n => L (w (n - 1))
  have hz : ∀ n, n < N → sqDist ss (z (n + 1)) u =
      sqDist ss (z n) u + 2 * ρ * inner ss (D n) (fun k c b => u k c b - z n k c b) + ρ ^ 2 * sumSq ss (D n) := fun n hn => by
    rw [← sqDist_step]
    unfold sqDist sumSq
    refine Finset.sum_congr rfl fun k hk => ?_
    have hk := Finset.mem_range.mp hk
    have e : z (n + 1) k = fun c b => z n k c b - ρ * D n k c b := by
      funext c b
      show w (n + 1) k c b + x * v (n + 1) k c b = w n k c b + x * v n k c b - ρ * D n k c b
      rw [hw n hn k hk, hv n hn k hk, ← hρ1]
      linear_combination v n k c b * hx1
    simp only [e]
  have hi : ∀ n, n < N → inner ss (D n) (fun k c b => u k c b - z n k c b) =
      inner ss (D n) (fun k c b => u k c b - w n k c b) - x * inner ss (D n) (v n) := fun n hn => by
    unfold inner dot
    rw [Finset.mul_sum, ← Finset.sum_sub_distrib]
    refine Finset.sum_congr rfl fun k _ => ?_
    rw [Finset.mul_sum, ← Finset.sum_sub_distrib]
    refine Finset.sum_congr rfl fun q _ => ?_
    show _ * (u k q.1 q.2 - (w n k q.1 q.2 + x * v n k q.1 q.2)) = _
    ring
  have hp : ∀ n, n < N → L (w n) - P n ≤ inner ss (D n) (v n) := fun n hn => by
    cases n with
    | zero =>
      have : inner ss (D 0) (v 0) = inner ss (D 0) (fun k c b => 0 * D 0 k c b) :=
        inner_congr_right fun k hk => by rw [hv0 k hk]; funext c b; ring
      rw [this, inner_smul_right, zero_mul]
      exact (sub_self _).le
    | succ n =>
      have h1 := hc.tangent (hD (n + 1) hn) (w n)
      have : inner ss (D (n + 1)) (v (n + 1)) = inner ss (D (n + 1)) (fun k c b => (-1) * (w n k c b - w (n + 1) k c b)) :=
        inner_congr_right fun k hk => by
          funext c b
          have := congrFun (congrFun (hw n (by omega) k hk) c) b
          rw [this]; ring
      rw [this, inner_smul_right]
      show L (w (n + 1)) - L (w n) ≤ _
      linarith
  have key : ∀ n, n ≤ N → 2 * ρ * ∑ j ∈ Finset.range n, (L (w j) - L u) + 2 * ρ * x * (P n - L (w 0)) + sqDist ss (z n) u ≤ sqDist ss (z 0) u := by
    intro n
    induction n with
    | zero => intro _; simp [P]
    | succ n ih =>
      intro hn
      have a0 := ih (by omega)
      have a1 := hz n (by omega)
      have a2 := hi n (by omega)
      have a3 := hp n (by omega)
      have a4 := hc.tangent_min hK hL (hD n (by omega)) hu
      have a5 : P (n + 1) = L (w n) := rfl
      have a6 : ρ ^ 2 * sumSq ss (D n) ≤ 2 * ρ * (1 / (2 * K) * sumSq ss (D n)) := by
        have : 2 * ρ * (1 / (2 * K) * sumSq ss (D n)) = ρ * (1 / K) * sumSq ss (D n) := by field_simp
        rw [this, sq]
        exact mul_le_mul_of_nonneg_right (mul_le_mul_of_nonneg_left ((le_div_iff₀ hK).mpr hρK) hρ0.le) sumSq_nonneg'
      have a7 := mul_le_mul_of_nonneg_left a4 (mul_pos two_pos hρ0).le
      have a8 := mul_le_mul_of_nonneg_left a3 (mul_nonneg (mul_pos two_pos hρ0).le hx0)
      rw [Finset.sum_range_succ, a5, a1, a2]
      linarith
  have h0 := key N le_rfl
  have hz0 : sqDist ss (z 0) u = sqDist ss (w 0) u := by
    unfold sqDist sumSq
    refine Finset.sum_congr rfl fun k hk => ?_
    have : z 0 k = w 0 k := by
      funext c b
      show w 0 k c b + x * v 0 k c b = _
      rw [hv0 k (Finset.mem_range.mp hk)]; ring
    simp only [this]
  rw [hz0] at h0
  have h1 : 0 ≤ sqDist ss (z N) u := sqDist_nonneg
  have h2 := mul_le_mul_of_nonneg_left (hu (w (N - 1))) (mul_nonneg (mul_pos two_pos hρ0).le hx0)
  have h3 : (1 - mu) / (2 * r) = 1 / (2 * ρ) := by rw [hρ]; field_simp
  rw [← hx, h3]
  have h4 : 2 * ρ * ∑ j ∈ Finset.range N, (L (w j) - L u) ≤ 2 * ρ * (x * (L (w 0) - L u) + 1 / (2 * ρ) * sqDist ss (w 0) u) := by
    have : 2 * ρ * (1 / (2 * ρ) * sqDist ss (w 0) u) = sqDist ss (w 0) u := by field_simp
    rw [mul_add, this]
    have : P N = L (w (N - 1)) := rfl
    rw [this] at h0
    linarith
  exact le_of_mul_le_mul_left h4 (mul_pos two_pos hρ0)

end
end Verif
