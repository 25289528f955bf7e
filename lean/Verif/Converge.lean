import Verif.PropsTrain2
import Mathlib.Analysis.Calculus.Deriv.MeanValue
import Mathlib.Algebra.Order.BigOperators.Ring.Finset

/-!
# Gradient descent on functions of arrays

What smoothness and convexity mean for a loss, and the classical facts about one step of gradient descent.  Used for property C80.
-/

set_option linter.unusedSectionVars false

namespace Verif
open Res
attribute [local instance] realFlt

/-! ## Specification -/

/-- The inner product of two lists of arrays of the shapes `ss`. -/
noncomputable def inner (ss : List Shape) (U V : Nat → Arr ℝ) : ℝ := ∑ k ∈ Finset.range ss.length, dot (shp ss k) (U k) (V k)

/-- The square of the distance of two lists of arrays. -/
noncomputable def sqDist (ss : List Shape) (U V : Nat → Arr ℝ) : ℝ := sumSq ss (fun k c b => U k c b - V k c b)

/-- `L` has a gradient everywhere, and the gradient is Lipschitz continuous with constant `K`. -/
def LipschitzGradient (ss : List Shape) (L : (Nat → Arr ℝ) → ℝ) (K : ℝ) : Prop :=
  (∀ w, ∃ D, IsGradient ss L w D) ∧
  ∀ w w' D D', IsGradient ss L w D → IsGradient ss L w' D' → sqDist ss D D' ≤ K ^ 2 * sqDist ss w w'

/-- `L` is convex. -/
def ConvexLoss (L : (Nat → Arr ℝ) → ℝ) : Prop :=
  ∀ (w u : Nat → Arr ℝ) (t : ℝ), 0 ≤ t → t ≤ 1 → L (fun k c b => (1 - t) * w k c b + t * u k c b) ≤ (1 - t) * L w + t * L u

/-! ## Algebra of the inner product -/

section
variable {ss : List Shape} {U V W : Nat → Arr ℝ}

theorem inner_comm' : inner ss U V = inner ss V U := by
  unfold inner dot
  exact Finset.sum_congr rfl fun k _ => Finset.sum_congr rfl fun q _ => mul_comm _ _

theorem inner_smul_right (r : ℝ) : inner ss U (fun k c b => r * V k c b) = r * inner ss U V := by
  unfold inner dot
  rw [Finset.mul_sum]
  refine Finset.sum_congr rfl fun k _ => ?_
  rw [Finset.mul_sum]
  exact Finset.sum_congr rfl fun q _ => by ring

theorem inner_sub_left : inner ss (fun k c b => U k c b - V k c b) W = inner ss U W - inner ss V W := by
  unfold inner dot
  rw [← Finset.sum_sub_distrib]
  refine Finset.sum_congr rfl fun k _ => ?_
  rw [← Finset.sum_sub_distrib]
  exact Finset.sum_congr rfl fun q _ => by ring

theorem inner_sub_right : inner ss W (fun k c b => U k c b - V k c b) = inner ss W U - inner ss W V := by
  rw [inner_comm', inner_sub_left, inner_comm' (U := U), inner_comm' (U := V)]

theorem sumSq_inner : sumSq ss U = inner ss U U := rfl

theorem inner_self_nonneg : 0 ≤ inner ss U U :=
  Finset.sum_nonneg fun _ _ => Finset.sum_nonneg fun _ _ => mul_self_nonneg _

theorem sqDist_nonneg : 0 ≤ sqDist ss U V := inner_self_nonneg

/-- Cauchy and Schwarz. -/
theorem inner_sq_le : inner ss U V ^ 2 ≤ inner ss U U * inner ss V V := by
  have h : ∀ A B : Nat → Arr ℝ, inner ss A B = ∑ x ∈ (Finset.range ss.length).sigma (fun k => (shp ss k).pos), A x.1 x.2.1 x.2.2 * B x.1 x.2.1 x.2.2 :=
    fun A B => by
      rw [Finset.sum_sigma]
      rfl
  rw [h U V, h U U, h V V]
  have := Finset.sum_mul_sq_le_sq_mul_sq ((Finset.range ss.length).sigma (fun k => (shp ss k).pos)) (fun x => U x.1 x.2.1 x.2.2) (fun x => V x.1 x.2.1 x.2.2)
  simpa only [pow_two] using this

theorem inner_le_of_sq {K r : ℝ} (hK : 0 ≤ K) (hr : 0 ≤ r) (h : inner ss U U ≤ (K * r) ^ 2 * inner ss V V) : inner ss U V ≤ K * r * inner ss V V := by
  have hV := inner_self_nonneg (ss := ss) (U := V)
  refine (le_abs_self _).trans (abs_le_of_sq_le_sq ?_ (by positivity))
  exact inner_sq_le.trans ((mul_le_mul_of_nonneg_right h hV).trans_eq (by ring))

end

/-! ## One step -/

section
variable {ss : List Shape} {L : (Nat → Arr ℝ) → ℝ} {w D : Nat → Arr ℝ} {K : ℝ}

/-- The derivative along a line. -/
theorem IsGradient.line {v : Nat → Arr ℝ} {t : ℝ} (h : IsGradient ss L (fun k c b => w k c b + t * v k c b) D) :
    HasDerivAt (fun t => L (fun k c b => w k c b + t * v k c b)) (inner ss D v) t :=
  h (fun t k c b => w k c b + t * v k c b) t v fun k _ => ⟨rfl, fun c b _ => by
    have := ((hasDerivAt_id t).mul_const (v k c b)).const_add (w k c b)
    simpa using this⟩

theorem IsGradient.line0 (h : IsGradient ss L w D) (v : Nat → Arr ℝ) :
    HasDerivAt (fun t => L (fun k c b => w k c b + t * v k c b)) (inner ss D v) 0 := by
  refine IsGradient.line (t := 0) ?_
  have : (fun k c b => w k c b + 0 * v k c b) = w := by funext k c b; ring
  rw [this]
  exact h

/-- A loss with a Lipschitz continuous gradient lies below its quadratic approximation. -/
theorem LipschitzGradient.upper (hK : 0 ≤ K) (h : LipschitzGradient ss L K) (hD : IsGradient ss L w D) (v : Nat → Arr ℝ) :
    L (fun k c b => w k c b + v k c b) ≤ L w + inner ss D v + K / 2 * inner ss v v := by
  choose G hG using h.1
  let ψ : ℝ → ℝ := fun t => L (fun k c b => w k c b + t * v k c b) - t * inner ss D v - K / 2 * t ^ 2 * inner ss v v
  have hder : ∀ t : ℝ, HasDerivAt ψ (inner ss (G (fun k c b => w k c b + t * v k c b)) v - inner ss D v - K * t * inner ss v v) t := fun t => by
    have h1 := (hG (fun k c b => w k c b + t * v k c b)).line
    have h2 := (hasDerivAt_id t).mul_const (inner ss D v)
    have h3 := (((hasDerivAt_id t).pow 2).const_mul (K / 2)).mul_const (inner ss v v)
    refine ((h1.sub h2).sub h3).congr_deriv ?_
    simp only [id, Nat.add_one_sub_one, pow_one, mul_one, one_mul, Nat.cast_ofNat]
    ring
  have hanti : AntitoneOn ψ (Set.Icc 0 1) := by
    refine antitoneOn_of_deriv_nonpos (convex_Icc 0 1) (fun t _ => (hder t).continuousAt.continuousWithinAt)
      (fun t _ => (hder t).differentiableAt.differentiableWithinAt) fun t ht => ?_
    rw [interior_Icc] at ht
    rw [(hder t).deriv, ← inner_sub_left]
    have hl := h.2 _ _ _ _ (hG (fun k c b => w k c b + t * v k c b)) hD
    have e : sqDist ss (fun k c b => w k c b + t * v k c b) w = t ^ 2 * inner ss v v := by
      unfold sqDist
      rw [sumSq_inner]
      have : (fun k c b => w k c b + t * v k c b - w k c b) = fun k c b => t * v k c b := by funext k c b; ring
      rw [this, inner_smul_right, inner_comm', inner_smul_right]
      ring
    rw [e] at hl
    have := inner_le_of_sq hK ht.1.le (show inner ss _ _ ≤ (K * t) ^ 2 * inner ss v v from hl.trans_eq (by ring))
    linarith
  have := hanti (Set.left_mem_Icc.mpr zero_le_one) (Set.right_mem_Icc.mpr zero_le_one) zero_le_one
  have e0 : ψ 0 = L w := by
    show L (fun k c b => w k c b + 0 * v k c b) - 0 * _ - _ = _
    have : (fun k c b => w k c b + 0 * v k c b) = w := by funext k c b; ring
    rw [this]; ring
  have e1 : ψ 1 = L (fun k c b => w k c b + v k c b) - inner ss D v - K / 2 * inner ss v v := by
    show L (fun k c b => w k c b + 1 * v k c b) - 1 * _ - _ = _
    simp only [one_mul, one_pow, mul_one]
  rw [e0, e1] at this
  linarith

/-- A step along the gradient lowers the loss. -/
theorem LipschitzGradient.step (hK : 0 < K) (h : LipschitzGradient ss L K) (hD : IsGradient ss L w D) {r : ℝ} (h0 : 0 ≤ r) (h1 : r ≤ 1 / K) :
    L (fun k c b => w k c b - r * D k c b) ≤ L w - r / 2 * sumSq ss D := by
  have := h.upper hK.le hD (fun k c b => (-r) * D k c b)
  rw [inner_smul_right, inner_smul_right, inner_comm' (U := fun k c b => -r * D k c b), inner_smul_right, ← sumSq_inner] at this
  have e : (fun k c b => w k c b + -r * D k c b) = fun k c b => w k c b - r * D k c b := by funext k c b; ring
  rw [e] at this
  have hn : 0 ≤ sumSq ss D := inner_self_nonneg
  have hKr : K * r ≤ 1 := by
    have := mul_le_mul_of_nonneg_left h1 hK.le
    rwa [mul_one_div_cancel hK.ne'] at this
  nlinarith [mul_le_mul_of_nonneg_right hKr (mul_nonneg h0 hn)]

/-- A convex loss lies above its tangents. -/
theorem ConvexLoss.tangent (h : ConvexLoss L) (hD : IsGradient ss L w D) (u : Nat → Arr ℝ) :
    L w + inner ss D (fun k c b => u k c b - w k c b) ≤ L u := by
  have hd := hD.line0 (fun k c b => u k c b - w k c b)
  by_contra hn
  have hlt : L u - L w < inner ss D (fun k c b => u k c b - w k c b) := by linarith
  have hs := hasDerivAt_iff_tendsto_slope.mp hd
  have ev := hs.eventually (lt_mem_nhds hlt)
  rw [eventually_nhdsWithin_iff, Metric.eventually_nhds_iff] at ev
  obtain ⟨ε, hε, hev⟩ := ev
  have hr0 : 0 < min (ε / 2) 1 := lt_min (by linarith) one_pos
  have := hev (y := min (ε / 2) 1) (by rw [Real.dist_eq, sub_zero, abs_of_pos hr0]; exact (min_le_left _ _).trans_lt (by linarith)) (by simpa using hr0.ne')
  rw [slope_def_field, sub_zero, lt_div_iff₀ hr0] at this
  have hc := h w u (min (ε / 2) 1) hr0.le (min_le_right _ _)
  have e0 : (fun k c b => w k c b + 0 * (u k c b - w k c b)) = w := by funext k c b; ring
  have e1 : (fun k c b => w k c b + min (ε / 2) 1 * (u k c b - w k c b)) = fun k c b => (1 - min (ε / 2) 1) * w k c b + min (ε / 2) 1 * u k c b := by
    funext k c b; ring
  rw [e0, e1] at this
  nlinarith

/-- The distance to any point after a step along `D`. -/
theorem sqDist_step (u : Nat → Arr ℝ) (r : ℝ) :
    sqDist ss (fun k c b => w k c b - r * D k c b) u =
      sqDist ss w u + 2 * r * inner ss D (fun k c b => u k c b - w k c b) + r ^ 2 * sumSq ss D := by
  unfold sqDist
  simp only [sumSq_inner]
  obtain ⟨X, hX⟩ : ∃ X : Nat → Arr ℝ, X = fun k c b => w k c b - u k c b := ⟨_, rfl⟩
  have e : (fun k c b => w k c b - r * D k c b - u k c b) = fun k c b => X k c b - r * D k c b := by rw [hX]; funext k c b; ring
  have e2 : (fun k c b => u k c b - w k c b) = fun k c b => (-1) * X k c b := by rw [hX]; funext k c b; ring
  rw [e, e2, ← hX, inner_sub_left, inner_sub_right, inner_sub_right, inner_smul_right, inner_smul_right, inner_smul_right,
    inner_comm' (U := fun k c b => r * D k c b) (V := X), inner_comm' (U := fun k c b => r * D k c b) (V := D),
    inner_smul_right, inner_smul_right, inner_comm' (U := X) (V := D)]
  ring

end
end Verif
