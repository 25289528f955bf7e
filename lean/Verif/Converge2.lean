import Verif.Converge
import Verif.PropsAccum

/-!
# Gradient descent on regularised losses

The facts about regularised losses used for property C81.
-/

set_option linter.unusedSectionVars false

namespace Verif
open Res
attribute [local instance] realFlt

/-! ## Specification -/

/-- The Euclidean norm of a list of arrays of the shapes `ss`. -/
noncomputable def norm2 (ss : List Shape) (U : Nat → Arr ℝ) : ℝ := Real.sqrt (sumSq ss U)

/-! ## Lemmas -/

theorem shp_mem {ss : List Shape} {k : Nat} (hk : k < ss.length) : shp ss k ∈ ss := by
  simp only [shp, List.getD_eq_getElem?_getD, List.getElem?_eq_getElem hk, Option.getD_some]
  exact List.getElem_mem _

section
variable {ss : List Shape} {L : (Nat → Arr ℝ) → ℝ} {w u D : Nat → Arr ℝ} {K l2 : ℝ}

theorem sumSq_nonneg' : 0 ≤ sumSq ss D := inner_self_nonneg

theorem norm2_nonneg : 0 ≤ norm2 ss D := Real.sqrt_nonneg _

theorem norm2_sq : norm2 ss D * norm2 ss D = sumSq ss D := Real.mul_self_sqrt sumSq_nonneg'

/-- Inner products only see the elements of the arrays. -/
theorem inner_congr {U U' V V' : Nat → Arr ℝ} (hss : ∀ s ∈ ss, s.WF) (h : ∀ k c b, k < ss.length → (shp ss k).Valid c b → U k c b = U' k c b)
    (h' : ∀ k c b, k < ss.length → (shp ss k).Valid c b → V k c b = V' k c b) : inner ss U V = inner ss U' V' := by
  unfold inner dot
  refine Finset.sum_congr rfl fun k hk => Finset.sum_congr rfl fun q hq => ?_
  have hk := Finset.mem_range.mp hk
  have hv := (hss _ (shp_mem hk)).mem_pos.mp hq
  rw [h k _ _ hk hv, h' k _ _ hk hv]

theorem inner_add_self (U V : Nat → Arr ℝ) (r : ℝ) :
    inner ss (fun k c b => U k c b + r * V k c b) (fun k c b => U k c b + r * V k c b) = inner ss U U + 2 * r * inner ss U V + r ^ 2 * inner ss V V := by
  unfold inner dot
  simp only [Finset.mul_sum, ← Finset.sum_add_distrib]
  exact Finset.sum_congr rfl fun k _ => Finset.sum_congr rfl fun q _ => by ring

/-- The triangle inequality. -/
theorem norm2_add (U V : Nat → Arr ℝ) : norm2 ss (fun k c b => U k c b + V k c b) ≤ norm2 ss U + norm2 ss V := by
  unfold norm2
  refine Real.sqrt_le_iff.mpr ⟨add_nonneg (Real.sqrt_nonneg _) (Real.sqrt_nonneg _), ?_⟩
  have h := inner_add_self (ss := ss) U V 1
  simp only [one_mul, one_pow] at h
  have h1 : inner ss U V ≤ norm2 ss U * norm2 ss V := by
    refine (le_abs_self _).trans (abs_le_of_sq_le_sq ?_ (mul_nonneg norm2_nonneg norm2_nonneg))
    calc inner ss U V ^ 2 ≤ inner ss U U * inner ss V V := inner_sq_le
      _ = (norm2 ss U * norm2 ss U) * (norm2 ss V * norm2 ss V) := by rw [norm2_sq, norm2_sq]; rfl
      _ = _ := by ring
  have h2 := norm2_sq (ss := ss) (D := U)
  have h3 := norm2_sq (ss := ss) (D := V)
  unfold norm2 at *
  rw [sumSq_inner, h]
  simp only [sumSq_inner] at *
  nlinarith

/-- The regularised loss of a smooth loss is smooth. -/
theorem LipschitzGradient.regularised (hK : 0 ≤ K) (h0 : 0 ≤ l2) (hss : ∀ s ∈ ss, s.WF) (h : LipschitzGradient ss L K) :
    LipschitzGradient ss (regularised l2 ss L) (K + l2) := by
  choose G hG using h.1
  refine ⟨fun w => ⟨_, (hG w).regularised hss l2⟩, fun w w' D D' hD hD' => ?_⟩
  have e : sqDist ss D D' = inner ss (fun k c b => (G w k c b - G w' k c b) + l2 * (w k c b - w' k c b))
      (fun k c b => (G w k c b - G w' k c b) + l2 * (w k c b - w' k c b)) := by
    have hh : ∀ k c b, k < ss.length → (shp ss k).Valid c b →
        D k c b - D' k c b = (G w k c b - G w' k c b) + l2 * (w k c b - w' k c b) := fun k c b hk hv => by
      rw [hD.unique ((hG w).regularised hss l2) hss hk hv, hD'.unique ((hG w').regularised hss l2) hss hk hv]
      ring
    exact inner_congr hss hh hh
  rw [e, inner_add_self (fun k c b => G w k c b - G w' k c b) (fun k c b => w k c b - w' k c b)]
  have h1 : inner ss (fun k c b => G w k c b - G w' k c b) (fun k c b => G w k c b - G w' k c b) ≤
      K ^ 2 * inner ss (fun k c b => w k c b - w' k c b) (fun k c b => w k c b - w' k c b) := h.2 _ _ _ _ (hG w) (hG w')
  have h2 := inner_le_of_sq hK zero_le_one (h1.trans_eq (by ring))
  unfold sqDist
  rw [sumSq_inner]
  nlinarith [mul_le_mul_of_nonneg_left h2 h0]

/-- The regularised loss of a convex loss lies above its tangents by a multiple of the square of the distance. -/
theorem ConvexLoss.tangent_regularised (h : ConvexLoss L) (hss : ∀ s ∈ ss, s.WF) {G : Nat → Arr ℝ} (hG : IsGradient ss L w G)
    (hD : IsGradient ss (regularised l2 ss L) w D) (u : Nat → Arr ℝ) :
    regularised l2 ss L w + inner ss D (fun k c b => u k c b - w k c b) + l2 / 2 * sqDist ss w u ≤ regularised l2 ss L u := by
  have h1 := h.tangent hG u
  have e : inner ss D (fun k c b => u k c b - w k c b) =
      inner ss (fun k c b => G k c b + l2 * w k c b) (fun k c b => u k c b - w k c b) :=
    inner_congr hss (fun k c b hk hv => hD.unique (hG.regularised hss l2) hss hk hv) (fun _ _ _ _ _ => rfl)
  have e2 : inner ss (fun k c b => G k c b + l2 * w k c b) (fun k c b => u k c b - w k c b) + l2 / 2 * sqDist ss w u =
      inner ss G (fun k c b => u k c b - w k c b) + l2 / 2 * (sumSq ss u - sumSq ss w) := by
    unfold sqDist sumSq inner dot
    rw [← Finset.sum_sub_distrib, Finset.mul_sum, Finset.mul_sum, ← Finset.sum_add_distrib, ← Finset.sum_add_distrib]
    refine Finset.sum_congr rfl fun k _ => ?_
    rw [← Finset.sum_sub_distrib, Finset.mul_sum, Finset.mul_sum, ← Finset.sum_add_distrib, ← Finset.sum_add_distrib]
    exact Finset.sum_congr rfl fun q _ => by ring
  unfold Verif.regularised at *
  rw [e]
  linarith

end
end Verif
