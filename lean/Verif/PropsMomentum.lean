import Verif.Converge3
import Verif.PropsConverge2

/-!
# Property C82: training with MomentumSGD

`LipschitzGradient`, `ConvexLoss`, `sqDist` and `norm2` are defined in `Converge.lean` and `Converge2.lean`.
-/

set_option linter.unusedSectionVars false

namespace Verif
open Res
attribute [local instance] realFlt
namespace Graph

section
variable {p : Profile} {d : Nat} {m0 : Nat → ℝ} {N : Nat} {P : Nat → Nat → NodeOp ℝ} {g : Nat → Graph (Tensor ℝ)} {root : Nat → Nat}
  {θ : Nat → Nat × Nat → Arr ℝ} {leaf : Nat → Nat → Nat} {qs : Nat → List (Param ℝ)} {as : List (PArr ℝ)} {o : Opt ℝ} {scale : Nat → ℝ} {eta mu : ℝ}

/-- The values of the parameters `qs` are the arrays `w`. -/
def ValuesAre (d : Nat) (ss : List Shape) (qs : List (Param ℝ)) (w : Nat → Arr ℝ) : Prop :=
  qs.length = ss.length ∧ ∀ k, k < ss.length → ∃ q, qs[k]? = some q ∧ q.value.Holds d (shp ss k) (w k)

theorem Training.length (h : Training p d m0 o scale N P g root θ leaf qs as) {n : Nat} (hn : n ≤ N) : (qs n).length = (as.map PArr.shape).length := by
  obtain ⟨W, D, -, hw, -⟩ := C63_training_run h
  obtain ⟨h1, h2, -⟩ := hw n hn
  rw [← h2, List.length_map]
  exact (params_iff.mp h1).1

/-- C82.  Training on the same convex loss `L`, whose gradient is Lipschitz continuous with constant `K`, in every iteration with MomentumSGD
from zero statistics, with momentum `0 ≤ mu < 1` and a constant step `r ≤ (1 - mu) / K`: the losses during the run exceed the minimum together by at most
`mu / (1 - mu)` times the initial excess plus `(1 - mu) / (2 r)` times the squared initial distance to the minimum, however long the run is; so the best
excess of the first `n` iterations is at most that over `n`. -/
theorem C82_converges (h : Training p d m0 o scale N P g root θ leaf qs as) (hk : o.kind = .momentum eta mu) (hl2 : o.l2 ≤ 0) (hclip : o.clip ≤ 0)
    (hst : ∀ a ∈ as, a.stat "MomentumSGD.m" = some (a.shape, fun _ _ => 0))
    {L : (Nat → Arr ℝ) → ℝ} (hsame : ∀ n, n < N → ∀ W, (g n).loss (P n) (root n) (θ n) (leaf n) as.length W = L W)
    {K : ℝ} (hK : 0 < K) (hL : LipschitzGradient (as.map PArr.shape) L K) (hc : ConvexLoss L) (hm0 : 0 ≤ mu) (hm1 : mu < 1)
    {r : ℝ} (hr : 0 < r) (hr1 : r ≤ (1 - mu) / K) (hstep : ∀ n, n < N → scale n * eta = r) :
    ∃ w : Nat → Nat → Arr ℝ, (∀ k, k < as.length → w 0 k = PArr.vals as k) ∧
      (∀ n, n ≤ N → ValuesAre d (as.map PArr.shape) (qs n) (w n)) ∧
      ∀ u, (∀ W, L u ≤ L W) →
        ∑ n ∈ Finset.range N, (L (w n) - L u) ≤ mu / (1 - mu) * (L (w 0) - L u) + (1 - mu) / (2 * r) * sqDist (as.map PArr.shape) (w 0) u ∧
        (0 < N → ∃ n, n < N ∧
          (L (w n) - L u) * N ≤ mu / (1 - mu) * (L (w 0) - L u) + (1 - mu) / (2 * r) * sqDist (as.map PArr.shape) (w 0) u) := by
  obtain ⟨w, v, D, h0, h1, h2⟩ := C63_momentum_run h hk hl2 hclip
  refine ⟨w, fun k hlt => ?_, fun n hn => ⟨h.length hn, fun k hlt => ?_⟩, fun u hu => ?_⟩
  · rw [(h0 k _ (List.getElem?_eq_getElem hlt)).1, PArr.vals_some (List.getElem?_eq_getElem hlt)]
  · obtain ⟨q, t, e1, e2, -⟩ := h1 n hn k (by simpa using hlt)
    exact ⟨q, e1, e2⟩
  · have hmain := heavy_ball (w := w) (v := v) (D := D) (N := N) hK hL hc hm0 hm1 hr hr1 (fun k hlt => ?_) (fun n hn => ?_) (fun n hn k hlt => ?_) (fun n hn k hlt => ?_) hu
    · refine ⟨hmain, fun hN => ?_⟩
      obtain ⟨n, hn, hmin⟩ := Finset.exists_min_image (Finset.range N) (fun n => L (w n)) ⟨0, Finset.mem_range.mpr hN⟩
      refine ⟨n, Finset.mem_range.mp hn, le_trans ?_ hmain⟩
      have := Finset.sum_le_sum (s := Finset.range N) (f := fun _ => L (w n) - L u) (g := fun j => L (w j) - L u) fun j hj => sub_le_sub_right (hmin j hj) _
      rw [Finset.sum_const, Finset.card_range, nsmul_eq_mul] at this
      linarith
    · have hlt : k < as.length := by simpa using hlt
      have e := (h0 k _ (List.getElem?_eq_getElem hlt)).2
      rw [hst _ (List.getElem_mem hlt)] at e
      simpa using e.symm
    · rw [← show (g n).loss (P n) (root n) (θ n) (leaf n) as.length = L from funext (hsame n hn)]
      exact (h2 n hn).1
    · funext c b
      rw [((h2 n hn).2 k (by simpa using hlt)).1 c b, hstep n hn]
    · funext c b
      rw [((h2 n hn).2 k (by simpa using hlt)).2 c b]

/-- C82.  Whatever the losses are: if no gradient during the run has a norm above `G`, then in no iteration the parameters move by more than
`G * r / (1 - mu)`, `r` being a bound of the steps. -/
theorem C82_moves (h : Training p d m0 o scale N P g root θ leaf qs as) (hk : o.kind = .momentum eta mu) (hl2 : o.l2 ≤ 0) (hclip : o.clip ≤ 0)
    (hst : ∀ a ∈ as, a.stat "MomentumSGD.m" = some (a.shape, fun _ _ => 0)) (hm0 : 0 ≤ mu) (hm1 : mu < 1)
    {r : ℝ} (hstep : ∀ n, n < N → 0 ≤ scale n * eta ∧ scale n * eta ≤ r) :
    ∃ w D : Nat → Nat → Arr ℝ, (∀ k, k < as.length → w 0 k = PArr.vals as k) ∧
      (∀ n, n ≤ N → ValuesAre d (as.map PArr.shape) (qs n) (w n)) ∧
      (∀ n, n < N → IsGradient (as.map PArr.shape) ((g n).loss (P n) (root n) (θ n) (leaf n) as.length) (w n) (D n)) ∧
      ∀ G, (∀ n, n < N → norm2 (as.map PArr.shape) (D n) ≤ G) →
        ∀ n, n < N → norm2 (as.map PArr.shape) (fun k c b => w (n + 1) k c b - w n k c b) ≤ G * r / (1 - mu) := by
  obtain ⟨w, v, D, h0, h1, h2⟩ := C63_momentum_run h hk hl2 hclip
  refine ⟨w, D, fun k hlt => ?_, fun n hn => ⟨h.length hn, fun k hlt => ?_⟩, fun n hn => (h2 n hn).1, fun G hB => ?_⟩
  · rw [(h0 k _ (List.getElem?_eq_getElem hlt)).1, PArr.vals_some (List.getElem?_eq_getElem hlt)]
  · obtain ⟨q, t, e1, e2, -⟩ := h1 n hn k (by simpa using hlt)
    exact ⟨q, e1, e2⟩
  · intro n hn
    have hm : 0 < 1 - mu := by linarith
    have hG : 0 ≤ G := norm2_nonneg.trans (hB n hn)
    have hr : 0 ≤ r := (hstep n hn).1.trans (hstep n hn).2
    have hv : ∀ n, n ≤ N → norm2 (as.map PArr.shape) (v n) ≤ G * r / (1 - mu) := by
      intro n
      induction n with
      | zero =>
        intro hN
        have : norm2 (as.map PArr.shape) (v 0) = norm2 (as.map PArr.shape) (fun _ _ _ => 0) := norm2_congr fun k hlt => by
          have hlt : k < as.length := by simpa using hlt
          have e := (h0 k _ (List.getElem?_eq_getElem hlt)).2
          rw [hst _ (List.getElem_mem hlt)] at e
          simpa using e.symm
        rw [this]
        have hz : norm2 (as.map PArr.shape) (fun _ _ _ => 0) = 0 := by simp [norm2, sumSq, dot]
        rw [hz]
        exact div_nonneg (mul_nonneg hG hr) hm.le
      | succ n ih =>
        intro hn
        have e : norm2 (as.map PArr.shape) (v (n + 1)) =
            norm2 (as.map PArr.shape) (fun k c b => mu * v n k c b + -(scale n * eta) * D n k c b) := norm2_congr fun k hlt => by
          funext c b
          rw [((h2 n (by omega)).2 k (by simpa using hlt)).1 c b]
          ring
        obtain ⟨s1, s2⟩ := hstep n (by omega)
        have a1 := norm2_add (ss := as.map PArr.shape) (fun k c b => mu * v n k c b) (fun k c b => -(scale n * eta) * D n k c b)
        rw [norm2_smul, norm2_smul, abs_of_nonneg hm0, abs_neg, abs_of_nonneg s1] at a1
        have a2 := mul_le_mul_of_nonneg_left (ih (by omega)) hm0
        have a3 := mul_le_mul s2 (hB n (by omega)) norm2_nonneg hr
        rw [e]
        have : mu * (G * r / (1 - mu)) + r * G = G * r / (1 - mu) := by field_simp; ring
        linarith
    refine le_trans (le_of_eq ?_) (hv (n + 1) hn)
    exact norm2_congr fun k hlt => by
      funext c b
      rw [((h2 n hn).2 k (by simpa using hlt)).2 c b]
      ring

end

/-- Beside C82: for every `N` there is a run of `N` iterations with steps of `1/4` and momentum `1/2` on the loss of C80, the squared distance to `x`; it
meets the hypotheses of `C82_converges` with `K = 2`: the losses of all iterations together are at most twice the initial one. -/
example (p : Profile) (d : Nat) (m0 : Nat → ℝ) (x : Tensor ℝ) (fx : Arr ℝ) (hx : x.Holds d (vecShape 2 1) fx) (f0 : Nat → ℝ) (N : Nat) (hN : N < U32) :
    ∃ (P : Nat → Nat → NodeOp ℝ) (g : Nat → Graph (Tensor ℝ)) (qs : Nat → List (Param ℝ)) (as : List (PArr ℝ)) (w : Nat → Nat → Arr ℝ),
      PArr.vals as 0 = (fun c b => f0 ((vecShape 2 1).offset c b)) ∧
      Training p d m0 ⟨0, 1, 0, 0, .momentum (1 / 4) (1 / 2)⟩ (fun _ => 1) N P g (fun _ => 3) (fun _ _ => fx) (fun _ _ => 0) qs as ∧
      (∀ n, n ≤ N → ValuesAre d [vecShape 2 1] (qs n) (w n)) ∧
      ∑ n ∈ Finset.range N, sqDist [vecShape 2 1] (w n) (fun _ => fx) ≤ 2 * sqDist [vecShape 2 1] (w 0) (fun _ => fx) ∧
      ∃ (v : Nat → Nat → Arr ℝ) (G : ℝ), (∀ n, n ≤ N → ValuesAre d [vecShape 2 1] (qs n) (v n)) ∧
        ∀ n, n < N → norm2 [vecShape 2 1] (fun k c b => v (n + 1) k c b - v n k c b) ≤ G / 2 := by
  obtain ⟨P, g, qs, as, hss, h2, hst, h4, hL⟩ := sq_run p d m0 x fx hx f0 N hN 0 0 (.momentum (1 / 4) (1 / 2))
  obtain ⟨w, e0, e1, e2⟩ := C82_converges h4 rfl le_rfl le_rfl (fun a ha => hst a ha _ (by simp [OptKind.names]))
    (L := fun W => sqDist (as.map PArr.shape) W (fun _ => fx)) hL two_pos
    (LipschitzGradient_sqDist _ (shp_wf h4.start)) (ConvexLoss_sqDist _) (by norm_num) (by norm_num) (r := 1 / 4) (by norm_num) (by norm_num) (fun n _ => one_mul _)
  obtain ⟨f1, -⟩ := e2 (fun _ => fx) fun W => by
    have hz : sqDist (as.map PArr.shape) (fun _ => fx) (fun _ => fx) = 0 := by
      unfold sqDist sumSq dot
      simp
    rw [hz]
    exact sqDist_nonneg
  have hz : sqDist (as.map PArr.shape) (fun _ => fx) (fun _ => fx) = 0 := by
    unfold sqDist sumSq dot
    simp
  simp only [hz, sub_zero] at f1
  rw [hss] at f1 e1
  obtain ⟨v, D, -, v1, -, v2⟩ := C82_moves h4 rfl le_rfl le_rfl (fun a ha => hst a ha _ (by simp [OptKind.names])) (by norm_num) (by norm_num)
    (r := 1 / 4) (fun n _ => by norm_num)
  rw [hss] at v1 v2
  refine ⟨P, g, qs, as, w, h2, h4, e1, f1.trans_eq ?_, v, ∑ n ∈ Finset.range N, norm2 [vecShape 2 1] (D n), v1, fun n hn => ?_⟩
  · ring
  · refine (v2 _ (fun j hj => ?_) n hn).trans_eq (by ring)
    exact Finset.single_le_sum (f := fun n => norm2 [vecShape 2 1] (D n)) (fun _ _ => norm2_nonneg) (Finset.mem_range.mpr hj)

end Graph
end Verif
