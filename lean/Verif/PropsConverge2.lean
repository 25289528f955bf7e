import Verif.Converge2
import Verif.PropsConverge

/-!
# Property C81: training with SGD, weight decay and gradient clipping

`regularised` (C63) is the loss plus `l2 / 2` times the sum of the squares of all elements of all parameters.
-/

set_option linter.unusedSectionVars false

namespace Verif
open Res
attribute [local instance] realFlt
namespace Graph

section
variable {p : Profile} {d : Nat} {m0 : Nat → ℝ} {N : Nat} {P : Nat → Nat → NodeOp ℝ} {g : Nat → Graph (Tensor ℝ)} {root : Nat → Nat}
  {θ : Nat → Nat × Nat → Arr ℝ} {leaf : Nat → Nat → Nat} {qs : Nat → List (Param ℝ)} {as : List (PArr ℝ)} {o : Opt ℝ} {scale : Nat → ℝ} {eta : ℝ}

/-- C81.  A run with SGD, any weight decay and any clipping: the values of the parameters follow the negative gradients `R n` of the regularised
losses, scaled by the learning rate and a factor `k n` that is 1 without clipping and otherwise brings the norm down to the threshold. -/
theorem C81_run (h : Training p d m0 o scale N P g root θ leaf qs as) (hk : o.kind = .sgd eta) :
    ∃ (w R : Nat → Nat → Arr ℝ) (x : Nat → ℝ), w 0 = PArr.vals as ∧
      (∀ n, n ≤ N → Params d (qs n) (as.mapIdx fun k a => ⟨a.shape, w n k, fun _ _ => 0, a.stat⟩)) ∧
      ∀ n, n < N → IsGradient (as.map PArr.shape)
          (regularised (max o.l2 0) (as.map PArr.shape) ((g n).loss (P n) (root n) (θ n) (leaf n) as.length)) (w n) (R n) ∧
        (o.clip ≤ 0 → x n = 1) ∧
        (0 < o.clip → 0 ≤ x n ∧ x n ≤ 1 ∧ x n * norm2 (as.map PArr.shape) (R n) = min (norm2 (as.map PArr.shape) (R n)) o.clip) ∧
        ∀ k, k < as.length → w (n + 1) k = fun c b => w n k c b - scale n * eta * x n * R n k c b := by
  have step : ∀ n (w : Nat → Arr ℝ), ∃ (R : Nat → Arr ℝ) (x : ℝ), n < N → Params d (qs n) (as.mapIdx fun k a => ⟨a.shape, w k, fun _ _ => 0, a.stat⟩) →
      (IsGradient (as.map PArr.shape) (regularised (max o.l2 0) (as.map PArr.shape) ((g n).loss (P n) (root n) (θ n) (leaf n) as.length)) w R ∧
        (o.clip ≤ 0 → x = 1) ∧ (0 < o.clip → 0 ≤ x ∧ x ≤ 1 ∧ x * norm2 (as.map PArr.shape) R = min (norm2 (as.map PArr.shape) R) o.clip)) ∧
      Params d (qs (n + 1)) (as.mapIdx fun k a => ⟨a.shape, fun c b => w k c b - scale n * eta * x * R k c b, fun _ _ => 0, a.stat⟩) := by
    intro n w
    by_cases hh : n < N ∧ Params d (qs n) (as.mapIdx fun k a => ⟨a.shape, w k, fun _ _ => 0, a.stat⟩)
    swap
    · exact ⟨fun _ _ _ => 0, 0, fun h1 h2 => absurd ⟨h1, h2⟩ hh⟩
    obtain ⟨hn, hp⟩ := hh
    have hsh : (as.mapIdx fun k a => (⟨a.shape, w k, fun _ _ => 0, a.stat⟩ : PArr ℝ)).map PArr.shape = as.map PArr.shape := by
      refine List.ext_getElem? fun k => ?_
      rw [List.getElem?_map, List.getElem?_map, List.getElem?_mapIdx]
      cases as[k]? <;> rfl
    have hI := h.iter n hn _ hp (fun a ha => by
      rw [List.mem_mapIdx] at ha
      obtain ⟨i, hi, rfl⟩ := ha
      rfl) hsh
    obtain ⟨tr, order, g', mm, hb, hup⟩ := h.run n hn
    obtain ⟨g'', e, hstep⟩ := C63_sgd_step hI hp hb
    obtain rfl := Res.ok.inj e
    obtain ⟨R, hR, hstep⟩ := hstep o.l2
    have he := h.epoch
    obtain ⟨qs', x, h1, h2, h3, h4⟩ := hstep { o with epoch := o.epoch + n, lrScale := scale n } eta hk rfl (by show o.epoch + n + 1 < U32; omega) mm
    rw [hup] at h1
    have h1 : qs (n + 1) = qs' := congrArg Prod.fst h1
    refine ⟨R, x, fun _ _ => ⟨⟨?_, h3, ?_⟩, ?_⟩⟩
    · rw [hsh, List.length_mapIdx] at hR
      refine hR.congr fun k hk => ?_
      rw [List.length_map] at hk
      simp [PArr.vals, hk]
    · rw [hsh] at h4
      exact h4
    · rw [h1]
      convert h2 using 1
      unfold PArr.descended
      refine List.ext_getElem? fun k => ?_
      rw [List.getElem?_mapIdx, List.getElem?_mapIdx, List.getElem?_mapIdx]
      cases as[k]? <;> rfl
  choose R x hD using step
  let w : Nat → Nat → Arr ℝ := fun n => Nat.rec (PArr.vals as) (fun n w k c b => w k c b - scale n * eta * x n w * R n w k c b) n
  have hw : ∀ n, n ≤ N → Params d (qs n) (as.mapIdx fun k a => ⟨a.shape, w n k, fun _ _ => 0, a.stat⟩) := by
    intro n
    induction n with
    | zero =>
      intro _
      convert h.start using 1
      refine List.ext_getElem? fun k => ?_
      rw [List.getElem?_mapIdx]
      cases ha : as[k]? with
      | none => rfl
      | some a =>
        have := h.zero a (List.mem_of_getElem? ha)
        simp only [Option.map_some, Option.some.injEq]
        rw [← this]
        show (⟨a.shape, PArr.vals as k, a.grad, a.stat⟩ : PArr ℝ) = a
        simp [PArr.vals, ha]
    | succ n ih => exact fun hn => (hD n (w n) (by omega) (ih (by omega))).2
  exact ⟨w, fun n => R n (w n), fun n => x n (w n), rfl, hw, fun n hn =>
    have := (hD n (w n) hn (hw n (by omega))).1
    ⟨this.1, this.2.1, this.2.2, fun k _ => rfl⟩⟩

theorem regularised_congr {l2 : ℝ} {P : Nat → NodeOp ℝ} {g : Graph (Tensor ℝ)} {root : Nat} {θ : Nat × Nat → Arr ℝ} {leaf : Nat → Nat} {ss : List Shape}
    {W W' : Nat → Arr ℝ} (h : ∀ k, k < ss.length → W k = W' k) :
    regularised l2 ss (g.loss P root θ leaf ss.length) W = regularised l2 ss (g.loss P root θ leaf ss.length) W' := by
  unfold regularised
  rw [loss_congr h]
  congr 2
  unfold sumSq
  exact Finset.sum_congr rfl fun k hk => by rw [h k (Finset.mem_range.mp hk)]

/-- C81.  The step of a run lowers the regularised loss by half of it times `x n` times the square of the norm. -/
theorem regularised_step {L : (Nat → Arr ℝ) → ℝ} {n : Nat} (hsame : ∀ W, (g n).loss (P n) (root n) (θ n) (leaf n) as.length W = L W)
    {K : ℝ} (hK : 0 < K) (hwf : ∀ s ∈ as.map PArr.shape, s.WF) (hL : LipschitzGradient (as.map PArr.shape) L K) {l2 : ℝ} (hl : 0 ≤ l2) {w w' R : Nat → Arr ℝ}
    {r : ℝ} (h0 : 0 ≤ r) (h1 : r ≤ 1 / (K + l2)) (hR : IsGradient (as.map PArr.shape) (regularised l2 (as.map PArr.shape) L) w R)
    (hw : ∀ k, k < as.length → w' k = fun c b => w k c b - r * R k c b) :
    regularised l2 (as.map PArr.shape) L w' ≤ regularised l2 (as.map PArr.shape) L w - r / 2 * sumSq (as.map PArr.shape) R := by
  have e : (g n).loss (P n) (root n) (θ n) (leaf n) as.length = L := funext hsame
  have hlen : (as.map PArr.shape).length = as.length := List.length_map _
  have e1 : regularised l2 (as.map PArr.shape) L w' = regularised l2 (as.map PArr.shape) L (fun k c b => w k c b - r * R k c b) := by
    rw [← e, ← hlen]
    exact regularised_congr fun k hk => hw k (by simpa using hk)
  rw [e1]
  exact (hL.regularised hK.le hl hwf).step (by linarith) hR h0 h1

/-- C81.  Training on one convex loss with weight decay `l2` and without clipping, with steps of at most `1 / (K + l2)`: no iteration increases the
regularised loss, and the square of the distance to a minimizer `u` of the regularised loss shrinks in every iteration by the factor `1 - step * l2`;
hence it converges geometrically. -/
theorem C81_decay (h : Training p d m0 o scale N P g root θ leaf qs as) (hk : o.kind = .sgd eta) (hl2 : 0 < o.l2) (hclip : o.clip ≤ 0)
    {L : (Nat → Arr ℝ) → ℝ} (hsame : ∀ n, n < N → ∀ W, (g n).loss (P n) (root n) (θ n) (leaf n) as.length W = L W)
    {K : ℝ} (hK : 0 < K) (hL : LipschitzGradient (as.map PArr.shape) L K) (hc : ConvexLoss L)
    (hstep : ∀ n, n < N → 0 < scale n * eta ∧ scale n * eta ≤ 1 / (K + o.l2)) :
    ∃ w : Nat → Nat → Arr ℝ, w 0 = PArr.vals as ∧
      (∀ n, n ≤ N → Params d (qs n) (as.mapIdx fun k a => ⟨a.shape, w n k, fun _ _ => 0, a.stat⟩)) ∧
      (∀ n, n < N → regularised o.l2 (as.map PArr.shape) L (w (n + 1)) ≤ regularised o.l2 (as.map PArr.shape) L (w n)) ∧
      ∀ u, (∀ W, regularised o.l2 (as.map PArr.shape) L u ≤ regularised o.l2 (as.map PArr.shape) L W) → ∀ n, n ≤ N →
        sqDist (as.map PArr.shape) (w n) u ≤ (∏ j ∈ Finset.range n, (1 - scale j * eta * o.l2)) * sqDist (as.map PArr.shape) (PArr.vals as) u := by
  have hwf := shp_wf h.start
  obtain ⟨w, R, x, h0, h1, h2⟩ := C81_run h hk
  rw [max_eq_left hl2.le] at h2
  have hdec : ∀ n, n < N → IsGradient (as.map PArr.shape) (regularised o.l2 (as.map PArr.shape) L) (w n) (R n) ∧
      (∀ k, k < as.length → w (n + 1) k = fun c b => w n k c b - scale n * eta * R n k c b) ∧
      regularised o.l2 (as.map PArr.shape) L (w (n + 1)) ≤
        regularised o.l2 (as.map PArr.shape) L (w n) - scale n * eta / 2 * sumSq (as.map PArr.shape) (R n) := fun n hn => by
    obtain ⟨a1, a2, -, a3⟩ := h2 n hn
    rw [show (g n).loss (P n) (root n) (θ n) (leaf n) as.length = L from funext (hsame n hn)] at a1
    simp only [a2 hclip, mul_one] at a3
    exact ⟨a1, a3, regularised_step (hsame n hn) hK hwf hL hl2.le (hstep n hn).1.le (hstep n hn).2 a1 a3⟩
  refine ⟨w, h0, h1, fun n hn => ?_, fun u hu n => ?_⟩
  · have := (hdec n hn).2.2
    have := mul_nonneg (half_pos (hstep n hn).1).le (sumSq_nonneg' (ss := as.map PArr.shape) (D := R n))
    linarith
  · induction n with
    | zero => intro _; simp [h0]
    | succ n ih =>
      intro hn
      obtain ⟨a1, a2, a3⟩ := hdec n (by omega)
      obtain ⟨s1, s2⟩ := hstep n (by omega)
      obtain ⟨G, hG⟩ := hL.1 (w n)
      have a4 := hc.tangent_regularised hwf hG a1 u
      have a5 := hu (w (n + 1))
      have e : sqDist (as.map PArr.shape) (w (n + 1)) u = sqDist (as.map PArr.shape) (w n) u +
          2 * (scale n * eta) * inner (as.map PArr.shape) (R n) (fun k c b => u k c b - w n k c b) + (scale n * eta) ^ 2 * sumSq (as.map PArr.shape) (R n) := by
        rw [← sqDist_step]
        exact sqDist_congr fun k hk => a2 k (by simpa using hk)
      have hone : sqDist (as.map PArr.shape) (w (n + 1)) u ≤ (1 - scale n * eta * o.l2) * sqDist (as.map PArr.shape) (w n) u := by
        rw [e]
        have := mul_le_mul_of_nonneg_left (show inner (as.map PArr.shape) (R n) (fun k c b => u k c b - w n k c b) ≤
          - (scale n * eta / 2 * sumSq (as.map PArr.shape) (R n)) - o.l2 / 2 * sqDist (as.map PArr.shape) (w n) u by linarith)
          (mul_pos two_pos s1).le
        linarith
      have hnn : 0 ≤ 1 - scale n * eta * o.l2 := by
        have : scale n * eta * (K + o.l2) ≤ 1 := by
          have := mul_le_mul_of_nonneg_right s2 (add_pos hK hl2).le
          rwa [one_div_mul_cancel (add_pos hK hl2).ne'] at this
        have := mul_pos s1 hK
        linarith
      rw [Finset.prod_range_succ]
      refine hone.trans ((mul_le_mul_of_nonneg_left (ih (by omega)) hnn).trans_eq (by ring))

/-- C81.  Clipping bounds every iteration, whatever the losses are: the parameters move by a distance of at most the learning rate times the
threshold; over the whole run by at most the sum of these. -/
theorem C81_clipped_moves (h : Training p d m0 o scale N P g root θ leaf qs as) (hk : o.kind = .sgd eta) (hclip : 0 < o.clip) (hstep : ∀ n, n < N → 0 ≤ scale n * eta) :
    ∃ w : Nat → Nat → Arr ℝ, w 0 = PArr.vals as ∧
      (∀ n, n ≤ N → Params d (qs n) (as.mapIdx fun k a => ⟨a.shape, w n k, fun _ _ => 0, a.stat⟩)) ∧
      (∀ n, n < N → norm2 (as.map PArr.shape) (fun k c b => w (n + 1) k c b - w n k c b) ≤ scale n * eta * o.clip) ∧
      ∀ n, n ≤ N → norm2 (as.map PArr.shape) (fun k c b => w n k c b - PArr.vals as k c b) ≤ o.clip * ∑ j ∈ Finset.range n, scale j * eta := by
  obtain ⟨w, R, x, h0, h1, h2⟩ := C81_run h hk
  have hmove : ∀ n, n < N → norm2 (as.map PArr.shape) (fun k c b => w (n + 1) k c b - w n k c b) ≤ scale n * eta * o.clip := fun n hn => by
    obtain ⟨-, -, a2, a3⟩ := h2 n hn
    obtain ⟨x0, x1, x2⟩ := a2 hclip
    have e : sumSq (as.map PArr.shape) (fun k c b => w (n + 1) k c b - w n k c b) =
        (scale n * eta * x n) ^ 2 * sumSq (as.map PArr.shape) (R n) := by
      unfold sumSq dot
      rw [Finset.mul_sum]
      refine Finset.sum_congr rfl fun k hk => ?_
      rw [Finset.mul_sum]
      refine Finset.sum_congr rfl fun q _ => ?_
      simp only [a3 k (by simpa using hk)]
      ring
    unfold norm2
    rw [e, Real.sqrt_mul (sq_nonneg _), Real.sqrt_sq (mul_nonneg (hstep n hn) x0), mul_assoc]
    refine mul_le_mul_of_nonneg_left ?_ (hstep n hn)
    exact x2.trans_le (min_le_right _ _)
  refine ⟨w, h0, h1, hmove, fun n => ?_⟩
  induction n with
  | zero => intro _; simp [h0, norm2, sumSq, dot]
  | succ n ih =>
    intro hn
    rw [Finset.sum_range_succ, mul_add]
    have := norm2_add (ss := as.map PArr.shape) (fun k c b => w n k c b - PArr.vals as k c b) (fun k c b => w (n + 1) k c b - w n k c b)
    have e : (fun k c b => w n k c b - PArr.vals as k c b + (w (n + 1) k c b - w n k c b)) = fun k c b => w (n + 1) k c b - PArr.vals as k c b := by
      funext k c b; ring
    rw [e] at this
    have := ih (by omega)
    have := hmove n (by omega)
    linarith

/-- C81.  Training on one smooth loss with clipping (and any weight decay): the regularised loss falls in every iteration by half the step times the norm
`q` of its gradient times the smaller one of `q` and the threshold; so if it is bounded below, some iteration has a small gradient. -/
theorem C81_clipping (h : Training p d m0 o scale N P g root θ leaf qs as) (hk : o.kind = .sgd eta) (hclip : 0 < o.clip)
    {L : (Nat → Arr ℝ) → ℝ} (hsame : ∀ n, n < N → ∀ W, (g n).loss (P n) (root n) (θ n) (leaf n) as.length W = L W)
    {K : ℝ} (hK : 0 < K) (hL : LipschitzGradient (as.map PArr.shape) L K) (hstep : ∀ n, n < N → 0 < scale n * eta ∧ scale n * eta ≤ 1 / (K + max o.l2 0)) :
    ∃ (w R : Nat → Nat → Arr ℝ), w 0 = PArr.vals as ∧
      (∀ n, n ≤ N → Params d (qs n) (as.mapIdx fun k a => ⟨a.shape, w n k, fun _ _ => 0, a.stat⟩)) ∧
      (∀ n, n < N → IsGradient (as.map PArr.shape) (regularised (max o.l2 0) (as.map PArr.shape) L) (w n) (R n) ∧
        regularised (max o.l2 0) (as.map PArr.shape) L (w (n + 1)) ≤ regularised (max o.l2 0) (as.map PArr.shape) L (w n) -
          scale n * eta / 2 * (norm2 (as.map PArr.shape) (R n) * min (norm2 (as.map PArr.shape) (R n)) o.clip)) ∧
      ∀ low, (∀ W, low ≤ regularised (max o.l2 0) (as.map PArr.shape) L W) → 0 < N →
        ∃ n, n < N ∧ norm2 (as.map PArr.shape) (R n) * min (norm2 (as.map PArr.shape) (R n)) o.clip * ∑ j ∈ Finset.range N, scale j * eta ≤
          2 * (regularised (max o.l2 0) (as.map PArr.shape) L (PArr.vals as) - low) := by
  have hwf := shp_wf h.start
  obtain ⟨w, R, x, h0, h1, h2⟩ := C81_run h hk
  have hl : 0 ≤ max o.l2 0 := le_max_right _ _
  have hdec : ∀ n, n < N → IsGradient (as.map PArr.shape) (regularised (max o.l2 0) (as.map PArr.shape) L) (w n) (R n) ∧
      regularised (max o.l2 0) (as.map PArr.shape) L (w (n + 1)) ≤ regularised (max o.l2 0) (as.map PArr.shape) L (w n) -
        scale n * eta / 2 * (norm2 (as.map PArr.shape) (R n) * min (norm2 (as.map PArr.shape) (R n)) o.clip) := fun n hn => by
    obtain ⟨a1, -, a2, a3⟩ := h2 n hn
    obtain ⟨x0, x1, x2⟩ := a2 hclip
    obtain ⟨s1, s2⟩ := hstep n hn
    rw [show (g n).loss (P n) (root n) (θ n) (leaf n) as.length = L from funext (hsame n hn)] at a1
    refine ⟨a1, (regularised_step (hsame n hn) hK hwf hL hl (mul_nonneg s1.le x0) ((mul_le_of_le_one_right s1.le x1).trans s2) a1 a3).trans_eq ?_⟩
    rw [← x2, ← norm2_sq (D := R n)]
    ring
  refine ⟨w, R, h0, h1, hdec, fun low hlow hN => ?_⟩
  have hsum : ∀ n, n ≤ N → ∑ j ∈ Finset.range n, scale j * eta * (norm2 (as.map PArr.shape) (R j) * min (norm2 (as.map PArr.shape) (R j)) o.clip) ≤
      2 * (regularised (max o.l2 0) (as.map PArr.shape) L (w 0) - regularised (max o.l2 0) (as.map PArr.shape) L (w n)) := by
    intro n
    induction n with
    | zero => intro _; simp
    | succ n ih =>
      intro hn
      rw [Finset.sum_range_succ]
      have := ih (by omega)
      have := (hdec n (by omega)).2
      linarith
  obtain ⟨n, hn, hmin⟩ := Finset.exists_min_image (Finset.range N)
    (fun n => norm2 (as.map PArr.shape) (R n) * min (norm2 (as.map PArr.shape) (R n)) o.clip) ⟨0, Finset.mem_range.mpr hN⟩
  refine ⟨n, Finset.mem_range.mp hn, ?_⟩
  have := hsum N le_rfl
  have := hlow (w N)
  rw [← h0]
  calc norm2 (as.map PArr.shape) (R n) * min (norm2 (as.map PArr.shape) (R n)) o.clip * ∑ j ∈ Finset.range N, scale j * eta
      = ∑ j ∈ Finset.range N, scale j * eta * (norm2 (as.map PArr.shape) (R n) * min (norm2 (as.map PArr.shape) (R n)) o.clip) := by
        rw [Finset.mul_sum]; exact Finset.sum_congr rfl fun j _ => by ring
    _ ≤ ∑ j ∈ Finset.range N, scale j * eta * (norm2 (as.map PArr.shape) (R j) * min (norm2 (as.map PArr.shape) (R j)) o.clip) :=
        Finset.sum_le_sum fun j hj => mul_le_mul_of_nonneg_left (hmin j hj) (hstep j (Finset.mem_range.mp hj)).1.le
    _ ≤ 2 * (regularised (max o.l2 0) (as.map PArr.shape) L (w 0) - low) := by linarith

end

/-! ### Example: the squared distance of a parameter `w` of 2 elements and an input `x`, as in C80, with weight decay 1 -/

theorem sq_minimizer {ss : List Shape} (X W : Nat → Arr ℝ) :
    regularised 1 ss (fun W => sqDist ss W X) (fun k c b => 2 / 3 * X k c b) ≤ regularised 1 ss (fun W => sqDist ss W X) W := by
  unfold regularised sqDist sumSq dot
  simp only [Finset.mul_sum, ← Finset.sum_add_distrib]
  refine Finset.sum_le_sum fun k _ => Finset.sum_le_sum fun q _ => ?_
  nlinarith [sq_nonneg (W k q.1 q.2 - 2 / 3 * X k q.1 q.2)]

theorem sq_run (p : Profile) (d : Nat) (m0 : Nat → ℝ) (x : Tensor ℝ) (fx : Arr ℝ) (hx : x.Holds d (vecShape 2 1) fx) (f0 : Nat → ℝ) (N : Nat) (hN : N < U32)
    (l2 clip : ℝ) (kind : OptKind ℝ) : ∃ (P : Nat → Nat → NodeOp ℝ) (g : Nat → Graph (Tensor ℝ)) (qs : Nat → List (Param ℝ)) (as : List (PArr ℝ)),
      as.map PArr.shape = [vecShape 2 1] ∧ PArr.vals as 0 = (fun c b => f0 ((vecShape 2 1).offset c b)) ∧
      (∀ a ∈ as, ∀ n ∈ kind.names, a.stat n = some (a.shape, fun _ _ => 0)) ∧
      Training p d m0 ⟨0, 1, l2, clip, kind⟩ (fun _ => 1) N P g (fun _ => 3) (fun _ _ => fx) (fun _ _ => 0) qs as ∧
      ∀ n, n < N → ∀ W, (g n).loss (P n) 3 (fun _ => fx) (fun _ => 0) as.length W = sqDist (as.map PArr.shape) W (fun _ => fx) := by
  obtain ⟨qs, a, hst, h1, h2, h3, h4⟩ := run_exists p d m0 (fun _ _ => 0) (fun _ _ _ _ => 0) N ⟨0, 1, l2, clip, kind⟩ (by show 0 + N < U32; omega) (fun _ => 1) f0
    (P := fun _ q => sqP q.value x) (G := fun _ q => sqG p d (fun _ _ => 0) q.value x q.gradient) (root := fun _ => 3) (θ := fun _ _ => fx)
    fun n q a b1 b2 b3 => sq_iteration p d m0 (fun _ _ => 0) b1 b2 b3 hx
  have hss : [a].map PArr.shape = [vecShape 2 1] := by simp [h1]
  refine ⟨_, _, _, [a], hss, h2, by simpa using hst, h4, fun n hn W => ?_⟩
  rw [hss]
  exact sq_loss p d _ (h3 n hn.le) hx.shape W

/-- Beside C81: for every `N` there is a run of `N` iterations with steps of `1/4`, weight decay 1 and no clipping on this loss; it meets the hypotheses of
`C81_decay` with `K = 2`, and approaches `2/3 * x` at the rate `(3/4)^N`. -/
example (p : Profile) (d : Nat) (m0 : Nat → ℝ) (x : Tensor ℝ) (fx : Arr ℝ) (hx : x.Holds d (vecShape 2 1) fx) (f0 : Nat → ℝ) (N : Nat) (hN : N < U32) :
    ∃ (P : Nat → Nat → NodeOp ℝ) (g : Nat → Graph (Tensor ℝ)) (qs : Nat → List (Param ℝ)) (as : List (PArr ℝ)) (w : Nat → Arr ℝ),
      PArr.vals as 0 = (fun c b => f0 ((vecShape 2 1).offset c b)) ∧
      Training p d m0 ⟨0, 1, 1, 0, .sgd (1 / 4)⟩ (fun _ => 1) N P g (fun _ => 3) (fun _ _ => fx) (fun _ _ => 0) qs as ∧
      Params d (qs N) (as.mapIdx fun k a => ⟨a.shape, w k, fun _ _ => 0, a.stat⟩) ∧
      sqDist [vecShape 2 1] w (fun _ c b => 2 / 3 * fx c b) ≤ (3 / 4) ^ N * sqDist [vecShape 2 1] (PArr.vals as) (fun _ c b => 2 / 3 * fx c b) := by
  obtain ⟨P, g, qs, as, hss, h2, -, h4, hL⟩ := sq_run p d m0 x fx hx f0 N hN 1 0 (.sgd (1 / 4))
  obtain ⟨w, e0, e1, -, e2⟩ := C81_decay h4 rfl one_pos le_rfl (L := fun W => sqDist (as.map PArr.shape) W (fun _ => fx)) hL two_pos
    (LipschitzGradient_sqDist _ (shp_wf h4.start)) (ConvexLoss_sqDist _) (fun n _ => by norm_num)
  refine ⟨P, g, qs, as, w N, h2, h4, e1 N le_rfl, ?_⟩
  have := e2 (fun _ c b => 2 / 3 * fx c b) (fun W => sq_minimizer _ W) N le_rfl
  rw [Finset.prod_const, Finset.card_range, hss] at this
  refine this.trans_eq ?_
  norm_num

/-- Beside C81: with clipping to the norm 1 the same run moves by at most `1/4` per iteration, and meets the hypotheses of `C81_clipping`. -/
example (p : Profile) (d : Nat) (m0 : Nat → ℝ) (x : Tensor ℝ) (fx : Arr ℝ) (hx : x.Holds d (vecShape 2 1) fx) (f0 : Nat → ℝ) (N : Nat) (hN : N < U32) (h0 : 0 < N) :
    ∃ (P : Nat → Nat → NodeOp ℝ) (g : Nat → Graph (Tensor ℝ)) (qs : Nat → List (Param ℝ)) (as : List (PArr ℝ)) (w : Nat → Arr ℝ),
      PArr.vals as 0 = (fun c b => f0 ((vecShape 2 1).offset c b)) ∧
      Training p d m0 ⟨0, 1, 1, 1, .sgd (1 / 4)⟩ (fun _ => 1) N P g (fun _ => 3) (fun _ _ => fx) (fun _ _ => 0) qs as ∧
      Params d (qs N) (as.mapIdx fun k a => ⟨a.shape, w k, fun _ _ => 0, a.stat⟩) ∧
      norm2 [vecShape 2 1] (fun k c b => w k c b - PArr.vals as k c b) ≤ N / 4 ∧
      ∃ R, norm2 [vecShape 2 1] R * min (norm2 [vecShape 2 1] R) 1 * (N / 4) ≤
        2 * regularised 1 [vecShape 2 1] (fun W => sqDist [vecShape 2 1] W (fun _ => fx)) (PArr.vals as) := by
  obtain ⟨P, g, qs, as, hss, h2, -, h4, hL⟩ := sq_run p d m0 x fx hx f0 N hN 1 1 (.sgd (1 / 4))
  obtain ⟨w, e0, e1, -, e2⟩ := C81_clipped_moves h4 rfl one_pos (fun n _ => by norm_num)
  obtain ⟨-, R, -, -, -, f2⟩ := C81_clipping h4 rfl one_pos (L := fun W => sqDist (as.map PArr.shape) W (fun _ => fx)) hL two_pos
    (LipschitzGradient_sqDist _ (shp_wf h4.start)) (fun n _ => by norm_num)
  refine ⟨P, g, qs, as, w N, h2, h4, e1 N le_rfl, ?_, ?_⟩
  · have := e2 N le_rfl
    rw [Finset.sum_const, Finset.card_range, nsmul_eq_mul, hss] at this
    refine this.trans_eq ?_
    ring
  · obtain ⟨n, -, hn⟩ := f2 0 (fun W => by
      have := sqDist_nonneg (ss := as.map PArr.shape) (U := W) (V := fun _ => fx)
      have := sumSq_nonneg' (ss := as.map PArr.shape) (D := W)
      have : (0 : ℝ) ≤ max 1 0 / 2 * sumSq (as.map PArr.shape) W := mul_nonneg (by norm_num) this
      unfold regularised
      linarith) h0
    refine ⟨R n, ?_⟩
    rw [Finset.sum_const, Finset.card_range, nsmul_eq_mul, hss, sub_zero, max_eq_left zero_le_one] at hn
    refine le_trans (le_of_eq ?_) hn
    ring

end Graph
end Verif
