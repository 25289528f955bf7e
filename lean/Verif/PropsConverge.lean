import Verif.Converge
import Verif.PropsAccum

/-!
# Property C80: training with SGD converges

`Graph.Training` (C63) is a run of `N` iterations of building a graph, `backward`, dropping the graph and updating.  `LipschitzGradient`,
`ConvexLoss`, `inner`, `sumSq` and `sqDist` are defined in `Converge.lean` and `PropsTrain2.lean`.
-/

set_option linter.unusedSectionVars false

namespace Verif
open Res
attribute [local instance] realFlt
namespace Graph

section
variable {p : Profile} {d : Nat} {m0 : Nat → ℝ} {N : Nat} {P : Nat → Nat → NodeOp ℝ} {g : Nat → Graph (Tensor ℝ)} {root : Nat → Nat}
  {θ : Nat → Nat × Nat → Arr ℝ} {leaf : Nat → Nat → Nat} {qs : Nat → List (Param ℝ)} {as : List (PArr ℝ)} {o : Opt ℝ} {scale : Nat → ℝ} {eta : ℝ}

/-- The loss depends only on the parameters. -/
theorem loss_congr {P : Nat → NodeOp ℝ} {g : Graph (Tensor ℝ)} {root : Nat} {θ : Nat × Nat → Arr ℝ} {leaf : Nat → Nat} {n : Nat} {W W' : Nat → Arr ℝ}
    (h : ∀ k, k < n → W k = W' k) : g.loss P root θ leaf n W = g.loss P root θ leaf n W' := by
  unfold loss
  congr 1
  funext a
  unfold setLeaves
  cases e : (List.range n).find? (fun k => decide ((leaf k, 0) = a)) with
  | none => rfl
  | some k => exact h k (List.mem_range.mp (List.mem_of_find?_eq_some e))

theorem sqDist_congr {ss : List Shape} {U U' V : Nat → Arr ℝ} (h : ∀ k, k < ss.length → U k = U' k) : sqDist ss U V = sqDist ss U' V := by
  unfold sqDist sumSq
  refine Finset.sum_congr rfl fun k hk => ?_
  simp only [h k (Finset.mem_range.mp hk)]

/-- The values of the parameters in a run with SGD. -/
theorem sgd_run (h : Training p d m0 o scale N P g root θ leaf qs as) (hk : o.kind = .sgd eta) (hl2 : o.l2 ≤ 0) (hclip : o.clip ≤ 0) :
    ∃ w D : Nat → Nat → Arr ℝ, w 0 = PArr.vals as ∧
      (∀ n, n ≤ N → Params d (qs n) (as.mapIdx fun k a => ⟨a.shape, w n k, fun _ _ => 0, a.stat⟩)) ∧
      ∀ n, n < N → IsGradient (as.map PArr.shape) ((g n).loss (P n) (root n) (θ n) (leaf n) as.length) (w n) (D n) ∧
        (∀ j, (g j).loss (P j) (root j) (θ j) (leaf j) as.length (w (n + 1)) =
          (g j).loss (P j) (root j) (θ j) (leaf j) as.length (fun k c b => w n k c b - scale n * eta * D n k c b)) ∧
        ∀ u, sqDist (as.map PArr.shape) (w (n + 1)) u = sqDist (as.map PArr.shape) (w n) u +
          2 * (scale n * eta) * inner (as.map PArr.shape) (D n) (fun k c b => u k c b - w n k c b) + (scale n * eta) ^ 2 * sumSq (as.map PArr.shape) (D n) := by
  obtain ⟨w, D, h0, h1, h2⟩ := C57_training_run h.start h.zero h.iter hk hl2 hclip h.epoch h.run
  refine ⟨w, D, h0, h1, fun n hn => ⟨(h2 n hn).1, fun j => loss_congr (h2 n hn).2, fun u => ?_⟩⟩
  rw [← sqDist_step]
  exact sqDist_congr fun k hk => (h2 n hn).2 k (by simpa using hk)

/-- C80.  Training on the same loss `L` in every iteration, with steps of at most `1 / K` for a loss whose gradient is Lipschitz continuous with
constant `K`: no iteration increases the loss, each lowers it by half the step times the square of the norm of the gradient; and if the loss is
bounded below, the smallest of the gradients so far is bounded by the loss at the start over the sum of the steps. -/
theorem C80_smooth (h : Training p d m0 o scale N P g root θ leaf qs as) (hk : o.kind = .sgd eta) (hl2 : o.l2 ≤ 0) (hclip : o.clip ≤ 0)
    {L : (Nat → Arr ℝ) → ℝ} (hsame : ∀ n, n < N → ∀ W, (g n).loss (P n) (root n) (θ n) (leaf n) as.length W = L W)
    {K : ℝ} (hK : 0 < K) (hL : LipschitzGradient (as.map PArr.shape) L K) (hstep : ∀ n, n < N → 0 < scale n * eta ∧ scale n * eta ≤ 1 / K) :
    ∃ w D : Nat → Nat → Arr ℝ, w 0 = PArr.vals as ∧
      (∀ n, n ≤ N → Params d (qs n) (as.mapIdx fun k a => ⟨a.shape, w n k, fun _ _ => 0, a.stat⟩)) ∧
      (∀ n, n < N → IsGradient (as.map PArr.shape) L (w n) (D n) ∧
        L (w (n + 1)) ≤ L (w n) - scale n * eta / 2 * sumSq (as.map PArr.shape) (D n)) ∧
      ∀ low, (∀ W, low ≤ L W) → 0 < N →
        ∃ n, n < N ∧ sumSq (as.map PArr.shape) (D n) * ∑ j ∈ Finset.range N, scale j * eta ≤ 2 * (L (PArr.vals as) - low) := by
  obtain ⟨w, D, h0, h1, h2⟩ := sgd_run h hk hl2 hclip
  have hdec : ∀ n, n < N → IsGradient (as.map PArr.shape) L (w n) (D n) ∧
      L (w (n + 1)) ≤ L (w n) - scale n * eta / 2 * sumSq (as.map PArr.shape) (D n) := fun n hn => by
    obtain ⟨a1, a2, -⟩ := h2 n hn
    have e : (g n).loss (P n) (root n) (θ n) (leaf n) as.length = L := funext (hsame n hn)
    have a2 := a2 n
    rw [e] at a1 a2
    exact ⟨a1, a2.trans_le (hL.step hK a1 (hstep n hn).1.le (hstep n hn).2)⟩
  refine ⟨w, D, h0, h1, hdec, fun low hlow hN => ?_⟩
  have hsum : ∀ n, n ≤ N → ∑ j ∈ Finset.range n, scale j * eta * sumSq (as.map PArr.shape) (D j) ≤ 2 * (L (w 0) - L (w n)) := by
    intro n
    induction n with
    | zero => intro _; simp
    | succ n ih =>
      intro hn
      rw [Finset.sum_range_succ]
      have := ih (by omega)
      have := (hdec n (by omega)).2
      linarith
  obtain ⟨n, hn, hmin⟩ := Finset.exists_min_image (Finset.range N) (fun n => sumSq (as.map PArr.shape) (D n)) ⟨0, Finset.mem_range.mpr hN⟩
  refine ⟨n, Finset.mem_range.mp hn, ?_⟩
  have := hsum N le_rfl
  have := hlow (w N)
  rw [← h0]
  calc sumSq (as.map PArr.shape) (D n) * ∑ j ∈ Finset.range N, scale j * eta
      = ∑ j ∈ Finset.range N, scale j * eta * sumSq (as.map PArr.shape) (D n) := by
        rw [Finset.mul_sum]; exact Finset.sum_congr rfl fun j _ => by ring
    _ ≤ ∑ j ∈ Finset.range N, scale j * eta * sumSq (as.map PArr.shape) (D j) :=
        Finset.sum_le_sum fun j hj => mul_le_mul_of_nonneg_left (hmin j hj) (hstep j (Finset.mem_range.mp hj)).1.le
    _ ≤ 2 * (L (w 0) - low) := by linarith

/-- C80.  If the loss is convex too, then compared with any values `u` of the parameters the loss after the run exceeds that of `u` by at most half
the square of the distance from the start to `u` over the sum of the steps; and the distance to a `u` with minimal loss never grows. -/
theorem C80_convex (h : Training p d m0 o scale N P g root θ leaf qs as) (hk : o.kind = .sgd eta) (hl2 : o.l2 ≤ 0) (hclip : o.clip ≤ 0)
    {L : (Nat → Arr ℝ) → ℝ} (hsame : ∀ n, n < N → ∀ W, (g n).loss (P n) (root n) (θ n) (leaf n) as.length W = L W)
    {K : ℝ} (hK : 0 < K) (hL : LipschitzGradient (as.map PArr.shape) L K) (hc : ConvexLoss L)
    (hstep : ∀ n, n < N → 0 < scale n * eta ∧ scale n * eta ≤ 1 / K) :
    ∃ w : Nat → Nat → Arr ℝ, w 0 = PArr.vals as ∧
      (∀ n, n ≤ N → Params d (qs n) (as.mapIdx fun k a => ⟨a.shape, w n k, fun _ _ => 0, a.stat⟩)) ∧
      (∀ u, 2 * (L (w N) - L u) * ∑ j ∈ Finset.range N, scale j * eta ≤ sqDist (as.map PArr.shape) (PArr.vals as) u) ∧
      ∀ u, (∀ W, L u ≤ L W) → ∀ n, n < N → sqDist (as.map PArr.shape) (w (n + 1)) u ≤ sqDist (as.map PArr.shape) (w n) u := by
  obtain ⟨w, D, h0, h1, h2⟩ := sgd_run h hk hl2 hclip
  have hdec : ∀ n, n < N → IsGradient (as.map PArr.shape) L (w n) (D n) ∧
      L (w (n + 1)) ≤ L (w n) - scale n * eta / 2 * sumSq (as.map PArr.shape) (D n) := fun n hn => by
    obtain ⟨a1, a2, -⟩ := h2 n hn
    have e : (g n).loss (P n) (root n) (θ n) (leaf n) as.length = L := funext (hsame n hn)
    have a2 := a2 n
    rw [e] at a1 a2
    exact ⟨a1, a2.trans_le (hL.step hK a1 (hstep n hn).1.le (hstep n hn).2)⟩
  have hone : ∀ u n, n < N → 2 * (scale n * eta) * (L (w (n + 1)) - L u) ≤
      sqDist (as.map PArr.shape) (w n) u - sqDist (as.map PArr.shape) (w (n + 1)) u := fun u n hn => by
    obtain ⟨a1, a2⟩ := hdec n hn
    have a3 := hc.tangent a1 u
    rw [(h2 n hn).2.2 u]
    have := mul_le_mul_of_nonneg_left (show L (w (n + 1)) - L u ≤ -inner (as.map PArr.shape) (D n) (fun k c b => u k c b - w n k c b) -
      scale n * eta / 2 * sumSq (as.map PArr.shape) (D n) by linarith) (mul_pos two_pos (hstep n hn).1).le
    linarith
  have hmono : ∀ n, n < N → L (w (n + 1)) ≤ L (w n) := fun n hn => by
    have := (hdec n hn).2
    have hs : 0 ≤ sumSq (as.map PArr.shape) (D n) := inner_self_nonneg
    have := mul_nonneg (half_pos (hstep n hn).1).le hs
    linarith
  have hlast : ∀ n, n ≤ N → L (w N) ≤ L (w n) := fun n hn => by
    obtain ⟨j, rfl⟩ := Nat.exists_eq_add_of_le hn
    clear hone
    have : ∀ i, n + i ≤ n + j → L (w (n + i)) ≤ L (w n) := by
      intro i
      induction i with
      | zero => intro _; exact le_refl _
      | succ i ih => intro hi; exact (hmono (n + i) (by omega)).trans (ih (by omega))
    exact this j le_rfl
  refine ⟨w, h0, h1, fun u => ?_, fun u hu n hn => ?_⟩
  · have hsum : ∀ n, n ≤ N → 2 * (L (w N) - L u) * ∑ j ∈ Finset.range n, scale j * eta ≤
        sqDist (as.map PArr.shape) (w 0) u - sqDist (as.map PArr.shape) (w n) u := by
      intro n
      induction n with
      | zero => intro _; simp
      | succ n ih =>
        intro hn
        have a1 := ih (by omega)
        have a2 := hone u n (by omega)
        have a3 := mul_le_mul_of_nonneg_left (sub_le_sub_right (hlast (n + 1) hn) (L u)) (mul_pos two_pos (hstep n (by omega)).1).le
        rw [Finset.sum_range_succ, mul_add]
        linarith
    have := hsum N le_rfl
    have hn : 0 ≤ sqDist (as.map PArr.shape) (w N) u := sqDist_nonneg
    rw [← h0]
    linarith
  · have a1 := hone u n hn
    have a2 := mul_nonneg (mul_pos two_pos (hstep n hn).1).le (sub_nonneg.mpr (hu (w (n + 1))))
    linarith

/-- C80.  Training on a different convex loss in every iteration (minibatches), with any positive steps and without any other condition on the losses:
compared with any fixed values `u` of the parameters, the losses during the run, weighted by the steps, exceed those of `u` by at most half of the
square of the distance from the start to `u` plus the squares of the steps times those of the gradients. -/
theorem C80_online (h : Training p d m0 o scale N P g root θ leaf qs as) (hk : o.kind = .sgd eta) (hl2 : o.l2 ≤ 0) (hclip : o.clip ≤ 0)
    (hc : ∀ n, n < N → ConvexLoss ((g n).loss (P n) (root n) (θ n) (leaf n) as.length)) (hstep : ∀ n, n < N → 0 < scale n * eta) :
    ∃ w D : Nat → Nat → Arr ℝ, w 0 = PArr.vals as ∧
      (∀ n, n ≤ N → Params d (qs n) (as.mapIdx fun k a => ⟨a.shape, w n k, fun _ _ => 0, a.stat⟩)) ∧
      (∀ n, n < N → IsGradient (as.map PArr.shape) ((g n).loss (P n) (root n) (θ n) (leaf n) as.length) (w n) (D n)) ∧
      ∀ u, ∑ n ∈ Finset.range N, scale n * eta *
          ((g n).loss (P n) (root n) (θ n) (leaf n) as.length (w n) - (g n).loss (P n) (root n) (θ n) (leaf n) as.length u) ≤
        (sqDist (as.map PArr.shape) (PArr.vals as) u + ∑ n ∈ Finset.range N, (scale n * eta) ^ 2 * sumSq (as.map PArr.shape) (D n)) / 2 := by
  obtain ⟨w, D, h0, h1, h2⟩ := sgd_run h hk hl2 hclip
  refine ⟨w, D, h0, h1, fun n hn => (h2 n hn).1, fun u => ?_⟩
  have hsum : ∀ n, n ≤ N → 2 * ∑ j ∈ Finset.range n, scale j * eta *
        ((g j).loss (P j) (root j) (θ j) (leaf j) as.length (w j) - (g j).loss (P j) (root j) (θ j) (leaf j) as.length u) ≤
      sqDist (as.map PArr.shape) (w 0) u - sqDist (as.map PArr.shape) (w n) u +
        ∑ j ∈ Finset.range n, (scale j * eta) ^ 2 * sumSq (as.map PArr.shape) (D j) := by
    intro n
    induction n with
    | zero => intro _; simp
    | succ n ih =>
      intro hn
      have a1 := ih (by omega)
      have a2 := (hc n (by omega)).tangent (h2 n (by omega)).1 u
      have a3 := mul_le_mul_of_nonneg_left (show (g n).loss (P n) (root n) (θ n) (leaf n) as.length (w n) -
        (g n).loss (P n) (root n) (θ n) (leaf n) as.length u ≤ -inner (as.map PArr.shape) (D n) (fun k c b => u k c b - w n k c b) by linarith)
        (hstep n (by omega)).le
      rw [Finset.sum_range_succ, Finset.sum_range_succ, (h2 n (by omega)).2.2 u, mul_add]
      linarith
  have := hsum N le_rfl
  have hn : 0 ≤ sqDist (as.map PArr.shape) (w N) u := sqDist_nonneg
  rw [← h0]
  linarith

end
/-! ### Example: the squared distance `sum((w - x) * (w - x))` of a parameter `w` of 2 elements and an input `x` -/

theorem IsGradient_sqDist {ss : List Shape} (X w : Nat → Arr ℝ) (hss : ∀ s ∈ ss, s.WF) :
    IsGradient ss (fun W => sqDist ss W X) w (fun k c b => 2 * (w k c b - X k c b)) := by
  intro W t0 V h
  unfold sqDist sumSq dot
  refine HasDerivAt.fun_sum fun k hk => ?_
  refine HasDerivAt.fun_sum fun q hq => ?_
  obtain ⟨h1, h2⟩ := h k (Finset.mem_range.mp hk)
  have hm : shp ss k ∈ ss := by
    simp only [shp, List.getD_eq_getElem?_getD, List.getElem?_eq_getElem (Finset.mem_range.mp hk), Option.getD_some]
    exact List.getElem_mem _
  have h3 := (h2 q.1 q.2 ((hss _ hm).mem_pos.mp hq)).sub_const (X k q.1 q.2)
  refine (h3.mul h3).congr_deriv ?_
  show V k q.1 q.2 * (W t0 k q.1 q.2 - X k q.1 q.2) + (W t0 k q.1 q.2 - X k q.1 q.2) * V k q.1 q.2 = 2 * (w k q.1 q.2 - X k q.1 q.2) * V k q.1 q.2
  rw [h1]
  ring

theorem LipschitzGradient_sqDist {ss : List Shape} (X : Nat → Arr ℝ) (hss : ∀ s ∈ ss, s.WF) : LipschitzGradient ss (fun W => sqDist ss W X) 2 := by
  refine ⟨fun w => ⟨_, IsGradient_sqDist X w hss⟩, fun w w' D D' h h' => le_of_eq ?_⟩
  have e := fun k (hk : k < ss.length) c b (hv : (shp ss k).Valid c b) => h.unique (IsGradient_sqDist X w hss) hss hk hv
  have e' := fun k (hk : k < ss.length) c b (hv : (shp ss k).Valid c b) => h'.unique (IsGradient_sqDist X w' hss) hss hk hv
  unfold sqDist sumSq dot
  rw [Finset.mul_sum]
  refine Finset.sum_congr rfl fun k hk => ?_
  rw [Finset.mul_sum]
  refine Finset.sum_congr rfl fun q hq => ?_
  have hk := Finset.mem_range.mp hk
  have hm : shp ss k ∈ ss := by
    simp only [shp, List.getD_eq_getElem?_getD, List.getElem?_eq_getElem hk, Option.getD_some]
    exact List.getElem_mem _
  have hv := (hss _ hm).mem_pos.mp hq
  simp only [e k hk _ _ hv, e' k hk _ _ hv]
  ring

theorem ConvexLoss_sqDist {ss : List Shape} (X : Nat → Arr ℝ) : ConvexLoss (fun W => sqDist ss W X) := by
  intro w u t h0 h1
  unfold sqDist sumSq dot
  simp only [Finset.mul_sum, ← Finset.sum_add_distrib]
  refine Finset.sum_le_sum fun k _ => Finset.sum_le_sum fun q _ => ?_
  nlinarith [mul_nonneg (mul_nonneg h0 (sub_nonneg.mpr h1)) (sq_nonneg (w k q.1 q.2 - u k q.1 q.2))]

/-- The operators. -/
def sqP (w x : Tensor ℝ) : Nat → NodeOp ℝ
  | 0 => .parameter w
  | 1 => .input x
  | 2 => .bi .sub
  | _ => .bi .mul

/-- The graph. -/
noncomputable def sqG (p : Profile) (d : Nat) (m : Mem ℝ) (w x gw : Tensor ℝ) : Graph (Tensor ℝ) :=
  let g := push p d m [] (.parameter w) (some gw) [] [vecShape 2 1]
  let g := push p d m g (.input x) none [] [vecShape 2 1]
  let g := push p d m g (.bi .sub) none [(0, 0), (1, 0)] [vecShape 2 1]
  push p d m g (.bi .mul) none [(2, 0), (2, 0)] [vecShape 2 1]

theorem sqG_made (p : Profile) (d : Nat) (m0 : Nat → ℝ) (m : Mem ℝ) {w x : Tensor ℝ} (gw : Tensor ℝ) (hw : w.shape = vecShape 2 1)
    (hx : x.shape = vecShape 2 1) : Made p d m0 (sqP w x) (sqG p d m w x gw) [] := by
  have h0 : Made p d m0 (sqP w x) _ [] := Made.push .empty (op := .parameter w) rfl rfl (outs := [vecShape 2 1]) (args := [])
    (by show (ok [w.shape] : Res _) = _; rw [hw]) (by simp) m (some gw)
  have h1 := Made.push h0 (op := .input x) rfl rfl (outs := [vecShape 2 1]) (args := []) (by show (ok [x.shape] : Res _) = _; rw [hx]) (by simp) m none
  have h2 := Made.push h1 (op := .bi .sub) rfl rfl (outs := [vecShape 2 1]) (args := [(0, 0), (1, 0)]) rfl
    (by intro a ha; simp only [List.mem_cons, List.not_mem_nil, or_false] at ha; rcases ha with rfl | rfl <;> exact Nat.one_pos) m none
  exact Made.push h2 (op := .bi .mul) rfl rfl (outs := [vecShape 2 1]) (args := [(2, 0), (2, 0)]) rfl
    (by intro a ha; simp only [List.mem_cons, List.not_mem_nil, or_false] at ha; rcases ha with rfl | rfl <;> exact Nat.one_pos) m none

theorem sq_iteration (p : Profile) (d : Nat) (m0 : Nat → ℝ) (m : Mem ℝ) {q : Param ℝ} {x : Tensor ℝ} {a : PArr ℝ} {fx : Arr ℝ} (hq : q.Is d a)
    (hs : a.shape = vecShape 2 1) (hz : a.grad = fun _ _ => 0) (hx : x.Holds d (vecShape 2 1) fx) :
    Iteration p d m0 (sqP q.value x) (sqG p d m q.value x q.gradient) 3 (fun _ => fx) (fun _ => 0) [q] [a] := by
  have hw : q.value.shape = vecShape 2 1 := hq.value.shape.trans hs
  have hm := sqG_made p d m0 m q.gradient hw hx.shape
  have hi : ∀ i, Needs (sqG p d m q.value x q.gradient) 3 i → i ≤ 3 := fun i h => h.le hm.hist.inv.wf
  refine ⟨⟨_, hm⟩, by show 3 < 4; omega, ⟨fun k l h1 h2 _ => by simp at h1 h2; omega, fun k q' hk => ?_, fun i t ht => ⟨0, by simp, ?_⟩⟩,
    by simpa using hz, ?_, ?_, ?_, ?_, ?_⟩
  · rcases k with _ | k
    · obtain rfl := Option.some.inj hk
      exact ⟨by show 0 < 4; omega, rfl, rfl⟩
    · cases hk
  · rcases i with _ | _ | _ | _ | i
    · rfl
    all_goals cases ht
  · intro i hn hl hne
    have := hi i hn
    interval_cases i
    · exact absurd rfl (hne 0 (by simp))
    · exact ⟨x, rfl, hx⟩
    all_goals cases hl
  · intro i v hn hv
    have := hi i hn
    interval_cases i <;> (have : v = 0 := Nat.lt_one_iff.mp hv) <;> subst this <;> show Shape.size (vecShape _ 1) ≤ _ <;> decide
  · intro i hn hl
    have := hi i hn
    interval_cases i
    · cases hl
    · cases hl
    · exact fun _ _ _ => trivial
    · exact fun _ _ _ => trivial
  · intro i o hn ho
    have := hi i hn
    interval_cases i <;> (obtain rfl := Option.some.inj ho) <;> rfl
  · intro i v hn _ h1
    have := hi i hn
    interval_cases i <;> exact absurd h1 (lt_irrefl 1)

theorem sq_loss (p : Profile) (d : Nat) (m : Mem ℝ) {w x gw : Tensor ℝ} {fx : Arr ℝ} (hw : w.shape = vecShape 2 1) (hx : x.shape = vecShape 2 1)
    (W : Nat → Arr ℝ) : (sqG p d m w x gw).loss (sqP w x) 3 (fun _ => fx) (fun _ => 0) 1 W = sqDist [vecShape 2 1] W (fun _ => fx) := by
  have hwf : (vecShape 2 1).WF := vecShape_wf (n := 2) (b := 1) rfl
  have hg := (sqG_made p d (fun _ => 0) m gw hw hx).hist.inv.wf
  unfold loss
  have t0 : setLeaves (fun _ => fx) (fun _ => 0) 1 W (0, 0) = W 0 := rfl
  have t1 : setLeaves (fun _ => fx) (fun _ => 0) 1 W (1, 0) = fx := rfl
  generalize setLeaves (fun _ => fx) (fun _ => 0) 1 W = T at *
  have e0 : evalR (sqG p d m w x gw) (sqP w x) T 0 0 = T (0, 0) := evalR_leaf rfl 0
  have e1 : evalR (sqG p d m w x gw) (sqP w x) T 1 0 = T (1, 0) := evalR_leaf rfl 0
  have e2 : evalR (sqG p d m w x gw) (sqP w x) T 2 0 = fun c b => T (0, 0) c (bb (vecShape 2 1) b) - T (1, 0) c (bb (vecShape 2 1) b) := by
    rw [evalR_node hg rfl, ← e0, ← e1]; rfl
  have e3 : evalR (sqG p d m w x gw) (sqP w x) T 3 0 = fun c b =>
      evalR (sqG p d m w x gw) (sqP w x) T 2 0 c (bb (vecShape 2 1) b) *
        evalR (sqG p d m w x gw) (sqP w x) T 2 0 c (bb (vecShape 2 1) b) := by
    rw [evalR_node hg rfl]; rfl
  have r3 : results (sqG p d m w x gw) 3 = 1 := rfl
  have n3 : nodeShape (sqG p d m w x gw) (3, 0) = vecShape 2 1 := rfl
  unfold objective sqDist sumSq
  rw [r3, Finset.sum_range_one, n3, e3, e2, t0, t1]
  simp only [List.length_singleton, Finset.sum_range_one]
  unfold total dot
  refine Finset.sum_congr rfl fun q hq => ?_
  have hb : q.2 = 0 := Nat.lt_one_iff.mp (hwf.mem_pos.mp hq).2
  have hbb : bb (vecShape 2 1) q.2 = q.2 := by rw [hb]; rfl
  simp only [hbb]

/-- Runs with any graphs that fit the parameter exist, of every length. -/
theorem run_exists (p : Profile) (d : Nat) (m0 : Nat → ℝ) (m : Mem ℝ) (mm : Nat → Nat → Mem ℝ) (N : Nat) (o : Opt ℝ) (he : o.epoch + N < U32)
    (scale : Nat → ℝ) (f0 : Nat → ℝ) {P : Nat → Param ℝ → Nat → NodeOp ℝ} {G : Nat → Param ℝ → Graph (Tensor ℝ)} {root : Nat → Nat} {θ : Nat → Nat × Nat → Arr ℝ}
    (hI1 : ∀ n (q : Param ℝ) a, q.Is d a → a.shape = vecShape 2 1 → a.grad = (fun _ _ => 0) → Iteration p d m0 (P n q) (G n q) (root n) (θ n) (fun _ => 0) [q] [a]) :
    ∃ (qs : Nat → Param ℝ) (a : PArr ℝ), (∀ n ∈ o.kind.names, a.stat n = some (a.shape, fun _ _ => 0)) ∧
      a.shape = vecShape 2 1 ∧ a.value = (fun c b => f0 ((vecShape 2 1).offset c b)) ∧ (∀ n, n ≤ N → (qs n).value.shape = vecShape 2 1) ∧
      Training p d m0 o scale N (fun n => P n (qs n)) (fun n => G n (qs n)) root θ (fun _ _ => 0) (fun n => [qs n]) [a] := by
  have hwf : (vecShape 2 1).WF := vecShape_wf (n := 2) (b := 1) rfl
  obtain ⟨w, hw⟩ := exists_holds hwf (by decide) d f0
  obtain ⟨z, hz⟩ := exists_holds hwf (by decide) d (fun _ => (0 : ℝ))
  have hI : ∀ n (q : Param ℝ) as', Params d [q] as' → (∀ a ∈ as', a.grad = fun _ _ => 0) → as'.map PArr.shape = [vecShape 2 1] →
      Iteration p d m0 (P n q) (G n q) (root n) (θ n) (fun _ => 0) [q] as' := by
    intro n q as' h1 h2 h3
    unfold Params at h1
    obtain ⟨a, l, h4, h5, rfl⟩ := List.forall₂_cons_left_iff.mp h1
    obtain rfl := List.forall₂_nil_left_iff.mp h5
    exact hI1 n q a h4 (by simpa using h3) (h2 a (by simp))
  let Inv : Param ℝ → Prop := fun q => ∃ a, q.Is d a ∧ a.shape = vecShape 2 1 ∧ a.grad = (fun _ _ => 0) ∧ a.Ready o.kind
  have step : ∀ n (q : {q : Param ℝ // Inv q}), ∃ q' : {q : Param ℝ // Inv q}, n < N → ∃ tr order g',
      Backward (tensorLike p m0) (G n q.1) (root n) tr order (ok g') ∧
      Opt.updateParameters p mm { o with epoch := o.epoch + n, lrScale := scale n } (g'.giveBack (fun _ => 0) [q.1]) = ([q'.1], ok (o.epoch + n + 1)) := by
    rintro n ⟨q, a, h1, h2, h3, hr⟩
    by_cases hn : n < N
    swap
    · exact ⟨⟨q, a, h1, h2, h3, hr⟩, fun h => absurd h hn⟩
    have hP : Params d [q] [a] := .cons h1 .nil
    have hit := hI n q [a] hP (by simpa using h3) (by simpa using h2)
    obtain ⟨tr, hm⟩ := hit.made
    obtain ⟨tr', order, r, hb⟩ := C32_backward_total hm.hist hit.root_lt
    obtain ⟨g', D, rfl, -, hup⟩ := C63_training_step hit hP hb
    obtain ⟨qs', e, hq'⟩ := hup { o with epoch := o.epoch + n, lrScale := scale n } (by simpa using hr) (by show o.epoch + n + 1 < U32; omega) mm
    have hf := PArr.setGrads_frame (k := o.kind) D [a] (by simpa using hr)
    have hu := PArr.updated_frame { o with epoch := o.epoch + n, lrScale := scale n } _ hf.2
    unfold PArr.setGrads at hf hu
    generalize PArr.updated { o with epoch := o.epoch + n, lrScale := scale n } (List.mapIdx (fun k a => a.withGrad (D k)) [a]) = as' at *
    have hsh : as'.map PArr.shape = [a.shape] := hu.1.trans hf.1
    obtain ⟨a', rfl⟩ : ∃ a', as' = [a'] := List.length_eq_one_iff.mp (by simpa using congrArg List.length hsh)
    unfold Params at hq'
    obtain ⟨q', l, h4, h5, rfl⟩ := List.forall₂_cons_right_iff.mp hq'
    obtain rfl := List.forall₂_nil_right_iff.mp h5
    have ea : a'.shape = a.shape := by simpa using hsh
    exact ⟨⟨q', a', h4, ea.trans h2, hu.2.1 a' (by simp), hu.2.2 a' (by simp)⟩, fun _ => ⟨tr', order, g', hb, e⟩⟩
  choose next hnext using step
  have hi0 : Param.Is (⟨w, z, []⟩ : Param ℝ) d ⟨vecShape 2 1, _, fun _ _ => 0, fun _ => none⟩ :=
    ⟨rfl, hw, hz, fun _ _ => rfl, List.nodup_nil, fun _ _ _ h => by cases h⟩
  obtain ⟨q0, -, hq0⟩ := configureParameter_ok hi0 o p m
  have hrd := configured_ready (a := (⟨vecShape 2 1, fun c b => f0 ((vecShape 2 1).offset c b), fun _ _ => 0, fun _ => none⟩ : PArr ℝ)) o.kind
    (fun _ _ _ h => by cases h)
  have h0 : Inv q0 := ⟨_, hq0, rfl, rfl, hrd⟩
  let qs : Nat → {q : Param ℝ // Inv q} := fun n => Nat.rec ⟨_, h0⟩ (fun n q => next n q) n
  refine ⟨fun n => (qs n).1, _, fun n hn => by simp [PArr.configured, hn], rfl, rfl, fun n _ => ?_, .cons hq0 .nil, by simp [PArr.configured], by simpa using hrd, he,
    fun n _ as' h1 h2 h3 => hI n _ as' h1 h2 (by simpa [PArr.configured] using h3), fun n hn => ?_⟩
  · obtain ⟨a, h1, h2, -⟩ := (qs n).2
    exact h1.value.shape.trans h2
  · obtain ⟨tr, order, g', h1, h2⟩ := hnext n (qs n) hn
    exact ⟨tr, order, g', mm, h1, h2⟩

/-- Beside C80: for every `N` there is a run of `N` iterations with steps of `1/4` on this loss; it meets the hypotheses of all three theorems with
`K = 2`, so after `N` iterations the loss is at most the initial one over `N / 2`. -/
example (p : Profile) (d : Nat) (m0 : Nat → ℝ) (x : Tensor ℝ) (fx : Arr ℝ) (hx : x.Holds d (vecShape 2 1) fx) (f0 : Nat → ℝ) (N : Nat) (hN : N < U32) :
    ∃ (P : Nat → Nat → NodeOp ℝ) (g : Nat → Graph (Tensor ℝ)) (qs : Nat → List (Param ℝ)) (as : List (PArr ℝ)) (o : Opt ℝ) (w : Nat → Arr ℝ),
      o.kind = .sgd (1 / 4) ∧ as.map PArr.shape = [vecShape 2 1] ∧ PArr.vals as 0 = (fun c b => f0 ((vecShape 2 1).offset c b)) ∧
      Training p d m0 o (fun _ => 1) N P g (fun _ => 3) (fun _ _ => fx) (fun _ _ => 0) qs as ∧
      (∀ n, n < N → ConvexLoss ((g n).loss (P n) 3 (fun _ => fx) (fun _ => 0) as.length)) ∧
      Params d (qs N) (as.mapIdx fun k a => ⟨a.shape, w k, fun _ _ => 0, a.stat⟩) ∧
      sqDist [vecShape 2 1] w (fun _ => fx) * (N / 2) ≤ sqDist [vecShape 2 1] (PArr.vals as) (fun _ => fx) := by
  have hwf : ∀ s ∈ [vecShape 2 1], s.WF := fun s hs => by
    obtain rfl := List.mem_singleton.mp hs
    exact vecShape_wf (n := 2) (b := 1) rfl
  obtain ⟨qs, a, -, h1, h2, h3, h4⟩ := run_exists p d m0 (fun _ _ => 0) (fun _ _ _ _ => 0) N ⟨0, 1, 0, 0, .sgd (1 / 4)⟩ (by show 0 + N < U32; omega) (fun _ => 1) f0
    (P := fun _ q => sqP q.value x) (G := fun _ q => sqG p d (fun _ _ => 0) q.value x q.gradient) (root := fun _ => 3) (θ := fun _ _ => fx)
    fun n q a b1 b2 b3 => sq_iteration p d m0 (fun _ _ => 0) b1 b2 b3 hx
  have hL : ∀ n, n < N → ∀ W, (sqG p d (fun _ _ => 0) (qs n).value x (qs n).gradient).loss (sqP (qs n).value x) 3 (fun _ => fx) (fun _ => 0) 1 W =
      sqDist [vecShape 2 1] W (fun _ => fx) := fun n hn W => sq_loss p d _ (h3 n hn.le) hx.shape W
  have hss : [a].map PArr.shape = [vecShape 2 1] := by simp [h1]
  have hlip := LipschitzGradient_sqDist (fun _ => fx) hwf
  rw [← hss] at hlip hL
  have hstep : ∀ n, n < N → (0 : ℝ) < 1 * (1 / 4) ∧ (1 : ℝ) * (1 / 4) ≤ 1 / 2 := fun n _ => by norm_num
  obtain ⟨w, e0, e1, e2, -⟩ := C80_convex h4 rfl le_rfl le_rfl (L := fun W => sqDist ([a].map PArr.shape) W (fun _ => fx)) hL two_pos hlip (ConvexLoss_sqDist _) hstep
  refine ⟨_, _, _, [a], _, w N, rfl, hss, h2, h4, fun n hn => ?_, e1 N le_rfl, ?_⟩
  · refine (congrArg ConvexLoss (funext (hL n hn))).mpr ?_
    exact ConvexLoss_sqDist _
  · have := e2 (fun _ => fx)
    have hz : sqDist ([a].map PArr.shape) (fun _ => fx) (fun _ => fx) = 0 := by
      unfold sqDist sumSq dot
      simp
    rw [hz, Finset.sum_const, Finset.card_range, nsmul_eq_mul, hss] at this
    linarith

end Graph
end Verif
