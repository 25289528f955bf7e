import Verif.AdSpec
import Verif.RealSoft

/-!
# Sums over all positions of a tensor
-/

namespace Verif
open Res Shape

variable {s sx sy : Shape}

theorem sum_pos_congr (hs : s.WF) {F G : (Nat → Nat) → Nat → ℝ} (h : ∀ c b, s.Valid c b → F c b = G c b) :
    ∑ q ∈ s.pos, F q.1 q.2 = ∑ q ∈ s.pos, G q.1 q.2 :=
  Finset.sum_congr rfl fun q hq => h q.1 q.2 (hs.mem_pos.mp hq)

theorem dot_congr (hs : s.WF) {f f' g g' : Arr ℝ} (h : ∀ c b, s.Valid c b → f c b * g c b = f' c b * g' c b) : dot s f g = dot s f' g' :=
  sum_pos_congr (F := fun c b => f c b * g c b) (G := fun c b => f' c b * g' c b) hs h

theorem dot_add (f f' g : Arr ℝ) : dot s (fun c b => f c b + f' c b) g = dot s f g + dot s f' g := by
  unfold dot
  rw [← Finset.sum_add_distrib]
  exact Finset.sum_congr rfl fun q _ => by ring

theorem dot_add_right (f g g' : Arr ℝ) : dot s f (fun c b => g c b + g' c b) = dot s f g + dot s f g' := by
  unfold dot
  rw [← Finset.sum_add_distrib]
  exact Finset.sum_congr rfl fun q _ => by ring

theorem dot_zero (g : Arr ℝ) : dot s (fun _ _ => 0) g = 0 := by simp [dot]

theorem dot_one (g : Arr ℝ) : dot s (fun _ _ => 1) g = total s g := by simp [dot, total]

theorem dot_of_zero {f g : Arr ℝ} (h : ∀ c b, f c b = 0) : dot s f g = 0 := by simp [dot, h]

open Classical in
/-- Reading through a map of positions: its transposed adds up all elements that read the same one. -/
theorem sum_pos_map (hx : sx.WF) (hy : sy.WF) (r : (Nat → Nat) × Nat → (Nat → Nat) × Nat) (hr : ∀ c b, sy.Valid c b → sx.Valid (r (c, b)).1 (r (c, b)).2)
    (G : (Nat → Nat) → Nat → ℝ) (D : (Nat → Nat) → Nat → ℝ) :
    ∑ p ∈ sx.pos, (∑ q ∈ sy.pos with r q = p, G q.1 q.2) * D p.1 p.2 = ∑ q ∈ sy.pos, G q.1 q.2 * D (r q).1 (r q).2 := by
  rw [← Finset.sum_fiberwise_of_maps_to (s := sy.pos) (t := sx.pos) (g := r) (fun q hq => hx.mem_pos.mpr (hr q.1 q.2 (hy.mem_pos.mp hq)))]
  refine Finset.sum_congr rfl fun p _ => ?_
  rw [Finset.sum_mul]
  refine Finset.sum_congr rfl fun q hq => ?_
  rw [(Finset.mem_filter.mp hq).2]

open Classical in
/-- Positions that differ only in the batch. -/
theorem sum_pos_batch (hy : sy.WF) (hd : ∀ i, sx.get i = sy.get i) (G : (Nat → Nat) → Nat → ℝ) {c : Nat → Nat} {b : Nat}
    (hv : sx.Valid c b) :
    (∑ q ∈ sy.pos with (q.1, bb sx q.2) = (c, b), G q.1 q.2) = ∑ b' ∈ (Finset.range sy.batch).filter (fun b' => bb sx b' = b), G c b' := by
  refine Finset.sum_bij' (fun q _ => q.2) (fun b' _ => (c, b')) ?_ ?_ ?_ ?_ ?_
  · intro q hq
    obtain ⟨h1, h2⟩ := Finset.mem_filter.mp hq
    exact Finset.mem_filter.mpr ⟨Finset.mem_range.mpr (hy.mem_pos.mp h1).2, congrArg Prod.snd h2⟩
  · intro b' hb'
    obtain ⟨h1, h2⟩ := Finset.mem_filter.mp hb'
    exact Finset.mem_filter.mpr ⟨hy.mem_pos.mpr ⟨fun i => by rw [← hd]; exact hv.1 i, Finset.mem_range.mp h1⟩, by rw [h2]⟩
  · intro q hq
    obtain ⟨h1, h2⟩ := Finset.mem_filter.mp hq
    exact Prod.ext (congrArg Prod.fst h2).symm rfl
  · intro b' _; rfl
  · intro q hq
    obtain ⟨h1, h2⟩ := Finset.mem_filter.mp hq
    rw [show q.1 = c from congrArg Prod.fst h2]

/-- Batch broadcasting and its transposed. -/
theorem dot_batch (hx : sx.WF) (hy : sy.WF) (hd : ∀ i, sx.get i = sy.get i) (hb : sx.batch = 1 ∨ sx.batch = sy.batch) (G D : Arr ℝ) :
    dot sx (fun c b => ∑ b' ∈ (Finset.range sy.batch).filter (fun b' => bb sx b' = b), G c b') D = dot sy G (fun c b => D c (bb sx b)) := by
  classical
  have := sum_pos_map hx hy (fun q => (q.1, bb sx q.2)) (fun c b hv => valid_bb hx hd hb hv) G D
  unfold dot
  rw [← this]
  refine Finset.sum_congr rfl fun p hp => ?_
  rw [sum_pos_batch hy hd G (hx.mem_pos.mp hp)]

/-- Sums along an axis. -/
theorem sum_pos_axis {dim : Nat} (hx : sx.WF) (hs : s.Is (cset sx.get dim 1) sx.batch) (F : (Nat → Nat) → Nat → ℝ) :
    ∑ q ∈ sx.pos, F q.1 q.2 = ∑ q ∈ s.pos, ∑ j ∈ Finset.range (sx.get dim), F (cset q.1 dim j) q.2 := by
  rw [Finset.sum_sigma']
  refine Finset.sum_bij' (fun q _ => ⟨(cset q.1 dim 0, q.2), q.1 dim⟩) (fun q _ => (cset q.1.1 dim q.2, q.1.2)) ?_ ?_ ?_ ?_ ?_
  · intro q hq
    have hv := hx.mem_pos.mp hq
    exact Finset.mem_sigma.mpr ⟨hs.1.mem_pos.mpr (Valid.reduced hs hv), Finset.mem_range.mpr (hv.1 dim)⟩
  · intro q hq
    obtain ⟨h1, h2⟩ := Finset.mem_sigma.mp hq
    exact hx.mem_pos.mpr (Valid.cset (Valid.unreduced hs hx (hs.1.mem_pos.mp h1)) (Finset.mem_range.mp h2))
  · intro q _
    refine Prod.ext ?_ rfl
    show cset (cset q.1 dim 0) dim (q.1 dim) = q.1
    rw [cset_cset, cset_self]
  · intro q hq
    obtain ⟨h1, h2⟩ := Finset.mem_sigma.mp hq
    have h0 := Valid.reduced_dim hs (hs.1.mem_pos.mp h1)
    obtain ⟨⟨c, b⟩, j⟩ := q
    simp only [Sigma.mk.injEq, Prod.mk.injEq, heq_eq_eq, cset_at, and_true]
    rw [cset_cset]
    simp only at h0
    conv => lhs; rw [← h0]
    exact cset_self c dim
  · intro q _
    simp only [cset_cset, cset_self]

theorem dot_axis {dim : Nat} (hx : sx.WF) (hs : s.Is (cset sx.get dim 1) sx.batch) (G D : Arr ℝ) :
    dot sx (fun c b => G (cset c dim 0) b) D = dot s G (fun c b => ∑ j ∈ Finset.range (sx.get dim), D (cset c dim j) b) := by
  unfold dot
  refine (sum_pos_axis hx hs (fun c b => G (cset c dim 0) b * D c b)).trans ?_
  refine Finset.sum_congr rfl fun q hq => ?_
  rw [Finset.mul_sum]
  refine Finset.sum_congr rfl fun j _ => ?_
  rw [cset_cset]
  have h0 := Valid.reduced_dim hs (hs.1.mem_pos.mp hq)
  have : cset q.1 dim 0 = q.1 := by conv => lhs; rw [← h0]
                                    exact cset_self _ _
  rw [this]

end Verif
