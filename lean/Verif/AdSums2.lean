import Verif.AdLocal2

/-!
# More sums over all positions of a tensor
-/

set_option linter.unusedSectionVars false

namespace Verif
open Res Shape

variable {s sx sy se : Shape}

theorem dot_comm (f g : Arr ℝ) : dot s f g = dot s g f := Finset.sum_congr rfl fun _ _ => mul_comm _ _

theorem Shape.Is.get {y : Shape} {f : Nat → Nat} {b : Nat} (h : y.Is f b) (i : Nat) : y.get i = f i := h.2.1 i

/-- Reduction of an axis with weights. -/
theorem dot_axis_w {dim : Nat} (hx : sx.WF) (hs : s.Is (cset sx.get dim 1) sx.batch) (w G D : Arr ℝ) :
    dot sx (fun c b => w c b * G (cset c dim 0) b) D = dot s G (fun c b => ∑ j ∈ Finset.range (sx.get dim), w (cset c dim j) b * D (cset c dim j) b) := by
  refine Eq.trans ?_ (dot_axis hx hs G (fun c b => w c b * D c b))
  exact dot_congr hx fun c b _ => by ring

/-- Reduction of an axis with weights, batches broadcast. -/
theorem dot_axis_batch {dim n : Nat} (hx : sx.WF) (he : se.Is sx.get n) (hb : sx.batch = 1 ∨ sx.batch = n)
    (hs : s.Is (cset sx.get dim 1) n) (w G D : Arr ℝ) :
    dot sx (fun c b => ∑ b' ∈ readers sx n b, w c b' * G (cset c dim 0) b') D =
      dot s G (fun c b => ∑ j ∈ Finset.range (sx.get dim), w (cset c dim j) b * D (cset c dim j) (bb sx b)) := by
  obtain ⟨he1, he2, rfl⟩ := he
  have hg : (fun i => se.get i) = fun i => sx.get i := funext he2
  have h1 := dot_batch hx he1 (fun i => (he2 i).symm) hb (fun c b' => w c b' * G (cset c dim 0) b') D
  unfold readers
  rw [h1, dot_axis_w (s := s) he1 (by rw [show se.get = sx.get from hg]; exact hs) w G, show se.get = sx.get from hg]

/-- Reading through a map of positions that reads no element twice. -/
theorem dot_inj (hx : sx.WF) (hs : s.WF) (r e : (Nat → Nat) × Nat → (Nat → Nat) × Nat) (I : (Nat → Nat) × Nat → Prop) [DecidablePred I]
    (hr : ∀ q, s.Valid q.1 q.2 → sx.Valid (r q).1 (r q).2 ∧ I (r q) ∧ e (r q) = q)
    (he : ∀ q, sx.Valid q.1 q.2 → I q → s.Valid (e q).1 (e q).2 ∧ r (e q) = q) (G D : Arr ℝ) :
    dot sx (fun c b => if I (c, b) then G (e (c, b)).1 (e (c, b)).2 else 0) D = dot s G (fun c b => D (r (c, b)).1 (r (c, b)).2) := by
  unfold dot
  simp only [Prod.mk.eta, ite_mul, zero_mul]
  rw [← Finset.sum_filter]
  refine Finset.sum_bij' (fun q _ => e q) (fun q _ => r q) ?_ ?_ ?_ ?_ ?_
  · intro q hq
    obtain ⟨h1, h2⟩ := Finset.mem_filter.mp hq
    exact hs.mem_pos.mpr (he q (hx.mem_pos.mp h1) h2).1
  · intro q hq
    obtain ⟨h1, h2, -⟩ := hr q (hs.mem_pos.mp hq)
    exact Finset.mem_filter.mpr ⟨hx.mem_pos.mpr h1, h2⟩
  · intro q hq
    obtain ⟨h1, h2⟩ := Finset.mem_filter.mp hq
    exact (he q (hx.mem_pos.mp h1) h2).2
  · intro q hq
    exact (hr q (hs.mem_pos.mp hq)).2.2
  · intro q hq
    obtain ⟨h1, h2⟩ := Finset.mem_filter.mp hq
    rw [(he q (hx.mem_pos.mp h1) h2).2]

/-- All positions of a matrix. -/
theorem sum_pos_mat {m n B : Nat} (hs : s.Is (matDims m n) B) (F : (Nat → Nat) → Nat → ℝ) :
    ∑ q ∈ s.pos, F q.1 q.2 = ∑ b ∈ Finset.range B, ∑ i ∈ Finset.range m, ∑ j ∈ Finset.range n, F (mat i j) b := by
  have hd : ∀ i, s.get i = matDims m n i := hs.2.1
  have hB := hs.2.2
  rw [Finset.sum_congr rfl fun b (_ : b ∈ Finset.range B) => (Finset.sum_product' (Finset.range m) (Finset.range n) fun i j => F (mat i j) b).symm]
  rw [← Finset.sum_product' (Finset.range B) (Finset.range m ×ˢ Finset.range n) fun b p => F (mat p.1 p.2) b]
  have hmat : ∀ c b, s.Valid c b → mat (c 0) (c 1) = c := by
    intro c b hv
    funext i
    unfold mat
    split
    · rename_i h; rw [h]
    · split
      · rename_i h; rw [h]
      · have := hv.1 i
        rw [hd, matDims, if_neg ‹_›, if_neg ‹_›] at this
        omega
  refine Finset.sum_bij' (fun q _ => (q.2, q.1 0, q.1 1)) (fun q _ => (mat q.2.1 q.2.2, q.1)) ?_ ?_ ?_ ?_ ?_
  · intro q hq
    have hv := hs.1.mem_pos.mp hq
    have h0 := hv.1 0
    have h1 := hv.1 1
    rw [hd] at h0 h1
    simp only [matDims] at h0 h1
    simp only [Finset.mem_product, Finset.mem_range]
    exact ⟨by rw [← hB]; exact hv.2, by simpa using h0, by simpa using h1⟩
  · intro q hq
    simp only [Finset.mem_product, Finset.mem_range] at hq
    refine hs.1.mem_pos.mpr ⟨fun i => ?_, by rw [hB]; exact hq.1⟩
    rw [hd]
    show mat q.2.1 q.2.2 i < matDims m n i
    unfold mat matDims
    split
    · exact hq.2.1
    · split
      · exact hq.2.2
      · exact Nat.one_pos
  · intro q hq
    have hv := hs.1.mem_pos.mp hq
    exact Prod.ext (hmat _ _ hv) rfl
  · intro q hq; rfl
  · intro q hq
    have hv := hs.1.mem_pos.mp hq
    dsimp only
    rw [hmat _ _ hv]

/-- Indices below a sum of lengths. -/
theorem sum_range_offsets (n : Nat → Nat) (k : Nat) (F : Nat → ℝ) :
    ∑ j ∈ Finset.range (sumN n k), F j = ∑ i ∈ Finset.range k, ∑ j ∈ Finset.range (n i), F (sumN n i + j) := by
  induction k with
  | zero => simp [sumN]
  | succ k ih => rw [sumN, Finset.sum_range_add, ih, Finset.sum_range_succ]

/-- Positions batch by batch. -/
theorem sum_pos_batches {s1 : Shape} (hx : sx.WF) (hs : s1.Is sx.get 1) (F : (Nat → Nat) → Nat → ℝ) :
    ∑ q ∈ sx.pos, F q.1 q.2 = ∑ q ∈ s1.pos, ∑ b ∈ Finset.range sx.batch, F q.1 b := by
  rw [Finset.sum_sigma']
  refine Finset.sum_bij' (fun q _ => ⟨(q.1, 0), q.2⟩) (fun q _ => (q.1.1, q.2)) ?_ ?_ ?_ ?_ ?_
  · intro q hq
    have hv := hx.mem_pos.mp hq
    exact Finset.mem_sigma.mpr ⟨hs.1.mem_pos.mpr ⟨fun i => by rw [hs.2.1]; exact hv.1 i, by rw [hs.2.2]; exact Nat.one_pos⟩, Finset.mem_range.mpr hv.2⟩
  · intro q hq
    obtain ⟨h1, h2⟩ := Finset.mem_sigma.mp hq
    have hv := hs.1.mem_pos.mp h1
    exact hx.mem_pos.mpr ⟨fun i => by have := hv.1 i; rw [hs.2.1] at this; exact this, Finset.mem_range.mp h2⟩
  · intro q hq; rfl
  · intro q hq
    obtain ⟨h1, h2⟩ := Finset.mem_sigma.mp hq
    have hv := hs.1.mem_pos.mp h1
    have : q.1.2 = 0 := by have := hv.2; rw [hs.2.2] at this; omega
    obtain ⟨⟨c, b⟩, j⟩ := q
    dsimp only at this
    subst this
    rfl
  · intro q hq; rfl

end Verif
