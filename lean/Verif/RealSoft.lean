import Verif.RealCalc
import Verif.PropsFw2
import Verif.TFMore

/-!
# logsumexp and softmax over the reals
-/

set_option linter.unusedSectionVars false

namespace Verif
open Res Shape

section
variable {α : Type} [Flt α] {d : Nat} {x y : Tensor α} {s sx : Shape} {f F : Arr α}

theorem cset_cset (c : Nat → Nat) (dim i j : Nat) : cset (cset c dim i) dim j = cset c dim j := by
  funext k; unfold cset; split <;> rfl

theorem cset_self (c : Nat → Nat) (dim : Nat) : cset c dim (c dim) = c := by
  funext k; unfold cset; split
  · rename_i h; rw [h]
  · rfl

theorem cset_at (c : Nat → Nat) (dim j : Nat) : cset c dim j dim = j := by simp [cset]

/-- Coordinates of an element, with the coordinate of the reduced axis replaced. -/
theorem Valid.cset {c : Nat → Nat} {b dim j : Nat} (hv : sx.Valid c b) (hj : j < sx.get dim) : sx.Valid (cset c dim j) b := by
  refine ⟨fun i => ?_, hv.2⟩
  unfold Verif.cset; split
  · rename_i h; rw [h]; exact hj
  · exact hv.1 i

/-- Reducing an axis. -/
theorem Valid.reduced {c : Nat → Nat} {b dim : Nat} (hs : s.Is (Verif.cset sx.get dim 1) sx.batch) (hv : sx.Valid c b) : s.Valid (Verif.cset c dim 0) b := by
  refine ⟨fun i => ?_, by rw [hs.2.2]; exact hv.2⟩
  rw [hs.2.1]; unfold Verif.cset; split
  · omega
  · exact hv.1 i

/-- Every reduced position comes from an element. -/
theorem Valid.unreduced {c : Nat → Nat} {b dim : Nat} (hs : s.Is (Verif.cset sx.get dim 1) sx.batch) (hw : sx.WF) (hv : s.Valid c b) : sx.Valid c b := by
  refine ⟨fun i => ?_, by rw [← hs.2.2]; exact hv.2⟩
  have h := hv.1 i
  rw [hs.2.1] at h; unfold Verif.cset at h; split at h
  · have := hw.get_pos i; omega
  · exact h

theorem Valid.reduced_dim {c : Nat → Nat} {b dim : Nat} (hs : s.Is (Verif.cset sx.get dim 1) sx.batch) (hv : s.Valid c b) : c dim = 0 := by
  have h := hv.1 dim
  rw [hs.2.1, cset_at] at h; omega

/-- Broadcasting the result of a reduction back to the shape of the operand. -/
theorem TF.broadcast_back (hs : s.Is (cset sx.get dim 1) sx.batch) (hw : sx.WF) (hsm : sx.size ≤ 2 ^ 31) (hd : dim < 8) (hy : y.Holds d s F)
    (p : Profile) (m : Nat → α) : Yields (TF.broadcast p m y dim (sx.get dim)) d sx (fun c b => F (cset c dim 0) b) := by
  have hb : ShapeOps.broadcast .debug s dim (sx.get dim) = ok sx := by
    have hset : setC s.get dim (sx.get dim) = sx.get := by
      funext i; unfold setC; split
      · rename_i h; rw [h]
      · rename_i h; rw [hs.2.1]; unfold cset; rw [if_neg h]
    refine (broadcast_iff hs.1).mpr ⟨hd, by rw [hs.2.1, cset_at], (by have := hw.get_pos dim; omega), ?_, ⟨hw, fun i => by rw [hset], hs.2.2.symm⟩⟩
    have := hs.1.volN_update (m := sx.get dim) hd
    have e : s.get dim = 1 := by rw [hs.2.1, cset_at]
    rw [e, Nat.mul_one] at this
    have hv := hw.vol_lt
    rw [hw.vol] at hv
    have e2 : volN sx.get 8 = volN (setC s.get dim (sx.get dim)) 8 := by rw [hset]
    rw [e2] at hv
    rw [← this]; exact hv
  exact TF.call1 (op := .broadcast dim (sx.get dim)) hy hb hsm trivial p m
end

attribute [local instance] realFlt

theorem lseStep_real (a b : ℝ) : Scalar.lseStep (α := ℝ) a b = Real.log (Real.exp a + Real.exp b) := by
  show (if decide (b < a) = true then a + Real.log (1 + Real.exp (b - a)) else b + Real.log (1 + Real.exp (a - b))) = _
  have key : ∀ u v : ℝ, u + Real.log (1 + Real.exp (v - u)) = Real.log (Real.exp u + Real.exp v) := by
    intro u v
    have : Real.exp u + Real.exp v = Real.exp u * (1 + Real.exp (v - u)) := by
      rw [mul_add, ← Real.exp_add]; ring_nf
    rw [this, Real.log_mul (Real.exp_ne_zero _) (by positivity), Real.log_exp]
  split
  · exact key a b
  · rw [key b a, add_comm]

theorem sum_exp_pos (n : Nat) (t : Nat → ℝ) : 0 < ∑ j ∈ Finset.range (n + 1), Real.exp (t j) :=
  Finset.sum_pos (fun j _ => Real.exp_pos _) ⟨0, by simp⟩

/-- The pairwise loop computes `ln Σ e^t`. -/
theorem lse_fold (n : Nat) (t : Nat → ℝ) :
    foldN n (fun j a => Scalar.lseStep (α := ℝ) a (t (j + 1))) (t 0) = Real.log (∑ j ∈ Finset.range (n + 1), Real.exp (t j)) := by
  induction n with
  | zero => simp
  | succ n ih =>
    rw [foldN_succ, ih, lseStep_real, Real.exp_log (sum_exp_pos n t), ← Finset.sum_range_succ (fun j => Real.exp (t j))]

theorem sumTo_real (n : Nat) (t : Nat → ℝ) : sumTo n t = ∑ j ∈ Finset.range n, t j := by
  unfold sumTo
  induction n with
  | zero => rfl
  | succ n ih => rw [foldN_succ, ih, Finset.sum_range_succ]

theorem sumBlk_real (n : Nat) (t : Nat → ℝ) : sumBlk n t = ∑ j ∈ Finset.range n, t j := by
  rw [K.sumBlk_eq, blockSum_eq]; exact sumTo_real n t

variable {d : Nat} {x y : Tensor ℝ} {s sx : Shape} {f : Arr ℝ}

/-- `Σ_j e^{x_j}` along axis `dim`. -/
noncomputable def expSum (sx : Shape) (f : Arr ℝ) (dim : Nat) : Arr ℝ := fun c b => ∑ j ∈ Finset.range (sx.get dim), Real.exp (f (cset c dim j) b)

theorem expSum_pos (hw : sx.WF) (f : Arr ℝ) (dim : Nat) (c : Nat → Nat) (b : Nat) : 0 < expSum sx f dim c b := by
  unfold expSum
  obtain ⟨n, hn⟩ := Nat.exists_eq_add_of_le (hw.get_pos dim)
  rw [hn, Nat.add_comm]
  exact sum_exp_pos n _

theorem expSum_cset (f : Arr ℝ) (dim : Nat) (c : Nat → Nat) (b j : Nat) : expSum sx f dim (cset c dim j) b = expSum sx f dim c b := by
  unfold expSum; simp only [cset_cset]

theorem TF.logsumexp_real (hx : x.Holds d sx f) {dim : Nat} (hd : dim < 8) (hs : s.Is (cset sx.get dim 1) sx.batch) (p : Profile) (m : Nat → ℝ) :
    Yields (TF.logsumexp p m x dim) d s (fun c b => Real.log (expSum sx f dim c b)) := by
  obtain ⟨h1, h2, -, -⟩ := resize1 hx.wf hd hs
  refine Yields.congr (TF.call1 (op := .logsumexp dim) hx h1 (h2.trans hx.small) trivial p m) fun c b _ => ?_
  show _ = foldN (sx.get dim - 1) (fun j a => Scalar.lseStep (α := ℝ) a (f (cset c dim (j + 1)) b)) (f (cset c dim 0) b)
  rw [lse_fold (sx.get dim - 1) (fun j => f (cset c dim j) b)]
  have := hx.wf.get_pos dim
  unfold expSum
  rw [show sx.get dim - 1 + 1 = sx.get dim by omega]

theorem exists_reduced (hw : sx.WF) {dim : Nat} (hd : dim < 8) : ∃ s : Shape, s.Is (cset sx.get dim 1) sx.batch :=
  Shape.exists_is_cset hw hd (le_refl 1) (lt_of_le_of_lt (volN_le (g := sx.get) fun i _ => by
    unfold cset; split
    · exact hw.get_pos i
    · exact le_refl _) (by rw [← hw.vol]; exact hw.vol_lt))

theorem TF.lnSoftmax_real (hx : x.Holds d sx f) {dim : Nat} (hd : dim < 8) (p : Profile) (m : Mem ℝ) :
    Yields (TF.lnSoftmax p m x dim) d sx (fun c b => f c b - Real.log (expSum sx f dim c b)) := by
  obtain ⟨s, hs⟩ := exists_reduced hx.wf hd
  unfold TF.lnSoftmax
  refine (TF.logsumexp_real hx hd hs p (m 0)).bind fun a ha => ?_
  rw [hx.shape]
  refine (TF.broadcast_back hs hx.wf hx.small hd ha p (m 1)).bind fun b hb => ?_
  refine Yields.congr (TF.sub_same hx hb p (m 2)) fun c b _ => ?_
  rw [expSum_cset]

theorem TF.softmax_real (hx : x.Holds d sx f) {dim : Nat} (hd : dim < 8) (p : Profile) (m : Mem ℝ) :
    Yields (TF.softmax p m x dim) d sx (fun c b => Real.exp (f c b) / expSum sx f dim c b) := by
  unfold TF.softmax
  refine (TF.lnSoftmax_real hx hd p m).bind fun a ha => ?_
  refine Yields.congr (TF.un_yields .exp ha p (m 3)) fun c b _ => ?_
  show _ = Real.exp (f c b - Real.log (expSum sx f dim c b))
  rw [Real.exp_sub, Real.exp_log (expSum_pos hx.wf f dim c b)]

end Verif
