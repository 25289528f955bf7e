import Verif.PropsAd2

/-!
# C49: the gradients of the cross entropy functions
-/

set_option linter.unusedSectionVars false

namespace Verif
open Res Shape
attribute [local instance] realFlt

variable {p : Profile} {d : Nat} {m : Mem ℝ} {s s' : Shape} {f h G H : Arr ℝ}

/-- The softmax cross entropy of the logits `f` and the targets `h` along axis `dim`, at the fibre through `c`. -/
noncomputable def crossEntropy (s : Shape) (dim : Nat) (f h : Arr ℝ) : Arr ℝ := fun c b =>
  -∑ j ∈ Finset.range (s.get dim), h (cset c dim j) b *
    Real.log (Real.exp (f (cset c dim j) b) / ∑ k ∈ Finset.range (s.get dim), Real.exp (f (cset c dim k) b))

open Classical in
/-- `f` with `e` added at `(c, b)`. -/
noncomputable def bump (f : Arr ℝ) (c : Nat → Nat) (b : Nat) (e : ℝ) : Arr ℝ := fun c' b' => if c' = c ∧ b' = b then f c' b' + e else f c' b'

/-- C49: what `backward` of `softmax_cross_entropy` adds to the gradient of the logits at an element is the derivative of the cross entropy times the
gradient of the result exactly when the targets sum to 1 in the fibre of that element (or the gradient of the result is 0).  In particular it is
wrong at *every* element of *every* fibre whose targets do not sum to 1, for all logits. -/
theorem C49_softmax_cross_entropy {x t y gy gx : Tensor ℝ} {dim : Nat} (hx : x.Holds d s f) (ht : t.Holds d s h)
    (hr : s.resizeDim .debug dim 1 = ok s') (hgy : gy.Holds d s' G) (hgx : gx.Holds d s H) :
    ∃ (u : Tensor ℝ → Res (Tensor ℝ)) (rest : List (Nat × (Tensor ℝ → Res (Tensor ℝ)))) (A : Arr ℝ), (NodeOp.softmaxCrossEntropy dim).bw p d m [x, t] [y] [gy] [s, s] = (0, u) :: rest ∧
      Yields (u gx) d s (fun c b => H c b + A c b) ∧
      ∀ c b, s.Valid c b → ∃ D, HasDerivAt (fun e => crossEntropy s dim (bump f c b e) h c b) D 0 ∧
        (A c b = G (cset c dim 0) b * D ↔ ∑ j ∈ Finset.range (s.get dim), h (cset c dim j) b = 1 ∨ G (cset c dim 0) b = 0) := by
  have hw := hx.wf
  obtain ⟨h8, -, -, hs⟩ := hw.resizeDim_iff.mp hr
  have hs' : s'.Is (cset s.get dim 1) s.batch := hs
  refine ⟨_, _, fun c b => (Real.exp (lsm s f dim c b) - h c b) * G (cset c dim 0) b, rfl, ?_, fun c b hv => ?_⟩
  · refine (TF.lnSoftmax_real hx h8 p m).bind fun l hl => ?_
    rw [hx.shape]
    refine (TF.broadcast_back hs' hw hx.small h8 hgy p (m 3)).bind fun g hg => ?_
    refine (TF.un_yields .exp hl p (m 4)).bind fun e he => ?_
    refine (sub_b he ht (fun _ => rfl) (.inl rfl) ⟨hw, fun _ => rfl, by simp⟩ hx.small p (m 5)).bind fun z hz => ?_
    refine (TF.mul_same (fun u v => mul_comm u v) hz hg p (m 6)).bind fun w hw' => ?_
    refine (TF.addAssign_same hgx hw' p).congr fun c b hv => ?_
    rw [bb_valid hv]
    rfl
  · classical
    have hc : cset c dim (c dim) = c := by
      funext i; unfold cset; split <;> simp_all
    have hci : c dim < s.get dim := hv.1 dim
    have hcs : ∀ j, cset c dim j = c ↔ c dim = j := fun j => by
      constructor
      · intro e; rw [← e]; simp [cset]
      · rintro rfl; exact hc
    have hder : ∀ j, j < s.get dim → HasDerivAt (fun e => bump f c b e (cset c dim j) b) (if c dim = j then 1 else 0) 0 := fun j _ => by
      unfold bump
      simp only [hcs, and_true]
      by_cases hj : c dim = j
      · simp only [hj, if_true]
        exact (hasDerivAt_id (0 : ℝ)).const_add _
      · simp only [hj, if_false]
        exact hasDerivAt_const _ _
    have hb0 : bump f c b 0 = f := by
      funext c' b'; unfold bump; split <;> simp
    have hl : ∀ j, j < s.get dim → HasDerivAt (fun e => lsm s (bump f c b e) dim (cset c dim j) b)
        ((if c dim = j then 1 else 0) - Real.exp (lsm s f dim c b)) 0 := fun j hj => by
      have := lsm_hasDerivAt hw (V := fun e => bump f c b e) (δ := fun c' _ => if c dim = c' dim then 1 else 0) (dim := dim) (c := c) (b := b) hj
        (t0 := 0) (fun k hk => by simpa [cset] using hder k hk)
      refine this.congr_deriv ?_
      simp only [hb0]
      rw [Finset.sum_eq_single (c dim)]
      · simp [cset, hc]
      · intro k _ hk
        simp [cset, Ne.symm hk]
      · intro h; exact absurd (Finset.mem_range.mpr hci) h
    have hce : ∀ e, crossEntropy s dim (bump f c b e) h c b = -∑ j ∈ Finset.range (s.get dim), h (cset c dim j) b * lsm s (bump f c b e) dim (cset c dim j) b := by
      intro e
      unfold crossEntropy
      congr 1
      refine Finset.sum_congr rfl fun j _ => ?_
      congr 1
      unfold lsm
      rw [expSum_cset]
      exact log_softmax (expSum_pos hw _ _ _ _)
    refine ⟨(∑ j ∈ Finset.range (s.get dim), h (cset c dim j) b) * Real.exp (lsm s f dim c b) - h c b, ?_, ?_⟩
    · simp only [hce]
      refine (HasDerivAt.fun_sum fun j hj => ((hl j (Finset.mem_range.mp hj)).const_mul (h (cset c dim j) b))).fun_neg.congr_deriv ?_
      simp only [mul_sub, Finset.sum_sub_distrib]
      rw [← Finset.sum_mul]
      rw [Finset.sum_eq_single (c dim)]
      · simp [hc]
      · intro k _ hk
        simp [Ne.symm hk]
      · intro h; exact absurd (Finset.mem_range.mpr hci) h
    · have hpos : Real.exp (lsm s f dim c b) ≠ 0 := Real.exp_ne_zero _
      constructor
      · intro e
        have : (∑ j ∈ Finset.range (s.get dim), h (cset c dim j) b - 1) * (G (cset c dim 0) b * Real.exp (lsm s f dim c b)) = 0 := by linarith
        rcases mul_eq_zero.mp this with h1 | h1
        · left; linarith
        · right; rcases mul_eq_zero.mp h1 with h2 | h2
          · exact h2
          · exact absurd h2 hpos
      · rintro (e | e)
        · rw [e]; ring
        · dsimp only
          rw [e, mul_zero, zero_mul]

/-- C49: what `backward` of `sparse_softmax_cross_entropy` adds to the gradient of the logits is the derivative, for all ids (`LocalAD`: `forward`
computes the cross entropy of the softmax and the element number `ids[b]`, and `backward` adds the transposed of its derivative, applied to the
gradient of the result). -/
theorem C49_sparse {sx : Shape} {x : Nat → Arr ℝ} {ids : List Nat} {dim : Nat} (hx : sx.WF) (he : ShapeOps.pick .debug sx ids dim = ok s) (hsz : s.size ≤ 2 ^ 31)
    (hz : s.batch * sx.volume ≤ 2 ^ 31) :
    LocalAD d ((NodeOp.sparseSoftmaxCrossEntropy ids dim).oper p d m) (fun x _ c b =>
      -Real.log (Real.exp (x 0 (cset c dim (ids.getD (if ids.length = 1 then 0 else b) 0)) (bb sx b)) /
        ∑ j ∈ Finset.range (sx.get dim), Real.exp (x 0 (cset c dim j) (bb sx b)))) [sx] [s] x := local_ssce hx hsz he hz

/-- C49, the hypotheses are met: two logits and targets (1, 1), whose sum is not 1; the gradient of the result is 1. -/
example : ∃ x t gy gx : Tensor ℝ, x.Holds 0 (vecShape 2 1) (fun _ _ => (0 : ℝ)) ∧ t.Holds 0 (vecShape 2 1) (fun _ _ => 1) ∧
    (vecShape 2 1).resizeDim .debug 0 1 = ok (vecShape 1 1) ∧ gy.Holds 0 (vecShape 1 1) (fun _ _ => 1) ∧ gx.Holds 0 (vecShape 2 1) (fun _ _ => 0) := by
  have hwf : (vecShape 2 1).WF := vecShape_wf (n := 2) (b := 1) rfl
  have hwf1 : (vecShape 1 1).WF := vecShape_wf (n := 1) (b := 1) rfl
  obtain ⟨x, hx⟩ := exists_holds hwf (by decide) 0 fun _ => (0 : ℝ)
  obtain ⟨t, ht⟩ := exists_holds hwf (by decide) 0 fun _ => (1 : ℝ)
  obtain ⟨gy, hgy⟩ := exists_holds hwf1 (by decide) 0 fun _ => (1 : ℝ)
  exact ⟨x, t, gy, x, hx, ht, rfl, hgy, hx⟩

/-- The hypotheses of `C49_sparse` are met: logits of shape 3 with two batches, ids 2 and 0. -/
example : (vecShape 3 2).WF ∧ ShapeOps.pick .debug (vecShape 3 2) [2, 0] 0 = ok (vecShape 1 2) ∧ (vecShape 1 2).size ≤ 2 ^ 31 :=
  ⟨vecShape_wf (n := 3) (b := 2) rfl, rfl, by decide⟩

end Verif
