import Verif.RealSoft
import Verif.PropsSerde
import Verif.PropsBw

/-!
# C48: the numerically careful forms compute the textbook functions (over the reals)

`expSum sx f dim c b` is `Σ_j e^(f …)` over the elements along axis `dim` through position `(c, b)`.
-/

namespace Verif
open Res Shape
attribute [local instance] realFlt

variable {d : Nat} {x : Tensor ℝ} {s : Shape} {f : Arr ℝ}

/-- C48: `softplus` is `ln (1 + e^x)`. -/
theorem C48_softplus (hx : x.Holds d s f) (p : Profile) (m : Nat → ℝ) :
    Yields (TF.softplus p m x) d s (fun c b => Real.log (1 + Real.exp (f c b))) :=
  (TF.un_yields .softplus hx p m).congr fun _ _ _ => (softplus_eq _).symm

/-- C48: `sigmoid` is `1 / (1 + e^-x)`. -/
theorem C48_sigmoid (hx : x.Holds d s f) (p : Profile) (m : Nat → ℝ) :
    Yields (TF.sigmoid p m x) d s (fun c b => 1 / (1 + Real.exp (-f c b))) :=
  (TF.un_yields .sigmoid hx p m).congr fun _ _ _ => (sigmoid_eq _).symm

/-- C48: the pairwise loop of `logsumexp` is `ln Σ e^x` along the axis, whatever its length. -/
theorem C48_logsumexp (hx : x.Holds d s f) {dim : Nat} (hd : dim < 8) (p : Profile) (m : Nat → ℝ) :
    ∃ s', s'.Is (cset s.get dim 1) s.batch ∧
      Yields (TF.logsumexp p m x dim) d s' (fun c b => Real.log (∑ j ∈ Finset.range (s.get dim), Real.exp (f (cset c dim j) b))) := by
  obtain ⟨s', hs⟩ := exists_reduced hx.wf hd
  exact ⟨s', hs, TF.logsumexp_real hx hd hs p m⟩

/-- C48: `ln_softmax`. -/
theorem C48_ln_softmax (hx : x.Holds d s f) {dim : Nat} (hd : dim < 8) (p : Profile) (m : Mem ℝ) :
    Yields (TF.lnSoftmax p m x dim) d s
      (fun c b => Real.log (Real.exp (f c b) / ∑ j ∈ Finset.range (s.get dim), Real.exp (f (cset c dim j) b))) := by
  refine (TF.lnSoftmax_real hx hd p m).congr fun c b _ => ?_
  show Real.log (Real.exp (f c b) / expSum s f dim c b) = _
  rw [Real.log_div (Real.exp_ne_zero _) (expSum_pos hx.wf f dim c b).ne', Real.log_exp]

/-- C48: `softmax` is `e^x / Σ e^x` along the axis; its elements are positive and sum to 1 along the axis. -/
theorem C48_softmax (hx : x.Holds d s f) {dim : Nat} (hd : dim < 8) (p : Profile) (m : Mem ℝ) :
    ∃ F : Arr ℝ, Yields (TF.softmax p m x dim) d s F ∧
      (∀ c b, F c b = Real.exp (f c b) / ∑ j ∈ Finset.range (s.get dim), Real.exp (f (cset c dim j) b)) ∧
      (∀ c b, 0 < F c b) ∧ ∀ c b, ∑ j ∈ Finset.range (s.get dim), F (cset c dim j) b = 1 := by
  refine ⟨_, TF.softmax_real hx hd p m, fun _ _ => rfl, fun c b => div_pos (Real.exp_pos _) (expSum_pos hx.wf f dim c b), fun c b => ?_⟩
  simp only [expSum_cset]
  rw [← Finset.sum_div]
  exact div_self (expSum_pos hx.wf f dim c b).ne'

/-- A vector of two elements: its softmax is a distribution on two points. -/
example : ∃ (x : Tensor ℝ) (F : Arr ℝ), Yields (TF.softmax .debug (fun _ _ => 7) x 0) 0 (vecShape 2 1) F ∧ 0 < F (mat 0 0) 0 ∧
    F (mat 0 0) 0 + F (mat 1 0) 0 = 1 ∧ F (mat 1 0) 0 = F (mat 0 0) 0 * Real.exp 1 := by
  obtain ⟨x, hx⟩ := exists_holds (α := ℝ) (vecShape_wf (n := 2) (b := 1) rfl) (by decide) 0 (fun i => (i : ℝ))
  obtain ⟨F, h1, h2, h3, h4⟩ := C48_softmax hx (dim := 0) (by decide) .debug (fun _ _ => 7)
  have e0 : ∀ j, cset czero 0 j = mat j 0 := fun j => by funext k; simp only [cset, mat, czero]; split <;> simp
  refine ⟨x, F, h1, h3 _ _, ?_, ?_⟩
  · have := h4 czero 0
    rw [show (vecShape 2 1).get 0 = 2 from rfl, Finset.sum_range_succ, Finset.sum_range_one, e0, e0] at this
    exact this
  · rw [h2, h2]
    have : ∀ j, cset (mat 1 0) 0 j = cset (mat 0 0) 0 j := fun j => by funext k; simp only [cset, mat]; split <;> simp_all
    simp only [this]
    rw [show (vecShape 2 1).offset (mat 1 0) 0 = 1 from rfl, show (vecShape 2 1).offset (mat 0 0) 0 = 0 from rfl]
    simp only [Nat.cast_one, Nat.cast_zero, Real.exp_zero]
    ring

end Verif
