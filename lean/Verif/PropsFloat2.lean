import Verif.PropsFloat

/-!
# C68: accuracy of sigmoid, softplus, logsumexp and softmax in f32
-/

set_option linter.unusedSectionVars false
set_option linter.style.haveILetI false

namespace Verif
open Fmt Res Shape

section
variable [E : Ieee] {d : Nat} {x t : Tensor (Fl f32)} {s sx : Shape} {f : Arr (Fl f32)} {r : Arr ℝ} {ε ε' R : ℝ} {n : Nat}

theorem Fl.Is.val_eq {x : Fl f32} {v : ℝ} (h : x.Is v) : x.val = v := by
  cases x with
  | fin s u hu => exact le_antisymm h.2 h.1
  | inf s => exact h.elim
  | nan => exact h.elim

theorem with_val {res : Res (Tensor (Fl f32))} {g : Arr (Fl f32)} {P : (Nat → Nat) → Nat → ℝ → Prop} (h : Yields res d s g)
    (k : ∀ c b, s.Valid c b → ∃ w, (g c b).Is w ∧ P c b w) :
    ∃ (g : Arr (Fl f32)) (w : Arr ℝ), Yields res d s g ∧ ∀ c b, s.Valid c b → (g c b).Is (w c b) ∧ P c b (w c b) := by
  refine ⟨g, fun c b => (g c b).val, h, fun c b hv => ?_⟩
  obtain ⟨w, h1, h2⟩ := k c b hv
  show (g c b).Is (g c b).val ∧ P c b (g c b).val
  rw [h1.val_eq]
  exact ⟨h1, h2⟩

/-- C68: the elements of `sigmoid(x)` differ from `1 / (1 + e^-x)` by at most half the error of the library's `tanh` plus `2^-24 + 2^-148`, for
every finite input. -/
theorem C68_sigmoid (hA : E.libm32.Accurate ε') (hx : x.Holds d sx f) (hf : ∀ c b, sx.Valid c b → (f c b).Is (r c b)) (p : Profile) (m : Nat → Fl f32) :
    ∃ (g : Arr (Fl f32)) (w : Arr ℝ), Yields (TF.sigmoid p m x) d sx g ∧ ∀ c b, sx.Valid c b → (g c b).Is (w c b) ∧
      |w c b - 1 / (1 + Real.exp (-r c b))| ≤ ε' / 2 + 1 / 2 ^ 24 + 1 / 2 ^ 148 :=
  with_val (TF.un_yields .sigmoid hx p m) fun c b hv => sigmoid_acc (N := E.near32) (M := E.near64) (W := E.libm64) E.sane32 hA (hf c b hv)

/-- C68: the elements of `softplus(x)` differ from `ln(1 + e^x)` by at most twice the error of the library plus `(max(0, x) + 3) 2^-24 + 2^-149`. -/
theorem C68_softplus (hA : E.libm32.Accurate ε') (hx : x.Holds d sx f) (hf : ∀ c b, sx.Valid c b → (f c b).Is (r c b)) (p : Profile) (m : Nat → Fl f32) :
    ∃ (g : Arr (Fl f32)) (w : Arr ℝ), Yields (TF.softplus p m x) d sx g ∧ ∀ c b, sx.Valid c b → (g c b).Is (w c b) ∧
      |w c b - Real.log (1 + Real.exp (r c b))| ≤ 2 * ε' + (max 0 (r c b) + 3) / 2 ^ 24 + 1 / 2 ^ 149 :=
  with_val (TF.un_yields .softplus hx p m) fun c b hv => softplus_acc (N := E.near32) (M := E.near64) (W := E.libm64) E.sane32 hA (hf c b hv)

/-- The inputs of a reduction: numbers of magnitude at most `R`, and few enough of them. -/
structure Moderate (sx : Shape) (f : Arr (Fl f32)) (r : Arr ℝ) (dim : Nat) (ε R : ℝ) (n : Nat) : Prop where
  dim_lt : dim < 8
  len : sx.get dim = n + 1
  is : ∀ c b, sx.Valid c b → (f c b).Is (r c b)
  le : ∀ c b, sx.Valid c b → |r c b| ≤ R
  eps : 0 ≤ ε
  range : R + n + 1 ≤ 2 ^ 100
  few : n * stepErr ε (R + n + 1) ≤ 1

theorem lse_at (hA : E.libm64.Accurate ε) {dim : Nat} (H : Moderate sx f r dim ε R n) {c : Nat → Nat} {b : Nat} (hv : sx.Valid c b) :
    ∃ w, (Flt.down (foldN (sx.get dim - 1) (fun j a => Scalar.lseStep a (Flt.up (f (cset c dim (j + 1)) b))) (Flt.up (f (cset c dim 0) b))) : Fl f32).Is w ∧
      |w - Real.log (∑ j ∈ Finset.range (n + 1), Real.exp (r (cset c dim j) b))| ≤ lseErr ε R n := by
  rw [H.len, Nat.add_sub_cancel]
  exact lse32_acc (N := E.near32) (M := E.near64) (L := E.libm32) E.sane64 hA (fun j => f (cset c dim j) b) (fun j => r (cset c dim j) b) n H.range
    (fun j hj => H.is _ _ (Valid.cset hv (by rw [H.len]; omega))) (fun j hj => H.le _ _ (Valid.cset hv (by rw [H.len]; omega))) H.few H.eps

/-- C68: `logsumexp` differs from `ln Σ e^x` by at most `lseErr`. -/
theorem C68_logsumexp (hA : E.libm64.Accurate ε) (hx : x.Holds d sx f) {dim : Nat} (H : Moderate sx f r dim ε R n) (hs : s.Is (cset sx.get dim 1) sx.batch)
    (p : Profile) (m : Nat → Fl f32) :
    ∃ (g : Arr (Fl f32)) (w : Arr ℝ), Yields (TF.logsumexp p m x dim) d s g ∧ ∀ c b, s.Valid c b → (g c b).Is (w c b) ∧
      |w c b - Real.log (∑ j ∈ Finset.range (n + 1), Real.exp (r (cset c dim j) b))| ≤ lseErr ε R n :=
  with_val (lse_yields hx H.dim_lt hs p m) fun _ _ hv => lse_at hA H (Valid.unreduced hs hx.wf hv)

theorem Moderate.log_le {dim : Nat} (H : Moderate sx f r dim ε R n) {c : Nat → Nat} {b : Nat} (hv : sx.Valid c b) :
    |Real.log (∑ j ∈ Finset.range (n + 1), Real.exp (r (cset c dim j) b))| ≤ R + n :=
  lse_bounds n (fun j => r (cset c dim j) b) R fun j hj => H.le _ _ (Valid.cset hv (by rw [H.len]; omega))

theorem Moderate.err_le {dim : Nat} (H : Moderate sx f r dim ε R n) : lseErr ε R n ≤ 2 ^ 100 := by
  have h1 := H.few
  have h2 := H.range
  unfold lseErr
  have h3 : (R + n) / 2 ^ 24 ≤ 2 ^ 100 / 2 ^ 24 := div_le_div_of_nonneg_right (by linarith) (by positivity)
  have h4 : (2 : ℝ) * 1 + 2 ^ 100 / 2 ^ 24 + 1 / 2 ^ 150 ≤ 2 ^ 100 := by norm_num
  linarith

theorem lnSoftmax_at (hA : E.libm64.Accurate ε) {dim : Nat} (H : Moderate sx f r dim ε R n) {c : Nat → Nat} {b : Nat} (hv : sx.Valid c b) :
    ∃ z, (Fl.sub E.near32 (f c b)
      (Flt.down (foldN (sx.get dim - 1) (fun j a => Scalar.lseStep a (Flt.up (f (cset c dim (j + 1)) b))) (Flt.up (f (cset c dim 0) b))))).Is z ∧
      |z - (r c b - Real.log (∑ j ∈ Finset.range (n + 1), Real.exp (r (cset c dim j) b)))| ≤ lnErr ε R n := by
  obtain ⟨w, h1, h2⟩ := lse_at hA H hv
  exact lnSoftmax_acc (H.is c b hv) h1 (H.le c b hv) (H.log_le hv) h2 (by linarith [H.range]) H.err_le

/-- C68: `ln_softmax` differs from `x - ln Σ e^x` by at most `lnErr`. -/
theorem C68_ln_softmax (hA : E.libm64.Accurate ε) (hx : x.Holds d sx f) {dim : Nat} (H : Moderate sx f r dim ε R n) (p : Profile) (m : Mem (Fl f32)) :
    ∃ (g : Arr (Fl f32)) (w : Arr ℝ), Yields (TF.lnSoftmax p m x dim) d sx g ∧ ∀ c b, sx.Valid c b → (g c b).Is (w c b) ∧
      |w c b - (r c b - Real.log (∑ j ∈ Finset.range (n + 1), Real.exp (r (cset c dim j) b)))| ≤ lnErr ε R n :=
  with_val (lnSoftmax_yields hx H.dim_lt p m) fun _ _ hv => lnSoftmax_at hA H hv

/-- C68: the elements of `softmax` differ from `e^x / Σ e^x` by at most the error of the library's f32 `exp` plus `lnErr`; along the axis they sum to
1 up to `n + 1` times that. -/
theorem C68_softmax (hA : E.libm64.Accurate ε) (hA' : E.libm32.Accurate ε') (hx : x.Holds d sx f) {dim : Nat} (H : Moderate sx f r dim ε R n) (p : Profile)
    (m : Mem (Fl f32)) :
    ∃ (g : Arr (Fl f32)) (w : Arr ℝ), Yields (TF.softmax p m x dim) d sx g ∧
      (∀ c b, sx.Valid c b → (g c b).Is (w c b) ∧
        |w c b - Real.exp (r c b) / ∑ j ∈ Finset.range (n + 1), Real.exp (r (cset c dim j) b)| ≤ ε' + lnErr ε R n) ∧
      ∀ c b, sx.Valid c b → |∑ j ∈ Finset.range (n + 1), w (cset c dim j) b - 1| ≤ (n + 1) * (ε' + lnErr ε R n) := by
  have hf : ∀ c b, sx.Valid c b → (f c b).Finite := fun c b hv => Fl.In.finite (H.is c b hv)
  obtain ⟨g0, w0, h1, h2⟩ := C68_ln_softmax hA hx H p m
  obtain ⟨g1, h3, h4, -⟩ := C67_ln_softmax hx hf H.dim_lt p m
  obtain ⟨y, e1, hy1⟩ := h1
  obtain ⟨y', e2, hy2⟩ := h3
  obtain rfl : y = y' := by rw [e1] at e2; exact Res.ok.inj e2
  have hg : ∀ c b, sx.Valid c b → g0 c b = g1 c b := fun c b hv => (hy1.unique hy2).2.2 c b hv
  have key : ∀ c b, sx.Valid c b → ∃ w, (E.libm32.exp (g0 c b)).Is w ∧
      |w - Real.exp (r c b) / ∑ j ∈ Finset.range (n + 1), Real.exp (r (cset c dim j) b)| ≤ ε' + lnErr ε R n := by
    intro c b hv
    obtain ⟨h5, h6⟩ := h2 c b hv
    have h7 : w0 c b ≤ 0 := by
      have h8 := h4 c b hv
      rw [← hg c b hv] at h8
      cases e : g0 c b with
      | fin s u hu => rw [e] at h5 h8; rw [le_antisymm h5.1 h5.2]; exact h8
      | inf s => rw [e] at h5; exact h5.elim
      | nan => rw [e] at h5; exact h5.elim
    obtain ⟨w, h8, h9⟩ := hA'.exp _ _ h5 h7
    refine ⟨w, h8, ?_⟩
    have hp := sum_exp_pos n (fun j => r (cset c dim j) b)
    have hle : r c b - Real.log (∑ j ∈ Finset.range (n + 1), Real.exp (r (cset c dim j) b)) ≤ 0 := by
      have h10 : Real.exp (r c b) ≤ ∑ j ∈ Finset.range (n + 1), Real.exp (r (cset c dim j) b) := by
        have := Finset.single_le_sum (f := fun j => Real.exp (r (cset c dim j) b)) (s := Finset.range (n + 1)) (fun j _ => (Real.exp_pos _).le)
          (show c dim ∈ Finset.range (n + 1) by rw [Finset.mem_range, ← H.len]; exact hv.1 dim)
        rwa [cset_self] at this
      have h11 := Real.log_le_log (Real.exp_pos _) h10
      rw [Real.log_exp] at h11
      linarith
    have h10 := exp_lip h7 hle
    rw [Real.exp_sub, Real.exp_log hp] at h10
    have h11 := abs_sub_le w (Real.exp (w0 c b)) (Real.exp (r c b) / ∑ j ∈ Finset.range (n + 1), Real.exp (r (cset c dim j) b))
    linarith
  have key2 : ∀ c b, sx.Valid c b → (E.libm32.exp (g0 c b)).Is (E.libm32.exp (g0 c b)).val ∧
      |(E.libm32.exp (g0 c b)).val - Real.exp (r c b) / ∑ j ∈ Finset.range (n + 1), Real.exp (r (cset c dim j) b)| ≤ ε' + lnErr ε R n := by
    intro c b hv
    obtain ⟨w, h5, h6⟩ := key c b hv
    rw [h5.val_eq]
    exact ⟨h5, h6⟩
  refine ⟨fun c b => E.libm32.exp (g0 c b), fun c b => (E.libm32.exp (g0 c b)).val, ?_, key2, fun c b hv => ?_⟩
  · unfold TF.softmax
    rw [e1, ok_bind]
    exact TF.un_yields .exp hy1 p (m 3)
  · have hp := sum_exp_pos n (fun j => r (cset c dim j) b)
    have h5 : ∑ j ∈ Finset.range (n + 1), (E.libm32.exp (g0 (cset c dim j) b)).val - 1 =
        ∑ j ∈ Finset.range (n + 1), ((E.libm32.exp (g0 (cset c dim j) b)).val -
          Real.exp (r (cset c dim j) b) / ∑ i ∈ Finset.range (n + 1), Real.exp (r (cset c dim i) b)) := by
      rw [Finset.sum_sub_distrib, ← Finset.sum_div, div_self hp.ne']
    rw [h5]
    refine (Finset.abs_sum_le_sum_abs _ _).trans ?_
    have h6 := Finset.sum_le_card_nsmul (Finset.range (n + 1)) (fun j => |(E.libm32.exp (g0 (cset c dim j) b)).val -
          Real.exp (r (cset c dim j) b) / ∑ i ∈ Finset.range (n + 1), Real.exp (r (cset c dim i) b)|) (ε' + lnErr ε R n) (fun j hj => by
      have hj : j < sx.get dim := by rw [H.len]; exact Finset.mem_range.mp hj
      have h7 := (key2 (cset c dim j) b (Valid.cset hv hj)).2
      simpa only [cset_cset] using h7)
    rw [Finset.card_range, nsmul_eq_mul] at h6
    push_cast at h6
    exact h6

/-- C68: with a library whose `exp`, `ln` and `tanh` are within one unit in the last place of 1, the softmax of up to a thousand logits of magnitude at
most 100 is within `1 / 4000` of the exact one. -/
theorem C68_softmax_typical (hA : E.libm64.Accurate (1 / 2 ^ 52)) (hA' : E.libm32.Accurate (1 / 2 ^ 23)) (hx : x.Holds d sx f)
    (hf : ∀ c b, sx.Valid c b → (f c b).Is (r c b)) (hr : ∀ c b, sx.Valid c b → |r c b| ≤ 100) {dim : Nat} (hd : dim < 8) (hn : sx.get dim ≤ 1000)
    (p : Profile) (m : Mem (Fl f32)) :
    ∃ (g : Arr (Fl f32)) (w : Arr ℝ), Yields (TF.softmax p m x dim) d sx g ∧ ∀ c b, sx.Valid c b → (g c b).Is (w c b) ∧
      |w c b - Real.exp (r c b) / ∑ j ∈ Finset.range (sx.get dim), Real.exp (r (cset c dim j) b)| ≤ 1 / 4000 := by
  obtain ⟨n, hn'⟩ : ∃ n, sx.get dim = n + 1 := ⟨sx.get dim - 1, by have := hx.wf.get_pos dim; omega⟩
  have hN : (n : ℝ) ≤ 999 := by
    have : n ≤ 999 := by omega
    exact_mod_cast this
  have h0 : (0 : ℝ) ≤ n := Nat.cast_nonneg n
  have hstep : n * stepErr (1 / 2 ^ 52) (100 + n + 1) ≤ 999 * (2 * (1 / 2 ^ 52) + (3 * (100 + 999 + 1) + 4) / 2 ^ 53) := by
    unfold stepErr
    refine mul_le_mul hN ?_ (by positivity) (by norm_num)
    have : (3 * (100 + (n : ℝ) + 1) + 4) / 2 ^ 53 ≤ (3 * (100 + 999 + 1) + 4) / 2 ^ 53 := div_le_div_of_nonneg_right (by linarith) (by positivity)
    linarith
  have H : Moderate sx f r dim (1 / 2 ^ 52) 100 n :=
    ⟨hd, hn', hf, hr, by positivity, by norm_num; linarith, hstep.trans (by norm_num)⟩
  obtain ⟨g, w, h1, h2, -⟩ := C68_softmax hA hA' hx H p m
  refine ⟨g, w, h1, fun c b hv => ⟨(h2 c b hv).1, ?_⟩⟩
  rw [hn']
  refine (h2 c b hv).2.trans ?_
  unfold lnErr lseErr
  have h3 : (100 + (n : ℝ)) / 2 ^ 24 ≤ 1099 / 2 ^ 24 := div_le_div_of_nonneg_right (by linarith) (by positivity)
  have h4 : (2 * 100 + (n : ℝ)) / 2 ^ 24 ≤ 1199 / 2 ^ 24 := div_le_div_of_nonneg_right (by linarith) (by positivity)
  have h5 : (1 : ℝ) / 2 ^ 23 + (2 * (2 * (999 * (2 * (1 / 2 ^ 52) + (3 * (100 + 999 + 1) + 4) / 2 ^ 53)) + 1099 / 2 ^ 24 + 1 / 2 ^ 150) + 1199 / 2 ^ 24 + 1 / 2 ^ 150) ≤ 1 / 4000 := by
    norm_num
  linarith

end

/-- The premises of the theorems of C68 are met: with the arithmetic that rounds every exact result to nearest, by the logits `[1, 1/2]`, a tensor of
which exists. -/
example : ∃ E : Ieee, E.libm64.Accurate (1 / 2 ^ 52) ∧ E.libm32.Accurate (1 / 2 ^ 23) ∧
    ∃ (x : Tensor (Fl f32)) (f : Arr (Fl f32)) (r : Arr ℝ), x.Holds 0 (vecShape 2 1) f ∧ Moderate (vecShape 2 1) f r 0 (1 / 2 ^ 52) 1 1 ∧
      r (fun _ => 0) 0 = 1 ∧ r (cset (fun _ => 0) 0 1) 0 = 1 / 2 := by
  obtain ⟨E, h1, h2⟩ := Ieee.exists_ideal
  refine ⟨E, h2 ▸ ideal_acc64 _, h1 ▸ ideal_acc32 _, ?_⟩
  obtain ⟨x, f, hx, hf⟩ := pair_exists (.fin false 1 ⟨Fl.one_ok.1, Fl.one_ok.2, nofun, fun _ => by norm_num⟩)
    (.fin false (1 / 2) ⟨Fl.half_ok.1, Fl.half_ok.2, nofun, fun _ => by norm_num⟩)
  refine ⟨x, f, fun c _ => if c 0 = 0 then 1 else 1 / 2, hx, ⟨by omega, rfl, fun c b hv => ?_, fun c b _ => ?_, by positivity, by norm_num, ?_⟩,
    if_pos rfl, if_neg (by rw [cset_at]; omega)⟩
  · rw [hf c b hv]
    split
    · exact ⟨le_rfl, le_rfl⟩
    · exact ⟨le_rfl, le_rfl⟩
  · split <;> norm_num [abs_le]
  · unfold stepErr; norm_num

end Verif
