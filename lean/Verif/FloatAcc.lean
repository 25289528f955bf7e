import Verif.FloatErr
import Verif.FloatSpec
import Verif.RealSoft

/-!
# Accuracy of sigmoid, softplus, logsumexp and softmax in f32
-/

set_option linter.unusedSectionVars false
set_option linter.style.haveILetI false

namespace Verif
open Fmt

theorem Fl.Is.unique {F : Fmt} {x : Fl F} {v w : ℝ} (h1 : x.Is v) (h2 : x.Is w) : v = w := by
  cases x with
  | fin s u hu => exact (le_antisymm h1.1 h1.2).trans (le_antisymm h2.1 h2.2).symm
  | inf s => exact h1.elim
  | nan => exact h1.elim

theorem Fl.Is.in {F : Fmt} {x : Fl F} {v a b : ℝ} (h1 : x.Is v) (h2 : x.In a b) : a ≤ v ∧ v ≤ b := by
  cases x with
  | fin s u hu => rw [le_antisymm h1.1 h1.2]; exact h2
  | inf s => exact h1.elim
  | nan => exact h1.elim

theorem Fl.Is.has {F : Fmt} {x : Fl F} {v : ℝ} (h1 : x.Is v) : F.Has v := by
  obtain ⟨w, hw, h2, h3, h4⟩ := Fl.In.exists_in h1
  rwa [le_antisymm h3 h4]

section
variable {F : Fmt} {N : Near F} {L : Libm F}

/-- `ln(1 + exp(t))`, for `t ≤ 0`. -/
theorem log1p_acc (hL : L.Sane) {ε η : ℝ} (hA : L.Accurate ε) (hη : ∀ x, 1 ≤ x → x ≤ 2 → |x - N.near x| ≤ η) {o t : Fl F} {d : ℝ} (ho : o.Is 1) (ht : t.Is d) (hd : d ≤ 0)
    (h1 : F.Has 1) (h2 : F.Has 2) :
    ∃ l, (L.ln (Fl.add N o (L.exp t))).Is l ∧ 0 ≤ l ∧ l ≤ 1 ∧ |l - Real.log (1 + Real.exp d)| ≤ 2 * ε + η := by
  have hn : t.NonPos := Fl.In.nonPos ht hd
  obtain ⟨E, hE, hE'⟩ := hA.exp t d ht hd
  obtain ⟨hE0, hE1⟩ := hE.in (hL.exp t hn)
  obtain ⟨z, e⟩ := Fl.add_eq (N := N) ho hE
  have hr := Fl.round_in (N := N) (z := z) (v := 1 + E) h1 h2 (by linarith) (by linarith)
  obtain ⟨s, hsH, hs, hs1, hs2⟩ := hr.exists_in
  have hsv : s = N.near (1 + E) := by
    refine Fl.Is.unique hs (Fl.round_eq z _ ?_)
    have h3 := N.le_near h1.1 (show 1 ≤ 1 + E by linarith)
    have h4 := N.near_le h2.1 (show 1 + E ≤ 2 by linarith)
    have h5 := (abs_lt.mp h2.2).2
    exact abs_lt.mpr ⟨by linarith, by linarith⟩
  rw [e]
  obtain ⟨l, hl, hl'⟩ := hA.ln _ s hs hs1 hs2
  obtain ⟨hl0, hl1⟩ := hl.in (hL.ln _ hr)
  refine ⟨l, hl, hl0, hl1, ?_⟩
  have h3 := hη (1 + E) (by linarith) (by linarith)
  rw [← hsv] at h3
  have h4 := log_lip hs1 (show 1 ≤ 1 + Real.exp d by linarith [Real.exp_pos d])
  have h5 : |s - (1 + Real.exp d)| ≤ |1 + E - s| + |E - Real.exp d| := by
    have := abs_add_le (s - (1 + E)) (E - Real.exp d)
    rw [abs_sub_comm s] at this
    have e : s - (1 + Real.exp d) = s - (1 + E) + (E - Real.exp d) := by ring
    rw [e]; exact this
  have h6 := abs_add_le (l - Real.log s) (Real.log s - Real.log (1 + Real.exp d))
  rw [show l - Real.log s + (Real.log s - Real.log (1 + Real.exp d)) = l - Real.log (1 + Real.exp d) by ring] at h6
  linarith

end

section
variable {N : Near f32} {M : Near f64} {L : Libm f32} {W : Libm f64}

theorem has64_small {x : ℝ} (h : |x| ≤ 2 ^ 127) : |x| < f64.top := by
  rw [top64]
  exact lt_of_le_of_lt h (pow_lt_pow_right₀ (by norm_num) (by norm_num))

theorem tiny_le : (3 : ℝ) / 2 ^ 1075 ≤ 1 / 2 ^ 53 := by
  rw [div_le_div_iff₀ (by positivity) (by positivity), show (1075 : ℕ) = 53 + 1022 by norm_num, pow_add, one_mul, mul_comm]
  have : (3 : ℝ) ≤ 2 ^ 1022 := by
    calc (3 : ℝ) ≤ 2 ^ 2 := by norm_num
      _ ≤ _ := pow_le_pow_right₀ (by norm_num) (by norm_num)
  exact mul_le_mul_of_nonneg_left this (by positivity)

/-- One step of logsumexp in f64. -/
theorem lseStep_acc (hW : W.Sane) {ε R : ℝ} (hA : W.Accurate ε) (hR : R ≤ 2 ^ 100) {t a : Fl f64} {u v : ℝ} (ht : t.Is u) (ha : a.Is v)
    (hu : |u| ≤ R) (hv : |v| ≤ R) :
    letI := floatFlt N M L W
    ∃ w, Fl.Is (F := f64) (Scalar.lseStep (α := Fl f32) t a) w ∧ |w - Real.log (Real.exp u + Real.exp v)| ≤ stepErr ε R := by
  letI := floatFlt N M L W
  have key : ∀ {p q : Fl f64} {r s : ℝ}, p.Is r → q.Is s → s ≤ r → |r| ≤ R → |s| ≤ R →
      ∃ w, (Fl.add M p (W.ln (Fl.add M (Fl.lit 1 Fl.one_ok64 zero_le_one) (W.exp (Fl.sub M q p))))).Is w ∧ |w - Real.log (Real.exp r + Real.exp s)| ≤ stepErr ε R := by
    intro p q r s hp hq hsr hr hs
    obtain ⟨hr1, hr2⟩ := abs_le.mp hr
    obtain ⟨hs1, hs2⟩ := abs_le.mp hs
    have hbig : (2 : ℝ) * 2 ^ 100 ≤ 2 ^ 127 := by norm_num
    have hbig1 : (2 : ℝ) ^ 100 + 1 ≤ 2 ^ 127 := by norm_num
    obtain ⟨z, e⟩ := Fl.sub_eq (N := M) hq hp
    have hd : |s - r| ≤ 2 * R := abs_le.mpr ⟨by linarith, by linarith⟩
    have hd1 : M.near (s - r) ≤ 0 := M.near_le has0.up.1 (by linarith)
    have hP : f64.Has (-2 ^ 127) := by
      refine ⟨grid_nat (-1) 127 (by norm_num) (by norm_num [f64]) (by norm_num [f64]) (by norm_num [f64]), has64_small ?_⟩
      rw [abs_neg, abs_of_pos (by positivity)]
    have hd2 : -2 ^ 127 ≤ M.near (s - r) := M.le_near hP.1 (by linarith)
    have hdr : (Fl.round M z (s - r)).Is (M.near (s - r)) :=
      Fl.round_eq z _ (has64_small (abs_le.mpr ⟨hd2, hd1.trans (by positivity)⟩))
    have he := M.err64 (x := s - r) (lt_of_le_of_lt (show |s - r| ≤ 2 ^ 127 by linarith) (pow_lt_pow_right₀ (by norm_num) (by norm_num)))
    rw [e]
    generalize M.near (s - r) = d at *
    obtain ⟨l, hl, hl0, hl1, hle⟩ := log1p_acc (N := M) hW (ε := ε) (η := 2 / 2 ^ 53 + 1 / 2 ^ 1075) hA (fun x hx1 hx2 => by
      have hx : |x| ≤ 2 := abs_le.mpr ⟨by linarith, hx2⟩
      have := M.err64 (x := x) (lt_of_le_of_lt hx (by
        calc (2 : ℝ) = 2 ^ 1 := by norm_num
          _ < _ := pow_lt_pow_right₀ (by norm_num) (by norm_num)))
      have h := div_le_div_of_nonneg_right hx (show (0 : ℝ) ≤ 2 ^ 53 by positivity)
      linarith) (o := Fl.lit 1 Fl.one_ok64 zero_le_one) ⟨le_rfl, le_rfl⟩ hdr hd1 has1.up has2.up
    obtain ⟨z', e'⟩ := Fl.add_eq (N := M) hp hl
    rw [e']
    have hrl : |r + l| ≤ R + 1 := abs_le.mpr ⟨by linarith, by linarith⟩
    have he' := M.err64 (x := r + l) (lt_of_le_of_lt (show |r + l| ≤ 2 ^ 127 by linarith) (pow_lt_pow_right₀ (by norm_num) (by norm_num)))
    have hw1 : M.near (r + l) ≤ 2 ^ 127 := by
      have := M.near_le hP.neg.1 (show r + l ≤ - -2 ^ 127 by linarith [(abs_le.mp hrl).2])
      linarith
    have hw2 : -2 ^ 127 ≤ M.near (r + l) := M.le_near hP.1 (by linarith [(abs_le.mp hrl).1])
    refine ⟨M.near (r + l), Fl.round_eq z' _ (has64_small (abs_le.mpr ⟨hw2, hw1⟩)), ?_⟩
    generalize M.near (r + l) = w at *
    have h1 : Real.log (Real.exp r + Real.exp s) = r + Real.log (1 + Real.exp (s - r)) := by
      have : Real.exp r + Real.exp s = Real.exp r * (1 + Real.exp (s - r)) := by rw [mul_add, ← Real.exp_add]; ring_nf
      rw [this, Real.log_mul (Real.exp_ne_zero _) (by positivity), Real.log_exp]
    have h2 : |Real.log (1 + Real.exp d) - Real.log (1 + Real.exp (s - r))| ≤ |s - r - d| := by
      refine (log_lip (by linarith [Real.exp_pos d]) (by linarith [Real.exp_pos (s - r)])).trans ?_
      rw [add_sub_add_left_eq_sub, abs_sub_comm (s - r)]
      exact exp_lip hd1 (by linarith)
    have h3 : w - Real.log (Real.exp r + Real.exp s) =
        -(r + l - w) + (l - Real.log (1 + Real.exp d)) + (Real.log (1 + Real.exp d) - Real.log (1 + Real.exp (s - r))) := by rw [h1]; ring
    have h4 := abs_add_three (-(r + l - w)) (l - Real.log (1 + Real.exp d)) (Real.log (1 + Real.exp d) - Real.log (1 + Real.exp (s - r)))
    rw [h3]
    rw [abs_neg] at h4
    have h5 := div_le_div_of_nonneg_right hrl (show (0 : ℝ) ≤ 2 ^ 53 by positivity)
    have h6 := div_le_div_of_nonneg_right hd (show (0 : ℝ) ≤ 2 ^ 53 by positivity)
    have h7 := tiny_le
    unfold stepErr
    have e1 : (3 * R + 4) / 2 ^ 53 = (R + 1) / 2 ^ 53 + 2 * R / 2 ^ 53 + 2 / 2 ^ 53 + 1 / 2 ^ 53 := by ring
    have e2 : (3 : ℝ) / 2 ^ 1075 = 1 / 2 ^ 1075 + 1 / 2 ^ 1075 + 1 / 2 ^ 1075 := by ring
    rw [e1]
    rw [e2] at h7
    generalize (1 : ℝ) / 2 ^ 1075 = T at *
    linarith
  show ∃ w, Fl.Is (F := f64) (if Fl.gt t a then Fl.add M t (W.ln (Fl.add M (Fl.lit 1 Fl.one_ok64 zero_le_one) (W.exp (Fl.sub M a t))))
    else Fl.add M a (W.ln (Fl.add M (Fl.lit 1 Fl.one_ok64 zero_le_one) (W.exp (Fl.sub M t a))))) w ∧ _
  by_cases hc : v < u
  · rw [if_pos ((Fl.gt_in ht ha).mpr hc)]
    exact key ht ha hc.le hu hv
  · rw [if_neg (by rw [Fl.gt_in ht ha]; exact hc)]
    obtain ⟨w, h1, h2⟩ := key ha ht (not_lt.mp hc) hv hu
    exact ⟨w, h1, by rw [add_comm]; exact h2⟩

/-- `ln Σ e^v` lies between the inputs and their maximum plus the number of further inputs. -/
theorem lse_bounds (n : Nat) (v : Nat → ℝ) (R : ℝ) (hv : ∀ j, j ≤ n → |v j| ≤ R) :
    |Real.log (∑ j ∈ Finset.range (n + 1), Real.exp (v j))| ≤ R + n := by
  induction n with
  | zero => simpa using hv 0 le_rfl
  | succ n ih =>
    have h := ih fun j hj => hv j (by omega)
    have hR := (abs_nonneg _).trans (hv 0 (by omega))
    have hp := sum_exp_pos n v
    have e : Real.log (∑ j ∈ Finset.range (n + 1), Real.exp (v j)) = Real.log (∑ j ∈ Finset.range (n + 1), Real.exp (v j)) := rfl
    rw [Finset.sum_range_succ]
    generalize hS : ∑ j ∈ Finset.range (n + 1), Real.exp (v j) = S at *
    obtain ⟨h1, h2⟩ := abs_le.mp h
    obtain ⟨h3, h4⟩ := abs_le.mp (hv (n + 1) le_rfl)
    push_cast
    have hE := Real.exp_pos (v (n + 1))
    refine abs_le.mpr ⟨?_, ?_⟩
    · have h5 := Real.log_le_log hE (show Real.exp (v (n + 1)) ≤ S + Real.exp (v (n + 1)) by linarith)
      rw [Real.log_exp] at h5
      have : (0 : ℝ) ≤ n := Nat.cast_nonneg n
      linarith
    · have h6 : S + Real.exp (v (n + 1)) ≤ Real.exp (R + n + 1) := by
        have h7 : S ≤ Real.exp (R + n) := by rw [← Real.exp_log hp]; exact Real.exp_le_exp.mpr h2
        have h8 : Real.exp (v (n + 1)) ≤ Real.exp (R + n) := Real.exp_le_exp.mpr (by have : (0 : ℝ) ≤ n := Nat.cast_nonneg n; linarith)
        have h9 : Real.exp (R + n + 1) = Real.exp (R + n) * Real.exp 1 := Real.exp_add _ _
        have h10 := Real.add_one_le_exp (1 : ℝ)
        have h11 := Real.exp_pos (R + n)
        rw [h9]
        nlinarith
      have h7 := Real.log_le_log (by linarith) h6
      rw [Real.log_exp] at h7
      linarith

/-- The loop of logsumexp in f64. -/
theorem lse_acc (hW : W.Sane) {ε R : ℝ} (hA : W.Accurate ε) (r : Nat → Fl f32) (v : Nat → ℝ) (n : Nat)
    (hR : R + n + 1 ≤ 2 ^ 100) (hr : ∀ j, j ≤ n → (r j).Is (v j)) (hv : ∀ j, j ≤ n → |v j| ≤ R) (hS : n * stepErr ε (R + n + 1) ≤ 1) (hε : 0 ≤ ε) :
    letI := floatFlt N M L W
    ∀ k, k ≤ n → ∃ w, Fl.Is (F := f64) (foldN k (fun j a => Scalar.lseStep (α := Fl f32) a (Flt.up (r (j + 1)))) (Flt.up (r 0))) w ∧
      |w - Real.log (∑ j ∈ Finset.range (k + 1), Real.exp (v j))| ≤ k * stepErr ε (R + n + 1) := by
  letI := floatFlt N M L W
  have hR0 : 0 ≤ R := (abs_nonneg _).trans (hv 0 (by omega))
  have hn0 : (0 : ℝ) ≤ n := Nat.cast_nonneg n
  have hS0 : 0 ≤ stepErr ε (R + n + 1) := by unfold stepErr; positivity
  intro k
  induction k with
  | zero =>
    intro _
    exact ⟨v 0, Fl.widen_in.mpr (hr 0 (by omega)), by simp⟩
  | succ k ih =>
    intro hk
    obtain ⟨w, h1, h2⟩ := ih (by omega)
    have hk' : (k : ℝ) + 1 ≤ n := by exact_mod_cast hk
    have h3 := lse_bounds k v R fun j hj => hv j (by omega)
    have hw : |w| ≤ R + n + 1 := by
      have h4 := abs_sub_abs_le_abs_sub w (Real.log (∑ j ∈ Finset.range (k + 1), Real.exp (v j)))
      have h5 : (k : ℝ) * stepErr ε (R + n + 1) ≤ n * stepErr ε (R + n + 1) := mul_le_mul_of_nonneg_right (by linarith) hS0
      linarith
    obtain ⟨w', h6, h7⟩ := lseStep_acc (N := N) (M := M) (L := L) hW hA hR (a := Fl.widen (r (k + 1))) h1 (Fl.widen_in.mpr (hr (k + 1) hk)) hw
      ((hv (k + 1) hk).trans (by linarith))
    refine ⟨w', by rw [foldN_succ]; exact h6, ?_⟩
    have h8 := lse_lip w (Real.log (∑ j ∈ Finset.range (k + 1), Real.exp (v j))) (v (k + 1))
    rw [Real.exp_log (sum_exp_pos k v), ← Finset.sum_range_succ (fun j => Real.exp (v j))] at h8
    have h9 := abs_sub_le w' (Real.log (Real.exp w + Real.exp (v (k + 1)))) (Real.log (∑ j ∈ Finset.range (k + 1 + 1), Real.exp (v j)))
    push_cast
    linarith

end
end Verif
