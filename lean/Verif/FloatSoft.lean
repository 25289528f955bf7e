import Verif.FloatLemmas
import Verif.Spec
import Verif.FwLemmas

/-!
# sigmoid, softplus, logsumexp, softmax in f32: no overflow, no NaN
-/

set_option linter.unusedSectionVars false
set_option linter.style.haveILetI false

namespace Verif
open Fmt

section
variable {N : Near f32} {M : Near f64} {L : Libm f32} {W : Libm f64}

/-- The largest finite f32. -/
noncomputable def maxF32 : ℝ := (2 ^ 24 - 1) * 2 ^ 104

theorem maxF32_has : f32.Has maxF32 := by
  refine ⟨grid_nat (2 ^ 24 - 1) 104 (by unfold maxF32; norm_num) (by norm_num [f32]) (by norm_num [f32]) (by norm_num [f32]), ?_⟩
  rw [top32]; unfold maxF32
  rw [abs_of_pos (by norm_num)]; norm_num

/-- Every finite f32 is at most that large. -/
theorem Fmt.Has.le_max {v : ℝ} (h : f32.Has v) : |v| ≤ maxF32 := by
  obtain ⟨⟨m, e, h1, h2, h3, rfl⟩, h4⟩ := h
  change |m| ≤ 2 ^ 24 at h1
  change -149 ≤ e at h2
  change e ≤ 104 at h3
  rw [abs_mul, abs_of_pos (zpow_pos (by norm_num : (0 : ℝ) < 2) e), ← Int.cast_abs] at *
  generalize |m| = k at *
  have hp : (0 : ℝ) < 2 ^ e := zpow_pos (by norm_num) e
  by_cases hk : k ≤ 2 ^ 24 - 1
  · unfold maxF32
    have hk' : (k : ℝ) ≤ 2 ^ 24 - 1 := by exact_mod_cast hk
    have he : (2 : ℝ) ^ e ≤ 2 ^ 104 := by
      have := zpow_le_zpow_right₀ (show (1 : ℝ) ≤ 2 by norm_num) h3
      exact_mod_cast this
    exact mul_le_mul hk' he hp.le (by norm_num)
  · obtain rfl : k = 2 ^ 24 := by omega
    rcases h3.lt_or_eq with h3 | rfl
    · have he : (2 : ℝ) ^ e ≤ 2 ^ 103 := by
        have := zpow_le_zpow_right₀ (show (1 : ℝ) ≤ 2 by norm_num) (show e ≤ 103 by omega)
        exact_mod_cast this
      unfold maxF32
      have : ((2 ^ 24 : ℤ) : ℝ) = 2 ^ 24 := by norm_num
      rw [this]
      nlinarith
    · exfalso
      unfold Fmt.top at h4
      change ((2 ^ 24 : ℤ) : ℝ) * 2 ^ (104 : ℤ) < 2 ^ 24 * 2 ^ (104 : ℤ) at h4
      rw [show ((2 ^ 24 : ℤ) : ℝ) = 2 ^ 24 by norm_num] at h4
      exact lt_irrefl _ h4

theorem near32_max : N.near (maxF32 + 1) = maxF32 :=
  N.absorb (b := 2 ^ 24 - 1) (j := 104) maxF32_has.1 (by unfold maxF32; norm_num) (by norm_num) (by
    show (2 : ℝ) ^ 24 * 2 ^ 103 < maxF32
    unfold maxF32; norm_num)

/-- Sigmoid of anything but NaN is between 0 and 1. -/
theorem sigmoid_in (hL : L.Sane) (x : Fl f32) (hx : x ≠ .nan) : letI := floatFlt N M L W; (Scalar.sigmoidFw x).In 0 1 := by
  show (Fl.add N (Fl.lit (1 / 2) Fl.half_ok (by norm_num)) (Fl.mul N (Fl.lit (1 / 2) Fl.half_ok (by norm_num))
    (L.tanh (Fl.mul N (Fl.lit (1 / 2) Fl.half_ok (by norm_num)) x)))).In 0 1
  have hh : (Fl.lit (1 / 2) Fl.half_ok (by norm_num)).In (1 / 2 : ℝ) (1 / 2) := ⟨le_rfl, le_rfl⟩
  have h1 : Fl.mul N (Fl.lit (1 / 2) Fl.half_ok (by norm_num)) x ≠ .nan := by
    cases x with
    | fin s v hv => exact Fl.round_ne_nan _ _
    | inf s =>
      show (if (1 / 2 : ℝ) = 0 then Fl.nan else .inf (false ^^ s)) ≠ .nan
      rw [if_neg (by norm_num)]
      nofun
    | nan => exact absurd rfl hx
  obtain ⟨v, -, hv, h2, h3⟩ := (hL.tanh _ h1).exists_in
  obtain ⟨z, e⟩ := Fl.mul_eq (N := N) hh hv
  rw [e]
  refine Fl.add_in (N := N) hh (Fl.round_in (a := -(1 / 2)) (b := 1 / 2) hasHalf.neg hasHalf (by linarith) (by linarith)) has0 has1 (by norm_num) (by norm_num)

/-- `ln(1 + exp(t))` for `t ≤ 0` is between 0 and 1. -/
theorem log1p_in {F : Fmt} {N : Near F} {L : Libm F} (hL : L.Sane) {o t : Fl F} (ho : o.In 1 1) (ht : t.NonPos) (h1 : F.Has 1) (h2 : F.Has 2) :
    (L.ln (Fl.add N o (L.exp t))).In 0 1 :=
  hL.ln _ (Fl.add_in ho (hL.exp _ ht) h1 h2 (by norm_num) (by norm_num))

/-- Softplus of a finite number is finite, at least `max 0 x`, and at most `max 0 x + 1` rounded. -/
theorem softplus_in (hL : L.Sane) {x : Fl f32} {v : ℝ} (hh : f32.Has v) (hx : x.In v v) :
    letI := floatFlt N M L W; (Scalar.softplusFw x).In (max 0 v) (N.near (max 0 v + 1)) ∧ (Scalar.softplusFw x).Finite := by
  letI := floatFlt N M L W
  obtain ⟨w, hw, hw0⟩ := Fl.abs_in hx.finite
  have h1 : (L.ln (Fl.add N (Fl.lit 1 Fl.one_ok zero_le_one) (L.exp (Fl.neg (Fl.abs x))))).In 0 1 :=
    log1p_in hL ⟨le_rfl, le_rfl⟩ ((Fl.neg_in hw).nonPos (by linarith)) has1 has2
  have h2 : (Fl.mul N (Scalar.b2f (Fl.gt x (Fl.lit 0 Fl.zero_ok le_rfl)) : Fl f32) x).In (max 0 v) (max 0 v) := by
    have hz : (Fl.lit 0 Fl.zero_ok le_rfl : Fl f32).In 0 0 := ⟨le_rfl, le_rfl⟩
    have ho : (Fl.lit 1 Fl.one_ok zero_le_one : Fl f32).In 1 1 := ⟨le_rfl, le_rfl⟩
    by_cases h0 : 0 < v
    · rw [(Fl.gt_in hx hz).mpr h0, max_eq_right h0.le]
      obtain ⟨z, e⟩ := Fl.mul_eq (N := N) ho hx
      show (Fl.mul N (Fl.lit 1 Fl.one_ok zero_le_one) x).In v v
      rw [e, one_mul]
      exact Fl.round_in hh hh le_rfl le_rfl
    · have : Fl.gt x (Fl.lit 0 Fl.zero_ok le_rfl) = false := by rw [← Bool.not_eq_true, Fl.gt_in hx hz]; exact h0
      rw [this, max_eq_left (not_lt.mp h0)]
      obtain ⟨z, e⟩ := Fl.mul_eq (N := N) hz hx
      show (Fl.mul N (Fl.lit 0 Fl.zero_ok le_rfl) x).In 0 0
      rw [e, zero_mul]
      exact Fl.round_in has0 has0 le_rfl le_rfl
  have hm : f32.Has (max 0 v) := by rcases max_choice 0 v with e | e <;> rw [e]; exacts [has0, hh]
  obtain ⟨u, -, hu, h3, h4⟩ := h1.exists_in
  obtain ⟨z, e⟩ := Fl.add_eq (N := N) hu h2
  have hle : max 0 v ≤ maxF32 := (le_abs_self _).trans hm.le_max
  have h5 : (Fl.round N z (u + max 0 v)).In (max 0 v) (N.near (max 0 v + 1)) := by
    have h6 := N.near_mono (show u + max 0 v ≤ max 0 v + 1 by linarith)
    have h7 := N.near_mono (show max 0 v + 1 ≤ maxF32 + 1 by linarith)
    rw [near32_max] at h7
    have h8 := N.le_near hm.1 (show max 0 v ≤ u + max 0 v by linarith)
    have h9 := (abs_lt.mp maxF32_has.2).2
    have h10 := le_max_left 0 v
    have h11 := Fmt.top_pos (F := f32)
    exact (Fl.round_eq z _ (abs_lt.mpr ⟨by linarith, by linarith⟩)).mono h8 h6
  refine ⟨?_, ?_⟩
  · rw [show Scalar.softplusFw x = _ from e]; exact h5
  · rw [show Scalar.softplusFw x = _ from e]; exact h5.finite

/-- One step of logsumexp in f64. -/
theorem lseStep_in (hW : W.Sane) {B : ℝ} (hB : f64.Has B) (hB2 : f64.Has (2 * B)) (hBM : M.near (B + 1) = B) {t a : Fl f64} {l v : ℝ} (ht : t.In l B)
    (hl : -B ≤ l) (ha : a.In v v) (hv : |v| ≤ B) : letI := floatFlt N M L W; (Scalar.lseStep (α := Fl f32) t a).In (max l v) B := by
  letI := floatFlt N M L W
  obtain ⟨u, hu, htu, h1, h2⟩ := ht.exists_in
  obtain ⟨h3, h4⟩ := abs_le.mp hv
  have hh : f64.Has v := by
    obtain ⟨v', hv', h5, h6, h7⟩ := ha.exists_in
    rwa [le_antisymm h6 h7]
  -- the larger one plus something in [0, 1]
  have key : ∀ {p q : Fl f64} {r s : ℝ}, f64.Has r → p.In r r → q.In s s → s ≤ r → r ≤ B → -B ≤ s →
      (Fl.add M p (W.ln (Fl.add M (Fl.lit 1 Fl.one_ok64 zero_le_one) (W.exp (Fl.sub M q p))))).In r B := by
    intro p q r s hr hp hq hsr hrB hs
    have h5 : (Fl.sub M q p).In (-(2 * B)) 0 := Fl.sub_in hq hp hB2.neg has0.up (by linarith) (by linarith)
    have h6 := log1p_in (N := M) hW (o := Fl.lit 1 Fl.one_ok64 zero_le_one) ⟨le_rfl, le_rfl⟩ (h5.nonPos le_rfl) has1.up has2.up
    obtain ⟨w, -, hw, h7, h8⟩ := h6.exists_in
    obtain ⟨z, e⟩ := Fl.add_eq (N := M) hp hw
    rw [e]
    refine Fl.round_in' hr hB (by linarith) ?_
    rw [← hBM]
    exact M.near_mono (by linarith)
  show (if Fl.gt t a then Fl.add M t (W.ln (Fl.add M (Fl.lit 1 Fl.one_ok64 zero_le_one) (W.exp (Fl.sub M a t))))
    else Fl.add M a (W.ln (Fl.add M (Fl.lit 1 Fl.one_ok64 zero_le_one) (W.exp (Fl.sub M t a))))).In (max l v) B
  by_cases hc : v < u
  · rw [if_pos ((Fl.gt_in htu ha).mpr hc)]
    exact (key hu htu ha hc.le h2 h3).mono (max_le h1 hc.le) le_rfl
  · rw [if_neg (by rw [Fl.gt_in htu ha]; exact hc)]
    have hc := not_lt.mp hc
    exact (key hh ha htu hc h4 (hl.trans h1)).mono (max_le (h1.trans hc) le_rfl) le_rfl

/-- The loop of logsumexp in f64. -/
theorem lse_in (hW : W.Sane) {B : ℝ} (hB : f64.Has B) (hB2 : f64.Has (2 * B)) (hBM : M.near (B + 1) = B) (r : Nat → Fl f32) (v : Nat → ℝ) (n : Nat)
    (hr : ∀ j, j ≤ n → (r j).In (v j) (v j)) (hv : ∀ j, j ≤ n → |v j| ≤ B) :
    letI := floatFlt N M L W
    ∃ l, (foldN n (fun j a => Scalar.lseStep (α := Fl f32) a (Flt.up (r (j + 1)))) (Flt.up (r 0)) : Fl f64).In l B ∧ ∀ j, j ≤ n → v j ≤ l := by
  letI := floatFlt N M L W
  induction n with
  | zero =>
    refine ⟨v 0, (Fl.widen_in.mpr (hr 0 le_rfl)).mono le_rfl (abs_le.mp (hv 0 le_rfl)).2, fun j hj => ?_⟩
    rw [Nat.le_zero.mp hj]
  | succ n ih =>
    obtain ⟨l, h1, h2⟩ := ih (fun j hj => hr j (by omega)) (fun j hj => hv j (by omega))
    refine ⟨max l (v (n + 1)), ?_, fun j hj => ?_⟩
    · rw [foldN_succ]
      exact lseStep_in hW hB hB2 hBM h1 (((abs_le.mp (hv 0 (by omega))).1).trans (h2 0 (by omega))) (Fl.widen_in.mpr (hr (n + 1) le_rfl)) (hv _ le_rfl)
    · rcases Nat.lt_or_ge n j with h | h
      · rw [show j = n + 1 by omega]; exact le_max_right _ _
      · exact (h2 j h).trans (le_max_left _ _)

end
end Verif
