import Verif.FloatErr
import Verif.FloatSoft
import Verif.FloatSpec
import Verif.FwLemmas5
import Verif.RealSoft

/-!
# Rounding errors of sums and products in f32
-/

namespace Verif
open Fmt

namespace Near
variable {F : Fmt} (N : Near F)

/-- A multiple of the smallest positive number is rounded with a relative error of at most `2^-prec`. -/
theorem err_rel {x : ℝ} (h0 : F.emin ≤ F.emax) (hx : |x| < F.top) {z : ℤ} (hz : x = z * (2 : ℝ) ^ F.emin) : |x - N.near x| ≤ |x| / 2 ^ F.prec := by
  have hp : (0 : ℝ) < 2 ^ F.prec := by positivity
  have hpe : (0 : ℝ) < (2 : ℝ) ^ F.emin := zpow_pos (by norm_num) _
  by_cases hs : |x| ≤ 2 ^ F.prec * (2 : ℝ) ^ F.emin
  · have hg : x ∈ F.grid := by
      refine ⟨z, F.emin, ?_, le_rfl, h0, hz⟩
      rw [hz, abs_mul, abs_of_pos hpe] at hs
      have h1 := le_of_mul_le_mul_right hs hpe
      have h2 : ((|z| : ℤ) : ℝ) ≤ ((2 ^ F.prec : ℤ) : ℝ) := by push_cast; exact h1
      exact_mod_cast h2
    rw [N.near_grid hg, sub_self, abs_zero]
    exact div_nonneg (abs_nonneg x) hp.le
  have hs := not_le.mp hs
  have hx0 : 0 < |x| := lt_trans (by positivity) hs
  have hk1 := Int.zpow_log_le_self (b := 2) (by norm_num) hx0
  have hk2 := Int.lt_zpow_succ_log_self (b := 2) (by norm_num) |x|
  generalize Int.log 2 |x| = k at *
  simp only [Nat.cast_ofNat] at hk1 hk2
  have e1 : ∀ e : ℤ, (2 : ℝ) ^ F.prec * (2 : ℝ) ^ e = (2 : ℝ) ^ ((F.prec : ℤ) + e) := fun e => by
    rw [zpow_add₀ (by norm_num), zpow_natCast]
  rw [e1] at hs
  unfold top at hx
  rw [e1] at hx
  have h1 : (F.prec : ℤ) + F.emin < k + 1 := (zpow_lt_zpow_iff_right₀ (by norm_num : (1 : ℝ) < 2)).mp (hs.trans hk2)
  have h2 : k < (F.prec : ℤ) + F.emax := (zpow_lt_zpow_iff_right₀ (by norm_num : (1 : ℝ) < 2)).mp (hk1.trans_lt hx)
  have h3 := N.err_unit (x := x) (e := k + 1 - F.prec) (by omega) (by omega) (by
    rw [e1, show (F.prec : ℤ) + (k + 1 - F.prec) = k + 1 by ring]; exact hk2.le)
  have h4 : (2 : ℝ) ^ (k + 1 - F.prec : ℤ) / 2 = 2 ^ k / 2 ^ F.prec := by
    rw [zpow_sub₀ (by norm_num), zpow_add₀ (by norm_num), zpow_natCast, zpow_one]; ring
  rw [h4] at h3
  exact h3.trans (div_le_div_of_nonneg_right hk1 hp.le)

/-- Representable numbers are multiples of the smallest positive one. -/
theorem _root_.Verif.Fmt.grid_mult {x : ℝ} (h : x ∈ F.grid) : ∃ z : ℤ, x = z * (2 : ℝ) ^ F.emin := by
  obtain ⟨m, e, -, h2, -, rfl⟩ := h
  refine ⟨m * 2 ^ (e - F.emin).toNat, ?_⟩
  push_cast
  rw [mul_assoc, ← zpow_natCast, Int.toNat_of_nonneg (by omega), ← zpow_add₀ (by norm_num), sub_add_cancel]

/-- The sum of two representable numbers. -/
theorem err_add {a b : ℝ} (h0 : F.emin ≤ F.emax) (ha : a ∈ F.grid) (hb : b ∈ F.grid) (hx : |a + b| < F.top) :
    |a + b - N.near (a + b)| ≤ |a + b| / 2 ^ F.prec := by
  obtain ⟨y, hy⟩ := grid_mult ha
  obtain ⟨z, hz⟩ := grid_mult hb
  exact N.err_rel h0 hx (z := y + z) (by rw [hy, hz]; push_cast; ring)

end Near

theorem ulp_pos : 0 < ulp := by unfold ulp; positivity
theorem ulp_base : (1 : ℝ) ≤ 1 + ulp := by linarith [ulp_pos]
theorem maxF32_lt : maxF32 < 2 ^ 128 := by unfold maxF32; norm_num

/-- `x` is a finite value within `((1 + 2^-24)^k - 1) A` of `v`, where `A` bounds `|v|`. -/
def Fl.Appr (x : Fl f32) (v A : ℝ) (k : ℕ) : Prop := ∃ w, x.Is w ∧ |w - v| ≤ ((1 + ulp) ^ k - 1) * A ∧ |v| ≤ A

namespace Fl.Appr
variable {N : Near f32} {x y : Fl f32} {v z A B : ℝ} {k l n : ℕ}

theorem of_is (h : x.Is v) : x.Appr v |v| 0 := ⟨v, h, by simp, le_rfl⟩

theorem nonneg (h : x.Appr v A k) : 0 ≤ A := by
  obtain ⟨w, -, -, h⟩ := h
  exact (abs_nonneg v).trans h

theorem mono (h : x.Appr v A k) (hk : k ≤ l) (hA : A ≤ B) : x.Appr v B l := by
  have h0 := h.nonneg
  obtain ⟨w, h1, h2, h3⟩ := h
  refine ⟨w, h1, h2.trans ?_, h3.trans hA⟩
  have h4 : (1 + ulp) ^ k ≤ (1 + ulp) ^ l := pow_le_pow_right₀ ulp_base hk
  have h5 : (1 : ℝ) ≤ (1 + ulp) ^ k := one_le_pow₀ ulp_base
  exact mul_le_mul (by linarith) hA h0 (by linarith)

theorem near_ok {w : ℝ} (h : |w| ≤ maxF32) : |N.near w| < f32.top := by
  have hm := maxF32_has
  obtain ⟨h1, h2⟩ := abs_le.mp h
  have h3 := N.near_le hm.1 h2
  have h4 := N.le_near hm.neg.1 h1
  refine lt_of_le_of_lt (abs_le.mpr ⟨h4, h3⟩) ?_
  rw [top32]; exact maxF32_lt

/-- `round` within the range. -/
theorem round_is {w : ℝ} (zs : Bool) (h : |w| ≤ maxF32) : (Fl.round N zs w).Is (N.near w) := Fl.round_eq zs w (near_ok h)

theorem has_of_is (h : x.Is v) : f32.Has v := by
  cases x with
  | fin s u hu => obtain rfl : u = v := le_antisymm h.2 h.1; exact ⟨hu.1, hu.2.1⟩
  | inf s => exact h.elim
  | nan => exact h.elim

/-- Addition. -/
theorem add (hx : x.Appr v A k) (hy : y.Appr z B l) (hk : k ≤ n) (hl : l ≤ n) (hm : (1 + ulp) ^ n * (A + B) ≤ maxF32) :
    (Fl.add N x y).Appr (v + z) (A + B) (n + 1) := by
  obtain ⟨a, ha, ha2, ha3⟩ := hx.mono hk le_rfl
  obtain ⟨b, hb, hb2, hb3⟩ := hy.mono hl le_rfl
  generalize hK : (1 + ulp) ^ n = K at *
  have h1 : |a + b - (v + z)| ≤ (K - 1) * (A + B) := by
    have := abs_add_le (a - v) (b - z)
    rw [show a - v + (b - z) = a + b - (v + z) by ring] at this
    linarith
  have h2 : |a + b| ≤ K * (A + B) := by
    have h3 := abs_add_le (a + b - (v + z)) (v + z)
    have h4 := abs_add_le v z
    rw [sub_add_cancel] at h3
    linarith
  obtain ⟨s, e⟩ := Fl.add_eq (N := N) ha hb
  rw [e]
  have h5 := h2.trans hm
  refine ⟨_, round_is s h5, ?_, (abs_add_le v z).trans (by linarith)⟩
  have h6 := N.err_add (by norm_num [f32]) (has_of_is ha).1 (has_of_is hb).1 (by rw [top32]; exact h5.trans_lt maxF32_lt)
  have h7 : |a + b| / 2 ^ f32.prec = ulp * |a + b| := by unfold ulp; show _ / (2 : ℝ) ^ 24 = _; ring
  rw [h7] at h6
  have h8 : ulp * |a + b| ≤ ulp * (K * (A + B)) := mul_le_mul_of_nonneg_left h2 ulp_pos.le
  have h9 := abs_sub_le (N.near (a + b)) (a + b) (v + z)
  rw [abs_sub_comm (N.near (a + b)) (a + b)] at h9
  rw [pow_succ, hK]
  linarith

/-- Adding to zero. -/
theorem zero_add {o : Fl f32} (ho : o.Is 0) (hy : y.Appr z B l) : (Fl.add N o y).Appr z B l := by
  obtain ⟨b, hb, hb2, hb3⟩ := hy
  obtain ⟨s, e⟩ := Fl.add_eq (N := N) ho hb
  have hh := has_of_is hb
  refine ⟨b, ?_, hb2, hb3⟩
  rw [e, _root_.zero_add]
  have := Fl.round_eq (N := N) s b (by rw [N.near_grid hh.1]; exact hh.2)
  rwa [N.near_grid hh.1] at this

/-- The smallest normal number: what a product may lose to underflow, in units of rounding. -/
theorem mul (hx : x.Is v) (hy : y.Is z) (hm : |v * z| ≤ maxF32) : (Fl.mul N x y).Appr (v * z) (|v * z| + 1 / 2 ^ 126) 1 := by
  obtain ⟨s, e⟩ := Fl.mul_eq (N := N) hx hy
  rw [e]
  refine ⟨_, round_is s hm, ?_, by linarith [show (0 : ℝ) ≤ 1 / 2 ^ 126 by positivity]⟩
  have h6 := N.err32 (x := v * z) (hm.trans_lt maxF32_lt)
  rw [abs_sub_comm]
  refine h6.trans (le_of_eq ?_)
  unfold ulp
  ring

/-- Sums from left to right, starting with zero. -/
theorem foldN_sum {o : Fl f32} (ho : o.Is 0) (t : Nat → Fl f32) (v A : Nat → ℝ) (n : Nat) (h : ∀ j, j ≤ n → (t j).Appr (v j) (A j) k)
    (hm : (1 + ulp) ^ (k + n) * ∑ j ∈ Finset.range (n + 1), A j ≤ maxF32) :
    (foldN (n + 1) (fun j a => Fl.add N a (t j)) o).Appr (∑ j ∈ Finset.range (n + 1), v j) (∑ j ∈ Finset.range (n + 1), A j) (k + n) := by
  induction n with
  | zero =>
    rw [foldN_succ, Finset.sum_range_one, Finset.sum_range_one]
    exact zero_add ho (h 0 le_rfl)
  | succ n ih =>
    have hA : 0 ≤ A (n + 1) := (h (n + 1) le_rfl).nonneg
    have hs : 0 ≤ ∑ j ∈ Finset.range (n + 1), A j := Finset.sum_nonneg fun j hj => (h j (by have := Finset.mem_range.mp hj; omega)).nonneg
    have h1 : (1 + ulp) ^ (k + n) ≤ (1 + ulp) ^ (k + (n + 1)) := pow_le_pow_right₀ ulp_base (by omega)
    have h2 : (0 : ℝ) < (1 + ulp) ^ (k + n) := by have := ulp_pos; positivity
    rw [Finset.sum_range_succ] at hm
    have hm2 : (1 + ulp) ^ (k + n) * (∑ j ∈ Finset.range (n + 1), A j + A (n + 1)) ≤ maxF32 :=
      (mul_le_mul_of_nonneg_right h1 (by linarith)).trans hm
    have i := ih (fun j hj => h j (by omega)) ((mul_le_mul_of_nonneg_left (by linarith) h2.le).trans hm2)
    rw [foldN_succ, Finset.sum_range_succ _ (n + 1), Finset.sum_range_succ _ (n + 1)]
    exact add (n := k + n) i (h (n + 1) le_rfl) le_rfl (by omega) hm2

end Fl.Appr

/-! ### Whole numbers -/

namespace Fl

/-- `x` is the whole number `z`, of magnitude at most `A`. -/
def IsInt (x : Fl f32) (z A : ℤ) : Prop := x.Is z ∧ |z| ≤ A

namespace IsInt
variable {N : Near f32} {x y : Fl f32} {v z A B : ℤ}

theorem has_int (h : |z| ≤ 2 ^ 24) : f32.Has (z : ℝ) := by
  refine ⟨grid_nat z 0 (by ring) h (by norm_num [f32]) (by norm_num [f32]), ?_⟩
  rw [top32]
  have : ((|z| : ℤ) : ℝ) ≤ ((2 ^ 24 : ℤ) : ℝ) := by exact_mod_cast h
  push_cast at this
  exact this.trans_lt (by norm_num)

theorem round_int (s : Bool) (h : |z| ≤ 2 ^ 24) : (Fl.round N s (z : ℝ)).Is z := by
  have hh := has_int h
  have := Fl.round_eq (N := N) s (z : ℝ) (by rw [N.near_grid hh.1]; exact hh.2)
  rwa [N.near_grid hh.1] at this

theorem add (hx : x.IsInt v A) (hy : y.IsInt z B) (h : A + B ≤ 2 ^ 24) : (Fl.add N x y).IsInt (v + z) (A + B) := by
  have h1 : |v + z| ≤ A + B := (abs_add_le v z).trans (add_le_add hx.2 hy.2)
  refine ⟨?_, h1⟩
  obtain ⟨s, e⟩ := Fl.add_eq (N := N) hx.1 hy.1
  rw [e]
  have := round_int (N := N) s (h1.trans h)
  rwa [Int.cast_add] at this ⊢

theorem mul (hx : x.Is v) (hy : y.Is z) (h : |v * z| ≤ 2 ^ 24) : (Fl.mul N x y).IsInt (v * z) |v * z| := by
  refine ⟨?_, le_rfl⟩
  obtain ⟨s, e⟩ := Fl.mul_eq (N := N) hx hy
  rw [e]
  have := round_int (N := N) s h
  rwa [Int.cast_mul] at this ⊢

theorem foldN_sum {o : Fl f32} (ho : o.Is 0) (t : Nat → Fl f32) (v A : Nat → ℤ) (n : Nat) (h : ∀ j, j < n → (t j).IsInt (v j) (A j))
    (hm : ∑ j ∈ Finset.range n, A j ≤ 2 ^ 24) :
    (foldN n (fun j a => Fl.add N a (t j)) o).IsInt (∑ j ∈ Finset.range n, v j) (∑ j ∈ Finset.range n, A j) := by
  induction n with
  | zero => exact ⟨by simpa using ho, by simp⟩
  | succ n ih =>
    have hA : 0 ≤ A n := (abs_nonneg _).trans (h n (by omega)).2
    rw [Finset.sum_range_succ] at hm
    rw [foldN_succ, Finset.sum_range_succ _ n, Finset.sum_range_succ _ n]
    exact add (ih (fun j hj => h j (by omega)) (by linarith)) (h n (by omega)) hm

end IsInt
end Fl

/-! ### Sums in blocks of 8 -/

/-- A sum over a range, in blocks of 8. -/
theorem sum_blocks {M : Type} [AddCommMonoid M] (n : Nat) (t : Nat → M) :
    ∑ q ∈ Finset.range ((n + 7) / 8), ∑ j ∈ Finset.range (Nat.min (q * 8 + 8) n - q * 8), t (q * 8 + j) = ∑ j ∈ Finset.range n, t j := by
  have key : ∀ (k : Nat) (s : Nat → M), foldN k (fun j a => a + s j) 0 = ∑ j ∈ Finset.range k, s j := by
    intro k s
    induction k with
    | zero => rfl
    | succ k ih => rw [foldN_succ, ih, Finset.sum_range_succ]
  have h := blockSum_eq n t
  rw [key n] at h
  rw [← h, ← key]
  unfold blockSum
  refine foldN_congr fun q _ a => ?_
  rw [key]

section
variable [E : Ieee]

theorem zero_is : (0 : Fl f32).Is 0 := ⟨le_rfl, le_rfl⟩

theorem sumTo_appr (t : Nat → Fl f32) (v A : Nat → ℝ) {k n : Nat} (h0 : 0 < n) (h : ∀ j, j < n → (t j).Appr (v j) (A j) k)
    (hm : (1 + ulp) ^ (k + (n - 1)) * ∑ j ∈ Finset.range n, A j ≤ maxF32) :
    (sumTo n t).Appr (∑ j ∈ Finset.range n, v j) (∑ j ∈ Finset.range n, A j) (k + (n - 1)) := by
  obtain ⟨n, rfl⟩ : ∃ m, n = m + 1 := ⟨n - 1, by omega⟩
  exact Fl.Appr.foldN_sum zero_is t v A n (fun j hj => h j (by omega)) hm

theorem sumBlk_appr (t : Nat → Fl f32) (v A : Nat → ℝ) {k n : Nat} (h0 : 0 < n) (h : ∀ j, j < n → (t j).Appr (v j) (A j) k)
    (hm : (1 + ulp) ^ (k + 6 + (n + 7) / 8) * ∑ j ∈ Finset.range n, A j ≤ maxF32) :
    (sumBlk n t).Appr (∑ j ∈ Finset.range n, v j) (∑ j ∈ Finset.range n, A j) (k + 6 + (n + 7) / 8) := by
  have hA : ∀ j, j < n → 0 ≤ A j := fun j hj => (h j hj).nonneg
  obtain ⟨Q, hQ⟩ : ∃ Q, (n + 7) / 8 = Q + 1 := ⟨(n + 7) / 8 - 1, by omega⟩
  have hb : ∀ q, q ≤ Q → ((foldN (Nat.min (q * 8 + 8) n - q * 8) (fun j a => a + t (q * 8 + j)) 0 : Fl f32)).Appr
      (∑ j ∈ Finset.range (Nat.min (q * 8 + 8) n - q * 8), v (q * 8 + j)) (∑ j ∈ Finset.range (Nat.min (q * 8 + 8) n - q * 8), A (q * 8 + j)) (k + 7) := by
    intro q hq
    have hc : ∃ c, Nat.min (q * 8 + 8) n - q * 8 = c + 1 ∧ c ≤ 7 ∧ q * 8 + c < n := by
      have h1 : Nat.min (q * 8 + 8) n = min (q * 8 + 8) n := rfl
      refine ⟨Nat.min (q * 8 + 8) n - q * 8 - 1, ?_, ?_, ?_⟩ <;> omega
    obtain ⟨c, hc1, hc2, hc3⟩ := hc
    rw [hc1]
    refine (Fl.Appr.foldN_sum (N := E.near32) zero_is (fun j => t (q * 8 + j)) (fun j => v (q * 8 + j)) (fun j => A (q * 8 + j)) c
      (fun j hj => h _ (by omega)) ?_).mono (by omega) le_rfl
    refine le_trans ?_ hm
    have h1 : (1 + ulp) ^ (k + c) ≤ (1 + ulp) ^ (k + 6 + (n + 7) / 8) := pow_le_pow_right₀ ulp_base (by omega)
    have h2 : ∑ j ∈ Finset.range (c + 1), A (q * 8 + j) ≤ ∑ j ∈ Finset.range n, A j := by
      rw [← sum_blocks n A, ← hc1]
      refine Finset.single_le_sum (f := fun q => ∑ j ∈ Finset.range (Nat.min (q * 8 + 8) n - q * 8), A (q * 8 + j)) (fun q' _ => ?_) (Finset.mem_range.mpr (by omega))
      refine Finset.sum_nonneg fun j hj => hA _ ?_
      have h3 := Finset.mem_range.mp hj
      have h1 : Nat.min (q' * 8 + 8) n = min (q' * 8 + 8) n := rfl
      omega
    have h4 : (0 : ℝ) < (1 + ulp) ^ (k + 6 + (n + 7) / 8) := by have := ulp_pos; positivity
    exact mul_le_mul h1 h2 (Finset.sum_nonneg fun j hj => hA _ (by have := Finset.mem_range.mp hj; omega)) h4.le
  have key := Fl.Appr.foldN_sum (N := E.near32) zero_is _ _ _ Q hb (by rw [← hQ, sum_blocks n A]; refine le_trans (le_of_eq ?_) hm; congr 2; omega)
  rw [← hQ, sum_blocks n v, sum_blocks n A] at key
  rw [show k + 6 + (n + 7) / 8 = k + 7 + Q by omega]
  exact key

theorem sumTo_int (t : Nat → Fl f32) (v A : Nat → ℤ) {n : Nat} (h : ∀ j, j < n → (t j).IsInt (v j) (A j)) (hm : ∑ j ∈ Finset.range n, A j ≤ 2 ^ 24) :
    (sumTo n t).IsInt (∑ j ∈ Finset.range n, v j) (∑ j ∈ Finset.range n, A j) := Fl.IsInt.foldN_sum zero_is t v A n h hm

theorem sumBlk_int (t : Nat → Fl f32) (v A : Nat → ℤ) {n : Nat} (h : ∀ j, j < n → (t j).IsInt (v j) (A j)) (hm : ∑ j ∈ Finset.range n, A j ≤ 2 ^ 24) :
    (sumBlk n t).IsInt (∑ j ∈ Finset.range n, v j) (∑ j ∈ Finset.range n, A j) := by
  have hA : ∀ j, j < n → 0 ≤ A j := fun j hj => (abs_nonneg _).trans (h j hj).2
  have hb : ∀ q, q < (n + 7) / 8 → ((foldN (Nat.min (q * 8 + 8) n - q * 8) (fun j a => a + t (q * 8 + j)) 0 : Fl f32)).IsInt
      (∑ j ∈ Finset.range (Nat.min (q * 8 + 8) n - q * 8), v (q * 8 + j)) (∑ j ∈ Finset.range (Nat.min (q * 8 + 8) n - q * 8), A (q * 8 + j)) := by
    intro q hq
    have h1 : ∀ q, Nat.min (q * 8 + 8) n = min (q * 8 + 8) n := fun _ => rfl
    refine Fl.IsInt.foldN_sum (N := E.near32) zero_is (fun j => t (q * 8 + j)) (fun j => v (q * 8 + j)) (fun j => A (q * 8 + j)) _
      (fun j hj => h _ (by have := h1 q; omega)) (le_trans ?_ hm)
    rw [← sum_blocks n A]
    refine Finset.single_le_sum (f := fun q => ∑ j ∈ Finset.range (Nat.min (q * 8 + 8) n - q * 8), A (q * 8 + j)) (fun q' _ => ?_) (Finset.mem_range.mpr (by omega))
    refine Finset.sum_nonneg fun j hj => hA _ ?_
    have h3 := Finset.mem_range.mp hj
    have := h1 q'
    omega
  have key := Fl.IsInt.foldN_sum (N := E.near32) zero_is _ _ _ _ hb (by rw [sum_blocks n A]; exact hm)
  rw [sum_blocks n v, sum_blocks n A] at key
  exact key

end
end Verif
