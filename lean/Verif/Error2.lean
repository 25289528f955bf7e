import Verif.Error

/-!
# Bounds exist: sums and products
-/

namespace Verif
open Res

/-- There is a bound, and it is at most `A` with at most `k` roundings. -/
def Under (a : Option Bound) (A : ℝ) (k : ℕ) : Prop := ∃ t, a = some t ∧ t.size ≤ A ∧ t.ops ≤ k ∧ 0 ≤ t.size ∧ ∀ c, t.exact = some c → |c| ≤ t.size

variable {a b : Option Bound} {A B : ℝ} {k l : ℕ}

theorem Under.nonneg (h : Under a A k) : 0 ≤ A := by
  obtain ⟨t, _, h1, _, h3, _⟩ := h
  linarith

theorem Under.mono (h : Under a A k) (hA : A ≤ B) (hk : k ≤ l) : Under a B l := by
  obtain ⟨t, h1, h2, h3, h4, h5⟩ := h
  exact ⟨t, h1, h2.trans hA, h3.trans hk, h4, h5⟩

theorem under_of (v : ℝ) : Under (Bound.of v) |v| 0 := ⟨_, rfl, le_rfl, le_rfl, abs_nonneg v, fun c hc => by cases hc; exact le_rfl⟩

theorem under_fit {s : ℝ} {n : ℕ} (hs : s ≤ A) (hn : n ≤ k) (h0 : 0 ≤ s) (hm : (1 + ulp) ^ k * A ≤ maxF32) : Under (Bound.fit s n) A k := by
  refine ⟨⟨s, n, none⟩, if_pos ?_, hs, hn, h0, fun c hc => by cases hc⟩
  exact (mul_le_mul (pow_le_pow_right₀ ulp_base hn) hs h0 (by linarith [Fl.Appr.base k])).trans hm

theorem under_add (ha : Under a A k) (hb : Under b B k) (hm : (1 + ulp) ^ (k + 1) * (A + B) ≤ maxF32) :
    Under (Bound.both Bound.add a b) (A + B) (k + 1) := by
  have hA := ha.nonneg
  have hB := hb.nonneg
  obtain ⟨s, rfl, h1, h2, h3, h4⟩ := ha
  obtain ⟨t, rfl, g1, g2, g3, g4⟩ := hb
  show Under (Bound.add s t) _ _
  unfold Bound.add
  split
  · exact ⟨t, rfl, by linarith, by omega, g3, g4⟩
  · exact under_fit (by linarith) (by have : Nat.max s.ops t.ops ≤ k := Nat.max_le.mpr ⟨h2, g2⟩; omega) (by linarith) hm

theorem under_mul (ha : Under a A k) (hb : Under b B l) (hm : (1 + ulp) ^ (k + l + 1) * (A * B + tiny) ≤ maxF32) :
    Under (Bound.both Bound.mul a b) (A * B + tiny) (k + l + 1) := by
  have hA := ha.nonneg
  have hB := hb.nonneg
  have ht := tiny_pos
  obtain ⟨s, rfl, h1, h2, h3, h4⟩ := ha
  obtain ⟨t, rfl, g1, g2, g3, g4⟩ := hb
  have hp : s.size * t.size ≤ A * B := mul_le_mul h1 g1 g3 hA
  show Under (Bound.mul s t) _ _
  unfold Bound.mul
  split
  next he =>
    have := h4 1 he
    rw [abs_one] at this
    exact ⟨t, rfl, by nlinarith, by omega, g3, g4⟩
  · split
    next he =>
      have := g4 1 he
      rw [abs_one] at this
      exact ⟨s, rfl, by nlinarith, by omega, h3, h4⟩
    · exact under_fit (by linarith) (by omega) (by nlinarith) hm

theorem under_tanh {ε : ℝ} (hε : 0 ≤ ε) (ha : Under a A k) (hm : (1 + ulp) ^ (k + 1) * (A + ε * 2 ^ 24) ≤ maxF32) :
    Under (a.bind (Bound.tanh ε)) (A + ε * 2 ^ 24) (k + 1) := by
  obtain ⟨s, rfl, h1, h2, h3, h4⟩ := ha
  exact under_fit (by linarith) (by omega) (by positivity) hm

/-- Sums from left to right. -/
theorem under_sum (t : Nat → Option Bound) (A : Nat → ℝ) (n : Nat) (h : ∀ j, j < n → Under (t j) (A j) k)
    (hm : (1 + ulp) ^ (k + n) * ∑ j ∈ Finset.range n, A j ≤ maxF32) :
    Under (foldN n (fun j a => Bound.both Bound.add a (t j)) (Bound.of 0)) (∑ j ∈ Finset.range n, A j) (k + n) := by
  induction n with
  | zero => exact (under_of 0).mono (by simp) (Nat.zero_le _)
  | succ n ih =>
    have hA : 0 ≤ A n := (h n (by omega)).nonneg
    have hS : 0 ≤ ∑ j ∈ Finset.range n, A j := Finset.sum_nonneg fun j hj => (h j (by have := Finset.mem_range.mp hj; omega)).nonneg
    rw [Finset.sum_range_succ] at hm ⊢
    rw [foldN_succ]
    exact under_add (ih (fun j hj => h j (by omega)) (small_left hA hS (by omega) hm)) ((h n (by omega)).mono le_rfl (Nat.le_add_right k n)) hm

/-- Sums in blocks of 8. -/
theorem under_blocks (ε : ℝ) (t : Nat → Option Bound) (A : Nat → ℝ) (n : Nat) (h : ∀ j, j < n → Under (t j) (A j) k)
    (hm : (1 + ulp) ^ (k + 8 + (n + 7) / 8) * ∑ j ∈ Finset.range n, A j ≤ maxF32) :
    Under (letI := boundFlt ε; sumBlk n t) (∑ j ∈ Finset.range n, A j) (k + 8 + (n + 7) / 8) := by
  have hA : ∀ j, j < n → 0 ≤ A j := fun j hj => (h j hj).nonneg
  have hblk := sum_blocks n A
  rw [← hblk] at hm ⊢
  refine under_sum (k := k + 8) _ _ _ (fun q hq => ?_) hm
  have hmin : ∀ q, Nat.min (q * 8 + 8) n = min (q * 8 + 8) n := fun _ => rfl
  have hc : Nat.min (q * 8 + 8) n - q * 8 ≤ 8 := by have := hmin q; omega
  have hi : ∀ j, j < Nat.min (q * 8 + 8) n - q * 8 → q * 8 + j < n := fun j hj => by have := hmin q; omega
  have hs := Finset.single_le_sum (f := fun q => ∑ j ∈ Finset.range (Nat.min (q * 8 + 8) n - q * 8), A (q * 8 + j)) (fun q' _ => Finset.sum_nonneg fun j hj => by
    have h1 := Finset.mem_range.mp hj
    have h2 := hmin q'
    exact hA _ (by omega)) (Finset.mem_range.mpr hq)
  refine (under_sum (k := k) _ _ _ (fun j hj => h _ (hi j hj)) ?_).mono le_rfl (by omega)
  refine (mul_le_mul (pow_le_pow_right₀ ulp_base (by omega)) hs (Finset.sum_nonneg fun j hj => hA _ (hi j (Finset.mem_range.mp hj))) ?_).trans hm
  linarith [Fl.Appr.base (k + 8 + (n + 7) / 8)]

end Verif
