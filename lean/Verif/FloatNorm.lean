import Verif.FloatGap
import Verif.FloatSum
import Verif.ContribSpec

/-!
# Means and standardized values in f32
-/

set_option linter.unusedSectionVars false

namespace Verif
open Fmt

namespace Fl
variable {F : Fmt} {N : Near F} {x y : Fl F} {a b v w : ℝ}

/-- At least `a`: a number that is, or `+∞`. -/
def AtLeast (a : ℝ) (x : Fl F) : Prop := x = inf false ∨ ∃ v, x.Is v ∧ a ≤ v

theorem round_atLeast {z : Bool} (ha : 0 ≤ a) (h : a ≤ N.near v) : (round N z v).AtLeast a := by
  by_cases h1 : |N.near v| < F.top
  · exact .inr ⟨_, round_eq z v h1, h⟩
  · refine .inl ?_
    unfold round
    rw [dif_neg h1, decide_eq_false (not_lt.mpr (ha.trans h))]

theorem AtLeast.mono (h : x.AtLeast a) (hb : b ≤ a) : x.AtLeast b := h.imp id fun ⟨v, h1, h2⟩ => ⟨v, h1, hb.trans h2⟩

theorem AtLeast.add (hx : x.AtLeast a) (hy : y.AtLeast b) (ha : 0 ≤ a) (hb : 0 ≤ b) : (add N x y).AtLeast a ∧ (add N x y).AtLeast b := by
  rcases hx with rfl | ⟨v, hx, hv⟩ <;> rcases hy with rfl | ⟨w, hy, hw⟩
  · exact ⟨.inl rfl, .inl rfl⟩
  · cases y with
    | fin s u hu => exact ⟨.inl rfl, .inl rfl⟩
    | inf s => exact hy.elim
    | nan => exact hy.elim
  · cases x with
    | fin s u hu => exact ⟨.inl rfl, .inl rfl⟩
    | inf s => exact hx.elim
    | nan => exact hx.elim
  · obtain ⟨z, e⟩ := add_eq (N := N) hx hy
    rw [e]
    have h1 := N.le_near hx.has.1 (show v ≤ v + w by linarith)
    have h2 := N.le_near hy.has.1 (show w ≤ v + w by linarith)
    exact ⟨round_atLeast ha (hv.trans h1), round_atLeast hb (hw.trans h2)⟩

theorem div_eq (hx : x.Is v) (hy : y.Is w) (hw : w ≠ 0) : ∃ z, div N x y = round N z (v / w) := by
  cases x with
  | fin s a' ha =>
    cases y with
    | fin t b' hb =>
      obtain rfl := le_antisymm hx.1 hx.2
      obtain rfl := le_antisymm hy.1 hy.2
      exact ⟨s ^^ t, if_neg hw⟩
    | inf s => exact hy.elim
    | nan => exact hy.elim
  | inf s => exact hx.elim
  | nan => exact hx.elim

theorem div_inf (hx : x.Is v) (s : Bool) (h0 : F.Has 0) : (div N x (inf s)).Is 0 := by
  cases x with
  | fin t a' ha => exact round_in h0 h0 le_rfl le_rfl
  | inf s => exact hx.elim
  | nan => exact hx.elim

theorem sqrt_eq (hx : x.Is v) (hv : 0 ≤ v) : ∃ z, sqrt N x = round N z (Real.sqrt v) := by
  cases x with
  | fin t a' ha =>
    obtain rfl := le_antisymm hx.1 hx.2
    exact ⟨t, if_neg (not_lt.mpr hv)⟩
  | inf s => exact hx.elim
  | nan => exact hx.elim

end Fl

section
variable [E : Ieee]

theorem ofInt_is {n : Nat} (hn : n ≤ 2 ^ 24) : (Flt.ofInt (n : Int) : Fl f32).Is n := by
  have := Fl.IsInt.round_int (N := E.near32) (z := (n : ℤ)) false (by rw [abs_of_nonneg (by omega)]; omega)
  exact_mod_cast this

/-- Sums of at most `2^24` numbers of magnitude at most `2^103`. -/
theorem sumTo_in (t : Nat → Fl f32) {n : Nat} (hn : n ≤ 2 ^ 24) (h : ∀ k, k < n → (t k).In (-2 ^ 103) (2 ^ 103)) :
    (sumTo n t).In (-(n * 2 ^ 103)) (n * 2 ^ 103) := by
  have hh : ∀ k : Nat, k ≤ 2 ^ 24 → f32.Has (k * 2 ^ 103) := fun k hk => by
    refine ⟨grid_nat k 103 (by push_cast; ring) (by rw [abs_of_nonneg (by omega)]; show (k : ℤ) ≤ 2 ^ 24; omega) (by norm_num [f32]) (by norm_num [f32]), ?_⟩
    rw [top32, abs_of_nonneg (by positivity)]
    have : (k : ℝ) ≤ 2 ^ 24 := by exact_mod_cast hk
    have h2 : (k : ℝ) * 2 ^ 103 ≤ 2 ^ 24 * 2 ^ 103 := by nlinarith
    exact lt_of_le_of_lt h2 (by norm_num)
  unfold sumTo
  induction n with
  | zero => exact zero_is.mono (by simp) (by simp)
  | succ n ih =>
    rw [foldN_succ]
    refine Fl.add_in (ih (by omega) fun k hk => h k (by omega)) (h n (by omega)) (hh (n + 1) hn).neg (hh (n + 1) hn) ?_ ?_ <;> push_cast <;> linarith

/-- A sum of non-negative numbers is at least each of them. -/
theorem sumTo_atLeast (t : Nat → Fl f32) (a : Nat → ℝ) {n : Nat} (ha : ∀ k, k < n → 0 ≤ a k) (h : ∀ k, k < n → (t k).AtLeast (a k)) :
    (sumTo n t).AtLeast 0 ∧ ∀ k, k < n → (sumTo n t).AtLeast (a k) := by
  unfold sumTo
  induction n with
  | zero => exact ⟨.inr ⟨0, zero_is, le_rfl⟩, fun k hk => absurd hk (Nat.not_lt_zero k)⟩
  | succ n ih =>
    obtain ⟨h1, h2⟩ := ih (fun k hk => ha k (by omega)) fun k hk => h k (by omega)
    rw [foldN_succ]
    have h3 := Fl.AtLeast.add (N := E.near32) h1 (h n (by omega)) le_rfl (ha n (by omega))
    refine ⟨h3.1, fun k hk => ?_⟩
    by_cases e : k = n
    · subst e; exact h3.2
    · exact (Fl.AtLeast.add (N := E.near32) (h2 k (by omega)) (h n (by omega)) (ha k (by omega)) (ha n (by omega))).1

theorem has_p103 (j : ℕ) (hj : j ≤ 104) : f32.Has ((2 : ℝ) ^ j) := by
  refine ⟨grid_nat 1 j (by norm_num) (by norm_num [f32]) (by show (-149 : ℤ) ≤ j; omega) (by show (j : ℤ) ≤ 104; omega), ?_⟩
  rw [top32, abs_of_nonneg (by positivity)]
  exact pow_lt_pow_right₀ (by norm_num) (by omega)

/-- The mean of at most `2^24` numbers of magnitude at most `2^103`. -/
theorem avg_in (t : Nat → Fl f32) {n : Nat} (h0 : 0 < n) (hn : n ≤ 2 ^ 24) (h : ∀ k, k < n → (t k).In (-2 ^ 103) (2 ^ 103)) :
    (avg n t).In (-2 ^ 103) (2 ^ 103) := by
  obtain ⟨v, -, hv, h1, h2⟩ := (sumTo_in t hn h).exists_in
  have hp : (0 : ℝ) < n := by exact_mod_cast h0
  obtain ⟨z, e⟩ := Fl.div_eq (N := E.near32) hv (ofInt_is hn) hp.ne'
  have hp' := has_p103 103 (by norm_num)
  show (Fl.div E.near32 _ _).In _ _
  rw [e]
  exact Fl.round_in hp'.neg hp' (by rw [le_div_iff₀ hp]; linarith) (by rw [div_le_iff₀ hp]; linarith)

/-- The variance as computed is at least the square of each shift, divided by `n`, up to rounding; or it is infinite. -/
theorem avg_sq (t : Nat → Fl f32) (σ : Nat → ℝ) {n : Nat} (h0 : 0 < n) (hn : n ≤ 2 ^ 24) (h : ∀ k, k < n → (t k).Is (σ k)) :
    avg n (fun k => t k * t k) = .inf false ∨ ∃ v, (avg n (fun k => t k * t k)).Is v ∧ 0 ≤ v ∧
      ∀ k, k < n → σ k ^ 2 * (1 - ulp) ^ 2 / n - 1 / 2 ^ 149 ≤ v := by
  have hp : (0 : ℝ) < n := by exact_mod_cast h0
  have hp1 : (1 : ℝ) ≤ n := by exact_mod_cast h0
  have hq : ∀ k, k < n → (t k * t k).AtLeast (E.near32.near (σ k * σ k)) ∧ 0 ≤ E.near32.near (σ k * σ k) := fun k hk => by
    obtain ⟨z, e⟩ := Fl.mul_eq (N := E.near32) (h k hk) (h k hk)
    have := E.near32.le_near has0.1 (mul_self_nonneg (σ k))
    refine ⟨?_, this⟩
    show (Fl.mul _ _ _).AtLeast _
    rw [e]
    exact Fl.round_atLeast this le_rfl
  obtain ⟨h1, h2⟩ := sumTo_atLeast (fun k => t k * t k) (fun k => E.near32.near (σ k * σ k)) (fun k hk => (hq k hk).2) fun k hk => (hq k hk).1
  have hN := ofInt_is (E := E) hn
  rcases h1 with h1 | ⟨v, hv, v0⟩
  · left
    show Fl.div E.near32 _ _ = _
    rw [h1]
    revert hN
    show (Fl.round E.near32 false (n : ℤ)).Is n → Fl.div _ _ (Fl.round E.near32 false (n : ℤ)) = _
    intro hN
    cases e : Fl.round E.near32 false ((n : ℤ) : ℝ) with
    | fin s u hu =>
      rw [e] at hN
      obtain rfl : u = n := le_antisymm hN.2 hN.1
      cases s
      · rfl
      · exact absurd (hu.2.2.1 rfl) (not_le.mpr hp)
    | inf s => rw [e] at hN; exact hN.elim
    | nan => rw [e] at hN; exact hN.elim
  · right
    obtain ⟨z, e⟩ := Fl.div_eq (N := E.near32) hv hN hp.ne'
    have hvn : v / n ≤ v := div_le_self v0 hp1
    have hvn0 : 0 ≤ v / n := div_nonneg v0 hp.le
    have hr : (avg n (fun k => t k * t k)).In 0 v := by
      show (Fl.div E.near32 _ _).In _ _
      rw [e]
      exact Fl.round_in has0 hv.has hvn0 hvn
    obtain ⟨w, -, hw, w0, -⟩ := hr.exists_in
    have hwn : w = E.near32.near (v / n) := by
      have : (Fl.round E.near32 z (v / n)).Is w := by rw [← e]; exact hw
      exact Fl.round_val this
    refine ⟨w, hw, w0, fun k hk => ?_⟩
    have hvt : v < 2 ^ 128 := by have := hv.has.2; rw [top32, abs_of_nonneg v0] at this; exact this
    have hkv : E.near32.near (σ k * σ k) ≤ v := by
      rcases h2 k hk with h3 | ⟨v', hv', h3⟩
      · have := hv; rw [h3] at this; exact this.elim
      · rwa [hv.unique hv']
    have hs : σ k * σ k < 2 ^ 128 := by
      by_contra hc
      have htop : (2 : ℝ) ^ 128 ∈ f32.grid := grid_nat (2 ^ 24) 104 (by norm_num) (by norm_num [f32]) (by norm_num [f32]) (by norm_num [f32])
      have := E.near32.le_near htop (not_lt.mp hc)
      linarith
    have hs0 := mul_self_nonneg (σ k)
    have e1 := E.near32.err32 (x := σ k * σ k) (by rw [abs_of_nonneg hs0]; exact hs)
    have e2 := E.near32.err32 (x := v / n) (by rw [abs_of_nonneg hvn0]; linarith)
    rw [abs_of_nonneg hs0] at e1
    rw [abs_of_nonneg hvn0, ← hwn] at e2
    have e1 := (abs_le.mp e1).2
    have e2 := (abs_le.mp e2).2
    have hu : ulp = 1 / 2 ^ 24 := rfl
    have e3 : σ k ^ 2 * (1 - ulp) - 1 / 2 ^ 150 ≤ v := by rw [hu]; nlinarith
    have e4 : v / n * (1 - ulp) - 1 / 2 ^ 150 ≤ w := by rw [hu]; linarith
    have e5 : (σ k ^ 2 * (1 - ulp) - 1 / 2 ^ 150) / n ≤ v / n := div_le_div_of_nonneg_right e3 hp.le
    have hu1 : (0 : ℝ) ≤ 1 - ulp := by rw [hu]; norm_num
    have hu2 : (1 : ℝ) - ulp ≤ 1 := by linarith [ulp_pos]
    have e6 := mul_le_mul_of_nonneg_right e5 hu1
    have e7 : (1 : ℝ) / 2 ^ 150 / n ≤ 1 / 2 ^ 150 := div_le_self (by positivity) hp1
    have e8 : (1 : ℝ) / 2 ^ 150 / n * (1 - ulp) ≤ 1 / 2 ^ 150 := by
      have : (0 : ℝ) ≤ 1 / 2 ^ 150 / n := by positivity
      nlinarith
    have e9 : (1 : ℝ) / 2 ^ 149 = 1 / 2 ^ 150 + 1 / 2 ^ 150 := by norm_num
    have e10 : (σ k ^ 2 * (1 - ulp) - 1 / 2 ^ 150) / n * (1 - ulp) = σ k ^ 2 * (1 - ulp) ^ 2 / n - 1 / 2 ^ 150 / n * (1 - ulp) := by
      field_simp
    rw [e10] at e6
    linarith


/-- The denominator of a standardized value: infinite, or positive and (up to rounding) at least each shift divided by `√n`. -/
theorem denominator (t : Nat → Fl f32) (σ : Nat → ℝ) {n : Nat} (h0 : 0 < n) (hn : n ≤ 2 ^ 24) (h : ∀ k, k < n → (t k).Is (σ k))
    {eps : Fl f32} {ε : ℝ} (he : eps.Is ε) (hε : 1 / 2 ^ 100 ≤ ε) :
    Flt.sqrt (avg n (fun k => t k * t k) + eps) = .inf false ∨ ∃ ω, (Flt.sqrt (avg n (fun k => t k * t k) + eps)).Is ω ∧ 0 < ω ∧
      ∀ k, k < n → |σ k| / ω ≤ Real.sqrt n * (1 + 6 * ulp) := by
  have hp : (0 : ℝ) < n := by exact_mod_cast h0
  have hε0 : 0 < ε := lt_of_lt_of_le (by positivity) hε
  have hinf : Flt.sqrt ((.inf false : Fl f32)) = .inf false := by show Fl.sqrt _ _ = _; simp [Fl.sqrt]
  rcases avg_sq t σ h0 hn h with h1 | ⟨v, hv, v0, hk⟩
  · left
    rw [h1]
    have : (Fl.inf false : Fl f32) + eps = .inf false := by
      show Fl.add _ _ _ = _
      cases eps with
      | fin s u hu => rfl
      | inf s => exact he.elim
      | nan => exact he.elim
    rw [this, hinf]
  · obtain ⟨z, e⟩ := Fl.add_eq (N := E.near32) hv he
    have e : avg n (fun k => t k * t k) + eps = Fl.round E.near32 z (v + ε) := e
    have hw1 := E.near32.le_near he.has.1 (show ε ≤ v + ε by linarith)
    rw [e]
    rcases Fl.round_atLeast (N := E.near32) (z := z) hε0.le hw1 with h2 | ⟨w, hw, hwε⟩
    · left; rw [h2, hinf]
    · right
      have hwn := Fl.round_val hw
      have hw0 : 0 < w := lt_of_lt_of_le hε0 hwε
      have hwt : w < 2 ^ 128 := by have := hw.has.2; rw [top32, abs_of_pos hw0] at this; exact this
      have hsum : v + ε < 2 ^ 128 := by
        by_contra hc
        have htop : (2 : ℝ) ^ 128 ∈ f32.grid := grid_nat (2 ^ 24) 104 (by norm_num) (by norm_num [f32]) (by norm_num [f32]) (by norm_num [f32])
        have := E.near32.le_near htop (not_lt.mp hc)
        linarith
      have hve : 0 ≤ v + ε := by linarith
      have e1 := E.near32.err_add (by norm_num [f32]) hv.has.1 he.has.1 (by rw [top32, abs_of_nonneg hve]; exact hsum)
      rw [abs_of_nonneg hve, ← hwn] at e1
      have hu : ulp = 1 / 2 ^ 24 := rfl
      have e1 : (v + ε) * (1 - ulp) ≤ w := by
        have := (abs_le.mp e1).2
        have h5 : (v + ε) / 2 ^ f32.prec = (v + ε) * ulp := by rw [hu]; show _ / (2 : ℝ) ^ 24 = _; ring
        rw [h5] at this
        linarith
      obtain ⟨z', e'⟩ := Fl.sqrt_eq (N := E.near32) hw hw0.le
      have hr0 : 0 < Real.sqrt w := Real.sqrt_pos.mpr hw0
      have hr50 : 1 / 2 ^ 50 ≤ Real.sqrt w := by
        rw [show (1 : ℝ) / 2 ^ 50 = Real.sqrt (1 / 2 ^ 100) by
          rw [show (1 : ℝ) / 2 ^ 100 = (1 / 2 ^ 50) ^ 2 by norm_num, Real.sqrt_sq (by positivity)]]
        exact Real.sqrt_le_sqrt (hε.trans hwε)
      have hr64 : Real.sqrt w ≤ 2 ^ 64 := by
        rw [show (2 : ℝ) ^ 64 = Real.sqrt (2 ^ 128) by
          rw [show (2 : ℝ) ^ 128 = (2 ^ 64) ^ 2 by norm_num, Real.sqrt_sq (by positivity)]]
        exact Real.sqrt_le_sqrt hwt.le
      have h64 := has_p103 64 (by norm_num)
      have hsq : (Flt.sqrt (Fl.round E.near32 z (v + ε))).In 0 (2 ^ 64) := by
        show (Fl.sqrt E.near32 _).In _ _
        rw [e']
        exact Fl.round_in has0 h64 hr0.le hr64
      obtain ⟨ω, -, hω, -, -⟩ := hsq.exists_in
      have hωn : ω = E.near32.near (Real.sqrt w) := by
        have : (Fl.round E.near32 z' (Real.sqrt w)).Is ω := by rw [← e']; exact hω
        exact Fl.round_val this
      have e2 := E.near32.err32 (x := Real.sqrt w) (by rw [abs_of_pos hr0]; exact lt_of_le_of_lt hr64 (by norm_num))
      rw [abs_of_pos hr0, ← hωn] at e2
      have e2 := (abs_le.mp e2).2
      have e3 : Real.sqrt w * (1 - 5 / 4 * ulp) ≤ ω := by
        have : (1 : ℝ) / 2 ^ 150 ≤ Real.sqrt w * (1 / 4 * ulp) := by
          rw [hu]
          calc (1 : ℝ) / 2 ^ 150 ≤ 1 / 2 ^ 50 * (1 / 4 * (1 / 2 ^ 24)) := by norm_num
            _ ≤ _ := mul_le_mul_of_nonneg_right hr50 (by positivity)
        have h6 : Real.sqrt w / 2 ^ 24 = Real.sqrt w * ulp := by rw [hu]; ring
        rw [h6] at e2
        linarith
      have hc : (0 : ℝ) < 1 - 5 / 4 * ulp := by rw [hu]; norm_num
      have hω0 : 0 < ω := lt_of_lt_of_le (mul_pos hr0 hc) e3
      refine ⟨ω, hω, hω0, fun k hkn => ?_⟩
      have hu1 : (0 : ℝ) ≤ 1 - ulp := by rw [hu]; norm_num
      have h7 : σ k ^ 2 * (1 - ulp) ^ 3 / n ≤ w := by
        have h8 : σ k ^ 2 * (1 - ulp) ^ 2 / n ≤ v + ε := by
          have := hk k hkn
          have : (1 : ℝ) / 2 ^ 149 ≤ 1 / 2 ^ 100 := by norm_num
          linarith
        have := mul_le_mul_of_nonneg_right h8 hu1
        have h9 : σ k ^ 2 * (1 - ulp) ^ 2 / n * (1 - ulp) = σ k ^ 2 * (1 - ulp) ^ 3 / n := by ring
        linarith
      rw [div_le_iff₀ hω0]
      have hs0 : 0 < Real.sqrt n := Real.sqrt_pos.mpr hp
      have hn2 : Real.sqrt n ^ 2 = n := Real.sq_sqrt hp.le
      have hw2 : Real.sqrt w ^ 2 = w := Real.sq_sqrt hw0.le
      have hup := ulp_pos
      refine le_trans ?_ (mul_le_mul_of_nonneg_left e3 (by positivity))
      refine abs_le.mpr (abs_le_of_sq_le_sq' ?_ (by positivity))
      rw [show (Real.sqrt n * (1 + 6 * ulp) * (Real.sqrt w * (1 - 5 / 4 * ulp))) ^ 2 =
        Real.sqrt n ^ 2 * Real.sqrt w ^ 2 * ((1 + 6 * ulp) * (1 - 5 / 4 * ulp)) ^ 2 by ring, hn2, hw2]
      have h10 : σ k ^ 2 * (1 - ulp) ^ 3 ≤ n * w := by rw [div_le_iff₀ hp] at h7; linarith
      have h11 : (1 : ℝ) ≤ (1 - ulp) ^ 3 * ((1 + 6 * ulp) * (1 - 5 / 4 * ulp)) ^ 2 := by rw [hu]; norm_num
      have h12 := mul_le_mul_of_nonneg_right h10 (sq_nonneg ((1 + 6 * ulp) * (1 - 5 / 4 * ulp)))
      have h13 := mul_le_mul_of_nonneg_left h11 (sq_nonneg (σ k))
      linarith

/-- Standardized values are finite, of magnitude at most `√n (1 + 2^-21)`, and in the order of the numbers. -/
theorem standardize_ok (t : Nat → Fl f32) (r : Nat → ℝ) {n : Nat} (h0 : 0 < n) (hn : n ≤ 2 ^ 24) (h : ∀ k, k < n → (t k).Is (r k))
    (hr : ∀ k, k < n → |r k| ≤ 2 ^ 103) {eps : Fl f32} {ε : ℝ} (he : eps.Is ε) (hε : 1 / 2 ^ 100 ≤ ε) :
    ∃ w : Nat → ℝ, (∀ k, k < n → (standardize (t k) (avg n t) (avg n fun j => (t j - avg n t) * (t j - avg n t)) eps).Is (w k) ∧
      |w k| ≤ Real.sqrt n * (1 + 1 / 2 ^ 21)) ∧ ∀ j k, j < n → k < n → r j ≤ r k → w j ≤ w k := by
  have hin : ∀ k, k < n → (t k).In (-2 ^ 103) (2 ^ 103) := fun k hk => (h k hk).mono (abs_le.mp (hr k hk)).1 (abs_le.mp (hr k hk)).2
  obtain ⟨μ, -, hμ, m1, m2⟩ := (avg_in t h0 hn hin).exists_in
  have h104 := has_p103 104 (by norm_num)
  have hsub : ∀ k, k < n → (t k - avg n t).Is (E.near32.near (r k - μ)) := fun k hk => by
    obtain ⟨z, e⟩ := Fl.sub_eq (N := E.near32) (h k hk) hμ
    have hb := abs_le.mp (hr k hk)
    show (Fl.sub E.near32 _ _).Is _
    rw [e]
    obtain ⟨v, -, hv, -, -⟩ := (Fl.round_in (N := E.near32) (z := z) (v := r k - μ) h104.neg h104 (by
      have : (2 : ℝ) ^ 104 = 2 ^ 103 + 2 ^ 103 := by norm_num
      linarith) (by
      have : (2 : ℝ) ^ 104 = 2 ^ 103 + 2 ^ 103 := by norm_num
      linarith)).exists_in
    have := Fl.round_val hv
    rw [← this]; exact hv
  have hp : (0 : ℝ) < n := by exact_mod_cast h0
  have hs1 : 1 ≤ Real.sqrt n := by rw [← Real.sqrt_one]; exact Real.sqrt_le_sqrt (by exact_mod_cast h0)
  have hs2 : Real.sqrt n ≤ 2 ^ 12 := by
    rw [show (2 : ℝ) ^ 12 = Real.sqrt (2 ^ 24) by rw [show (2 : ℝ) ^ 24 = (2 ^ 12) ^ 2 by norm_num, Real.sqrt_sq (by positivity)]]
    exact Real.sqrt_le_sqrt (by exact_mod_cast hn)
  rcases denominator (fun k => t k - avg n t) (fun k => E.near32.near (r k - μ)) h0 hn hsub he hε with hd | ⟨ω, hω, ω0, hb⟩
  · refine ⟨fun _ => 0, fun k hk => ⟨?_, by rw [abs_zero]; positivity⟩, fun _ _ _ _ _ => le_rfl⟩
    show (Fl.div E.near32 (t k - avg n t) (Flt.sqrt _)).Is 0
    rw [hd]
    exact Fl.div_inf (hsub k hk) _ has0
  · refine ⟨fun k => E.near32.near (E.near32.near (r k - μ) / ω), fun k hk => ?_, fun j k _ _ hjk =>
      E.near32.near_mono (div_le_div_of_nonneg_right (E.near32.near_mono (by linarith)) ω0.le)⟩
    obtain ⟨z, e⟩ := Fl.div_eq (N := E.near32) (hsub k hk) hω ω0.ne'
    have hq := hb k hk
    dsimp only
    generalize E.near32.near (r k - μ) = q at *
    have hq' : |q / ω| ≤ Real.sqrt n * (1 + 6 * ulp) := by rw [abs_div, abs_of_pos ω0]; exact hq
    have hu : ulp = 1 / 2 ^ 24 := rfl
    have hbig : |q / ω| ≤ 2 ^ 13 := by
      refine hq'.trans ?_
      rw [hu]; nlinarith
    have h13 := has_p103 13 (by norm_num)
    obtain ⟨v, -, hv, -, -⟩ := (Fl.round_in (N := E.near32) (z := z) (v := q / ω) h13.neg h13 (abs_le.mp hbig).1 (abs_le.mp hbig).2).exists_in
    have hvn := Fl.round_val hv
    refine ⟨?_, ?_⟩
    · show (Fl.div E.near32 (t k - avg n t) (Flt.sqrt _)).Is _
      have e : Fl.div E.near32 (t k - avg n t) (Flt.sqrt (avg n (fun j => (t j - avg n t) * (t j - avg n t)) + eps)) = _ := e
      rw [e, ← hvn]; exact hv
    · have e1 := E.near32.err32 (x := q / ω) (lt_of_le_of_lt hbig (by norm_num))
      have e2 := abs_sub_abs_le_abs_sub (E.near32.near (q / ω)) (q / ω)
      rw [abs_sub_comm (E.near32.near (q / ω))] at e2
      have e3 : |q / ω| / 2 ^ 24 ≤ Real.sqrt n * (1 + 6 * ulp) / 2 ^ 24 := div_le_div_of_nonneg_right hq' (by positivity)
      rw [hu] at hq' e3
      have e4 : (1 : ℝ) / 2 ^ 150 ≤ Real.sqrt n * (1 / 2 ^ 40) := by
        have : (1 : ℝ) / 2 ^ 150 ≤ 1 * (1 / 2 ^ 40) := by norm_num
        exact this.trans (mul_le_mul_of_nonneg_right hs1 (by positivity))
      have e5 : Real.sqrt n * (1 + 6 * (1 / 2 ^ 24)) + Real.sqrt n * (1 + 6 * (1 / 2 ^ 24)) / 2 ^ 24 + Real.sqrt n * (1 / 2 ^ 40) ≤ Real.sqrt n * (1 + 1 / 2 ^ 21) := by
        nlinarith
      linarith


/-! ### The mean -/

theorem avg_appr (t : Nat → Fl f32) (r : Nat → ℝ) {n : Nat} (h0 : 0 < n) (hn : n ≤ 2 ^ 24) (h : ∀ k, k < n → (t k).Is (r k))
    (hm : (1 + ulp) ^ (n - 1) * ∑ j ∈ Finset.range n, |r j| ≤ maxF32) :
    ∃ w, (avg n t).Is w ∧ |w - (∑ j ∈ Finset.range n, r j) / n| ≤ ((1 + ulp) ^ n - 1) * (∑ j ∈ Finset.range n, |r j|) / n + 1 / 2 ^ 150 := by
  obtain ⟨v, hv, h1, h2⟩ := sumTo_appr (k := 0) t r (fun j => |r j|) h0 (fun j hj => Fl.Appr.of_is (h j hj)) (by rw [Nat.zero_add]; exact hm)
  rw [Nat.zero_add] at h1
  generalize ∑ j ∈ Finset.range n, r j = S at *
  generalize ∑ j ∈ Finset.range n, |r j| = A at *
  have hp : (0 : ℝ) < n := by exact_mod_cast h0
  have hp1 : (1 : ℝ) ≤ n := by exact_mod_cast h0
  have hA : 0 ≤ A := (abs_nonneg S).trans h2
  have hK : (1 + ulp) ^ n = (1 + ulp) ^ (n - 1) * (1 + ulp) := by rw [← pow_succ]; congr 1; omega
  rw [hK]
  generalize (1 + ulp) ^ (n - 1) = K at *
  have hvA : |v| ≤ K * A := by
    have := abs_sub_abs_le_abs_sub v S
    linarith
  have hvm := hv.has.2
  rw [top32] at hvm
  have hle : |v / n| ≤ |v| := by rw [abs_div, abs_of_pos hp]; exact div_le_self (abs_nonneg v) hp1
  obtain ⟨z, e⟩ := Fl.div_eq (N := E.near32) hv (ofInt_is hn) hp.ne'
  have hin : (Fl.round E.near32 z (v / n)).In (-|v|) |v| := by
    have hh : f32.Has |v| := by
      rcases abs_choice v with e | e <;> rw [e]
      exacts [hv.has, hv.has.neg]
    exact Fl.round_in hh.neg hh (abs_le.mp hle).1 (abs_le.mp hle).2
  obtain ⟨w, -, hw, -, -⟩ := hin.exists_in
  refine ⟨w, by show (Fl.div E.near32 _ _).Is w; rw [e]; exact hw, ?_⟩
  have hwn := Fl.round_val hw
  have e1 := E.near32.err32 (x := v / n) (lt_of_le_of_lt hle hvm)
  rw [← hwn, abs_div v, abs_of_pos hp] at e1
  have e2 : |v / n - S / n| ≤ (K - 1) * A / n := by
    rw [← sub_div, abs_div, abs_of_pos hp]
    exact div_le_div_of_nonneg_right h1 hp.le
  have e3 : |v| / n / 2 ^ 24 ≤ K * A / n * ulp := by
    have : |v| / n / 2 ^ 24 = |v| / n * ulp := by unfold ulp; ring
    rw [this]
    exact mul_le_mul_of_nonneg_right (div_le_div_of_nonneg_right hvA hp.le) ulp_pos.le
  have e4 := abs_sub_le w (v / n) (S / n)
  rw [abs_sub_comm w (v / n)] at e4
  have e5 : (K * (1 + ulp) - 1) * A / n = (K - 1) * A / n + K * A / n * ulp := by ring
  rw [e5]
  linarith

/-! ### Batches without variance, and sums that overflow -/

theorem avg_zero (t : Nat → Fl f32) {n : Nat} (h0 : 0 < n) (hn : n ≤ 2 ^ 24) (h : ∀ k, k < n → (t k).Is 0) : (avg n t).Is 0 := by
  have h1 := (sumTo_int t (fun _ => 0) (fun _ => 0) (n := n) (fun j hj => ⟨by rw [Int.cast_zero]; exact h j hj, by simp⟩) (by simp)).1
  rw [Finset.sum_const_zero, Int.cast_zero] at h1
  have hp : (n : ℝ) ≠ 0 := by exact_mod_cast h0.ne'
  obtain ⟨z, e⟩ := Fl.div_eq (N := E.near32) h1 (ofInt_is hn) hp
  show (Fl.div E.near32 _ _).Is 0
  rw [e, zero_div]
  exact Fl.round_in has0 has0 le_rfl le_rfl

theorem avg_one (t : Nat → Fl f32) {v : ℝ} (h : (t 0).Is v) : (avg 1 t).Is v := by
  have h1 : (sumTo 1 t).Is v := by
    obtain ⟨w, hw, h1, -⟩ := sumTo_appr (k := 0) t (fun _ => v) (fun _ => |v|) (n := 1) one_pos (fun j hj => by
      obtain rfl : j = 0 := by omega
      exact Fl.Appr.of_is h) (by
        have := Fl.Is.has h
        simp only [Nat.zero_add, Nat.sub_self, pow_zero, one_mul, Finset.sum_range_one]
        exact this.le_max)
    simp at h1
    rwa [← sub_eq_zero.mp h1]
  obtain ⟨z, e⟩ := Fl.div_eq (N := E.near32) h1 (ofInt_is (E := E) (n := 1) (by norm_num)) (by norm_num)
  show (Fl.div E.near32 _ _).Is v
  rw [e, Nat.cast_one, div_one]
  exact Fl.round_in h.has h.has le_rfl le_rfl

/-- Numbers that all equal their mean are standardized to 0 or, if `ε = 0`, to NaN. -/
theorem standardize_const (t : Nat → Fl f32) {n : Nat} (h0 : 0 < n) (hn : n ≤ 2 ^ 24) {v : ℝ} (h : ∀ k, k < n → (t k).Is v) (hm : (avg n t).Is v)
    {eps : Fl f32} {ε : ℝ} (he : eps.Is ε) {k : Nat} (hk : k < n) :
    (1 / 2 ^ 100 ≤ ε → (standardize (t k) (avg n t) (avg n fun j => (t j - avg n t) * (t j - avg n t)) eps).Is 0) ∧
    (ε = 0 → standardize (t k) (avg n t) (avg n fun j => (t j - avg n t) * (t j - avg n t)) eps = .nan) := by
  have hs : ∀ j, j < n → (t j - avg n t).Is 0 := fun j hj => by
    obtain ⟨z, e⟩ := Fl.sub_eq (N := E.near32) (h j hj) hm
    show (Fl.sub E.near32 _ _).Is 0
    rw [e, sub_self]
    exact Fl.round_in has0 has0 le_rfl le_rfl
  refine ⟨fun hε => ?_, ?_⟩
  · rcases denominator (fun k => t k - avg n t) (fun _ => 0) h0 hn hs he hε with hd | ⟨ω, hω, ω0, -⟩
    · show (Fl.div E.near32 (t k - avg n t) (Flt.sqrt _)).Is 0
      rw [hd]
      exact Fl.div_inf (hs k hk) _ has0
    · obtain ⟨z, e⟩ := Fl.div_eq (N := E.near32) (hs k hk) hω ω0.ne'
      show (Fl.div E.near32 (t k - avg n t) (Flt.sqrt _)).Is 0
      rw [e, zero_div]
      exact Fl.round_in has0 has0 le_rfl le_rfl
  · rintro rfl
    have hv : (avg n fun j => (t j - avg n t) * (t j - avg n t)).Is 0 := avg_zero _ h0 hn fun j hj => Fl.mul_is_zero (hs j hj).finite (hs j hj) has0
    obtain ⟨z, e⟩ := Fl.add_eq (N := E.near32) hv he
    have h1 : ((avg n fun j => (t j - avg n t) * (t j - avg n t)) + eps).Is 0 := by
      show (Fl.add E.near32 _ _).Is 0
      rw [e, zero_add]
      exact Fl.round_in has0 has0 le_rfl le_rfl
    obtain ⟨z, e⟩ := Fl.sqrt_eq (N := E.near32) h1 le_rfl
    have h2 : (Flt.sqrt ((avg n fun j => (t j - avg n t) * (t j - avg n t)) + eps)).Is 0 := by
      show (Fl.sqrt E.near32 _).Is 0
      rw [e, Real.sqrt_zero]
      exact Fl.round_in has0 has0 le_rfl le_rfl
    exact (Fl.div_zero_eq (N := E.near32) h2).1 (hs k hk)

theorem ofInt_pos {n : Nat} (h0 : 0 < n) (hn : n ≤ 2 ^ 24) : Fl.div E.near32 (.inf false) (Flt.ofInt (n : Int) : Fl f32) = .inf false := by
  have hN := ofInt_is (E := E) hn
  cases e : (Flt.ofInt (n : Int) : Fl f32) with
  | fin s u hu =>
    rw [e] at hN
    obtain rfl : u = n := le_antisymm hN.2 hN.1
    cases s
    · rfl
    · exact absurd (hu.2.2.1 rfl) (not_le.mpr (by exact_mod_cast h0))
  | inf s => rw [e] at hN; exact hN.elim
  | nan => rw [e] at hN; exact hN.elim

/-- Finite numbers whose sum overflows are standardized to NaN. -/
theorem standardize_overflow (t : Nat → Fl f32) {n : Nat} (h0 : 0 < n) (hn : n ≤ 2 ^ 24) (h : ∀ k, k < n → (t k).Finite) (hm : sumTo n t = .inf false)
    (eps : Fl f32) {k : Nat} (hk : k < n) :
    standardize (t k) (avg n t) (avg n fun j => (t j - avg n t) * (t j - avg n t)) eps = .nan := by
  have ha : avg n t = .inf false := by
    show Fl.div E.near32 _ _ = _
    rw [hm]; exact ofInt_pos h0 hn
  have hs : ∀ j, j < n → t j - avg n t = .inf true := fun j hj => by
    rw [ha]
    show Fl.add _ _ (Fl.neg _) = _
    have := h j hj
    cases e : t j with
    | fin s u hu => rfl
    | inf s => rw [e] at this; exact this.elim
    | nan => rw [e] at this; exact this.elim
  have hq : ∀ j, j < n → ((t j - avg n t) * (t j - avg n t)).AtLeast ((2 : ℝ) ^ 128) := fun j hj => by
    rw [hs j hj]; exact .inl rfl
  have hsum : sumTo n (fun j => (t j - avg n t) * (t j - avg n t)) = .inf false := by
    rcases (sumTo_atLeast _ (fun _ => (2 : ℝ) ^ 128) (fun _ _ => by positivity) hq).2 0 h0 with e | ⟨v, hv, h1⟩
    · exact e
    · have h2 := hv.has.2
      rw [top32] at h2
      exact absurd ((le_abs_self v).trans_lt h2) (not_lt.mpr h1)
  have hv : avg n (fun j => (t j - avg n t) * (t j - avg n t)) = .inf false := by
    show Fl.div E.near32 _ _ = _
    rw [hsum]; exact ofInt_pos h0 hn
  show Fl.div E.near32 (t k - avg n t) (Fl.sqrt E.near32 (Fl.add E.near32 _ eps)) = _
  rw [hs k hk, hv]
  cases eps with
  | fin s u hu => simp [Fl.add, Fl.sqrt, Fl.div]
  | inf s => cases s <;> simp [Fl.add, Fl.sqrt, Fl.div]
  | nan => rfl

theorem sumTo_two_overflow (t : Nat → Fl f32) {v w : ℝ} (h0 : (t 0).Is v) (h1 : (t 1).Is w) (hv : 2 ^ 127 ≤ v) (hw : 2 ^ 127 ≤ w) :
    sumTo 2 t = .inf false := by
  have e0 : (sumTo 1 t).Is v := by
    show (Fl.add E.near32 _ _).Is v
    obtain ⟨z, e⟩ := Fl.add_eq (N := E.near32) (zero_is (E := E)) h0
    have e : Fl.add E.near32 (0 : Fl f32) (t 0) = _ := e
    rw [show (foldN 0 (fun j a => a + t j) (0 : Fl f32)) = 0 from rfl, e, zero_add]
    exact Fl.round_in h0.has h0.has le_rfl le_rfl
  obtain ⟨z, e⟩ := Fl.add_eq (N := E.near32) e0 h1
  show Fl.add E.near32 (sumTo 1 t) (t 1) = _
  rw [e]
  have htop : (2 : ℝ) ^ 128 ∈ f32.grid := grid_nat (2 ^ 24) 104 (by norm_num) (by norm_num [f32]) (by norm_num [f32]) (by norm_num [f32])
  have h2 := E.near32.le_near htop (show (2 : ℝ) ^ 128 ≤ v + w by
    have : (2 : ℝ) ^ 128 = 2 ^ 127 + 2 ^ 127 := by norm_num
    linarith)
  rcases Fl.round_atLeast (N := E.near32) (z := z) (by positivity) h2 with h3 | ⟨u, hu, h3⟩
  · exact h3
  · have h4 := hu.has.2
    rw [top32] at h4
    exact absurd ((le_abs_self u).trans_lt h4) (not_lt.mpr h3)

/-! ### Scaling with gamma and beta -/

/-- `γ x + β`. -/
theorem affine_ok {g x b : Fl f32} {γ ξ β R : ℝ} (hg : g.Is γ) (hx : x.Is ξ) (hb : b.Is β) (hR : 0 ≤ R) (hξ : |ξ| ≤ R * (1 + 1 / 2 ^ 21))
    (hbig : |γ| * R + |β| ≤ 2 ^ 126) :
    (g * x + b).Is (E.near32.near (E.near32.near (γ * ξ) + β)) ∧
      |E.near32.near (E.near32.near (γ * ξ) + β)| ≤ (|γ| * R + |β|) * (1 + 1 / 2 ^ 20) + 1 / 2 ^ 149 := by
  have hP : 0 ≤ |γ| * R := by positivity
  have hβ := abs_nonneg β
  have h1 : |γ * ξ| ≤ |γ| * R * (1 + 1 / 2 ^ 21) := by
    rw [abs_mul, mul_assoc]; exact mul_le_mul_of_nonneg_left hξ (abs_nonneg γ)
  generalize |γ| * R = P at *
  have hmax : (2 : ℝ) ^ 127 ≤ maxF32 := by unfold maxF32; norm_num
  have h2 : |γ * ξ| ≤ 2 ^ 127 := h1.trans (by linarith)
  obtain ⟨z, e⟩ := Fl.mul_eq (N := E.near32) hg hx
  have hm : (Fl.mul E.near32 g x).Is (E.near32.near (γ * ξ)) := by
    rw [e]; exact Fl.Appr.round_is z (h2.trans hmax)
  have e1 := E.near32.err32 (x := γ * ξ) (lt_of_le_of_lt h2 (by norm_num))
  have e2 := abs_sub_abs_le_abs_sub (E.near32.near (γ * ξ)) (γ * ξ)
  rw [abs_sub_comm (E.near32.near (γ * ξ))] at e2
  obtain ⟨z', e'⟩ := Fl.add_eq (N := E.near32) hm hb
  have h3 : |E.near32.near (γ * ξ) + β| ≤ P * (1 + 1 / 2 ^ 21) * (1 + 1 / 2 ^ 24) + 1 / 2 ^ 150 + |β| := by
    have := abs_add_le (E.near32.near (γ * ξ)) β
    linarith
  generalize E.near32.near (γ * ξ) = q at *
  have hq : |q + β| ≤ 2 ^ 127 := by
    refine h3.trans ?_
    have : (1 : ℝ) / 2 ^ 150 ≤ 1 := by norm_num
    nlinarith
  refine ⟨?_, ?_⟩
  · show (Fl.add E.near32 (Fl.mul E.near32 g x) b).Is _
    rw [e']; exact Fl.Appr.round_is z' (hq.trans hmax)
  · have e3 := E.near32.err_add (by norm_num [f32]) hm.has.1 hb.has.1 (by rw [top32]; exact lt_of_le_of_lt hq (by norm_num))
    have e4 := abs_sub_abs_le_abs_sub (E.near32.near (q + β)) (q + β)
    rw [abs_sub_comm (E.near32.near (q + β))] at e4
    have e5 : |q + β| / 2 ^ f32.prec = |q + β| / 2 ^ 24 := rfl
    rw [e5] at e3
    have e6 : |q + β| / 2 ^ 24 ≤ (P * (1 + 1 / 2 ^ 21) * (1 + 1 / 2 ^ 24) + 1 / 2 ^ 150 + |β|) / 2 ^ 24 := div_le_div_of_nonneg_right h3 (by positivity)
    nlinarith

/-! ### Dropout -/

/-- The scale of a dropout. -/
theorem dropout_scale {rate : Fl f32} {ρ : ℝ} (hr : rate.Is ρ) (h0 : 0 ≤ ρ) (h1 : ρ < 1) :
    ∃ κ σ, (1 - rate).Is κ ∧ 0 < κ ∧ κ ≤ 1 ∧ (1 / (1 - rate)).Is σ ∧ 0 ≤ σ ∧ σ ≤ 2 ^ 24 ∧ |σ - 1 / (1 - ρ)| ≤ 1 / (1 - ρ) * (9 / 4 * ulp) := by
  have hu : ulp = 1 / 2 ^ 24 := rfl
  have hone : (1 : Fl f32).Is 1 := lit1_is
  obtain ⟨z, e⟩ := Fl.sub_eq (N := E.near32) hone hr
  have hgap := Fmt.grid_gap (F := f32) (by norm_num [f32]) hone.has.1 hr.has.1 (by linarith)
  have hgap : 1 / 2 ^ 24 ≤ 1 - ρ := by
    rw [abs_one, abs_of_pos (by linarith)] at hgap; exact hgap
  have h24 : f32.Has (1 / 2 ^ 24) := ⟨⟨1, -24, by norm_num [f32], by norm_num [f32], by norm_num [f32], by norm_num⟩, by rw [top32, abs_of_pos (by positivity)]; norm_num⟩
  have hin : (Fl.round E.near32 z (1 - ρ)).In (1 / 2 ^ 24) 1 := Fl.round_in h24 has1 hgap (by linarith)
  obtain ⟨κ, -, hκ, k1, k2⟩ := hin.exists_in
  have hκ' : (1 - rate).Is κ := by show (Fl.sub E.near32 _ _).Is κ; rw [e]; exact hκ
  have hκn := Fl.round_val hκ
  have k0 : 0 < κ := lt_of_lt_of_le (by positivity) k1
  have e1 := E.near32.err_add (a := 1) (b := -ρ) (by norm_num [f32]) hone.has.1 hr.has.neg.1 (by
    rw [top32, ← sub_eq_add_neg, abs_of_pos (by linarith)]; exact lt_of_le_of_lt (show 1 - ρ ≤ 1 by linarith) (by norm_num))
  rw [← sub_eq_add_neg, ← hκn, abs_of_pos (show (0 : ℝ) < 1 - ρ by linarith)] at e1
  have e1 : |1 - ρ - κ| ≤ (1 - ρ) * ulp := by rw [hu]; refine e1.trans (le_of_eq ?_); show _ / (2 : ℝ) ^ 24 = _; ring
  obtain ⟨z', e'⟩ := Fl.div_eq (N := E.near32) hone hκ' k0.ne'
  have i1 : 1 ≤ 1 / κ := by rw [le_div_iff₀ k0]; linarith
  have i2 : 1 / κ ≤ 2 ^ 24 := by rw [div_le_iff₀ k0]; linarith
  obtain ⟨σ, -, hσ, s1, s2⟩ := (Fl.round_in (N := E.near32) (z := z') has1 (has_p103 24 (by norm_num)) i1 i2).exists_in
  have hσn := Fl.round_val hσ
  refine ⟨κ, σ, hκ', k0, k2, by show (Fl.div E.near32 _ _).Is σ; rw [e']; exact hσ, by linarith, s2, ?_⟩
  have e2 := E.near32.err32 (x := 1 / κ) (by rw [abs_of_pos (by positivity)]; exact lt_of_le_of_lt i2 (by norm_num))
  rw [← hσn, abs_of_pos (show (0 : ℝ) < 1 / κ by positivity)] at e2
  have hq : 0 < 1 - ρ := by linarith
  have hκ2 : (1 - ρ) * (1 - ulp) ≤ κ := by have := (abs_le.mp e1).2; linarith
  have hT : 1 / κ ≤ 1 / (1 - ρ) * (1 + 17 / 16 * ulp) := by
    rw [div_le_iff₀ k0]
    have : 1 / (1 - ρ) * (1 + 17 / 16 * ulp) * ((1 - ρ) * (1 - ulp)) = (1 + 17 / 16 * ulp) * (1 - ulp) := by field_simp
    have h5 : (0 : ℝ) ≤ 1 / (1 - ρ) * (1 + 17 / 16 * ulp) := by have := ulp_pos; positivity
    have h6 := mul_le_mul_of_nonneg_left hκ2 h5
    rw [this] at h6
    refine le_trans ?_ h6
    rw [hu]; norm_num
  have hT' : 1 / (1 - ρ) * (1 - ulp) ≤ 1 / κ := by
    have h5 : κ ≤ (1 - ρ) * (1 + ulp) := by have := (abs_le.mp e1).1; linarith
    rw [le_div_iff₀ k0]
    have : 1 / (1 - ρ) * (1 - ulp) * ((1 - ρ) * (1 + ulp)) = (1 - ulp) * (1 + ulp) := by field_simp
    have h7 : (0 : ℝ) ≤ 1 / (1 - ρ) * (1 - ulp) := by
      have : (0 : ℝ) ≤ 1 - ulp := by rw [hu]; norm_num
      positivity
    have h6 := mul_le_mul_of_nonneg_left h5 h7
    rw [this] at h6
    nlinarith [ulp_pos]
  have hT1 : 1 ≤ 1 / (1 - ρ) := by rw [le_div_iff₀ hq]; linarith
  generalize 1 / (1 - ρ) = T at *
  generalize 1 / κ = y at *
  have e3 : y / 2 ^ 24 ≤ T * (1 + 17 / 16 * ulp) / 2 ^ 24 := div_le_div_of_nonneg_right hT (by positivity)
  obtain ⟨e4, e5⟩ := abs_le.mp e2
  rw [hu] at *
  refine abs_le.mpr ⟨?_, ?_⟩ <;> nlinarith

/-- A kept element. -/
theorem dropout_kept {x rate : Fl f32} {v ρ : ℝ} (hx : x.Is v) (hv : |v| ≤ 2 ^ 102) (hr : rate.Is ρ) (h0 : 0 ≤ ρ) (h1 : ρ < 1) :
    ∃ w, (x * (1 / (1 - rate))).Is w ∧ |w - v / (1 - ρ)| ≤ |v / (1 - ρ)| / 2 ^ 22 + 1 / 2 ^ 150 := by
  obtain ⟨κ, σ, -, -, -, hσ, s0, s1, s2⟩ := dropout_scale hr h0 h1
  obtain ⟨z, e⟩ := Fl.mul_eq (N := E.near32) hx hσ
  have hb : |v * σ| ≤ 2 ^ 126 := by
    rw [abs_mul, abs_of_nonneg s0, show (2 : ℝ) ^ 126 = 2 ^ 102 * 2 ^ 24 by norm_num]
    exact mul_le_mul hv s1 s0 (by positivity)
  have hmax : (2 : ℝ) ^ 126 ≤ maxF32 := by unfold maxF32; norm_num
  refine ⟨_, by show (Fl.mul E.near32 _ _).Is _; rw [e]; exact Fl.Appr.round_is z (hb.trans hmax), ?_⟩
  have e1 := E.near32.err32 (x := v * σ) (lt_of_le_of_lt hb (by norm_num))
  have hq : 0 < 1 - ρ := by linarith
  have e2 : |v * σ - v / (1 - ρ)| ≤ |v / (1 - ρ)| * (9 / 4 * ulp) := by
    rw [show v * σ - v / (1 - ρ) = v * (σ - 1 / (1 - ρ)) by ring, abs_mul, abs_div, abs_of_pos hq]
    refine (mul_le_mul_of_nonneg_left s2 (abs_nonneg v)).trans (le_of_eq ?_)
    ring
  have e3 := abs_sub_abs_le_abs_sub (v * σ) (v / (1 - ρ))
  have e4 := abs_sub_le (E.near32.near (v * σ)) (v * σ) (v / (1 - ρ))
  rw [abs_sub_comm (E.near32.near (v * σ)) (v * σ)] at e4
  have hT := abs_nonneg (v / (1 - ρ))
  generalize |v / (1 - ρ)| = T at *
  have hu : ulp = 1 / 2 ^ 24 := rfl
  rw [hu] at e2
  nlinarith

theorem Fl.add_comm {F : Fmt} (N : Near F) (x y : Fl F) : Fl.add N x y = Fl.add N y x := by
  cases x <;> cases y <;> simp only [Fl.add]
  · rw [Bool.and_comm, _root_.add_comm]
  · rename_i s t
    cases s <;> cases t <;> rfl

end
end Verif
