import Verif.Param2
import Verif.FloatAcc2
import Verif.FloatAct
import Verif.FloatNorm

/-!
# Rounding error analysis: the operations on bounds are right
-/

set_option linter.unusedSectionVars false

namespace Verif
open Res

attribute [local instance] realFlt

theorem tiny_pos : 0 < tiny := by unfold tiny; positivity

theorem ulp_tiny : ulp * tiny = 1 / 2 ^ 150 := by unfold ulp tiny; norm_num

/-- One rounding. -/
theorem near_appr (N : Near f32) {w v K A : ℝ} (hK : 1 ≤ K) (h : |w - v| ≤ (K - 1) * A) (hv : |v| ≤ A) (hm : K * A ≤ maxF32) :
    |w| ≤ maxF32 ∧ |N.near w - v| ≤ (K * (1 + ulp) - 1) * (A + tiny) := by
  have hA : 0 ≤ A := (abs_nonneg v).trans hv
  have hw : |w| ≤ K * A := by
    have := abs_add_le (w - v) v
    rw [sub_add_cancel] at this
    linarith
  have hwm := hw.trans hm
  refine ⟨hwm, ?_⟩
  have h6 := N.err32 (x := w) (hwm.trans_lt maxF32_lt)
  have h7 : |w| / 2 ^ 24 = ulp * |w| := by unfold ulp; ring
  rw [h7, ← ulp_tiny] at h6
  have h8 : ulp * |w| ≤ ulp * (K * A) := mul_le_mul_of_nonneg_left hw ulp_pos.le
  have h9 := abs_sub_le (N.near w) w v
  rw [abs_sub_comm (N.near w) w] at h9
  have h10 : 0 ≤ (K * (1 + ulp) - 1 - ulp) * tiny := by
    have := ulp_pos
    have : 1 * (1 + ulp) ≤ K * (1 + ulp) := mul_le_mul_of_nonneg_right hK (by linarith)
    exact mul_nonneg (by linarith) tiny_pos.le
  nlinarith

namespace Fl.Appr
variable {N : Near f32} {x y : Fl f32} {v z A B : ℝ} {k l n : ℕ}

theorem base (k : ℕ) : (1 : ℝ) ≤ (1 + ulp) ^ k := one_le_pow₀ ulp_base

theorem mul' (hx : x.Appr v A k) (hy : y.Appr z B l) (hm : (1 + ulp) ^ (k + l) * (A * B) ≤ maxF32) :
    (Fl.mul N x y).Appr (v * z) (A * B + tiny) (k + l + 1) := by
  have hA := hx.nonneg
  have hB := hy.nonneg
  obtain ⟨a, ha, ha2, ha3⟩ := hx
  obtain ⟨b, hb, hb2, hb3⟩ := hy
  have hk := base k
  have hl := base l
  rw [pow_add] at hm
  have haK : |a| ≤ (1 + ulp) ^ k * A := by
    have := abs_add_le (a - v) v
    rw [sub_add_cancel] at this
    linarith
  have hvz : |v * z| ≤ A * B := by rw [abs_mul]; exact mul_le_mul ha3 hb3 (abs_nonneg _) hA
  have h1 : |a * b - v * z| ≤ ((1 + ulp) ^ k * (1 + ulp) ^ l - 1) * (A * B) := by
    have e : a * b - v * z = a * (b - z) + (a - v) * z := by ring
    rw [e]
    refine (abs_add_le _ _).trans ?_
    rw [abs_mul, abs_mul]
    have p1 : |a| * |b - z| ≤ (1 + ulp) ^ k * A * (((1 + ulp) ^ l - 1) * B) := mul_le_mul haK hb2 (abs_nonneg _) (by nlinarith)
    have p2 : |a - v| * |z| ≤ ((1 + ulp) ^ k - 1) * A * B := mul_le_mul ha2 hb3 (abs_nonneg _) (by nlinarith)
    linarith
  obtain ⟨s, e⟩ := Fl.mul_eq (N := N) ha hb
  obtain ⟨q1, q2⟩ := near_appr N (by nlinarith) h1 hvz hm
  rw [e]
  refine ⟨_, round_is s q1, ?_, hvz.trans (by linarith [tiny_pos])⟩
  rw [pow_succ, pow_add]
  exact q2

theorem div' (hx : x.Appr v A k) (hy : y.Is z) (hz : z ≠ 0) (hm : (1 + ulp) ^ k * (A / |z|) ≤ maxF32) :
    (Fl.div N x y).Appr (v / z) (A / |z| + tiny) (k + 1) := by
  obtain ⟨a, ha, ha2, ha3⟩ := hx
  have hz' : 0 < |z| := abs_pos.mpr hz
  have hv : |v / z| ≤ A / |z| := by rw [abs_div]; exact div_le_div_of_nonneg_right ha3 hz'.le
  have h1 : |a / z - v / z| ≤ ((1 + ulp) ^ k - 1) * (A / |z|) := by
    rw [← sub_div, abs_div, ← mul_div_assoc]
    exact div_le_div_of_nonneg_right ha2 hz'.le
  obtain ⟨s, e⟩ := Fl.div_eq (N := N) ha hy hz
  obtain ⟨q1, q2⟩ := near_appr N (base k) h1 hv hm
  rw [e]
  refine ⟨_, round_is s q1, ?_, hv.trans (by linarith [tiny_pos])⟩
  rw [pow_succ]
  exact q2

theorem neg' (hx : x.Appr v A k) : (Fl.neg x).Appr (-v) A k := by
  obtain ⟨a, ha, ha2, ha3⟩ := hx
  refine ⟨-a, neg_in ha, ?_, by rwa [abs_neg]⟩
  rw [show -a - -v = -(a - v) by ring, abs_neg]
  exact ha2

theorem abs_is (hx : x.Is v) : (Fl.abs x).Is |v| := by
  cases x with
  | fin s u hu => obtain rfl : u = v := le_antisymm hx.2 hx.1; exact ⟨le_rfl, le_rfl⟩
  | inf s => exact hx.elim
  | nan => exact hx.elim

theorem abs' (hx : x.Appr v A k) : (Fl.abs x).Appr |v| A k := by
  obtain ⟨a, ha, ha2, ha3⟩ := hx
  exact ⟨|a|, abs_is ha, (abs_abs_sub_abs_le a v).trans ha2, by rwa [abs_abs]⟩

theorem tanh' {L : Libm f32} {ε : ℝ} (hL : L.Accurate ε) (hx : x.Appr v A k) : (L.tanh x).Appr (Real.tanh v) (A + ε * 2 ^ 24) (k + 1) := by
  have hA := hx.nonneg
  obtain ⟨a, ha, ha2, ha3⟩ := hx
  obtain ⟨w, h1, h2⟩ := hL.tanh x a ha
  have hε : 0 ≤ ε := (abs_nonneg _).trans h2
  have h3 := tanh_lip a v
  have h4 := tanh_lip v 0
  rw [Real.tanh_zero, sub_zero, sub_zero] at h4
  refine ⟨w, h1, ?_, by nlinarith⟩
  have h5 := abs_sub_le w (Real.tanh a) (Real.tanh v)
  have hk := base k
  have hu : ulp * (ε * 2 ^ 24) = ε := by unfold ulp; ring
  have h6 : ulp * (ε * 2 ^ 24) ≤ ((1 + ulp) ^ (k + 1) - 1) * (ε * 2 ^ 24) := by
    refine mul_le_mul_of_nonneg_right ?_ (by positivity)
    rw [pow_succ]
    nlinarith [ulp_pos]
  have h7 : ((1 + ulp) ^ k - 1) * A ≤ ((1 + ulp) ^ (k + 1) - 1) * A := by
    refine mul_le_mul_of_nonneg_right ?_ hA
    rw [pow_succ]
    nlinarith [ulp_pos]
  linarith

end Fl.Appr

/-- `x` is within the bound `a` of `v`, if there is a bound. -/
def Close (x : Fl f32) (v : ℝ) (a : Option Bound) : Prop :=
  ∀ t, a = some t → x.Appr v t.size t.ops ∧ ∀ c, t.exact = some c → x.Is c ∧ v = c

section
variable [E : Ieee] {x x' : Fl f32} {v v' : ℝ} {a b : Option Bound}

theorem close_of (h : x.Is v) : Close x v (Bound.of v) := by
  intro t ht
  cases ht
  exact ⟨.of_is h, fun c hc => by cases hc; exact ⟨h, rfl⟩⟩

theorem close_fit {A : ℝ} {k : ℕ} (h : (1 + ulp) ^ k * A ≤ maxF32 → x.Appr v A k) : Close x v (Bound.fit A k) := by
  intro t ht
  unfold Bound.fit at ht
  split at ht
  next hm =>
    cases ht
    exact ⟨h hm, fun c hc => by cases hc⟩
  · cases ht

/-- Bounds exist only if the operation on known bounds gives one. -/
theorem close_both {f : Bound → Bound → Option Bound} (h : ∀ s t, a = some s → b = some t → Close x v (f s t)) : Close x v (Bound.both f a b) := by
  cases a with
  | none => intro t ht; cases ht
  | some s =>
    cases b with
    | none => intro t ht; cases ht
    | some t => exact h s t rfl rfl

theorem add_zero_is {N : Near f32} {o y : Fl f32} {w : ℝ} (ho : o.Is 0) (hy : y.Is w) : (Fl.add N o y).Is w := by
  obtain ⟨s, e⟩ := Fl.add_eq (N := N) ho hy
  rw [e, zero_add]
  exact Fl.round_in hy.has hy.has le_rfl le_rfl

omit E in
theorem small_left {A B : ℝ} {k n : ℕ} (hB : 0 ≤ B) (hA : 0 ≤ A) (hk : k ≤ n) (hm : (1 + ulp) ^ n * (A + B) ≤ maxF32) : (1 + ulp) ^ k * A ≤ maxF32 :=
  (mul_le_mul (pow_le_pow_right₀ ulp_base hk) (by linarith) hA (by linarith [Fl.Appr.base n])).trans hm

theorem close_add (hx : Close x v a) (hy : Close x' v' b) : Close (Fl.add E.near32 x x') (v + v') (Bound.both Bound.add a b) := by
  refine close_both fun s t hs ht => ?_
  obtain ⟨h1, h2⟩ := hx s hs
  obtain ⟨h3, h4⟩ := hy t ht
  unfold Bound.add
  split
  next he =>
    obtain ⟨q1, rfl⟩ := h2 0 he
    intro t' e
    cases e
    rw [zero_add]
    exact ⟨.zero_add q1 h3, fun c hc => ⟨add_zero_is q1 (h4 c hc).1, (h4 c hc).2⟩⟩
  · refine close_fit fun hm => ?_
    refine Fl.Appr.add h1 h3 (Nat.le_max_left _ _) (Nat.le_max_right _ _) ?_
    exact (mul_le_mul_of_nonneg_right (pow_le_pow_right₀ ulp_base (Nat.le_succ _)) (add_nonneg h1.nonneg h3.nonneg)).trans hm

theorem close_sub (hx : Close x v a) (hy : Close x' v' b) : Close (Fl.sub E.near32 x x') (v - v') (Bound.both Bound.sub a b) := by
  refine close_both fun s t hs ht => close_fit fun hm => ?_
  obtain ⟨h1, h2⟩ := hx s hs
  obtain ⟨h3, h4⟩ := hy t ht
  rw [sub_eq_add_neg]
  refine Fl.Appr.add h1 h3.neg' (Nat.le_max_left _ _) (Nat.le_max_right _ _) ?_
  exact (mul_le_mul_of_nonneg_right (pow_le_pow_right₀ ulp_base (Nat.le_succ _)) (add_nonneg h1.nonneg h3.nonneg)).trans hm

theorem Fl.Is.one_eq (h : x.Is 1) : x = Fl.lit 1 Fl.one_ok zero_le_one := by
  cases x with
  | fin s u hu =>
    obtain rfl : u = 1 := le_antisymm h.2 h.1
    cases s with
    | false => rfl
    | true => exact absurd (hu.2.2.1 rfl) (by norm_num)
  | inf s => exact h.elim
  | nan => exact h.elim

theorem close_mul (hx : Close x v a) (hy : Close x' v' b) : Close (Fl.mul E.near32 x x') (v * v') (Bound.both Bound.mul a b) := by
  refine close_both fun s t hs ht => ?_
  obtain ⟨h1, h2⟩ := hx s hs
  obtain ⟨h3, h4⟩ := hy t ht
  unfold Bound.mul
  split
  next he =>
    obtain ⟨q1, rfl⟩ := h2 1 he
    intro t' e
    cases e
    rw [one_mul, q1.one_eq, Fl.mul_one_left]
    exact ⟨h3, h4⟩
  · split
    next he =>
      obtain ⟨q1, rfl⟩ := h4 1 he
      intro t' e
      cases e
      rw [mul_one, q1.one_eq, Fl.mul_one_right]
      exact ⟨h1, h2⟩
    · refine close_fit fun hm => ?_
      refine Fl.Appr.mul' h1 h3 (small_left tiny_pos.le (mul_nonneg h1.nonneg h3.nonneg) (Nat.le_succ _) hm)

theorem close_div (hx : Close x v a) (hy : Close x' v' b) : Close (Fl.div E.near32 x x') (v / v') (Bound.both Bound.div a b) := by
  refine close_both fun s t hs ht => ?_
  obtain ⟨h1, h2⟩ := hx s hs
  obtain ⟨h3, h4⟩ := hy t ht
  unfold Bound.div
  cases he : t.exact with
  | none => intro t' e; cases e
  | some c =>
    obtain ⟨q1, rfl⟩ := h4 c he
    simp only
    split
    · intro t' e; cases e
    next hc =>
      refine close_fit fun hm => ?_
      exact Fl.Appr.div' h1 q1 hc (small_left tiny_pos.le (div_nonneg h1.nonneg (abs_nonneg _)) (Nat.le_succ _) hm)

theorem close_neg (hx : Close x v a) : Close (Fl.neg x) (-v) (a.map Bound.neg) := by
  cases a with
  | none => intro t ht; cases ht
  | some s =>
    obtain ⟨h1, h2⟩ := hx s rfl
    intro t ht
    cases ht
    refine ⟨h1.neg', fun c hc => ?_⟩
    obtain ⟨c', e, rfl⟩ := Option.map_eq_some_iff.mp hc
    obtain ⟨q1, q2⟩ := h2 c' e
    exact ⟨Fl.neg_in q1, by rw [q2]⟩

theorem close_abs (hx : Close x v a) : Close (Fl.abs x) |v| (a.map Bound.abs) := by
  cases a with
  | none => intro t ht; cases ht
  | some s =>
    obtain ⟨h1, h2⟩ := hx s rfl
    intro t ht
    cases ht
    refine ⟨h1.abs', fun c hc => ?_⟩
    obtain ⟨c', e, rfl⟩ := Option.map_eq_some_iff.mp hc
    obtain ⟨q1, q2⟩ := h2 c' e
    exact ⟨Fl.Appr.abs_is q1, by rw [q2]⟩

theorem close_tanh {ε : ℝ} (hL : E.libm32.Accurate ε) (hx : Close x v a) : Close (E.libm32.tanh x) (Real.tanh v) (a.bind (Bound.tanh ε)) := by
  cases a with
  | none => intro t ht; cases ht
  | some s => exact close_fit fun _ => .tanh' hL (hx s rfl).1

theorem close_cent : Close (Fl.round E.near32 false (1 / 100)) (1 / 100) (some ⟨1 / 100 + tiny, 1, none⟩) := by
  intro t ht
  cases ht
  refine ⟨?_, fun c hc => by cases hc⟩
  obtain ⟨q1, q2⟩ := near_appr E.near32 (K := 1) (A := 1 / 100) (w := 1 / 100) (v := 1 / 100) le_rfl (by simp) (by rw [abs_of_pos]; norm_num)
    (by unfold maxF32; norm_num)
  refine ⟨_, Fl.Appr.round_is false q1, by rw [pow_one]; rw [one_mul] at q2; exact q2, ?_⟩
  have := tiny_pos
  rw [abs_of_pos] <;> norm_num
  exact this.le

theorem close_ofInt (n : ℤ) : Close (Fl.round E.near32 false n) n (if |n| ≤ 2 ^ 24 then Bound.of n else none) := by
  split
  next h => exact close_of (Fl.IsInt.round_int false h)
  · intro t ht; cases ht

/-- The factor of `prelu` has no bound that is known to be exact. -/
noncomputable def factor (t : Bound) : Option Bound := Bound.fit (1 + t.size) (Nat.max 0 t.ops + 1)

theorem prelu_real (v κ : ℝ) : Scalar.preluFw v κ = if 0 < v then v else v * κ := by
  show v * ((if decide (0 < v) = true then (1 : ℝ) else 0) + (if decide (v ≤ 0) = true then (1 : ℝ) else 0) * κ) = _
  by_cases h : 0 < v
  · simp [h, not_le.mpr h]
  · simp [h, not_lt.mp h]

theorem prelu_float {w κ : ℝ} {k : Fl f32} (hx : x.Is w) (hk : k.Is κ) :
    (0 < w ∧ Scalar.preluFw x k = x) ∨ (w ≤ 0 ∧ ∃ z, Scalar.preluFw x k = Fl.round E.near32 z (w * κ)) := by
  have e : Scalar.preluFw x k = Fl.mul E.near32 x (preluF E.near32 E.near64 E.libm32 E.libm64 x k) := rfl
  rw [e]
  cases x with
  | inf s => exact hx.elim
  | nan => exact hx.elim
  | fin s u hu =>
    obtain rfl : u = w := le_antisymm hx.2 hx.1
    by_cases h : 0 < u
    · refine .inl ⟨h, ?_⟩
      rw [preluF_pos (x := Fl.fin s u hu) hk h, Fl.mul_one_right]
    · refine .inr ⟨not_lt.mp h, ?_⟩
      exact Fl.mul_eq (N := E.near32) hx (preluF_nonPos (x := Fl.fin s u hu) hk (not_lt.mp h))

theorem prelu_appr {κ A K : ℝ} {n l : ℕ} {k : Fl f32} (hx : x.Appr v A n) (hk : k.Appr κ K l)
    (hm : (1 + ulp) ^ (n + l) * (A * (1 + K)) ≤ maxF32) :
    (Scalar.preluFw x k).Appr (Scalar.preluFw v κ) (A * (1 + K) + tiny) (n + l + 1) := by
  have hA := hx.nonneg
  have hK := hk.nonneg
  obtain ⟨w, hw, hw2, hw3⟩ := hx
  obtain ⟨r, hr, hr2, hr3⟩ := hk
  have hP := Fl.Appr.base n
  have hQ := Fl.Appr.base l
  rw [pow_add] at hm
  have hrQ : |r| ≤ (1 + ulp) ^ l * K := by
    have := abs_add_le (r - κ) κ
    rw [sub_add_cancel] at this
    linarith
  have hwP : |w| ≤ (1 + ulp) ^ n * A := by
    have := abs_add_le (w - v) v
    rw [sub_add_cancel] at this
    linarith
  unfold Fl.Appr
  rw [pow_succ, pow_add]
  generalize hPe : (1 + ulp) ^ n = P at *
  generalize hQe : (1 + ulp) ^ l = Q at *
  have hPQ : 1 ≤ P * Q := by nlinarith
  have hAK : 0 ≤ A * K := mul_nonneg hA hK
  have hPA : 0 ≤ (P - 1) * A := mul_nonneg (by linarith) hA
  have hvb : |Scalar.preluFw v κ| ≤ A * (1 + K) := by
    rw [prelu_real]
    split
    · nlinarith
    · rw [abs_mul]; nlinarith [mul_le_mul hw3 hr3 (abs_nonneg _) hA]
  have hbase : (P - 1) * A ≤ (P * Q - 1) * (A * (1 + K)) := by
    have : (P - 1) * A ≤ (P * Q - 1) * A := mul_le_mul_of_nonneg_right (by nlinarith) hA
    have : 0 ≤ (P * Q - 1) * (A * K) := mul_nonneg (by linarith) hAK
    nlinarith
  have hwide : (P * Q - 1) * (A * (1 + K)) ≤ (P * Q * (1 + ulp) - 1) * (A * (1 + K) + tiny) := by
    have hu := ulp_pos
    have h1 : P * Q - 1 ≤ P * Q * (1 + ulp) - 1 := by nlinarith
    exact mul_le_mul h1 (by linarith [tiny_pos]) (by nlinarith) (by linarith)
  have hcross : ∀ q, 0 ≤ q → |w - v| * (1 + q) ≤ (P - 1) * A * (1 + q) := fun q hq => mul_le_mul_of_nonneg_right hw2 (by linarith)
  rcases prelu_float hw hr with ⟨h0, e⟩ | ⟨h0, z, e⟩
  · rw [e]
    refine ⟨w, hw, le_trans ?_ hwide, hvb.trans (by linarith [tiny_pos])⟩
    rw [prelu_real]
    split
    · exact hw2.trans hbase
    next hv =>
      have hv := not_lt.mp hv
      have h1 : |w - v| = |w| + |v| := by rw [abs_of_nonneg (show 0 ≤ w - v by linarith), abs_of_pos h0, abs_of_nonpos hv]; ring
      have h2 : |w - v * κ| ≤ |w| + |v| * |κ| := by rw [← abs_mul]; exact abs_sub _ _
      have h3 : |v| * |κ| ≤ |v| * K := mul_le_mul_of_nonneg_left hr3 (abs_nonneg _)
      have h4 := hcross K hK
      have h5 : |w| + |v| * K ≤ |w - v| * (1 + K) := by rw [h1]; nlinarith [abs_nonneg w, abs_nonneg v]
      have h6 : (P - 1) * A * (1 + K) ≤ (P * Q - 1) * (A * (1 + K)) := by
        rw [mul_assoc]
        exact mul_le_mul_of_nonneg_right (by nlinarith) (by nlinarith)
      linarith
  · rw [e]
    have h1 : |w * r - Scalar.preluFw v κ| ≤ (P * Q - 1) * (A * (1 + K)) := by
      rw [prelu_real]
      split
      next hv =>
        have h1 : |w - v| = |w| + |v| := by rw [abs_of_nonpos (show w - v ≤ 0 by linarith), abs_of_nonpos h0, abs_of_pos hv]; ring
        have h2 : |w * r - v| ≤ |w| * |r| + |v| := by rw [← abs_mul]; exact abs_sub _ _
        have h3 : |w| * |r| ≤ |w| * (Q * K) := mul_le_mul_of_nonneg_left hrQ (abs_nonneg _)
        have hQK : 0 ≤ Q * K := mul_nonneg (by linarith) hK
        have h4 := hcross (Q * K) hQK
        have h5 : |w| * (Q * K) + |v| ≤ |w - v| * (1 + Q * K) := by rw [h1]; nlinarith [abs_nonneg w, abs_nonneg v]
        have h6 : (P - 1) * A * (1 + Q * K) ≤ (P * Q - 1) * (A * (1 + K)) := by
          have g1 : 0 ≤ P * (Q - 1) * A := mul_nonneg (mul_nonneg (by linarith) (by linarith)) hA
          have g2 : 0 ≤ (Q - 1) * (A * K) := mul_nonneg (by linarith) hAK
          nlinarith
        linarith
      next hv =>
        have e : w * r - v * κ = w * (r - κ) + (w - v) * κ := by ring
        rw [e]
        have p1 : |w| * |r - κ| ≤ P * A * ((Q - 1) * K) := mul_le_mul hwP hr2 (abs_nonneg _) (mul_nonneg (by linarith) hA)
        have p2 : |w - v| * |κ| ≤ (P - 1) * A * K := mul_le_mul hw2 hr3 (abs_nonneg _) hPA
        have p3 := abs_add_le (w * (r - κ)) ((w - v) * κ)
        rw [abs_mul, abs_mul] at p3
        have p4 : 0 ≤ (P * Q - 1) * A := mul_nonneg (by linarith) hA
        nlinarith
    obtain ⟨q1, q2⟩ := near_appr E.near32 hPQ h1 hvb hm
    exact ⟨_, Fl.Appr.round_is z q1, q2, hvb.trans (by linarith [tiny_pos])⟩

theorem close_prelu {ε : ℝ} {κ : ℝ} {k : Fl f32} (hx : Close x v a) (hk : Close k κ b) :
    Close (Scalar.preluFw x k) (Scalar.preluFw v κ) (@Scalar.preluFw _ (boundFlt ε) a b) := by
  have e : @Scalar.preluFw _ (boundFlt ε) a b = Bound.both Bound.mul a (Bound.both Bound.add (Bound.of 1) (Bound.both Bound.mul (Bound.of 1) b)) := rfl
  rw [e]
  cases a with
  | none => intro t ht; cases ht
  | some s =>
    cases b with
    | none => intro t ht; cases ht
    | some t =>
      obtain ⟨h1, h2⟩ := hx s rfl
      obtain ⟨h3, h4⟩ := hk t rfl
      have e1 : Bound.both Bound.mul (Bound.of 1) (some t) = some t := if_pos rfl
      have e2 : Bound.both Bound.add (Bound.of 1) (some t) = factor t := by
        refine (if_neg ?_).trans ?_
        · intro h; injection h with h; norm_num at h
        · show Bound.fit (|1| + t.size) _ = _
          rw [abs_one]; rfl
      rw [e1, e2]
      have hb : (factor t) = none ∨ (factor t) = some ⟨1 + t.size, t.ops + 1, none⟩ := by
        unfold factor Bound.fit
        split
        · right
          have : Nat.max 0 t.ops = t.ops := Nat.max_eq_right (Nat.zero_le _)
          rw [this]
        · exact .inl rfl
      rcases hb with e3 | e3
      · rw [e3]; intro t' ht; cases ht
      rw [e3]
      show Close _ _ (Bound.mul s _)
      unfold Bound.mul
      split
      next he =>
        obtain ⟨q1, rfl⟩ := h2 1 he
        intro t' ht
        cases ht
        refine ⟨?_, fun c hc => by cases hc⟩
        have hK := h3.nonneg
        obtain ⟨r, hr, -, -⟩ := h3
        rcases prelu_float q1 hr with ⟨_, e⟩ | ⟨h0, _⟩
        · rw [e, prelu_real, if_pos one_pos]
          refine ⟨1, q1, ?_, by rw [abs_one]; show (1 : ℝ) ≤ 1 + t.size; linarith⟩
          rw [sub_self, abs_zero]
          exact mul_nonneg (by linarith [Fl.Appr.base (t.ops + 1)]) (by show 0 ≤ 1 + t.size; linarith)
        · norm_num at h0
      · rw [if_neg (by simp)]
        refine close_fit fun hm => ?_
        have hA := h1.nonneg
        have hK := h3.nonneg
        have hp : 0 ≤ s.size * (1 + t.size) := mul_nonneg hA (by linarith)
        exact (prelu_appr h1 h3 (small_left tiny_pos.le hp (show s.ops + t.ops ≤ s.ops + (t.ops + 1) + 1 by omega) hm)).mono
          (show s.ops + t.ops + 1 ≤ s.ops + (t.ops + 1) + 1 by omega) le_rfl

/-- The operations on bounds are right. -/
theorem bounds_right {ε : ℝ} (hL : E.libm32.Accurate ε) : @Par (Fl f32) ℝ (Option Bound) ieeeFlt realFlt (boundFlt ε) Close :=
  letI := boundFlt ε
  { zero := close_of lit0_is
    add := fun _ _ _ _ _ _ h h' => close_add h h'
    mul := fun _ _ _ _ _ _ h h' => close_mul h h'
    sub := fun _ _ _ _ _ _ h h' => close_sub h h'
    div := fun _ _ _ _ _ _ h h' => close_div h h'
    neg := fun _ _ _ h => close_neg h
    abs := fun _ _ _ h => close_abs h
    tanh := fun _ _ _ h => close_tanh hL h
    half := close_of ⟨le_rfl, le_rfl⟩
    cent := close_cent
    ofInt := fun n => close_ofInt n
    prelu := fun _ _ _ _ _ _ h h' => close_prelu h h' }

theorem close_float (k : Fl f32) : Close k k.val (Bound.float k) := by
  cases k with
  | fin s u hu => exact close_of ⟨le_rfl, le_rfl⟩
  | inf s => intro t ht; cases ht
  | nan => intro t ht; cases ht

end
end Verif
