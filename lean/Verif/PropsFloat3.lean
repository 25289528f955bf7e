import Verif.FloatSum
import Verif.PropsFloat2
import Verif.PropsFw3

/-!
# C69: sums and matrix products in f32
-/

set_option linter.unusedSectionVars false
set_option linter.style.haveILetI false

namespace Verif
open Fmt Res Shape

section
variable [E : Ieee] {d : Nat} {x y : Tensor (Fl f32)} {s sx sy : Shape} {f g : Arr (Fl f32)} {r q : Arr ℝ} {z z' : Arr ℤ}

/-- The factor in the following bounds: `k` roundings cost at most `2 k 2^-24` up to `2^24` of them. -/
theorem C69_factor {k : ℕ} (hk : k ≤ 2 ^ 24) : (1 + ulp) ^ k - 1 ≤ 2 * k / 2 ^ 24 := by
  have h1 : (1 + ulp) ^ k ≤ Real.exp (k * ulp) := by
    rw [Real.exp_nat_mul]
    exact pow_le_pow_left₀ (by linarith [ulp_pos]) (by linarith [Real.add_one_le_exp ulp]) k
  have h2 : (k : ℝ) ≤ 2 ^ 24 := by exact_mod_cast hk
  have h3 : k * ulp ≤ 1 := by
    unfold ulp
    rw [mul_one_div]
    exact div_le_one_of_le₀ h2 (by positivity)
  have h0 : 0 ≤ k * ulp := mul_nonneg (Nat.cast_nonneg k) ulp_pos.le
  have h4 := Real.abs_exp_sub_one_sub_id_le (x := k * ulp) (by rw [abs_of_nonneg h0]; exact h3)
  have h5 := (abs_le.mp h4).2
  have h6 : (k * ulp) ^ 2 ≤ k * ulp := by nlinarith
  have h7 : 2 * k / 2 ^ 24 = 2 * (k * ulp) := by unfold ulp; ring
  linarith

/-- C69: `sum(dim)` of `n` numbers differs from the exact sum by at most `((1 + 2^-24)^(n-1) - 1) Σ |x|`, provided that `(1 + 2^-24)^(n-1) Σ |x|` does
not exceed the largest number. -/
theorem C69_sum (hx : x.Holds d sx f) (hf : ∀ c b, sx.Valid c b → (f c b).Is (r c b)) {dim : Nat} (hd : dim < 8)
    (hm : ∀ c b, sx.Valid c b → (1 + ulp) ^ (sx.get dim - 1) * ∑ j ∈ Finset.range (sx.get dim), |r (cset c dim j) b| ≤ maxF32)
    (p : Profile) (m : Nat → Fl f32) :
    ∃ (s : Shape) (g : Arr (Fl f32)) (w : Arr ℝ), s.Is (cset sx.get dim 1) sx.batch ∧ Yields (TF.sum p m x dim) d s g ∧ ∀ c b, s.Valid c b →
      (g c b).Is (w c b) ∧ |w c b - ∑ j ∈ Finset.range (sx.get dim), r (cset c dim j) b| ≤
        ((1 + ulp) ^ (sx.get dim - 1) - 1) * ∑ j ∈ Finset.range (sx.get dim), |r (cset c dim j) b| := by
  obtain ⟨s, hs, hy⟩ := C21_sum hx hd p m
  obtain ⟨g, w, h1, h2⟩ := with_val (P := fun c b w => |w - ∑ j ∈ Finset.range (sx.get dim), r (cset c dim j) b| ≤
        ((1 + ulp) ^ (sx.get dim - 1) - 1) * ∑ j ∈ Finset.range (sx.get dim), |r (cset c dim j) b|) hy fun c b hv => by
    have hv' := Valid.unreduced hs hx.wf hv
    obtain ⟨w, h1, h2, -⟩ := sumTo_appr (k := 0) (fun j => f (cset c dim j) b) (fun j => r (cset c dim j) b) (fun j => |r (cset c dim j) b|)
      (hx.wf.get_pos dim) (fun j hj => Fl.Appr.of_is (hf _ _ (Valid.cset hv' hj))) (by rw [Nat.zero_add]; exact hm c b hv')
    rw [Nat.zero_add] at h2
    exact ⟨w, h1, h2⟩
  exact ⟨s, g, w, hs, h1, h2⟩

/-- C69: the same for `batch_sum`. -/
theorem C69_batch_sum (hx : x.Holds d sx f) (hf : ∀ c b, sx.Valid c b → (f c b).Is (r c b))
    (hm : ∀ c b, sx.Valid c b → (1 + ulp) ^ (sx.batch - 1) * ∑ j ∈ Finset.range sx.batch, |r c j| ≤ maxF32) (hs : s.Is sx.get 1)
    (p : Profile) (m : Nat → Fl f32) :
    ∃ (g : Arr (Fl f32)) (w : Arr ℝ), Yields (TF.batchSum p m x) d s g ∧ ∀ c b, s.Valid c b →
      (g c b).Is (w c b) ∧ |w c b - ∑ j ∈ Finset.range sx.batch, r c j| ≤ ((1 + ulp) ^ (sx.batch - 1) - 1) * ∑ j ∈ Finset.range sx.batch, |r c j| := by
  obtain ⟨g, w, h1, h2⟩ := with_val (P := fun c b w => |w - ∑ j ∈ Finset.range sx.batch, r c j| ≤
        ((1 + ulp) ^ (sx.batch - 1) - 1) * ∑ j ∈ Finset.range sx.batch, |r c j|) (C28_batch_sum hx hs p m) fun c b hv => by
    have hv' : ∀ j, j < sx.batch → sx.Valid c j := fun j hj => ⟨fun i => by rw [← hs.2.1 i]; exact hv.1 i, hj⟩
    obtain ⟨w, h1, h2, -⟩ := sumTo_appr (k := 0) (fun j => f c j) (fun j => r c j) (fun j => |r c j|)
      hx.wf.batch_pos (fun j hj => Fl.Appr.of_is (hf _ _ (hv' j hj))) (by rw [Nat.zero_add]; exact hm c 0 (hv' 0 hx.wf.batch_pos))
    rw [Nat.zero_add] at h2
    exact ⟨w, h1, h2⟩
  exact ⟨g, w, h1, h2⟩

theorem matFits_valid (wx : sx.WF) (wy : sy.WF) (h : MatFits sx sy)
    (hs : s.Is (fun i => if i = 0 then sx.get 0 else if i = 1 then sy.get 1 else 1) (max sx.batch sy.batch)) {c : Nat → Nat} {b : Nat} (hv : s.Valid c b) :
    c 0 < sx.get 0 ∧ c 1 < sy.get 1 ∧ b < max sx.batch sy.batch ∧
      ∀ k, k < sx.get 1 → sx.Valid (mat (c 0) k) (bb sx b) ∧ sy.Valid (mat k (c 1)) (bb sy b) := by
  have h0 : c 0 < sx.get 0 := by have := hv.1 0; rw [hs.2.1] at this; exact this
  have h1 : c 1 < sy.get 1 := by have := hv.1 1; rw [hs.2.1] at this; exact this
  have h2 : b < max sx.batch sy.batch := by have := hv.2; rw [hs.2.2] at this; exact this
  have hbc := h.2.2.2
  unfold BatchCompat at hbc
  have p1 := wx.batch_pos
  have p2 := wy.batch_pos
  refine ⟨h0, h1, h2, fun k hk => ⟨valid_mat h.1 h0 hk (by unfold bb; split <;> omega), valid_mat h.2.1 (by rw [← h.2.2.1]; exact hk) h1 (by unfold bb; split <;> omega)⟩⟩


/-- C69: every element of `matmul` differs from the exact inner product of row and column (`n` terms) by at most
`((1 + 2^-24)^(7 + ⌈n/8⌉) - 1) (Σ |x y| + n 2^-126)`, provided that the bound does not exceed the largest number: adding in blocks of 8 keeps the
error below the `n` roundings of a plain sum. -/
theorem C69_matmul (hx : x.Holds d sx f) (hy : y.Holds d sy g) (hf : ∀ c b, sx.Valid c b → (f c b).Is (r c b)) (hg : ∀ c b, sy.Valid c b → (g c b).Is (q c b))
    (h : MatFits sx sy) (hv : sx.get 0 * sy.get 1 < U32) (hsz : sx.get 0 * sy.get 1 * max sx.batch sy.batch ≤ 2 ^ 31)
    (hm : ∀ i j b, i < sx.get 0 → j < sy.get 1 → b < max sx.batch sy.batch →
      (1 + ulp) ^ (7 + (sx.get 1 + 7) / 8) * ∑ k ∈ Finset.range (sx.get 1), (|r (mat i k) (bb sx b) * q (mat k j) (bb sy b)| + 1 / 2 ^ 126) ≤ maxF32)
    (p : Profile) (m : Nat → Fl f32) :
    ∃ (s : Shape) (v : Arr (Fl f32)) (w : Arr ℝ), s.Is (fun i => if i = 0 then sx.get 0 else if i = 1 then sy.get 1 else 1) (max sx.batch sy.batch) ∧
      Yields (TF.matmul p m x y) d s v ∧ ∀ c b, s.Valid c b → (v c b).Is (w c b) ∧
        |w c b - ∑ k ∈ Finset.range (sx.get 1), r (mat (c 0) k) (bb sx b) * q (mat k (c 1)) (bb sy b)| ≤
          ((1 + ulp) ^ (7 + (sx.get 1 + 7) / 8) - 1) *
            ∑ k ∈ Finset.range (sx.get 1), (|r (mat (c 0) k) (bb sx b) * q (mat k (c 1)) (bb sy b)| + 1 / 2 ^ 126) := by
  obtain ⟨s, hs, hyl⟩ := C24_matmul hx hy h hv hsz p m
  obtain ⟨v, w, h1, h2⟩ := with_val (P := fun c b w => |w - ∑ k ∈ Finset.range (sx.get 1), r (mat (c 0) k) (bb sx b) * q (mat k (c 1)) (bb sy b)| ≤
          ((1 + ulp) ^ (7 + (sx.get 1 + 7) / 8) - 1) *
            ∑ k ∈ Finset.range (sx.get 1), (|r (mat (c 0) k) (bb sx b) * q (mat k (c 1)) (bb sy b)| + 1 / 2 ^ 126)) hyl fun c b hc => by
    obtain ⟨k0, k1, k2, k3⟩ := matFits_valid hx.wf hy.wf h hs hc
    have hm1 := hm (c 0) (c 1) b k0 k1 k2
    have hterm : ∀ k, k < sx.get 1 → |r (mat (c 0) k) (bb sx b) * q (mat k (c 1)) (bb sy b)| ≤ maxF32 := by
      intro k hk
      have h3 := Finset.single_le_sum (f := fun k => |r (mat (c 0) k) (bb sx b) * q (mat k (c 1)) (bb sy b)| + 1 / 2 ^ 126) (s := Finset.range (sx.get 1))
        (fun k _ => by positivity) (Finset.mem_range.mpr hk)
      have h4 : (1 : ℝ) ≤ (1 + ulp) ^ (7 + (sx.get 1 + 7) / 8) := one_le_pow₀ ulp_base
      have h5 : (0 : ℝ) ≤ ∑ k ∈ Finset.range (sx.get 1), (|r (mat (c 0) k) (bb sx b) * q (mat k (c 1)) (bb sy b)| + 1 / 2 ^ 126) :=
        Finset.sum_nonneg fun k _ => by positivity
      have h6 : (0 : ℝ) ≤ 1 / 2 ^ 126 := by positivity
      have h7 := le_mul_of_one_le_left h5 h4
      linarith
    obtain ⟨w, h1, h2, -⟩ := sumBlk_appr (k := 1) (fun k => f (mat (c 0) k) (bb sx b) * g (mat k (c 1)) (bb sy b))
      (fun k => r (mat (c 0) k) (bb sx b) * q (mat k (c 1)) (bb sy b))
      (fun k => |r (mat (c 0) k) (bb sx b) * q (mat k (c 1)) (bb sy b)| + 1 / 2 ^ 126) (hx.wf.get_pos 1)
      (fun k hk => Fl.Appr.mul (N := E.near32) (hf _ _ (k3 k hk).1) (hg _ _ (k3 k hk).2) (hterm k hk)) hm1
    exact ⟨w, h1, h2⟩
  exact ⟨s, v, w, hs, h1, h2⟩

/-- C69: sums of whole numbers are exact as long as the sum of their magnitudes is at most `2^24`. -/
theorem C69_sum_integers (hx : x.Holds d sx f) (hf : ∀ c b, sx.Valid c b → (f c b).Is (z c b)) {dim : Nat} (hd : dim < 8)
    (hm : ∀ c b, sx.Valid c b → ∑ j ∈ Finset.range (sx.get dim), |z (cset c dim j) b| ≤ 2 ^ 24) (p : Profile) (m : Nat → Fl f32) :
    ∃ (s : Shape) (g : Arr (Fl f32)), s.Is (cset sx.get dim 1) sx.batch ∧ Yields (TF.sum p m x dim) d s g ∧ ∀ c b, s.Valid c b →
      (g c b).Is ((∑ j ∈ Finset.range (sx.get dim), z (cset c dim j) b : ℤ) : ℝ) := by
  obtain ⟨s, hs, hy⟩ := C21_sum hx hd p m
  refine ⟨s, _, hs, hy, fun c b hv => ?_⟩
  have hv' := Valid.unreduced hs hx.wf hv
  exact (sumTo_int (fun j => f (cset c dim j) b) (fun j => z (cset c dim j) b) (fun j => |z (cset c dim j) b|)
    (fun j hj => ⟨hf _ _ (Valid.cset hv' hj), le_rfl⟩) (hm c b hv')).1

/-- C69: products of matrices of whole numbers are exact as long as the sums of the magnitudes of the products are at most `2^24`. -/
theorem C69_matmul_integers (hx : x.Holds d sx f) (hy : y.Holds d sy g) (hf : ∀ c b, sx.Valid c b → (f c b).Is (z c b))
    (hg : ∀ c b, sy.Valid c b → (g c b).Is (z' c b)) (h : MatFits sx sy) (hv : sx.get 0 * sy.get 1 < U32)
    (hsz : sx.get 0 * sy.get 1 * max sx.batch sy.batch ≤ 2 ^ 31)
    (hm : ∀ i j b, i < sx.get 0 → j < sy.get 1 → b < max sx.batch sy.batch →
      ∑ k ∈ Finset.range (sx.get 1), |z (mat i k) (bb sx b) * z' (mat k j) (bb sy b)| ≤ 2 ^ 24) (p : Profile) (m : Nat → Fl f32) :
    ∃ (s : Shape) (v : Arr (Fl f32)), s.Is (fun i => if i = 0 then sx.get 0 else if i = 1 then sy.get 1 else 1) (max sx.batch sy.batch) ∧
      Yields (TF.matmul p m x y) d s v ∧ ∀ c b, s.Valid c b →
        (v c b).Is ((∑ k ∈ Finset.range (sx.get 1), z (mat (c 0) k) (bb sx b) * z' (mat k (c 1)) (bb sy b) : ℤ) : ℝ) := by
  obtain ⟨s, hs, hyl⟩ := C24_matmul hx hy h hv hsz p m
  refine ⟨s, _, hs, hyl, fun c b hc => ?_⟩
  obtain ⟨k0, k1, k2, k3⟩ := matFits_valid hx.wf hy.wf h hs hc
  have hm1 := hm (c 0) (c 1) b k0 k1 k2
  exact (sumBlk_int (fun k => f (mat (c 0) k) (bb sx b) * g (mat k (c 1)) (bb sy b)) (fun k => z (mat (c 0) k) (bb sx b) * z' (mat k (c 1)) (bb sy b))
    (fun k => |z (mat (c 0) k) (bb sx b) * z' (mat k (c 1)) (bb sy b)|)
    (fun k hk => Fl.IsInt.mul (N := E.near32) (hf _ _ (k3 k hk).1) (hg _ _ (k3 k hk).2)
      ((Finset.single_le_sum (f := fun k => |z (mat (c 0) k) (bb sx b) * z' (mat k (c 1)) (bb sy b)|) (fun k _ => abs_nonneg _) (Finset.mem_range.mpr hk)).trans hm1)) hm1).1

/-- The sum of `2^26` and then `n` ones does not leave `2^26`. -/
theorem sum_absorbs (t : Nat → Fl f32) (n : Nat) (h0 : (t 0).Is (2 ^ 26)) (h1 : ∀ j, 0 < j → j ≤ n → (t j).Is 1) : (sumTo (n + 1) t).Is (2 ^ 26) := by
  have hB : f32.Has ((2 : ℝ) ^ 26) := ⟨grid_nat (2 ^ 24) 2 (by norm_num) (by norm_num [f32]) (by norm_num [f32]) (by norm_num [f32]), by rw [top32]; norm_num⟩
  have hn : E.near32.near ((2 : ℝ) ^ 26 + 1) = 2 ^ 26 := E.near32.absorb (b := 2 ^ 24) (j := 2) hB.1 (by norm_num) le_rfl (by show (2 : ℝ) ^ 24 * _ < _; norm_num)
  induction n with
  | zero =>
    obtain ⟨s, e⟩ := Fl.add_eq (N := E.near32) (zero_is (E := E)) h0
    show (Fl.add E.near32 0 (t 0)).Is _
    rw [e, zero_add]
    have := Fl.round_eq (N := E.near32) s ((2 : ℝ) ^ 26) (by rw [E.near32.near_grid hB.1]; exact hB.2)
    rwa [E.near32.near_grid hB.1] at this
  | succ n ih =>
    have i := ih fun j hj hj' => h1 j hj (by omega)
    obtain ⟨s, e⟩ := Fl.add_eq (N := E.near32) i (h1 (n + 1) (by omega) le_rfl)
    show (Fl.add E.near32 (sumTo (n + 1) t) (t (n + 1))).Is _
    rw [e]
    have := Fl.round_eq (N := E.near32) s ((2 : ℝ) ^ 26 + 1) (by rw [hn]; exact hB.2)
    rwa [hn] at this

/-- The sum of `n` ones and then `2^26`. -/
theorem sum_collects (t : Nat → Fl f32) (n : Nat) (hn : n ≤ 2 ^ 24) (h0 : (t n).Is (2 ^ 26)) (h1 : ∀ j, j < n → (t j).Is 1) :
    ∃ w, (sumTo (n + 1) t).Is w ∧ 2 ^ 26 + n - 4 ≤ w := by
  have hi := (sumTo_int t (fun _ => 1) (fun _ => 1) (n := n) (fun j hj => ⟨by rw [Int.cast_one]; exact h1 j hj, by norm_num⟩) (by
    rw [Finset.sum_const, Finset.card_range, nsmul_eq_mul, mul_one]; exact_mod_cast hn)).1
  rw [Finset.sum_const, Finset.card_range, nsmul_eq_mul, mul_one, Int.cast_natCast] at hi
  have hn' : (n : ℝ) ≤ 2 ^ 24 := by exact_mod_cast hn
  have hn0 : (0 : ℝ) ≤ n := Nat.cast_nonneg n
  obtain ⟨s, e⟩ := Fl.add_eq (N := E.near32) hi h0
  have ha : |(n : ℝ) + 2 ^ 26| ≤ 2 ^ 27 := by rw [abs_of_nonneg (by linarith)]; linarith
  have h2 := E.near32.err_unit (x := (n : ℝ) + 2 ^ 26) (e := 3) (by norm_num [f32]) (by norm_num [f32]) (ha.trans (by norm_num [f32]))
  refine ⟨E.near32.near (n + 2 ^ 26), ?_, ?_⟩
  · show (Fl.add E.near32 (sumTo n t) (t n)).Is (E.near32.near (n + 2 ^ 26))
    rw [e]
    exact Fl.Appr.round_is s (ha.trans (by unfold maxF32; norm_num))
  · have h3 := (abs_le.mp h2).2
    norm_num at h3 ⊢
    linarith

/-- C69, the limit of the claim: the order of the elements matters.  `sum` of `2^26` followed by up to `2^24` ones is `2^26`, however many ones there
are; of the same numbers with `2^26` at the end it is the exact sum up to 4. -/
theorem C69_sum_order (hx : x.Holds d sx f) (hy : y.Holds d sx g) {dim n : Nat} (hd : dim < 8) (hn : sx.get dim = n + 1) (hn2 : n ≤ 2 ^ 24)
    (hf : ∀ c b, sx.Valid c b → (f c b).Is (if c dim = 0 then 2 ^ 26 else 1)) (hg : ∀ c b, sx.Valid c b → (g c b).Is (if c dim = n then 2 ^ 26 else 1))
    (p : Profile) (m : Nat → Fl f32) :
    ∃ (s : Shape) (v w : Arr (Fl f32)), s.Is (cset sx.get dim 1) sx.batch ∧ Yields (TF.sum p m x dim) d s v ∧ Yields (TF.sum p m y dim) d s w ∧
      ∀ c b, s.Valid c b → (v c b).Is (2 ^ 26) ∧ ∃ a, (w c b).Is a ∧ 2 ^ 26 + n - 4 ≤ a := by
  obtain ⟨s, hs, h1⟩ := C21_sum hx hd p m
  obtain ⟨s', hs', h2⟩ := C21_sum hy hd p m
  obtain rfl : s' = s := Shape.Is.unique hs' hs
  refine ⟨s', _, _, hs, h1, h2, fun c b hv => ?_⟩
  have hv' := Valid.unreduced hs hx.wf hv
  rw [hn]
  have hfj : ∀ j, j < n + 1 → (f (cset c dim j) b).Is (if j = 0 then 2 ^ 26 else 1) := fun j hj => by
    have := hf _ _ (Valid.cset hv' (j := j) (by rw [hn]; exact hj))
    rwa [cset_at] at this
  have hgj : ∀ j, j < n + 1 → (g (cset c dim j) b).Is (if j = n then 2 ^ 26 else 1) := fun j hj => by
    have := hg _ _ (Valid.cset hv' (j := j) (by rw [hn]; exact hj))
    rwa [cset_at] at this
  refine ⟨sum_absorbs _ n (by have := hfj 0 (by omega); rwa [if_pos rfl] at this) (fun j hj hj' => ?_), sum_collects _ n hn2 (by have := hgj n (by omega); rwa [if_pos rfl] at this) (fun j hj => ?_)⟩
  · have := hfj j (by omega); rwa [if_neg (by omega)] at this
  · have := hgj j (by omega); rwa [if_neg (by omega)] at this

/-- A vector with given elements. -/
theorem vector_exists {n : Nat} (h0 : 0 < n) (h1 : n ≤ 2 ^ 31) (t : Nat → Fl f32) : ∃ (s : Shape) (x : Tensor (Fl f32)) (f : Arr (Fl f32)),
    s.Is (fun i => if i = 0 then n else 1) 1 ∧ x.Holds 0 s f ∧ ∀ c b, s.Valid c b → c 0 < n ∧ f c b = t (c 0) := by
  have hvol : volN (fun i => if i = 0 then n else 1) 8 = n := by simp [volN]
  obtain ⟨s, hs⟩ := Shape.exists_is (f := fun i => if i = 0 then n else 1) (b := 1) (fun i => by split <;> omega)
    (fun i hi => by rw [if_neg (by omega)]) (by rw [hvol]; unfold U32; omega) le_rfl
  have hg : s.get 0 = n := hs.2.1 0
  have hz : s.size = n := by unfold Shape.size; rw [hs.1.vol, volN_congr (fun i _ => hs.2.1 i), hvol, hs.2.2, Nat.one_mul]
  obtain ⟨x, hx⟩ := exists_holds hs.1 (by rw [hz]; exact h1) 0 t
  refine ⟨s, x, _, hs, hx, fun c b hv => ?_⟩
  have h2 : c 0 < n := by have := hv.1 0; rwa [hg] at this
  have h3 : s.offset c b < n := by have := hs.1.offset_lt hv; rwa [hz] at this
  have h4 : s.offset c b = 0 + 1 * (c 0 + n * s.hi 0 c b) := hg ▸ hs.1.offset_split hv 0
  refine ⟨h2, ?_⟩
  have h5 : s.hi 0 c b = 0 := by
    by_contra hne
    have := Nat.mul_le_mul_left n (Nat.one_le_iff_ne_zero.mpr hne)
    omega
  rw [h5] at h4
  show t (s.offset c b) = _
  rw [h4]
  congr 1
  omega

/-- The numbers of C69 in f32. -/
noncomputable def fl1 : Fl f32 := .fin false 1 ⟨Fl.one_ok.1, Fl.one_ok.2, nofun, fun _ => by norm_num⟩

theorem has26 : f32.Has ((2 : ℝ) ^ 26) :=
  ⟨grid_nat (2 ^ 24) 2 (by norm_num) (by norm_num [f32]) (by norm_num [f32]) (by norm_num [f32]), by rw [top32]; norm_num⟩
noncomputable def fl26 : Fl f32 := .fin false (2 ^ 26) ⟨has26.1, has26.2, nofun, fun _ => by positivity⟩

/-- The premises of C69 are met by vectors of any length up to `2^24`: ones (exact sum) and ones with a large number at either end (order matters). -/
example {n : Nat} (hn : n < 2 ^ 24) (p : Profile) (m : Nat → Fl f32) : ∃ (x y : Tensor (Fl f32)) (s : Shape) (v w : Arr (Fl f32)),
    Yields (TF.sum p m x 0) 0 s v ∧ Yields (TF.sum p m y 0) 0 s w ∧ (v czero 0).Is (2 ^ 26) ∧ ∃ a, (w czero 0).Is a ∧ 2 ^ 26 + n - 4 ≤ a := by
  obtain ⟨sx, x, f, hsx, hx, hf⟩ := vector_exists (n := n + 1) (by omega) (by omega) fun j => if j = 0 then fl26 else fl1
  obtain ⟨sy, y, g, hsy, hy, hg⟩ := vector_exists (n := n + 1) (by omega) (by omega) fun j => if j = n then fl26 else fl1
  obtain rfl : sy = sx := Shape.Is.unique hsy hsx
  obtain ⟨s, v, w, hs, h1, h2, h3⟩ := C69_sum_order hx hy (dim := 0) (n := n) (by omega) (hsx.2.1 0) (by omega) (fun c b hv => by
      rw [(hf c b hv).2]; split <;> exact ⟨le_rfl, le_rfl⟩) (fun c b hv => by rw [(hg c b hv).2]; split <;> exact ⟨le_rfl, le_rfl⟩) p m
  exact ⟨x, y, s, v, w, h1, h2, h3 czero 0 ⟨fun i => hs.1.get_pos i, hs.1.batch_pos⟩⟩

example {n : Nat} (hn : n < 2 ^ 24) (p : Profile) (m : Nat → Fl f32) : ∃ (x : Tensor (Fl f32)) (s : Shape) (v : Arr (Fl f32)),
    Yields (TF.sum p m x 0) 0 s v ∧ (v czero 0).Is (n + 1) := by
  obtain ⟨sx, x, f, hsx, hx, hf⟩ := vector_exists (n := n + 1) (by omega) (by omega) fun _ => fl1
  have e : sx.get 0 = n + 1 := hsx.2.1 0
  obtain ⟨s, v, hs, h1, h2⟩ := C69_sum_integers hx (z := fun _ _ => 1) (dim := 0) (fun c b hv => by
    rw [(hf c b hv).2, Int.cast_one]; exact ⟨le_rfl, le_rfl⟩) (by omega) (fun c b _ => by rw [e]; norm_num; exact_mod_cast hn) p m
  have h3 := h2 czero 0 ⟨fun i => hs.1.get_pos i, hs.1.batch_pos⟩
  rw [e] at h3
  exact ⟨x, s, v, h1, by simpa using h3⟩

/-- A batched 9×10 matrix times a 10×3 matrix, with elements `2^26` and 1: exact as whole numbers are too large, so within the bound. -/
example (p : Profile) (m : Nat → Fl f32) : ∃ (x y : Tensor (Fl f32)) (s : Shape) (v : Arr (Fl f32)) (w : Arr ℝ), Yields (TF.matmul p m x y) 0 s v ∧
    (v czero 1).Is (w czero 1) ∧ |w czero 1 - 10 * 2 ^ 26| ≤ ((1 + ulp) ^ 9 - 1) * (10 * (2 ^ 26 + 1 / 2 ^ 126)) := by
  obtain ⟨x, -, hx⟩ := Dev.newByConstant_ok (α := Fl f32) (matShape_wf (n := 9) (m := 10) (b := 2) rfl) (by decide) .debug 0 m fl26
  obtain ⟨y, -, hy⟩ := Dev.newByConstant_ok (α := Fl f32) (matShape_wf (n := 10) (m := 3) (b := 1) rfl) (by decide) .debug 0 m fl1
  have hab : |(2 : ℝ) ^ 26 * 1| = 2 ^ 26 := by norm_num
  obtain ⟨s, v, w, hs, h1, h2⟩ := C69_matmul hx hy (r := fun _ _ => 2 ^ 26) (q := fun _ _ => 1) (fun _ _ _ => ⟨le_rfl, le_rfl⟩) (fun _ _ _ => ⟨le_rfl, le_rfl⟩)
    ⟨hx.wf.isMatrix_iff.mp rfl, hy.wf.isMatrix_iff.mp rfl, rfl, .inr (.inr rfl)⟩ (by decide) (by decide) (fun i j b _ _ _ => by
      rw [hab, Finset.sum_const, Finset.card_range, nsmul_eq_mul]
      show (1 + ulp) ^ 9 * ((10 : ℕ) * _) ≤ _
      unfold ulp maxF32
      norm_num) p m
  have h3 := h2 czero 1 ⟨fun i => hs.1.get_pos i, by rw [hs.2.2]; decide⟩
  rw [hab, Finset.sum_const, Finset.card_range, nsmul_eq_mul, Finset.sum_const, Finset.card_range, nsmul_eq_mul, show (matShape 9 10 2).get 1 = 10 from rfl] at h3
  exact ⟨x, y, s, v, w, h1, h3.1, by simpa using h3.2⟩

end
end Verif
