import Verif.FloatSum
import Verif.OptSpec

/-!
# Gradient clipping in f32
-/

set_option linter.unusedSectionVars false

namespace Verif
open Fmt

namespace Fl
variable {N : Near f32} {x y : Fl f32} {v w a b : ℝ}

theorem mul_comm {F : Fmt} (N : Near F) (x y : Fl F) : mul N x y = mul N y x := by
  cases x <;> cases y <;> simp only [mul, Bool.xor_comm, _root_.mul_comm]

theorem round_nonneg (z : Bool) (h : 0 ≤ v) : (round N z v).NonNeg := by
  have h1 : 0 ≤ N.near v := N.le_near has0.1 h
  unfold round
  split
  · split <;> exact h1
  · exact decide_eq_false (not_lt.mpr h1)

theorem Is.nonneg (h : x.Is v) (h0 : 0 ≤ v) : x.NonNeg := by
  cases x with
  | fin s u hu => exact h0.trans h.1
  | inf s => exact h.elim
  | nan => exact h.elim

theorem Is.of_fin {s : Bool} {u : ℝ} {hu} : (fin (F := f32) s u hu).Is u := ⟨le_rfl, le_rfl⟩

theorem sq_nonneg (h : x ≠ nan) : (mul N x x).NonNeg := by
  cases x with
  | fin s u hu => exact round_nonneg _ (mul_self_nonneg u)
  | inf s => show (s ^^ s) = false; simp
  | nan => exact (h rfl).elim

theorem add_nonneg (hx : x.NonNeg) (hy : y.NonNeg) : (add N x y).NonNeg := by
  cases x with
  | fin s u hu =>
    cases y with
    | fin t w hw => exact round_nonneg _ (_root_.add_nonneg hx hy)
    | inf t => exact hy
    | nan => exact hy.elim
  | inf s =>
    cases y with
    | fin t w hw => exact hx
    | inf t => rw [show s = false from hx, show t = false from hy]; rfl
    | nan => exact hy.elim
  | nan => exact hx.elim

theorem add_inf (hx : x.NonNeg) : add N x (inf false) = inf false := by
  cases x with
  | fin s u hu => rfl
  | inf s => rw [show s = false from hx]; rfl
  | nan => exact hx.elim

theorem inf_add (hx : x.NonNeg) : add N (inf false) x = inf false := by
  cases x with
  | fin s u hu => rfl
  | inf s => rw [show s = false from hx]; rfl
  | nan => exact hx.elim

/-- A square that overflows. -/
theorem sq_inf (h : x.Is v) (hv : 2 ^ 64 ≤ |v|) : mul N x x = inf false := by
  obtain ⟨z, e⟩ := mul_eq (N := N) h h
  rw [e]
  have hg : ((2 : ℝ) ^ 128) ∈ f32.grid := grid_nat (2 ^ 24) 104 (by norm_num) (by norm_num [f32]) (by norm_num [f32]) (by norm_num [f32])
  have h1 : (2 : ℝ) ^ 128 ≤ v * v := by
    rw [← abs_mul_abs_self v]
    have := mul_le_mul hv hv (by positivity) (by positivity)
    norm_num at this ⊢
    exact this
  have h2 := N.le_near hg h1
  unfold round
  rw [dif_neg (by rw [top32, not_lt]; exact h2.trans (le_abs_self _)), decide_eq_false (not_lt.mpr (le_trans (by positivity) h2))]

/-- A square that underflows. -/
theorem sq_zero (h : x.Is v) (hv : |v| ≤ 1 / 2 ^ 76) : (mul N x x).Is 0 := by
  obtain ⟨z, e⟩ := mul_eq (N := N) h h
  rw [e]
  have h0 : 0 ≤ v * v := mul_self_nonneg v
  have h1 : v * v ≤ 1 / 2 ^ 152 := by
    rw [← abs_mul_abs_self v]
    have := mul_le_mul hv hv (abs_nonneg v) (by positivity)
    norm_num at this ⊢
    exact this
  have h2 : N.near (v * v) = 0 := by
    by_contra hne
    have h3 : 0 < N.near (v * v) := lt_of_le_of_ne (N.le_near has0.1 h0) (Ne.symm hne)
    obtain ⟨k, hk⟩ := grid_mult (N.mem (v * v))
    have hp : (0 : ℝ) < (2 : ℝ) ^ f32.emin := zpow_pos (by norm_num) _
    have hk1 : (1 : ℝ) ≤ k := by
      rw [hk] at h3
      have : (0 : ℝ) < k := by
        by_contra hn
        have := mul_nonpos_of_nonpos_of_nonneg (not_lt.mp hn) hp.le
        linarith
      exact_mod_cast this
    have h4 : (2 : ℝ) ^ f32.emin ≤ N.near (v * v) := by rw [hk]; exact le_mul_of_one_le_left hp.le hk1
    have h5 : (2 : ℝ) ^ f32.emin = 1 / 2 ^ 149 := by show (2 : ℝ) ^ (-149 : ℤ) = _; norm_num
    have h6 := N.best (v * v) 0 has0.1
    rw [sub_zero, abs_of_nonneg h0] at h6
    have h7 := (abs_le.mp h6).1
    rw [h5] at h4
    have h8 : (1 : ℝ) / 2 ^ 152 + 1 / 2 ^ 152 < 1 / 2 ^ 149 := by norm_num
    linarith
  have := round_eq (N := N) z (v * v) (by rw [h2, abs_zero]; exact top_pos)
  rwa [h2] at this

/-- Multiplying by a factor in [0, 1] moves towards zero. -/
theorem mul_shrink (hx : x.Is v) (hy : y.In 0 1) : (mul N x y).In (min 0 v) (max 0 v) := by
  obtain ⟨t, ht, hyt, h0, h1⟩ := hy.exists_in
  obtain ⟨z, e⟩ := mul_eq (N := N) hx hyt
  rw [e]
  have hv := Fl.Appr.has_of_is hx
  rcases le_total 0 v with h | h
  · rw [min_eq_left h, max_eq_right h]
    exact round_in has0 hv (mul_nonneg h h0) (mul_le_of_le_one_right h h1)
  · rw [min_eq_right h, max_eq_left h]
    exact round_in hv has0 (by nlinarith) (mul_nonpos_of_nonpos_of_nonneg h h0)

/-- The root of a finite value. -/
theorem sqrt_is (hx : x.Is v) (h : 0 ≤ v) : (sqrt N x).Is (N.near (Real.sqrt v)) := by
  cases x with
  | fin s u hu =>
    obtain rfl : u = v := le_antisymm hx.2 hx.1
    show (if u < 0 then nan else round N s (Real.sqrt u)).Is _
    rw [if_neg (not_lt.mpr h)]
    refine Fl.Appr.round_is s ?_
    rw [abs_of_nonneg (Real.sqrt_nonneg u)]
    have h1 : u ≤ 2 ^ 128 := by have := hu.2.1; rw [top32, abs_of_nonneg h] at this; exact this.le
    have h2 : Real.sqrt u ≤ 2 ^ 64 := by
      rw [show (2 : ℝ) ^ 64 = Real.sqrt (2 ^ 128) by rw [show (2 : ℝ) ^ 128 = (2 ^ 64) ^ 2 by norm_num, Real.sqrt_sq (by positivity)]]
      exact Real.sqrt_le_sqrt h1
    exact h2.trans (by unfold maxF32; norm_num)
  | inf s => exact hx.elim
  | nan => exact hx.elim

theorem div_is (hx : x.Is v) (hy : y.Is w) (hw : w ≠ 0) : ∃ z, div N x y = round N z (v / w) := by
  cases x with
  | fin s u hu =>
    cases y with
    | fin t r hr =>
      obtain rfl : u = v := le_antisymm hx.2 hx.1
      obtain rfl : r = w := le_antisymm hy.2 hy.1
      exact ⟨_, by simp only [div]; rw [if_neg hw]⟩
    | inf t => exact hy.elim
    | nan => exact hy.elim
  | inf s => exact hx.elim
  | nan => exact hx.elim

theorem Finite.is_val (h : x.Finite) : x.Is x.val := by
  cases x with
  | fin s u hu => exact ⟨le_rfl, le_rfl⟩
  | inf s => exact h.elim
  | nan => exact h.elim

theorem In.le (h : x.In a b) : a ≤ b := by
  cases x with
  | fin s u hu => exact h.1.trans h.2
  | inf s => exact h.elim
  | nan => exact h.elim

/-- If the (rounded) square of the threshold is exceeded, the factor lies in [0, 1]; if the sum is finite, so does the quotient of the exact numbers. -/
theorem factor {c q : Fl f32} {κ : ℝ} (hc : c.Is κ) (h0 : 0 < κ) (hq : q.NonNeg) (hg : gt q (mul N c c) = true) :
    (q = inf false ∧ (div N c (sqrt N q)).Is 0) ∨
    ∃ S, q.Is S ∧ κ * κ < S ∧ κ ≤ N.near (Real.sqrt S) ∧ (sqrt N q).Is (N.near (Real.sqrt S)) ∧
      (div N c (sqrt N q)).Is (N.near (κ / N.near (Real.sqrt S))) ∧ (div N c (sqrt N q)).In 0 1 := by
  cases q with
  | nan => exact hq.elim
  | inf s =>
    obtain rfl : s = false := hq
    refine Or.inl ⟨rfl, ?_⟩
    cases c with
    | fin t u hu =>
      show (round N (t ^^ false) 0).Is 0
      have := round_eq (N := N) (t ^^ false) 0 (by rw [N.near_grid has0.1, abs_zero]; exact top_pos)
      rwa [N.near_grid has0.1] at this
    | inf t => exact hc.elim
    | nan => exact hc.elim
  | fin s S hS =>
    refine Or.inr ⟨S, Is.of_fin, ?_⟩
    have hS0 : 0 ≤ S := hq
    obtain ⟨z, e⟩ := mul_eq (N := N) hc hc
    have h1 : κ * κ < S := by
      by_contra hn
      have hn := not_lt.mp hn
      have h2 := N.le_near hS.1 hn
      rw [e] at hg
      unfold round at hg
      split at hg
      · split at hg <;> exact absurd (of_decide_eq_true hg) (not_lt.mpr h2)
      · rw [decide_eq_false (not_lt.mpr (hS0.trans h2))] at hg; exact absurd (show false = true from hg) (by decide)
    have hκ := Fl.Appr.has_of_is hc
    have h2 : κ ≤ Real.sqrt S := by
      rw [show κ = Real.sqrt (κ * κ) from (Real.sqrt_mul_self h0.le).symm]
      exact Real.sqrt_le_sqrt h1.le
    have h3 := N.le_near hκ.1 h2
    have h4 := sqrt_is (N := N) (x := fin s S hS) Is.of_fin hS0
    have h5 : 0 < N.near (Real.sqrt S) := lt_of_lt_of_le h0 h3
    obtain ⟨z', e'⟩ := div_is (N := N) hc h4 h5.ne'
    have h6 : 0 ≤ κ / N.near (Real.sqrt S) := div_nonneg h0.le h5.le
    have h7 : κ / N.near (Real.sqrt S) ≤ 1 := (div_le_one h5).mpr h3
    refine ⟨h1, h3, h4, ?_, ?_⟩
    · rw [e']
      exact Fl.Appr.round_is z' (by rw [abs_of_nonneg h6]; exact h7.trans (by unfold maxF32; norm_num))
    · rw [e']; exact round_in has0 has1 h6 h7

end Fl

/-! ### Sums over lists -/

namespace Fl
variable {N : Near f32}

theorem foldl_nonneg {ι : Type} (t : ι → Fl f32) (l : List ι) {acc : Fl f32} (ha : acc.NonNeg) (h : ∀ i ∈ l, (t i).NonNeg) :
    (l.foldl (fun a i => add N a (t i)) acc).NonNeg := by
  induction l generalizing acc with
  | nil => exact ha
  | cons i l ih => exact ih (add_nonneg ha (h i List.mem_cons_self)) fun j hj => h j (List.mem_cons_of_mem _ hj)

theorem foldl_inf {ι : Type} (t : ι → Fl f32) (l : List ι) {acc : Fl f32} (ha : acc.NonNeg) (h : ∀ i ∈ l, (t i).NonNeg)
    (hi : acc = inf false ∨ ∃ i ∈ l, t i = inf false) : l.foldl (fun a i => add N a (t i)) acc = inf false := by
  induction l generalizing acc with
  | nil => rcases hi with hi | ⟨i, hm, -⟩
           · exact hi
           · exact absurd hm List.not_mem_nil
  | cons i l ih =>
    have h1 := h i List.mem_cons_self
    refine ih (add_nonneg ha h1) (fun j hj => h j (List.mem_cons_of_mem _ hj)) ?_
    rcases hi with hi | ⟨j, hm, hj⟩
    · exact Or.inl (by rw [hi]; exact inf_add h1)
    · rcases List.mem_cons.mp hm with e | hm
      · exact Or.inl (by show add N acc (t i) = _; rw [← e, hj]; exact add_inf ha)
      · exact Or.inr ⟨j, hm, hj⟩

theorem foldl_zero {ι : Type} (t : ι → Fl f32) (l : List ι) {acc : Fl f32} (ha : acc.Is 0) (h : ∀ i ∈ l, (t i).Is 0) :
    (l.foldl (fun a i => add N a (t i)) acc).Is 0 := by
  induction l generalizing acc with
  | nil => exact ha
  | cons i l ih =>
    refine ih ?_ fun j hj => h j (List.mem_cons_of_mem _ hj)
    obtain ⟨z, e⟩ := add_eq (N := N) ha (h i List.mem_cons_self)
    show (add N acc (t i)).Is 0
    rw [e, zero_add]
    have := round_eq (N := N) z 0 (by rw [N.near_grid has0.1, abs_zero]; exact top_pos)
    rwa [N.near_grid has0.1] at this

theorem Appr.foldl_sum {ι : Type} (t : ι → Fl f32) (v A : ι → ℝ) (l : List ι) {acc : Fl f32} {V B : ℝ} {k j : ℕ} (ha : acc.Appr V B k) (hk : j ≤ k)
    (h : ∀ i ∈ l, (t i).Appr (v i) (A i) j) (hm : (1 + ulp) ^ (k + l.length) * (B + (l.map A).sum) ≤ maxF32) :
    (l.foldl (fun a i => Fl.add N a (t i)) acc).Appr (V + (l.map v).sum) (B + (l.map A).sum) (k + l.length) := by
  induction l generalizing acc V B k with
  | nil => simpa using ha
  | cons i l ih =>
    have hs : 0 ≤ (l.map A).sum := List.sum_nonneg fun x hx => by
      obtain ⟨i', hi', rfl⟩ := List.mem_map.mp hx
      exact (h i' (List.mem_cons_of_mem _ hi')).nonneg
    have hi := h i List.mem_cons_self
    have hA := hi.nonneg
    have hB := ha.nonneg
    rw [List.map_cons, List.sum_cons, ← add_assoc] at hm ⊢
    rw [List.map_cons, List.sum_cons, ← add_assoc]
    rw [List.length_cons, show k + (l.length + 1) = k + 1 + l.length by omega] at hm ⊢
    have hp : (1 + ulp) ^ k ≤ (1 + ulp) ^ (k + 1 + l.length) := pow_le_pow_right₀ ulp_base (by omega)
    have hp0 : (0 : ℝ) < (1 + ulp) ^ k := by have := ulp_pos; positivity
    have h1 : (Fl.add N acc (t i)).Appr (V + v i) (B + A i) (k + 1) := Appr.add (n := k) ha hi le_rfl hk (le_trans (mul_le_mul hp (by linarith) (by linarith) (by linarith)) hm)
    exact ih h1 (by omega) (fun j hj => h j (List.mem_cons_of_mem _ hj)) hm

end Fl
end Verif
