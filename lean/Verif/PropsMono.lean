import Verif.PropsLossGrad
import Verif.PropsFloat6
import Verif.FloatGap
import Verif.PropsNan
import Verif.FloatNorm
import Verif.RealCalc

/-!
# C92: order is preserved in f32
-/

set_option linter.unusedSectionVars false
set_option linter.style.haveILetI false

namespace Verif
open Fmt Res Shape

/-- A function of the mathematical library never reverses the order of two numbers. -/
def Libm.KeepsOrder {F : Fmt} (φ : Fl F → Fl F) : Prop := ∀ x y : Fl F, Fl.le x y = true → Fl.le (φ x) (φ y) = true

namespace Fl
variable {F : Fmt} {N : Near F} {x y x' y' z : Fl F}

theorem le_iff : le x y = true ↔ x ≠ nan ∧ y ≠ nan ∧ rank x ≤ rank y := by
  unfold le
  rw [Bool.or_eq_true, gt_iff, feq_iff, le_iff_lt_or_eq]
  tauto

theorem round_mono {u v : ℝ} (z z' : Bool) (h : u ≤ v) : le (round N z u) (round N z' v) = true := by
  rw [le_iff]
  refine ⟨round_ne_nan _ _, round_ne_nan _ _, ?_⟩
  have hm := N.near_mono h
  have ht := Fmt.top_pos (F := F)
  by_cases h1 : |N.near u| < F.top
  · rw [Is.rank (round_eq z u h1)]
    by_cases h2 : |N.near v| < F.top
    · rw [Is.rank (round_eq z' v h2)]; exact EReal.coe_le_coe_iff.mpr hm
    · have h3 : ¬ N.near v < 0 := fun h4 => h2 (abs_lt.mpr ⟨by have := (abs_lt.mp h1).1; linarith, by linarith⟩)
      unfold round
      rw [dif_neg h2, decide_eq_false h3]
      exact le_top
  · by_cases h0 : N.near u < 0
    · have : round N z u = .inf true := by unfold round; rw [dif_neg h1, decide_eq_true h0]
      rw [this]; exact bot_le
    · have h2 : ¬ |N.near v| < F.top := fun h2 => h1 (abs_lt.mpr ⟨by linarith, by have := (abs_lt.mp h2).2; linarith⟩)
      have : round N z' v = .inf false := by unfold round; rw [dif_neg h2, decide_eq_false (by linarith)]
      rw [this]; exact le_top

theorem add_bot (h : x = .inf true ∨ y = .inf true) (hn : add N x y ≠ nan) : add N x y = .inf true := by
  rcases h with rfl | rfl
  · cases y with
    | nan => exact absurd (add_nan _) hn
    | fin s v hv => rfl
    | inf s => cases s with
      | true => rfl
      | false => exact absurd rfl hn
  · cases x with
    | nan => exact absurd rfl hn
    | fin s v hv => rfl
    | inf s => cases s with
      | true => rfl
      | false => exact absurd rfl hn

theorem add_top (h : x = .inf false ∨ y = .inf false) (hn : add N x y ≠ nan) : add N x y = .inf false := by
  rcases h with rfl | rfl
  · cases y with
    | nan => exact absurd (add_nan _) hn
    | fin s v hv => rfl
    | inf s => cases s with
      | false => rfl
      | true => exact absurd rfl hn
  · cases x with
    | nan => exact absurd rfl hn
    | fin s v hv => rfl
    | inf s => cases s with
      | false => rfl
      | true => exact absurd rfl hn

/-- Addition is monotone in both operands, as long as no NaN arises. -/
theorem add_mono (h : le x x' = true) (h' : le y y' = true) (hn : add N x y ≠ nan) (hn' : add N x' y' ≠ nan) : le (add N x y) (add N x' y') = true := by
  by_cases h1 : x = .inf true ∨ y = .inf true
  · rw [le_iff]
    exact ⟨hn, hn', by rw [add_bot h1 hn]; exact bot_le⟩
  by_cases h2 : x' = .inf false ∨ y' = .inf false
  · rw [le_iff]
    exact ⟨hn, hn', by rw [add_top h2 hn']; exact le_top⟩
  have key : ∀ {a b : Fl F}, le a b = true → a ≠ .inf true → b ≠ .inf false → ∃ u v, a.Is u ∧ b.Is v ∧ u ≤ v := by
    intro a b hab ha hb
    obtain ⟨n1, n2, h3⟩ := le_iff.mp hab
    cases a with
    | nan => exact absurd rfl n1
    | inf s =>
      cases s with
      | true => exact absurd rfl ha
      | false =>
        cases b with
        | nan => exact absurd rfl n2
        | inf t => cases t with
          | false => exact absurd rfl hb
          | true => exact absurd h3 (by simp [rank])
        | fin t v hv => exact absurd h3 (by simp [rank])
    | fin s u hu =>
      cases b with
      | nan => exact absurd rfl n2
      | inf t => cases t with
        | false => exact absurd rfl hb
        | true => exact absurd h3 (by simp [rank])
      | fin t v hv => exact ⟨u, v, ⟨le_rfl, le_rfl⟩, ⟨le_rfl, le_rfl⟩, EReal.coe_le_coe_iff.mp h3⟩
  obtain ⟨u, u', hu, hu', hle⟩ := key h (fun e => h1 (.inl e)) (fun e => h2 (.inl e))
  obtain ⟨v, v', hv, hv', hle'⟩ := key h' (fun e => h1 (.inr e)) (fun e => h2 (.inr e))
  obtain ⟨z, e⟩ := add_eq (N := N) hu hv
  obtain ⟨z', e'⟩ := add_eq (N := N) hu' hv'
  rw [e, e']
  exact round_mono _ _ (by linarith)

theorem rank_neg (h : x ≠ nan) : rank (neg x) = -rank x := by
  cases x with
  | nan => exact absurd rfl h
  | inf s => cases s <;> simp [neg, rank]
  | fin s v hv => simp [neg, rank]

/-- Negation reverses the order. -/
theorem neg_anti (h : le x y = true) : le (neg y) (neg x) = true := by
  obtain ⟨n1, n2, h3⟩ := le_iff.mp h
  refine le_iff.mpr ⟨?_, ?_, ?_⟩
  · cases y <;> first | exact absurd rfl n2 | nofun
  · cases x <;> first | exact absurd rfl n1 | nofun
  · rw [rank_neg n1, rank_neg n2]; exact EReal.neg_le_neg_iff.mpr h3

theorem le_refl' (h : x ≠ nan) : le x x = true := le_iff.mpr ⟨h, h, le_rfl⟩

/-- Multiplication with a positive number keeps the order. -/
theorem mul_mono {k : Fl F} {κ : ℝ} (hk : k.Is κ) (h0 : 0 < κ) (h : le x y = true) : le (mul N k x) (mul N k y) = true := by
  obtain ⟨n1, n2, hr⟩ := le_iff.mp h
  cases k with
  | nan => exact hk.elim
  | inf s => exact hk.elim
  | fin s κ' hκ =>
    obtain rfl : κ = κ' := le_antisymm hk.1 hk.2
    have hs : s = false := by
      by_contra hs
      have := hκ.2.2.1 (by simpa using hs)
      linarith
    subst hs
    have hinf : ∀ t, mul N (.fin false κ hκ) (.inf t) = .inf t := fun t => by
      show (if κ = 0 then nan else inf (false ^^ t)) = _
      rw [if_neg h0.ne', Bool.false_xor]
    cases x with
    | nan => exact absurd rfl n1
    | inf t =>
      rw [hinf]
      cases y with
      | nan => exact absurd rfl n2
      | inf t' => rw [hinf]; exact h
      | fin t' v hv => cases t with
        | false => exact absurd hr (by simp [rank])
        | true =>
          rw [le_iff]
          exact ⟨nofun, round_ne_nan _ _, bot_le⟩
    | fin t u hu =>
      cases y with
      | nan => exact absurd rfl n2
      | inf t' => cases t' with
        | true => exact absurd hr (by simp [rank])
        | false =>
          rw [hinf, le_iff]
          exact ⟨round_ne_nan _ _, nofun, le_top⟩
      | fin t' v hv =>
        have : u ≤ v := EReal.coe_le_coe_iff.mp hr
        exact round_mono _ _ (by nlinarith)

/-- Multiplication with a negative number reverses the order. -/
theorem mul_anti {k : Fl F} {κ : ℝ} (hk : k.Is κ) (h0 : κ < 0) (h : le x y = true) : le (mul N k y) (mul N k x) = true := by
  obtain ⟨n1, n2, hr⟩ := le_iff.mp h
  cases k with
  | nan => exact hk.elim
  | inf s => exact hk.elim
  | fin s κ' hκ =>
    obtain rfl : κ = κ' := le_antisymm hk.1 hk.2
    have hs : s = true := by
      by_contra hs
      have := hκ.2.2.2 (by simpa using hs)
      linarith
    subst hs
    have hinf : ∀ t, mul N (.fin true κ hκ) (.inf t) = .inf !t := fun t => by
      show (if κ = 0 then nan else inf (true ^^ t)) = _
      rw [if_neg h0.ne, Bool.true_xor]
    cases x with
    | nan => exact absurd rfl n1
    | inf t =>
      rw [hinf]
      cases y with
      | nan => exact absurd rfl n2
      | inf t' => rw [hinf]; exact neg_anti h
      | fin t' v hv => cases t with
        | false => exact absurd hr (by simp [rank])
        | true =>
          rw [le_iff]
          exact ⟨round_ne_nan _ _, nofun, le_top⟩
    | fin t u hu =>
      cases y with
      | nan => exact absurd rfl n2
      | inf t' => cases t' with
        | true => exact absurd hr (by simp [rank])
        | false =>
          rw [hinf, le_iff]
          exact ⟨nofun, round_ne_nan _ _, bot_le⟩
      | fin t' v hv =>
        have : u ≤ v := EReal.coe_le_coe_iff.mp hr
        exact round_mono _ _ (by nlinarith)

end Fl

section
variable [E : Ieee] {d : Nat} {x x' : Tensor (Fl f32)} {s sx : Shape} {f f' : Arr (Fl f32)}

/-- C92: `softmax` and `ln_softmax` keep the order of the logits of an axis (logits as in C90, `exp` never reversing the order): a larger logit never gets a smaller
probability, and equal logits get equal probabilities. -/
theorem C92_softmax_order (hW : E.libm64.Special) (hexp : Libm.KeepsOrder E.libm32.exp) (hx : x.Holds d sx f) {dim : Nat} (hd : dim < 8) (p : Profile)
    (m : Mem (Fl f32)) :
    ∃ g h, Yields (TF.lnSoftmax p m x dim) d sx g ∧ Yields (TF.softmax p m x dim) d sx h ∧
      ∀ c b, sx.Valid c b → LogitAxis (axisOf sx f dim c b) → ∀ j, j < sx.get dim → Fl.le (f c b) (f (cset c dim j) b) = true →
        Fl.le (g c b) (g (cset c dim j) b) = true ∧ Fl.le (h c b) (h (cset c dim j) b) = true := by
  refine ⟨_, _, (softmax_yields hx hd p m).1, (softmax_yields hx hd p m).2, fun c b hv hl j hj hle => ?_⟩
  have hax : axisOf sx f dim (cset c dim j) b = axisOf sx f dim c b := by unfold axisOf; simp only [cset_cset]
  rw [hax]
  obtain ⟨ha, h0, h2⟩ := hl
  obtain ⟨a, hal, v, hav⟩ := exists_unmasked ha h0
  have hge := lseList_ge hW ha h2 hal hav
  generalize lseList (axisOf sx f dim c b) = y at hge ⊢
  obtain ⟨w, -, hw, -, -⟩ := hge.exists_in
  have hn : ∀ {z : Fl f32}, z ≠ .nan → Fl.add E.near32 z (Fl.neg y) ≠ .nan := fun {z} hz => by
    have := Fl.neg_is hw
    revert this
    cases Fl.neg y with
    | nan => exact fun h => h.elim
    | inf s => exact fun h => h.elim
    | fin s u hu =>
      intro _
      cases z with
      | nan => exact absurd rfl hz
      | inf s => exact nofun
      | fin s u hu => exact Fl.round_ne_nan _ _
  have hy : Fl.neg y ≠ .nan := fun e => by have := Fl.neg_is hw; rw [e] at this; exact this.elim
  obtain ⟨n1, n2, -⟩ := Fl.le_iff.mp hle
  have k := Fl.add_mono (N := E.near32) hle (Fl.le_refl' hy) (hn n1) (hn n2)
  exact ⟨k, hexp _ _ k⟩

/-- C92: `sigmoid` keeps the order of all elements of a tensor, if `tanh` of the library does. -/
theorem C92_sigmoid_order (htanh : Libm.KeepsOrder E.libm32.tanh) (hx : x.Holds d sx f) (p : Profile) (m : Nat → Fl f32) :
    ∃ g, Yields (TF.sigmoid p m x) d sx g ∧
      ∀ c b c' b', sx.Valid c b → sx.Valid c' b' → Fl.le (f c b) (f c' b') = true → Fl.le (g c b) (g c' b') = true := by
  refine ⟨_, TF.un_yields .sigmoid hx p m, fun c b c' b' _ _ hle => ?_⟩
  have hh : (Fl.lit (1 / 2) Fl.half_ok (by norm_num) : Fl f32).Is (1 / 2) := ⟨le_rfl, le_rfl⟩
  show Fl.le (Fl.add E.near32 (Fl.lit (1 / 2) Fl.half_ok (by norm_num)) (Fl.mul E.near32 (Fl.lit (1 / 2) Fl.half_ok (by norm_num))
      (E.libm32.tanh (Fl.mul E.near32 (Fl.lit (1 / 2) Fl.half_ok (by norm_num)) (f c b)))))
    (Fl.add E.near32 (Fl.lit (1 / 2) Fl.half_ok (by norm_num)) (Fl.mul E.near32 (Fl.lit (1 / 2) Fl.half_ok (by norm_num))
      (E.libm32.tanh (Fl.mul E.near32 (Fl.lit (1 / 2) Fl.half_ok (by norm_num)) (f c' b'))))) = true
  have k1 := Fl.mul_mono (N := E.near32) hh (by norm_num) (htanh _ _ (Fl.mul_mono (N := E.near32) hh (by norm_num) hle))
  obtain ⟨n1, n2, -⟩ := Fl.le_iff.mp k1
  have hn : ∀ {z : Fl f32}, z ≠ .nan → Fl.add E.near32 (Fl.lit (1 / 2) Fl.half_ok (by norm_num)) z ≠ .nan := fun {z} hz => by
    cases z with
    | nan => exact absurd rfl hz
    | inf s => exact nofun
    | fin s u hu => exact Fl.round_ne_nan _ _
  exact Fl.add_mono (Fl.le_refl' (fun e => by rw [e] at hh; exact hh.elim)) k1 (hn n1) (hn n2)

/-- C92: adding and subtracting a finite constant, and multiplying with a positive one, keep the order of all elements; subtracting from a constant
and multiplying with a negative one reverse it. -/
theorem C92_const_order {k : Fl f32} {κ : ℝ} (hk : k.Is κ) (hx : x.Holds d sx f) (p : Profile) (m : Nat → Fl f32) :
    ∃ g g' g'' h, Yields (TF.addC p m x k) d sx g ∧ Yields (TF.subC p m x k) d sx g' ∧ Yields (TF.cSub p m k x) d sx g'' ∧ Yields (TF.mulC p m x k) d sx h ∧
      ∀ c b c' b', sx.Valid c b → sx.Valid c' b' → Fl.le (f c b) (f c' b') = true →
        Fl.le (g c b) (g c' b') = true ∧ Fl.le (g' c b) (g' c' b') = true ∧ Fl.le (g'' c' b') (g'' c b) = true ∧
        (0 < κ → Fl.le (h c b) (h c' b') = true) ∧ (κ < 0 → Fl.le (h c' b') (h c b) = true) := by
  have H := C20_const hx p m k
  refine ⟨_, _, _, _, H.1, H.2.2.1, H.2.2.2.1, H.2.2.2.2.1, fun c b c' b' _ _ hle => ?_⟩
  have hkn : k ≠ .nan := fun e => by rw [e] at hk; exact hk.elim
  have hk' := Fl.neg_is hk
  have hkn' : Fl.neg k ≠ .nan := fun e => by rw [e] at hk'; exact hk'.elim
  obtain ⟨n1, n2, -⟩ := Fl.le_iff.mp hle
  have hneg := Fl.neg_anti hle
  obtain ⟨n3, n4, -⟩ := Fl.le_iff.mp hneg
  have ac : ∀ u v : Fl f32, Fl.add E.near32 u v = Fl.add E.near32 v u := fun u v => Fl.add_comm E.near32 u v
  refine ⟨Fl.add_mono hle (Fl.le_refl' hkn) (Fl.add_ne_nan n1 hk) (Fl.add_ne_nan n2 hk),
    Fl.add_mono hle (Fl.le_refl' hkn') (Fl.add_ne_nan n1 hk') (Fl.add_ne_nan n2 hk'),
    Fl.add_mono (Fl.le_refl' hkn) hneg (ac _ _ ▸ Fl.add_ne_nan n3 hk) (ac _ _ ▸ Fl.add_ne_nan n4 hk), fun h0 => ?_, fun h0 => ?_⟩
  · have := Fl.mul_mono (N := E.near32) hk h0 hle
    rwa [Fl.mul_comm _ k, Fl.mul_comm _ k] at this
  · have := Fl.mul_anti (N := E.near32) hk h0 hle
    rwa [Fl.mul_comm _ k, Fl.mul_comm _ k] at this

theorem tanh_mono {u v : ℝ} (h : u ≤ v) : Real.tanh u ≤ Real.tanh v := by
  rw [tanh_eq, tanh_eq]
  have h1 := Real.exp_pos (2 * u)
  have h2 := Real.exp_le_exp.mpr (show 2 * u ≤ 2 * v by linarith)
  rw [div_le_div_iff₀ (by linarith) (by linarith)]
  nlinarith

/-- The exactly rounded `exp` and `tanh` never reverse the order. -/
theorem Libm.ideal_order {F : Fmt} (N : Near F) : Libm.KeepsOrder (Libm.ideal N).exp ∧ Libm.KeepsOrder (Libm.ideal N).tanh := by
  refine ⟨fun x y h => ?_, fun x y h => ?_⟩ <;> obtain ⟨n1, n2, hr⟩ := Fl.le_iff.mp h
  · cases x with
    | nan => exact absurd rfl n1
    | inf s =>
      cases s with
      | true =>
        cases y with
        | nan => exact absurd rfl n2
        | inf t => cases t with
          | true => exact Fl.round_mono _ _ le_rfl
          | false => exact Fl.le_iff.mpr ⟨Fl.round_ne_nan _ _, nofun, le_top⟩
        | fin t v hv => exact Fl.round_mono _ _ (Real.exp_pos v).le
      | false =>
        cases y with
        | nan => exact absurd rfl n2
        | inf t => cases t with
          | true => exact absurd hr (by simp [Fl.rank])
          | false => exact Fl.le_refl' nofun
        | fin t v hv => exact absurd hr (by simp [Fl.rank])
    | fin s u hu =>
      cases y with
      | nan => exact absurd rfl n2
      | inf t => cases t with
        | true => exact absurd hr (by simp [Fl.rank])
        | false => exact Fl.le_iff.mpr ⟨Fl.round_ne_nan _ _, nofun, le_top⟩
      | fin t v hv => exact Fl.round_mono _ _ (Real.exp_le_exp.mpr (EReal.coe_le_coe_iff.mp hr))
  · cases x with
    | nan => exact absurd rfl n1
    | inf s =>
      cases s with
      | true =>
        cases y with
        | nan => exact absurd rfl n2
        | inf t => exact Fl.round_mono _ _ (by cases t <;> norm_num)
        | fin t v hv => exact Fl.round_mono _ _ (Real.neg_one_lt_tanh v).le
      | false =>
        cases y with
        | nan => exact absurd rfl n2
        | inf t => cases t with
          | true => exact absurd hr (by simp [Fl.rank])
          | false => exact Fl.round_mono _ _ le_rfl
        | fin t v hv => exact absurd hr (by simp [Fl.rank])
    | fin s u hu =>
      cases y with
      | nan => exact absurd rfl n2
      | inf t => cases t with
        | true => exact absurd hr (by simp [Fl.rank])
        | false => exact Fl.round_mono _ _ (Real.tanh_lt_one u).le
      | fin t v hv => exact Fl.round_mono _ _ (tanh_mono (EReal.coe_le_coe_iff.mp hr))

end

/-- There is an arithmetic that meets all hypotheses. -/
example : ∃ E : Ieee, E.libm64.Special ∧ Libm.KeepsOrder E.libm32.exp ∧ Libm.KeepsOrder E.libm32.tanh := by
  obtain ⟨E, h1, h2⟩ := Ieee.exists_ideal
  exact ⟨E, h2 ▸ Libm.ideal_special _ has0.up, h1 ▸ (Libm.ideal_order _).1, h1 ▸ (Libm.ideal_order _).2⟩

theorem Fl.zero_le_one32 [E : Ieee] : Fl.le (0 : Fl f32) (1 : Fl f32) = true := by
  have h0 : (0 : Fl f32).Is 0 := ⟨le_rfl, le_rfl⟩
  have h1 : (1 : Fl f32).Is 1 := ⟨le_rfl, le_rfl⟩
  refine Fl.le_iff.mpr ⟨nofun, nofun, ?_⟩
  rw [Fl.Is.rank h0, Fl.Is.rank h1]
  exact EReal.coe_le_coe_iff.mpr zero_le_one

/-- The logits `[0, 1]`: the second class does not get the smaller probability. -/
example [E : Ieee] (hW : E.libm64.Special) (hexp : Libm.KeepsOrder E.libm32.exp) (p : Profile) (m : Mem (Fl f32)) :
    ∃ (x : Tensor (Fl f32)) (h : Arr (Fl f32)), Yields (TF.softmax p m x 0) 0 (vecShape 2 1) h ∧
      ∀ c b, (vecShape 2 1).Valid c b → c 0 = 0 → Fl.le (h c b) (h (cset c 0 1) b) = true := by
  obtain ⟨x, f, hx, hf⟩ := pair_exists (0 : Fl f32) (1 : Fl f32)
  obtain ⟨g, h, -, h2, h3⟩ := C92_softmax_order hW hexp hx (dim := 0) (by omega) p m
  refine ⟨x, h, h2, fun c b hv hc => (h3 c b hv ?_ 1 (show 1 < 2 by omega) ?_).2⟩
  · rw [pair_axis hf hv]
    refine ⟨fun a ha => ?_, ⟨0, by simp, nofun⟩, fun h => ?_⟩
    · simp only [List.mem_cons, List.not_mem_nil, or_false] at ha
      rcases ha with rfl | rfl <;> exact .inl trivial
    · cases (List.cons_prefix_cons.mp h).1
  · rw [hf c b hv, if_pos hc, hf _ _ (Valid.cset hv (show 1 < 2 by omega)), if_neg (by rw [show cset c 0 1 0 = 1 from rfl]; omega)]
    exact Fl.zero_le_one32

/-- The elements `0` and `1`: `sigmoid`, `x + 1` and `x * 1` keep their order, `1 - x` and `x * -1` reverse it. -/
example [E : Ieee] (htanh : Libm.KeepsOrder E.libm32.tanh) (p : Profile) (m : Nat → Fl f32) :
    ∃ (x : Tensor (Fl f32)) (g h k r : Arr (Fl f32)), Yields (TF.sigmoid p m x) 0 (vecShape 2 1) g ∧ Yields (TF.addC p m x 1) 0 (vecShape 2 1) h ∧
      Yields (TF.mulC p m x 1) 0 (vecShape 2 1) k ∧ Yields (TF.cSub p m 1 x) 0 (vecShape 2 1) r ∧
      ∀ c b c' b', (vecShape 2 1).Valid c b → (vecShape 2 1).Valid c' b' → c 0 = 0 → c' 0 = 1 →
        Fl.le (g c b) (g c' b') = true ∧ Fl.le (h c b) (h c' b') = true ∧ Fl.le (k c b) (k c' b') = true ∧ Fl.le (r c' b') (r c b) = true := by
  obtain ⟨x, f, hx, hf⟩ := pair_exists (0 : Fl f32) (1 : Fl f32)
  obtain ⟨g, h1, h2⟩ := C92_sigmoid_order htanh hx p m
  obtain ⟨h, h', r, k, h3, -, h4, h5, h6⟩ := C92_const_order (k := (1 : Fl f32)) (κ := 1) ⟨le_rfl, le_rfl⟩ hx p m
  refine ⟨x, g, h, k, r, h1, h3, h5, h4, fun c b c' b' hv hv' hc hc' => ?_⟩
  have hle : Fl.le (f c b) (f c' b') = true := by
    rw [hf c b hv, hf c' b' hv', if_pos hc, if_neg (by omega)]
    exact Fl.zero_le_one32
  obtain ⟨a1, -, a3, a4, -⟩ := h6 c b c' b' hv hv' hle
  exact ⟨h2 c b c' b' hv hv' hle, a1, a4 one_pos, a3⟩

end Verif
