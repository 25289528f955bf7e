import Verif.PropsMono
import Verif.PropsFw3
import Verif.PropsFloat3
import Verif.PropsContrib
import Verif.PropsFloat6

/-!
# C92: sums and matrix products preserve order in f32
-/

set_option linter.unusedSectionVars false
set_option linter.style.haveILetI false

namespace Verif
open Fmt Res Shape

namespace Fl
variable {F : Fmt} {N : Near F} {x y k : Fl F}

/-- Multiplication with a number that is at least zero (possibly infinite) keeps the order, as long as no NaN arises. -/
theorem mul_mono_nonneg {z : Fl F} (hz : z.Is 0) (hk : le z k = true) (h : le x y = true) (hn : mul N x k ≠ nan) (hn' : mul N y k ≠ nan) :
    le (mul N x k) (mul N y k) = true := by
  obtain ⟨-, nk, hk0⟩ := le_iff.mp hk
  rw [Is.rank hz] at hk0
  obtain ⟨n1, n2, hr⟩ := le_iff.mp h
  cases k with
  | nan => exact absurd rfl nk
  | inf s =>
    cases s with
    | true => exact absurd hk0 (by simp [rank])
    | false =>
      refine le_iff.mpr ⟨hn, hn', ?_⟩
      have hinf : ∀ t : Bool, mul N (.inf t) (.inf false : Fl F) = .inf t := fun t => by
        show inf (t ^^ false) = _
        rw [Bool.xor_false]
      have hfin : ∀ (t : Bool) (u : ℝ) (hu), mul N (.fin t u hu) (.inf false : Fl F) ≠ nan → u ≠ 0 ∧ mul N (.fin t u hu) (.inf false : Fl F) = .inf t := by
        intro t u hu h1
        have e : mul N (.fin t u hu) (.inf false : Fl F) = if u = 0 then nan else inf (t ^^ false) := rfl
        rw [e] at h1 ⊢
        by_cases h2 : u = 0
        · rw [if_pos h2] at h1; exact absurd rfl h1
        · rw [if_neg h2, Bool.xor_false]; exact ⟨h2, rfl⟩
      cases x with
      | nan => exact absurd rfl n1
      | inf t =>
        rw [hinf]
        cases t with
        | true => exact bot_le
        | false =>
          cases y with
          | nan => exact absurd rfl n2
          | inf t' => rw [hinf]; exact hr
          | fin t' v hv => exact absurd hr (by simp [rank])
      | fin t u hu =>
        obtain ⟨hu0, e1⟩ := hfin t u hu hn
        rw [e1]
        cases t with
        | true => exact bot_le
        | false =>
          have hu1 : 0 < u := lt_of_le_of_ne (hu.2.2.2 rfl) (Ne.symm hu0)
          cases y with
          | nan => exact absurd rfl n2
          | inf t' => cases t' with
            | true => exact absurd hr (by simp [rank])
            | false => rw [hinf]
          | fin t' v hv =>
            obtain ⟨hv0, e2⟩ := hfin t' v hv hn'
            rw [e2]
            have huv : u ≤ v := EReal.coe_le_coe_iff.mp hr
            cases t' with
            | false => exact le_rfl
            | true => have := hv.2.2.1 rfl; linarith
  | fin s κ hκ =>
    have h0 : 0 ≤ κ := EReal.coe_le_coe_iff.mp hk0
    rcases h0.eq_or_lt with h0 | h0
    · subst h0
      cases x with
      | nan => exact absurd rfl n1
      | inf t => exact absurd (if_pos rfl) hn
      | fin t u hu =>
        cases y with
        | nan => exact absurd rfl n2
        | inf t => exact absurd (if_pos rfl) hn'
        | fin t' v hv => exact round_mono _ _ (by simp)
    · rw [Fl.mul_comm N x, Fl.mul_comm N y]
      exact mul_mono ⟨le_rfl, le_rfl⟩ h0 h

/-- Division by a positive number keeps the order. -/
theorem div_mono {κ : ℝ} (hk : k.Is κ) (h0 : 0 < κ) (h : le x y = true) : le (div N x k) (div N y k) = true := by
  obtain ⟨n1, n2, hr⟩ := le_iff.mp h
  cases k with
  | nan => exact hk.elim
  | inf s => exact hk.elim
  | fin s κ' hκ =>
    obtain rfl : κ = κ' := le_antisymm hk.1 hk.2
    have hs : s = false := by
      by_contra hs
      have := hκ.2.2.1 (by simpa using hs)
      linarith
    subst hs
    have hinf : ∀ t : Bool, div N (.inf t) (.fin false κ hκ) = .inf t := fun t => by
      show inf (t ^^ false) = _
      rw [Bool.xor_false]
    have hfin : ∀ (t : Bool) (u : ℝ) (hu), div N (.fin t u hu) (.fin false κ hκ) = round N (t ^^ false) (u / κ) := fun t u hu => if_neg h0.ne'
    cases x with
    | nan => exact absurd rfl n1
    | inf t =>
      rw [hinf]
      cases y with
      | nan => exact absurd rfl n2
      | inf t' => rw [hinf]; exact h
      | fin t' v hv => cases t with
        | false => exact absurd hr (by simp [rank])
        | true =>
          rw [hfin, le_iff]
          exact ⟨nofun, round_ne_nan _ _, bot_le⟩
    | fin t u hu =>
      rw [hfin]
      cases y with
      | nan => exact absurd rfl n2
      | inf t' => cases t' with
        | true => exact absurd hr (by simp [rank])
        | false =>
          rw [hinf, le_iff]
          exact ⟨round_ne_nan _ _, nofun, le_top⟩
      | fin t' v hv =>
        rw [hfin]
        exact round_mono _ _ (div_le_div_of_nonneg_right (EReal.coe_le_coe_iff.mp hr) h0.le)

/-- The square root keeps the order of numbers that have one. -/
theorem sqrt_mono (h : le x y = true) (hn : sqrt N x ≠ nan) : le (sqrt N x) (sqrt N y) = true := by
  obtain ⟨n1, n2, hr⟩ := le_iff.mp h
  cases x with
  | nan => exact absurd rfl n1
  | inf t => cases t with
    | true => exact absurd rfl hn
    | false => cases y with
      | nan => exact absurd rfl n2
      | inf t' => cases t' with
        | true => exact absurd hr (by simp [rank])
        | false => exact le_refl' nofun
      | fin t' v hv => exact absurd hr (by simp [rank])
  | fin t u hu =>
    have e : sqrt N (.fin t u hu) = if u < 0 then nan else round N t (Real.sqrt u) := rfl
    rw [e] at hn ⊢
    by_cases h0 : u < 0
    · rw [if_pos h0] at hn; exact absurd rfl hn
    rw [if_neg h0]
    cases y with
    | nan => exact absurd rfl n2
    | inf t' => cases t' with
      | true => exact absurd hr (by simp [rank])
      | false => exact le_iff.mpr ⟨round_ne_nan _ _, nofun, le_top⟩
    | fin t' v hv =>
      have huv : u ≤ v := EReal.coe_le_coe_iff.mp hr
      have e' : sqrt N (.fin t' v hv) = if v < 0 then nan else round N t' (Real.sqrt v) := rfl
      rw [e', if_neg (by linarith)]
      exact round_mono _ _ (Real.sqrt_le_sqrt huv)

end Fl

section
variable [E : Ieee] {d : Nat} {x x' y : Tensor (Fl f32)} {s sx sy : Shape} {f f' g : Arr (Fl f32)}

theorem foldN_add_order {n : Nat} {t t' : Nat → Fl f32} {z z' : Fl f32} (hz : Fl.le z z' = true)
    (h : ∀ j, j < n → t j ≠ .nan → t' j ≠ .nan → Fl.le (t j) (t' j) = true) (hn : foldN n (fun j a => a + t j) z ≠ .nan)
    (hn' : foldN n (fun j a => a + t' j) z' ≠ .nan) : Fl.le (foldN n (fun j a => a + t j) z) (foldN n (fun j a => a + t' j) z') = true := by
  induction n with
  | zero => exact hz
  | succ n ih =>
    rw [foldN_succ] at hn hn' ⊢
    rw [foldN_succ]
    have l : ∀ {u v : Fl f32}, u + v ≠ .nan → u ≠ .nan ∧ v ≠ .nan := fun {u v} h => ⟨fun e => h (by rw [e]; rfl), fun e => h (by rw [e]; exact Fl.add_nan (N := E.near32) u)⟩
    exact Fl.add_mono (N := E.near32) (ih (fun j hj => h j (by omega)) (l hn).1 (l hn').1) (h n (by omega) (l hn).2 (l hn').2) hn hn'

theorem zero_refl : Fl.le (0 : Fl f32) 0 = true := Fl.le_refl' nofun

/-- C92: `sum` and `batch_sum` are monotone: if no element of the first tensor is larger than the element of the second at the same position, no sum is
larger than its counterpart (where neither of the two is NaN, which takes infinities of both signs). -/
theorem C92_sum_order (hx : x.Holds d sx f) (hx' : x'.Holds d sx f') (hle : ∀ c b, sx.Valid c b → Fl.le (f c b) (f' c b) = true) {dim : Nat} (hd : dim < 8)
    (hs : s.Is sx.get 1) (p : Profile) (m : Nat → Fl f32) :
    ∃ t g g' h h', Yields (TF.sum p m x dim) d t g ∧ Yields (TF.sum p m x' dim) d t g' ∧ Yields (TF.batchSum p m x) d s h ∧ Yields (TF.batchSum p m x') d s h' ∧
      (∀ c b, t.Valid c b → g c b ≠ .nan → g' c b ≠ .nan → Fl.le (g c b) (g' c b) = true) ∧
      (∀ c b, s.Valid c b → h c b ≠ .nan → h' c b ≠ .nan → Fl.le (h c b) (h' c b) = true) := by
  obtain ⟨t, ht, h1⟩ := C21_sum hx hd p m
  obtain ⟨t', ht', h2⟩ := C21_sum hx' hd p m
  obtain rfl : t' = t := ht'.1.ext ht.1 (by rw [ht.2.2, ht'.2.2]) (fun i => by rw [ht.2.1 i, ht'.2.1 i])
  refine ⟨t', _, _, _, _, h1, h2, C28_batch_sum hx hs p m, C28_batch_sum hx' hs p m, fun c b hv n1 n2 => ?_, fun c b hv n1 n2 => ?_⟩
  · refine foldN_add_order zero_refl (fun j hj _ _ => hle _ _ ⟨fun i => ?_, ht.2.2 ▸ hv.2⟩) n1 n2
    have := hv.1 i
    rw [ht.2.1] at this
    unfold cset at this ⊢
    split at this
    · rename_i e; rw [if_pos e, e]; exact hj
    · rename_i e; rw [if_neg e]; exact this
  · exact foldN_add_order zero_refl (fun j hj _ _ => hle _ _ ⟨fun i => by rw [← hs.2.1 i]; exact hv.1 i, hj⟩) n1 n2

/-- C92: `matmul` with a right operand without negative elements is monotone in the left operand (where neither product is NaN). -/
theorem C92_matmul_order (hx : x.Holds d sx f) (hx' : x'.Holds d sx f') (hy : y.Holds d sy g) (hle : ∀ c b, sx.Valid c b → Fl.le (f c b) (f' c b) = true)
    (hg : ∀ c b, sy.Valid c b → Fl.le 0 (g c b) = true) (h : MatFits sx sy) (hv : sx.get 0 * sy.get 1 < U32)
    (hsz : sx.get 0 * sy.get 1 * max sx.batch sy.batch ≤ 2 ^ 31) (p : Profile) (m : Nat → Fl f32) :
    ∃ t r r', Yields (TF.matmul p m x y) d t r ∧ Yields (TF.matmul p m x' y) d t r' ∧
      ∀ c b, t.Valid c b → r c b ≠ .nan → r' c b ≠ .nan → Fl.le (r c b) (r' c b) = true := by
  obtain ⟨t, ht, h1⟩ := C24_matmul hx hy h hv hsz p m
  obtain ⟨t', ht', h2⟩ := C24_matmul hx' hy h hv hsz p m
  obtain rfl : t' = t := ht'.1.ext ht.1 (by rw [ht.2.2, ht'.2.2]) (fun i => by rw [ht.2.1 i, ht'.2.1 i])
  refine ⟨t', _, _, h1, h2, fun c b hv n1 n2 => ?_⟩
  obtain ⟨-, -, -, hk⟩ := matFits_valid hx.wf hy.wf h ht hv
  refine foldN_add_order zero_refl (fun q hq m1 m2 => ?_) n1 n2
  refine foldN_add_order zero_refl (fun j hj m3 m4 => ?_) m1 m2
  have hj' : q * 8 + j < sx.get 1 := by
    have : Nat.min (q * 8 + 8) (sx.get 1) ≤ sx.get 1 := Nat.min_le_right _ _
    omega
  exact Fl.mul_mono_nonneg (N := E.near32) (z := (0 : Fl f32)) ⟨le_rfl, le_rfl⟩ (hg _ _ (hk _ hj').2) (hle _ _ (hk _ hj').1) m3 m4

theorem prelu_order {k : Fl f32} {κ : ℝ} (hk : k.Is κ) (h0 : 0 ≤ κ) {u v : Fl f32} (h : Fl.le u v = true)
    (hn : Fl.mul E.near32 u (preluF E.near32 E.near64 E.libm32 E.libm64 u k) ≠ .nan) (hn' : Fl.mul E.near32 v (preluF E.near32 E.near64 E.libm32 E.libm64 v k) ≠ .nan) :
    Fl.le (Fl.mul E.near32 u (preluF E.near32 E.near64 E.libm32 E.libm64 u k)) (Fl.mul E.near32 v (preluF E.near32 E.near64 E.libm32 E.libm64 v k)) = true := by
  obtain ⟨n1, n2, hr⟩ := Fl.le_iff.mp h
  rcases Fl.pos_or_nonPos n1 with hu | hu
  · have hv : v.Pos := by
      rcases Fl.pos_or_nonPos n2 with hv | hv
      · exact hv
      · exfalso
        cases u with
        | nan => exact hu.elim
        | inf s => cases s with
          | true => cases hu
          | false => cases v with
            | nan => exact hv.elim
            | inf t => cases t with
              | true => exact absurd hr (by simp [Fl.rank])
              | false => cases hv
            | fin t w hw => exact absurd hr (by simp [Fl.rank])
        | fin s w hw => cases v with
          | nan => exact hv.elim
          | inf t => cases t with
            | true => exact absurd hr (by simp [Fl.rank])
            | false => cases hv
          | fin t w' hw' =>
            have h1 : w ≤ w' := EReal.coe_le_coe_iff.mp hr
            have h2 : 0 < w := hu
            have h3 : w' ≤ 0 := hv
            linarith
    rw [preluF_pos hk hu, preluF_pos hk hv, Fl.mul_one_right, Fl.mul_one_right]
    exact h
  · have h1 := preluF_nonPos (N := E.near32) (M := E.near64) (L := E.libm32) (W := E.libm64) hk hu
    generalize preluF E.near32 E.near64 E.libm32 E.libm64 u k = k1 at h1 hn ⊢
    refine Fl.le_iff.mpr ⟨hn, hn', ?_⟩
    cases k1 with
    | nan => exact h1.elim
    | inf s => exact h1.elim
    | fin s κ1 hκ1 =>
      obtain rfl : κ = κ1 := le_antisymm h1.1 h1.2
      cases u with
      | nan => exact absurd rfl n1
      | inf t =>
        obtain rfl : t = true := hu
        have e : Fl.mul E.near32 (.inf true) (.fin s κ hκ1) = if κ = 0 then .nan else .inf (true ^^ s) := rfl
        rw [e] at hn ⊢
        by_cases hκ : κ = 0
        · rw [if_pos hκ] at hn; exact absurd rfl hn
        · have hs : s = false := by
            by_contra hs
            have := hκ1.2.2.1 (by simpa using hs)
            exact hκ (le_antisymm this h0)
          rw [if_neg hκ, hs]
          exact bot_le
      | fin t w hw =>
        have hw0 : w ≤ 0 := hu
        rcases Fl.pos_or_nonPos n2 with hv | hv
        · rw [preluF_pos hk hv, Fl.mul_one_right]
          have h2 := (Fl.le_iff.mp (Fl.round_mono (N := E.near32) (t ^^ s) false (show w * κ ≤ 0 from mul_nonpos_of_nonpos_of_nonneg hw0 h0))).2.2
          have h3 : (Fl.round E.near32 false 0).Is 0 := Fl.round_in has0 has0 le_rfl le_rfl
          rw [Fl.Is.rank h3] at h2
          refine h2.trans ?_
          cases v with
          | nan => exact absurd rfl n2
          | inf t => cases t with
            | true => cases hv
            | false => exact le_top
          | fin t w' hw' => exact EReal.coe_le_coe_iff.mpr (le_of_lt hv)
        · have h2 := preluF_nonPos (N := E.near32) (M := E.near64) (L := E.libm32) (W := E.libm64) hk hv
          generalize preluF E.near32 E.near64 E.libm32 E.libm64 v k = k2 at h2 ⊢
          cases k2 with
          | nan => exact h2.elim
          | inf s => exact h2.elim
          | fin s' κ2 hκ2 =>
            obtain rfl : κ = κ2 := le_antisymm h2.1 h2.2
            cases v with
            | nan => exact absurd rfl n2
            | inf t' =>
              obtain rfl : t' = true := hv
              exact absurd hr (by simp [Fl.rank])
            | fin t' w' hw' =>
              exact (Fl.le_iff.mp (Fl.round_mono (N := E.near32) _ _ (mul_le_mul_of_nonneg_right (EReal.coe_le_coe_iff.mp hr) h0))).2.2

/-- C92: `relu` and, for every coefficient that is finite and not negative, `prelu` keep the order of all elements (where neither result is NaN, which by C72
only elements −∞ with a zero coefficient give). -/
theorem C92_relu_order {k : Fl f32} {κ : ℝ} (hk : k.Is κ) (h0 : 0 ≤ κ) (hx : x.Holds d sx f) (p : Profile) (m : Nat → Fl f32) :
    ∃ g h, Yields (TF.relu p m x) d sx g ∧ Yields (TF.prelu p m x k) d sx h ∧
      ∀ c b c' b', sx.Valid c b → sx.Valid c' b' → Fl.le (f c b) (f c' b') = true →
        (g c b ≠ .nan → g c' b' ≠ .nan → Fl.le (g c b) (g c' b') = true) ∧ (h c b ≠ .nan → h c' b' ≠ .nan → Fl.le (h c b) (h c' b') = true) := by
  refine ⟨_, _, (C20_const hx p m 0).2.2.2.2.2.2.2.2.2.1, (C20_const hx p m k).2.2.2.2.2.2.2.2.2.2.2.1, fun c b c' b' _ _ hle => ⟨fun n1 n2 => ?_, fun n1 n2 => ?_⟩⟩
  · exact prelu_order lit0_is le_rfl hle n1 n2
  · exact prelu_order hk h0 hle n1 n2

theorem count_pos {n : Nat} (h0 : 0 < n) (hn : n ≤ 2 ^ 104) : ∃ κ, (Flt.ofInt (n : Int) : Fl f32).Is κ ∧ 0 < κ := by
  have h1 : (1 : ℝ) ≤ E.near32.near n := E.near32.le_near has1.1 (by exact_mod_cast h0)
  have h2 : E.near32.near n ≤ 2 ^ 104 := E.near32.near_le (has_p103 104 le_rfl).1 (by exact_mod_cast hn)
  refine ⟨E.near32.near n, ?_, by linarith⟩
  show (Fl.round E.near32 false ((n : Int) : ℝ)).Is _
  have := Fl.round_eq (N := E.near32) false ((n : Int) : ℝ) (by
    rw [Int.cast_natCast, top32, abs_of_pos (by linarith)]
    exact lt_of_le_of_lt h2 (by norm_num))
  rwa [Int.cast_natCast] at this ⊢

theorem avg_order {n : Nat} (h0 : 0 < n) (hn : n ≤ 2 ^ 104) {t t' : Nat → Fl f32} (h : ∀ j, j < n → Fl.le (t j) (t' j) = true) (n1 : avg n t ≠ .nan)
    (n2 : avg n t' ≠ .nan) : Fl.le (avg n t) (avg n t') = true := by
  obtain ⟨κ, hk, hp⟩ := count_pos (E := E) h0 hn
  exact Fl.div_mono (N := E.near32) hk hp (foldN_add_order zero_refl (fun j hj _ _ => h j hj) (fun e => n1 (by unfold avg sumTo; rw [e]; rfl))
    (fun e => n2 (by unfold avg sumTo; rw [e]; rfl)))

/-- C92: the same for `mean` and `batch_mean`. -/
theorem C92_mean_order (hx : x.Holds d sx f) (hx' : x'.Holds d sx f') (hle : ∀ c b, sx.Valid c b → Fl.le (f c b) (f' c b) = true) {dim : Nat} (hd : dim < 8)
    (hs : s.Is sx.get 1) (p : Profile) (m : Mem (Fl f32)) :
    ∃ t g g' h h', Yields (TF.mean p m x dim) d t g ∧ Yields (TF.mean p m x' dim) d t g' ∧ Yields (TF.batchMean p m x) d s h ∧ Yields (TF.batchMean p m x') d s h' ∧
      (∀ c b, t.Valid c b → g c b ≠ .nan → g' c b ≠ .nan → Fl.le (g c b) (g' c b) = true) ∧
      (∀ c b, s.Valid c b → h c b ≠ .nan → h' c b ≠ .nan → Fl.le (h c b) (h' c b) = true) := by
  obtain ⟨t, ht, h1⟩ := C46_mean hx hd p m
  obtain ⟨t', ht', h2⟩ := C46_mean hx' hd p m
  obtain rfl : t' = t := ht'.1.ext ht.1 (by rw [ht.2.2, ht'.2.2]) (fun i => by rw [ht.2.1 i, ht'.2.1 i])
  have hsz := hx.small
  have hvol : 0 < sx.volume := by rw [hx.wf.vol]; exact volN_pos fun i _ => hx.wf.get_pos i
  have hb : sx.batch ≤ 2 ^ 104 := by
    have : sx.batch ≤ sx.size := by unfold Shape.size; exact Nat.le_mul_of_pos_right _ hvol
    omega
  have hg : sx.get dim ≤ 2 ^ 104 := by
    have := hx.wf.get_le_volume dim
    have := hx.wf.vol_lt
    unfold U32 at this
    omega
  refine ⟨t', _, _, _, _, h1, h2, C46_batch_mean hx hs p m, C46_batch_mean hx' hs p m, fun c b hv n1 n2 => ?_, fun c b hv n1 n2 => ?_⟩
  · refine avg_order (hx.wf.get_pos dim) hg (fun j hj => hle _ _ ⟨fun i => ?_, ht.2.2 ▸ hv.2⟩) n1 n2
    have := hv.1 i
    rw [ht.2.1] at this
    unfold cset at this ⊢
    split at this
    · rename_i e; rw [if_pos e, e]; exact hj
    · rename_i e; rw [if_neg e]; exact this
  · exact avg_order hx.wf.batch_pos hb (fun j hj => hle _ _ ⟨fun i => by rw [← hs.2.1 i]; exact hv.1 i, hj⟩) n1 n2

theorem Fl.Pos.of_le {F : Fmt} {u v : Fl F} (hu : u.Pos) (h : Fl.le u v = true) : v.Pos := by
  obtain ⟨n1, n2, hr⟩ := Fl.le_iff.mp h
  cases u with
  | nan => exact hu.elim
  | inf s => cases s with
    | true => cases hu
    | false => cases v with
      | nan => exact absurd rfl n2
      | inf t => cases t with
        | true => exact absurd hr (by simp [Fl.rank])
        | false => rfl
      | fin t w hw => exact absurd hr (by simp [Fl.rank])
  | fin s w hw => cases v with
    | nan => exact absurd rfl n2
    | inf t => cases t with
      | true => exact absurd hr (by simp [Fl.rank])
      | false => rfl
    | fin t w' hw' =>
      have h1 : w ≤ w' := EReal.coe_le_coe_iff.mp hr
      exact lt_of_lt_of_le (show 0 < w from hu) h1

/-- C92: `elu` with a finite coefficient that is not negative keeps the order of all elements, infinite ones included, if `exp` of the library does. -/
theorem C92_elu_order (hexp : Libm.KeepsOrder E.libm32.exp) {k : Fl f32} {κ : ℝ} (hk : k.Is κ) (h0 : 0 ≤ κ) (hx : x.Holds d sx f) (p : Profile)
    (m : Nat → Fl f32) :
    ∃ g, Yields (TF.elu p m x k) d sx g ∧
      ∀ c b c' b', sx.Valid c b → sx.Valid c' b' → Fl.le (f c b) (f c' b') = true → Fl.le (g c b) (g c' b') = true := by
  refine ⟨_, (C20_const hx p m k).2.2.2.2.2.2.2.2.2.2.2.2, fun c b c' b' _ _ hle => ?_⟩
  obtain ⟨n1, n2, hr⟩ := Fl.le_iff.mp hle
  have low : ∀ {u : Fl f32}, u.NonPos → (if Flt.gt u 0 then u else k * (Flt.exp u - 1)) =
      Fl.mul E.near32 k (Fl.sub E.near32 (E.libm32.exp u) (Fl.lit 1 Fl.one_ok zero_le_one)) ∧
      ∃ w, (Fl.sub E.near32 (E.libm32.exp u) (Fl.lit 1 Fl.one_ok zero_le_one)).Is w ∧ w ≤ 0 := fun {u} h => by
    refine ⟨if_neg (by rw [show Flt.gt u 0 = false from (h.gt lit0_is).1]; simp), ?_⟩
    have h1 : (E.libm32.exp u).In 0 1 := E.sane32.exp _ h
    have h2 : (Fl.sub E.near32 (E.libm32.exp u) (Fl.lit 1 Fl.one_ok zero_le_one)).In (-1) 0 :=
      Fl.sub_in h1 lit1_is has1.neg has0 (by norm_num) (by norm_num)
    obtain ⟨w, -, hw, -, h4⟩ := h2.exists_in
    exact ⟨w, hw, h4⟩
  have high : ∀ {u : Fl f32}, u.Pos → (if Flt.gt u 0 then u else k * (Flt.exp u - 1)) = u := fun h => if_pos (h.gt lit0_is).1
  rcases Fl.pos_or_nonPos n1 with hu | hu
  · rw [high hu, high (hu.of_le hle)]; exact hle
  · obtain ⟨e1, w, hw, hw0⟩ := low hu
    obtain ⟨z, ez⟩ := Fl.mul_eq (N := E.near32) hk hw
    rcases Fl.pos_or_nonPos n2 with hv | hv
    · rw [high hv, e1, ez]
      refine Fl.le_iff.mpr ⟨Fl.round_ne_nan _ _, n2, ?_⟩
      have h2 := (Fl.le_iff.mp (Fl.round_mono (N := E.near32) z false (show κ * w ≤ 0 from mul_nonpos_of_nonneg_of_nonpos h0 hw0))).2.2
      have h3 : (Fl.round E.near32 false 0).Is 0 := Fl.round_in has0 has0 le_rfl le_rfl
      rw [Fl.Is.rank h3] at h2
      refine h2.trans ?_
      generalize f c' b' = v at hv n2
      cases v with
      | nan => exact absurd rfl n2
      | inf t => cases t with
        | true => cases hv
        | false => exact le_top
      | fin t w' hw' => exact EReal.coe_le_coe_iff.mpr (le_of_lt hv)
    · obtain ⟨e2, w', hw', -⟩ := low hv
      obtain ⟨z', ez'⟩ := Fl.mul_eq (N := E.near32) hk hw'
      have hn : ∀ {u : Fl f32} {v : ℝ}, u.Is v → u ≠ .nan := fun h e => by rw [e] at h; exact h.elim
      have hs : Fl.le (Fl.sub E.near32 (E.libm32.exp (f c b)) (Fl.lit 1 Fl.one_ok zero_le_one)) (Fl.sub E.near32 (E.libm32.exp (f c' b')) (Fl.lit 1 Fl.one_ok zero_le_one)) = true :=
        Fl.add_mono (hexp _ _ hle) (Fl.le_refl' nofun) (hn hw) (hn hw')
      have h2 := (Fl.le_iff.mp hs).2.2
      rw [hw.rank, hw'.rank] at h2
      rw [e1, e2, ez, ez']
      exact Fl.round_mono _ _ (mul_le_mul_of_nonneg_left (EReal.coe_le_coe_iff.mp h2) h0)

/-- C92: dividing by a positive constant keeps the order of all elements; `sqrt` keeps the order of the elements that have a square root (a larger one has
one, too). -/
theorem C92_div_sqrt_order {k : Fl f32} {κ : ℝ} (hk : k.Is κ) (h0 : 0 < κ) (hx : x.Holds d sx f) (p : Profile) (m : Nat → Fl f32) :
    ∃ g h, Yields (TF.divC p m x k) d sx g ∧ Yields (TF.sqrt p m x) d sx h ∧
      ∀ c b c' b', sx.Valid c b → sx.Valid c' b' → Fl.le (f c b) (f c' b') = true →
        Fl.le (g c b) (g c' b') = true ∧ (h c b ≠ .nan → Fl.le (h c b) (h c' b') = true) := by
  refine ⟨_, _, (C20_const hx p m k).2.2.2.2.2.2.1, (C20_unary hx p m).2.1, fun c b c' b' _ _ hle => ⟨?_, fun n1 => ?_⟩⟩
  · exact Fl.div_mono (N := E.near32) hk h0 hle
  · exact Fl.sqrt_mono (N := E.near32) hle n1

theorem Yields.unique {α : Type} [Flt α] {r : Res (Tensor α)} {d d' : Nat} {s s' : Shape} {F G : Arr α} (h : Yields r d s F) (h' : Yields r d' s' G) :
    s = s' ∧ ∀ c b, s.Valid c b → F c b = G c b := by
  obtain ⟨a, ea, ha⟩ := h
  obtain ⟨a', ea', ha'⟩ := h'
  rw [ea] at ea'; cases ea'
  exact (ha.unique ha').2

/-- The tensors `[0, 1]` and `[1, 1]`: the sum of the first is not larger, and neither sum is NaN. -/
example (p : Profile) (m : Nat → Fl f32) : ∃ (x x' : Tensor (Fl f32)) (t : Shape) (g g' : Arr (Fl f32)),
    Yields (TF.sum p m x 0) 0 t g ∧ Yields (TF.sum p m x' 0) 0 t g' ∧ ∀ c b, t.Valid c b → Fl.le (g c b) (g' c b) = true := by
  obtain ⟨x, f, hx, hf⟩ := pair_exists (0 : Fl f32) (1 : Fl f32)
  obtain ⟨x', f', hx', hf'⟩ := pair_exists (1 : Fl f32) (1 : Fl f32)
  have h1 : (1 : Fl f32).Is 1 := ⟨le_rfl, le_rfl⟩
  have h0 : (0 : Fl f32).Is 0 := ⟨le_rfl, le_rfl⟩
  have hle : ∀ c b, (vecShape 2 1).Valid c b → Fl.le (f c b) (f' c b) = true := fun c b hv => by
    rw [hf c b hv, hf' c b hv]
    by_cases hc : c 0 = 0
    · rw [if_pos hc, if_pos hc]; exact Fl.zero_le_one32
    · rw [if_neg hc, if_neg hc]; exact Fl.le_refl' nofun
  obtain ⟨t, g, g', _, _, y1, y2, -, -, h3, -⟩ := C92_sum_order hx hx' hle (dim := 0) (by omega) (s := vecShape 2 1) ⟨hx.wf, fun _ => rfl, rfl⟩ p m
  obtain ⟨t1, ht1, z1⟩ := C21_sum hx (dim := 0) (by omega) p m
  obtain ⟨t2, ht2, z2⟩ := C21_sum hx' (dim := 0) (by omega) p m
  obtain ⟨rfl, q1⟩ := y1.unique z1
  obtain ⟨rfl, q2⟩ := y2.unique z2
  refine ⟨x, x', t, g, g', y1, y2, fun c b hv => ?_⟩
  have hv' : ∀ j, j < 2 → (vecShape 2 1).Valid (cset c 0 j) b := fun j hj => ⟨fun i => by
    have := hv.1 i
    rw [ht1.2.1] at this
    unfold cset at this ⊢
    split at this
    · rename_i e; rw [if_pos e, e]; exact hj
    · rename_i e; rw [if_neg e]; exact this, ht1.2.2 ▸ hv.2⟩
  refine h3 c b hv ?_ ?_
  · rw [q1 c b hv]
    show Fl.add E.near32 (Fl.add E.near32 0 (f (cset c 0 0) b)) (f (cset c 0 1) b) ≠ .nan
    rw [hf _ _ (hv' 0 (by omega)), hf _ _ (hv' 1 (by omega))]
    exact Fl.add_ne_nan (Fl.add_ne_nan nofun h0) h1
  · rw [q2 c b hv]
    show Fl.add E.near32 (Fl.add E.near32 0 (f' (cset c 0 0) b)) (f' (cset c 0 1) b) ≠ .nan
    rw [hf' _ _ (hv' 0 (by omega)), hf' _ _ (hv' 1 (by omega))]
    exact Fl.add_ne_nan (Fl.add_ne_nan nofun h1) h1

/-- The elements `0` and `1`: `relu`, `prelu` with coefficient 1 and division by 1 keep their order. -/
example (p : Profile) (m : Nat → Fl f32) : ∃ (x : Tensor (Fl f32)) (g h : Arr (Fl f32)), Yields (TF.divC p m x 1) 0 (vecShape 2 1) g ∧
    Yields (TF.relu p m x) 0 (vecShape 2 1) h ∧
    ∀ c b c' b', (vecShape 2 1).Valid c b → (vecShape 2 1).Valid c' b' → c 0 = 0 → c' 0 = 1 →
      Fl.le (g c b) (g c' b') = true ∧ Fl.le (h c b) (h c' b') = true := by
  obtain ⟨x, f, hx, hf⟩ := pair_exists (0 : Fl f32) (1 : Fl f32)
  have h1 : (1 : Fl f32).Is 1 := ⟨le_rfl, le_rfl⟩
  have h0 : (0 : Fl f32).Is 0 := ⟨le_rfl, le_rfl⟩
  obtain ⟨g, _, e1, -, e2⟩ := C92_div_sqrt_order (k := (1 : Fl f32)) h1 one_pos hx p m
  obtain ⟨h, _, e3, -, e4⟩ := C92_relu_order (k := (1 : Fl f32)) h1 zero_le_one hx p m
  obtain ⟨h', e5, e6⟩ := C72_relu hx p m
  obtain ⟨-, hh⟩ := e3.unique e5
  refine ⟨x, g, h, e1, e3, fun c b c' b' hv hv' hc hc' => ?_⟩
  have hle : Fl.le (f c b) (f c' b') = true := by
    rw [hf c b hv, hf c' b' hv', if_pos hc, if_neg (by omega)]
    exact Fl.zero_le_one32
  refine ⟨(e2 c b c' b' hv hv' hle).1, (e4 c b c' b' hv hv' hle).1 ?_ ?_⟩
  · rw [hh c b hv]
    have := (e6 c b hv).2.1 0 (by rw [hf c b hv, if_pos hc]; exact h0) le_rfl
    intro e; rw [e] at this; exact this.elim
  · rw [hh c' b' hv', (e6 c' b' hv').1 (by rw [hf c' b' hv', if_neg (by omega)]; show (0:ℝ) < 1; exact one_pos), hf c' b' hv', if_neg (by omega)]
    nofun

/-- The pairs `[0, 1]` and `[1, 1]`: their means along the axis 0, which are not NaN. -/
example (p : Profile) (m : Mem (Fl f32)) : ∃ (x x' : Tensor (Fl f32)) (t : Shape) (g g' : Arr (Fl f32)),
    Yields (TF.mean p m x 0) 0 t g ∧ Yields (TF.mean p m x' 0) 0 t g' ∧ ∀ c b, t.Valid c b → Fl.le (g c b) (g' c b) = true := by
  obtain ⟨x, f, hx, hf⟩ := pair_exists (0 : Fl f32) (1 : Fl f32)
  obtain ⟨x', f', hx', hf'⟩ := pair_exists (1 : Fl f32) (1 : Fl f32)
  have h1 : (1 : Fl f32).Is 1 := ⟨le_rfl, le_rfl⟩
  have h0 : (0 : Fl f32).Is 0 := ⟨le_rfl, le_rfl⟩
  have hle : ∀ c b, (vecShape 2 1).Valid c b → Fl.le (f c b) (f' c b) = true := fun c b hv => by
    rw [hf c b hv, hf' c b hv]
    by_cases hc : c 0 = 0
    · rw [if_pos hc, if_pos hc]; exact Fl.zero_le_one32
    · rw [if_neg hc, if_neg hc]; exact Fl.le_refl' nofun
  obtain ⟨t, g, g', _, _, y1, y2, -, -, h3, -⟩ := C92_mean_order hx hx' hle (dim := 0) (by omega) (s := vecShape 2 1) ⟨hx.wf, fun _ => rfl, rfl⟩ p m
  obtain ⟨t1, ht1, z1⟩ := C46_mean hx (dim := 0) (by omega) p m
  obtain ⟨t2, ht2, z2⟩ := C46_mean hx' (dim := 0) (by omega) p m
  obtain ⟨rfl, q1⟩ := y1.unique z1
  obtain ⟨rfl, q2⟩ := y2.unique z2
  refine ⟨x, x', t, g, g', y1, y2, fun c b hv => ?_⟩
  have hv' : ∀ j, j < 2 → (vecShape 2 1).Valid (cset c 0 j) b := fun j hj => ⟨fun i => by
    have := hv.1 i
    rw [ht1.2.1] at this
    unfold cset at this ⊢
    split at this
    · rename_i e; rw [if_pos e, e]; exact hj
    · rename_i e; rw [if_neg e]; exact this, ht1.2.2 ▸ hv.2⟩
  obtain ⟨κ, hk, hp⟩ := count_pos (E := E) (n := 2) (by omega) (by norm_num)
  have hd : ∀ u : Fl f32, u ≠ .nan → Fl.div E.near32 u (Flt.ofInt ((2 : Nat) : Int) : Fl f32) ≠ .nan := fun u hu =>
    (Fl.le_iff.mp (Fl.div_mono (N := E.near32) hk hp (Fl.le_refl' hu))).1
  refine h3 c b hv ?_ ?_
  · rw [q1 c b hv]
    refine hd (Fl.add E.near32 (Fl.add E.near32 0 (f (cset c 0 0) b)) (f (cset c 0 1) b)) ?_
    rw [hf _ _ (hv' 0 (by omega)), hf _ _ (hv' 1 (by omega))]
    exact Fl.add_ne_nan (Fl.add_ne_nan nofun h0) h1
  · rw [q2 c b hv]
    refine hd (Fl.add E.near32 (Fl.add E.near32 0 (f' (cset c 0 0) b)) (f' (cset c 0 1) b)) ?_
    rw [hf' _ _ (hv' 0 (by omega)), hf' _ _ (hv' 1 (by omega))]
    exact Fl.add_ne_nan (Fl.add_ne_nan nofun h1) h1

/-- A 9×10 matrix of zeros and one of ones, times a 10×3 matrix of ones. -/
example (p : Profile) (m : Nat → Fl f32) : ∃ (x x' y : Tensor (Fl f32)) (t : Shape) (r r' : Arr (Fl f32)),
    Yields (TF.matmul p m x y) 0 t r ∧ Yields (TF.matmul p m x' y) 0 t r' ∧
    ∀ c b, t.Valid c b → r c b ≠ .nan → r' c b ≠ .nan → Fl.le (r c b) (r' c b) = true := by
  obtain ⟨x, -, h1⟩ := Dev.newByConstant_ok (matShape_wf (n := 9) (m := 10) (b := 1) rfl) (by decide) .debug 0 m (0 : Fl f32)
  obtain ⟨x', -, h2⟩ := Dev.newByConstant_ok (matShape_wf (n := 9) (m := 10) (b := 1) rfl) (by decide) .debug 0 m (1 : Fl f32)
  obtain ⟨y, -, h3⟩ := Dev.newByConstant_ok (matShape_wf (n := 10) (m := 3) (b := 1) rfl) (by decide) .debug 0 m (1 : Fl f32)
  have tail : ∀ {n k q}, ∀ i, 2 ≤ i → (matShape n k q).get i = 1 := by
    intro n k q i hi
    have : ∀ j, Shape.raw (matShape n k q).dims (j + 2) = 1 := fun j => by
      unfold matShape Shape.raw
      match j with
      | 0 | 1 | 2 | 3 | 4 | 5 => rfl
      | j + 6 => rfl
    unfold Shape.get
    obtain ⟨j, rfl⟩ := Nat.exists_eq_add_of_le' hi
    split
    · exact this j
    · rfl
  obtain ⟨t, r, r', h4⟩ := C92_matmul_order h1 h2 h3 (fun _ _ _ => Fl.zero_le_one32) (fun _ _ _ => Fl.zero_le_one32) ⟨tail, tail, rfl, .inr (.inr rfl)⟩ (by decide)
    (by decide) p m
  exact ⟨x, x', y, t, r, r', h4⟩

/-- `elu` with coefficient 1 of the elements `-∞` and `1`. -/
example (hexp : Libm.KeepsOrder E.libm32.exp) (p : Profile) (m : Nat → Fl f32) : ∃ (x : Tensor (Fl f32)) (g : Arr (Fl f32)), Yields (TF.elu p m x 1) 0 (vecShape 2 1) g ∧
    ∀ c b c' b', (vecShape 2 1).Valid c b → (vecShape 2 1).Valid c' b' → c 0 = 0 → c' 0 = 1 → Fl.le (g c b) (g c' b') = true := by
  obtain ⟨x, f, hx, hf⟩ := pair_exists (.inf true) (1 : Fl f32)
  obtain ⟨g, h1, h2⟩ := C92_elu_order hexp (k := (1 : Fl f32)) (κ := 1) ⟨le_rfl, le_rfl⟩ zero_le_one hx p m
  refine ⟨x, g, h1, fun c b c' b' hv hv' hc hc' => h2 c b c' b' hv hv' ?_⟩
  rw [hf c b hv, hf c' b' hv', if_pos hc, if_neg (by omega)]
  exact Fl.le_iff.mpr ⟨nofun, nofun, bot_le⟩

end
end Verif
