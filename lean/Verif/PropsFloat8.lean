import Verif.FloatNorm
import Verif.FloatOpt
import Verif.PropsContrib
import Verif.PropsFloat4

/-!
# C75: means, dropout and normalizations in f32
-/

set_option linter.unusedSectionVars false

namespace Verif
open Fmt Res Shape

section
variable [E : Ieee] {d : Nat} {x gm be : Tensor (Fl f32)} {s sx sg sb s1 s2 : Shape} {f G B : Arr (Fl f32)} {r γ β : Arr ℝ}

theorem add_comm32 (u v : Fl f32) : u + v = v + u := Fl.add_comm E.near32 u v
theorem mul_comm32 (u v : Fl f32) : u * v = v * u := Fl.mul_comm E.near32 u v

/-- What an operand of `+ - * /` is read at. -/
theorem valid_operand {a o t : Shape} (ha : a.WF) (ho : o.WF) (hf : OpFits a o) (hj : t.IsJoin a o) {c : Nat → Nat} {b : Nat} (hv : t.Valid c b) :
    a.Valid (bc a c) (bb a b) := by
  refine ⟨fun i => ?_, ?_⟩
  · have h1 := hv.1 i
    have h2 : t.get i = max (a.get i) (o.get i) := hj.2.1 i
    have h3 := ha.get_pos i
    have h4 := ho.get_pos i
    unfold bc
    split
    · omega
    · rcases hf.1 with h | h | h
      · have := h i; omega
      · have := h i; omega
      · have := h i; omega
  · have h1 := hv.2
    have h2 : t.batch = max a.batch o.batch := hj.2.2
    have h3 := ha.batch_pos
    have h4 := ho.batch_pos
    have h5 := hf.2
    unfold BatchCompat at h5
    unfold bb
    split <;> omega

theorem opFits_symm {a o : Shape} (h : OpFits a o) : OpFits o a := by
  refine ⟨?_, ?_⟩
  · rcases h.1 with h | h | h
    · exact .inl fun i => (h i).symm
    · exact .inr (.inr h)
    · exact .inr (.inl h)
  · have := h.2
    unfold BatchCompat at *
    omega

/-! ### mean -/

/-- C75: `mean(dim)` of `n ≤ 2^24` numbers differs from their exact mean by at most `((1 + 2^-24)^n - 1) Σ |x| / n + 2^-150`, provided that
`(1 + 2^-24)^(n-1) Σ |x|` does not exceed the largest number. -/
theorem C75_mean (hx : x.Holds d sx f) (hf : ∀ c b, sx.Valid c b → (f c b).Is (r c b)) {dim : Nat} (hd : dim < 8) (hn : sx.get dim ≤ 2 ^ 24)
    (hm : ∀ c b, sx.Valid c b → (1 + ulp) ^ (sx.get dim - 1) * ∑ j ∈ Finset.range (sx.get dim), |r (cset c dim j) b| ≤ maxF32)
    (p : Profile) (m : Mem (Fl f32)) :
    ∃ (s : Shape) (g : Arr (Fl f32)) (w : Arr ℝ), s.Is (cset sx.get dim 1) sx.batch ∧ Yields (TF.mean p m x dim) d s g ∧ ∀ c b, s.Valid c b →
      (g c b).Is (w c b) ∧ |w c b - (∑ j ∈ Finset.range (sx.get dim), r (cset c dim j) b) / sx.get dim| ≤
        ((1 + ulp) ^ sx.get dim - 1) * (∑ j ∈ Finset.range (sx.get dim), |r (cset c dim j) b|) / sx.get dim + 1 / 2 ^ 150 := by
  obtain ⟨s, hs, hy⟩ := C46_mean hx hd p m
  obtain ⟨g, w, h1, h2⟩ := with_val (P := fun c b w => |w - (∑ j ∈ Finset.range (sx.get dim), r (cset c dim j) b) / sx.get dim| ≤
        ((1 + ulp) ^ sx.get dim - 1) * (∑ j ∈ Finset.range (sx.get dim), |r (cset c dim j) b|) / sx.get dim + 1 / 2 ^ 150) hy fun c b hv => by
    have hv' := Valid.unreduced hs hx.wf hv
    exact avg_appr (fun j => f (cset c dim j) b) (fun j => r (cset c dim j) b) (hx.wf.get_pos dim) hn (fun j hj => hf _ _ (Valid.cset hv' hj)) (hm c b hv')
  exact ⟨s, g, w, hs, h1, h2⟩

/-- C75: the same for `batch_mean`. -/
theorem C75_batch_mean (hx : x.Holds d sx f) (hf : ∀ c b, sx.Valid c b → (f c b).Is (r c b)) (hn : sx.batch ≤ 2 ^ 24)
    (hm : ∀ c b, sx.Valid c b → (1 + ulp) ^ (sx.batch - 1) * ∑ j ∈ Finset.range sx.batch, |r c j| ≤ maxF32) (hs : s.Is sx.get 1)
    (p : Profile) (m : Mem (Fl f32)) :
    ∃ (g : Arr (Fl f32)) (w : Arr ℝ), Yields (TF.batchMean p m x) d s g ∧ ∀ c b, s.Valid c b →
      (g c b).Is (w c b) ∧ |w c b - (∑ j ∈ Finset.range sx.batch, r c j) / sx.batch| ≤
        ((1 + ulp) ^ sx.batch - 1) * (∑ j ∈ Finset.range sx.batch, |r c j|) / sx.batch + 1 / 2 ^ 150 := by
  refine with_val (P := fun c b w => |w - (∑ j ∈ Finset.range sx.batch, r c j) / sx.batch| ≤
        ((1 + ulp) ^ sx.batch - 1) * (∑ j ∈ Finset.range sx.batch, |r c j|) / sx.batch + 1 / 2 ^ 150) (C46_batch_mean hx hs p m) fun c b hv => ?_
  have hv' : ∀ j, j < sx.batch → sx.Valid c j := fun j hj => ⟨fun i => by rw [← hs.2.1 i]; exact hv.1 i, hj⟩
  exact avg_appr (fun j => f c j) (fun j => r c j) hx.wf.batch_pos hn (fun j hj => hf _ _ (hv' j hj)) (hm c 0 (hv' 0 hx.wf.batch_pos))

/-! ### dropout -/

/-- C75: a dropout that is not enabled, and a batch normalization that is not enabled, return every bit of their argument — infinities, NaN and the signs
of zeros included. -/
theorem C75_disabled (hx : x.Holds d s f) (p : Profile) (m : Mem (Fl f32)) (rng : Rng (Fl f32)) (rate eps : Fl f32) (dim : Nat) :
    Yields (TF.dropout p m rng x rate false) d s f ∧ Yields (TF.dropoutDim p m rng x dim rate false) d s f ∧
      Yields (TF.batchNormalization p m x gm be eps false) d s f := by
  have h1 : ∀ u : Fl f32, u * 1 = u := fun u => Fl.mul_one_right u _
  obtain ⟨a, b⟩ := C46_dropout_identity h1 hx p m rng rate dim
  exact ⟨a, b, (C46_batch_normalization_off hx gm be eps p m).congr fun c b _ => (h1 _).symm⟩

/-- C75: `dropout` with a rate in [0, 1): dropped elements are exactly 0, and kept ones are the argument divided by `1 - rate`, with a relative error of
at most `2^-22` (and `2^-150` of underflow), for arguments of magnitude at most `2^102`. -/
theorem C75_dropout (hx : x.Holds d s f) (hf : ∀ c b, s.Valid c b → (f c b).Is (r c b) ∧ |r c b| ≤ 2 ^ 102) {rate : Fl f32} {ρ : ℝ} (hr : rate.Is ρ)
    (h0 : 0 ≤ ρ) (h1 : ρ < 1) (p : Profile) (m : Mem (Fl f32)) (rng : Rng (Fl f32)) :
    ∃ (g : Arr (Fl f32)) (w : Arr ℝ), Yields (TF.dropout p m rng x rate true) d s g ∧ ∀ c b, s.Valid c b → (g c b).Is (w c b) ∧
      (rng.coin (1 - rate) (s.offset c b) = false → w c b = 0) ∧
      (rng.coin (1 - rate) (s.offset c b) = true → |w c b - r c b / (1 - ρ)| ≤ |r c b / (1 - ρ)| / 2 ^ 22 + 1 / 2 ^ 150) := by
  obtain ⟨κ, -, hκ, k0, k1, -⟩ := dropout_scale hr h0 h1
  refine with_val (P := fun c b w => (rng.coin (1 - rate) (s.offset c b) = false → w = 0) ∧
      (rng.coin (1 - rate) (s.offset c b) = true → |w - r c b / (1 - ρ)| ≤ |r c b / (1 - ρ)| / 2 ^ 22 + 1 / 2 ^ 150))
    (C46_dropout mul_comm32 hx p m rng (rate := rate) ?_ ?_ ?_) fun c b hv => ?_
  · have : ¬ Fl.le (1 : Fl f32) rate = true := fun h => by have := (Fl.le_in lit1_is hr).mp h; linarith
    exact Bool.eq_false_iff.mpr this
  · exact (Fl.le_in zero_is hκ).mpr k0.le
  · exact (Fl.le_in hκ lit1_is).mpr k1
  · obtain ⟨w, hw, he⟩ := dropout_kept (hf c b hv).1 (hf c b hv).2 hr h0 h1
    cases hc : rng.coin (1 - rate) (s.offset c b) with
    | true => exact ⟨w, by rw [if_pos rfl]; show (Fl.mul _ _ (Fl.lit 1 _ _)).Is w; rw [Fl.mul_one_right]; exact hw, nofun, fun _ => he⟩
    | false => exact ⟨0, by rw [if_neg (by decide)]; exact Fl.mul_is_zero hw.finite zero_is has0, fun _ => rfl, nofun⟩

/-- C75: the same for `dropout_dim`, where all the elements that differ only in their position on the axis have one coin. -/
theorem C75_dropout_dim (hx : x.Holds d s f) (hf : ∀ c b, s.Valid c b → (f c b).Is (r c b) ∧ |r c b| ≤ 2 ^ 102) {rate : Fl f32} {ρ : ℝ} (hr : rate.Is ρ)
    (h0 : 0 ≤ ρ) (h1 : ρ < 1) {dim : Nat} (hd : dim < 8) (p : Profile) (m : Mem (Fl f32)) (rng : Rng (Fl f32)) :
    ∃ (coin : (Nat → Nat) → Nat → Bool) (g : Arr (Fl f32)) (w : Arr ℝ), (∀ c b j, coin (cset c dim j) b = coin c b) ∧
      (∃ s1 : Shape, s1.Is (cset s.get dim 1) s.batch ∧ ∀ c b, coin c b = rng.coin (1 - rate) (s1.offset (cset c dim 0) b)) ∧
      Yields (TF.dropoutDim p m rng x dim rate true) d s g ∧ ∀ c b, s.Valid c b → (g c b).Is (w c b) ∧ (coin c b = false → w c b = 0) ∧
        (coin c b = true → |w c b - r c b / (1 - ρ)| ≤ |r c b / (1 - ρ)| / 2 ^ 22 + 1 / 2 ^ 150) := by
  obtain ⟨κ, -, hκ, k0, k1, -⟩ := dropout_scale hr h0 h1
  obtain ⟨coin, c1, c2, hy⟩ := C46_dropout_dim mul_comm32 hx hd p m rng (rate := rate)
    (Bool.eq_false_iff.mpr fun h => by have := (Fl.le_in lit1_is hr).mp h; linarith) ((Fl.le_in zero_is hκ).mpr k0.le) ((Fl.le_in hκ lit1_is).mpr k1)
  obtain ⟨g, w, h2, h3⟩ := with_val (P := fun c b w => (coin c b = false → w = 0) ∧
      (coin c b = true → |w - r c b / (1 - ρ)| ≤ |r c b / (1 - ρ)| / 2 ^ 22 + 1 / 2 ^ 150)) hy fun c b hv => by
    obtain ⟨w, hw, he⟩ := dropout_kept (hf c b hv).1 (hf c b hv).2 hr h0 h1
    cases hc : coin c b with
    | true => exact ⟨w, by rw [if_pos rfl]; show (Fl.mul _ _ (Fl.lit 1 _ _)).Is w; rw [Fl.mul_one_right]; exact hw, nofun, fun _ => he⟩
    | false => exact ⟨0, by rw [if_neg (by decide)]; exact Fl.mul_is_zero hw.finite zero_is has0, fun _ => rfl, nofun⟩
  exact ⟨coin, g, w, c1, c2, h2, h3⟩

/-- C75: … but the element is scaled before it is dropped: an element of `2^127` or more with rate 1/2 becomes NaN when it is dropped, and an infinity when it is kept. -/
theorem C75_dropout_overflow (hx : x.Holds d s f) {rate : Fl f32} (hr : rate.Is (1 / 2)) (p : Profile) (m : Mem (Fl f32)) (rng : Rng (Fl f32)) :
    ∃ g : Arr (Fl f32), Yields (TF.dropout p m rng x rate true) d s g ∧ ∀ c b v, s.Valid c b → (f c b).Is v → 2 ^ 127 ≤ v →
      g c b = if rng.coin (1 - rate) (s.offset c b) then .inf false else .nan := by
  have hκ : (1 - rate).Is (1 / 2) := by
    obtain ⟨z, e⟩ := Fl.sub_eq (N := E.near32) (lit1_is) hr
    show (Fl.sub E.near32 (Fl.lit 1 _ _) _).Is _
    rw [e, show (1 : ℝ) - 1 / 2 = 1 / 2 by norm_num]
    exact Fl.round_in hasHalf hasHalf le_rfl le_rfl
  have hσ : (1 / (1 - rate)).Is 2 := by
    obtain ⟨z, e⟩ := Fl.div_eq (N := E.near32) (lit1_is) hκ (by norm_num)
    show (Fl.div E.near32 (Fl.lit 1 _ _) _).Is _
    rw [e, show (1 : ℝ) / (1 / 2) = 2 by norm_num]
    exact Fl.round_in has2 has2 le_rfl le_rfl
  refine ⟨_, C46_dropout mul_comm32 hx p m rng (rate := rate) ?_ ?_ ?_, fun c b v hv hfv hbig => ?_⟩
  · have : ¬ Fl.le (1 : Fl f32) rate = true := fun h => by have := (Fl.le_in lit1_is hr).mp h; norm_num at this
    exact Bool.eq_false_iff.mpr this
  · exact (Fl.le_in zero_is hκ).mpr (by norm_num)
  · exact (Fl.le_in hκ lit1_is).mpr (by norm_num)
  · obtain ⟨z, e⟩ := Fl.mul_eq (N := E.near32) hfv hσ
    have htop : (2 : ℝ) ^ 128 ∈ f32.grid := grid_nat (2 ^ 24) 104 (by norm_num) (by norm_num [f32]) (by norm_num [f32]) (by norm_num [f32])
    have h2 := E.near32.le_near htop (show (2 : ℝ) ^ 128 ≤ v * 2 by
      have : (2 : ℝ) ^ 128 = 2 ^ 127 * 2 := by norm_num
      linarith)
    have h3 : f c b * (1 / (1 - rate)) = .inf false := by
      show Fl.mul E.near32 _ _ = _
      rw [e]
      rcases Fl.round_atLeast (N := E.near32) (z := z) (by positivity) h2 with h3 | ⟨u, hu, h3⟩
      · exact h3
      · have h4 := hu.has.2
        rw [top32] at h4
        exact absurd ((le_abs_self u).trans_lt h4) (not_lt.mpr h3)
    rw [h3]
    cases rng.coin (1 - rate) (s.offset c b) with
    | true => exact Fl.mul_one_right (N := E.near32) (.inf false) Fl.one_ok
    | false =>
      show Fl.mul E.near32 (.inf false) (Fl.lit 0 Fl.zero_ok le_rfl) = _
      simp [Fl.mul, Fl.lit]

/-! ### normalizations -/

/-- The arguments of a normalization: tensors with shapes that can be broadcast. -/
structure NormArgs (d : Nat) (x gm be : Tensor (Fl f32)) (s sg sb s1 s2 : Shape) (f G B : Arr (Fl f32)) : Prop where
  hx : x.Holds d s f
  hg : gm.Holds d sg G
  hb : be.Holds d sb B
  f1 : OpFits sg s
  j1 : s1.IsJoin sg s
  z1 : s1.size ≤ 2 ^ 31
  f2 : OpFits s1 sb
  j2 : s2.IsJoin s1 sb
  z2 : s2.size ≤ 2 ^ 31

/-- Moderate arguments of a normalization of groups of `n` numbers: finite, of magnitude at most `2^103`, at most `2^24` in a group; `ε` at least `2^-100`; gamma
and beta finite and not too large. -/
structure Normable (d : Nat) (x gm be : Tensor (Fl f32)) (s sg sb s1 s2 : Shape) (f G B : Arr (Fl f32)) (r γ β : Arr ℝ) (eps : Fl f32) (ε : ℝ) (n : Nat) : Prop
    extends NormArgs d x gm be s sg sb s1 s2 f G B where
  is : ∀ c b, s.Valid c b → (f c b).Is (r c b)
  le : ∀ c b, s.Valid c b → |r c b| ≤ 2 ^ 103
  gis : ∀ c b, sg.Valid c b → (G c b).Is (γ c b)
  bis : ∀ c b, sb.Valid c b → (B c b).Is (β c b)
  eis : eps.Is ε
  ele : 1 / 2 ^ 100 ≤ ε
  n_pos : 0 < n
  n_le : n ≤ 2 ^ 24
  big : ∀ c b, s2.Valid c b → |γ (bc sg c) (bb sg b)| * Real.sqrt n + |β (bc sb c) (bb sb b)| ≤ 2 ^ 126

variable {eps : Fl f32} {ε : ℝ} {n : Nat}

theorem NormArgs.valid (H : NormArgs d x gm be s sg sb s1 s2 f G B) {c : Nat → Nat} {b : Nat} (hv : s2.Valid c b) :
    s.Valid (bc s c) (bb s b) ∧ sg.Valid (bc sg c) (bb sg b) ∧ sb.Valid (bc sb c) (bb sb b) := by
  have h1 := valid_operand H.j1.1 H.hb.wf H.f2 H.j2 hv
  have h2 := valid_operand H.hb.wf H.j1.1 (opFits_symm H.f2) (join_symm H.j2) hv
  have h3 := valid_operand H.hx.wf H.hg.wf (opFits_symm H.f1) (join_symm H.j1) h1
  have h4 := valid_operand H.hg.wf H.hx.wf H.f1 H.j1 h1
  rw [bc_join H.hx.wf (join_symm H.j1), bb_join H.hx.wf (join_symm H.j1)] at h3
  rw [bc_join H.hg.wf H.j1, bb_join H.hg.wf H.j1] at h4
  exact ⟨h3, h4, h2⟩

/-- Both normalizations: from the standardized values to the result. -/
theorem Normable.result (H : Normable d x gm be s sg sb s1 s2 f G B r γ β eps ε n) {res : Res (Tensor (Fl f32))} {normed : Arr (Fl f32)} {w : Arr ℝ}
    (hy : Yields res d s2 fun c b => G (bc sg c) (bb sg b) * normed (bc s c) (bb s b) + B (bc sb c) (bb sb b))
    (hw : ∀ c b, s.Valid c b → (normed c b).Is (w c b) ∧ |w c b| ≤ Real.sqrt n * (1 + 1 / 2 ^ 21)) :
    ∃ (Y : Arr (Fl f32)) (y : Arr ℝ), Yields res d s2 Y ∧
      (∀ c b, s2.Valid c b → (Y c b).Is (y c b) ∧
        |y c b| ≤ (|γ (bc sg c) (bb sg b)| * Real.sqrt n + |β (bc sb c) (bb sb b)|) * (1 + 1 / 2 ^ 20) + 1 / 2 ^ 149) ∧
      ∀ c b c' b', γ (bc sg c) (bb sg b) = γ (bc sg c') (bb sg b') → β (bc sb c) (bb sb b) = β (bc sb c') (bb sb b') → 0 ≤ γ (bc sg c) (bb sg b) →
        w (bc s c) (bb s b) ≤ w (bc s c') (bb s b') → y c b ≤ y c' b' := by
  refine ⟨_, fun c b => E.near32.near (E.near32.near (γ (bc sg c) (bb sg b) * w (bc s c) (bb s b)) + β (bc sb c) (bb sb b)), hy, fun c b hv => ?_,
    fun c b c' b' e1 e2 h0 hle => ?_⟩
  · obtain ⟨h1, h2, h3⟩ := H.valid hv
    obtain ⟨h4, h5⟩ := hw _ _ h1
    exact affine_ok (H.gis _ _ h2) h4 (H.bis _ _ h3) (Real.sqrt_nonneg n) h5 (H.big c b hv)
  · show E.near32.near _ ≤ E.near32.near _
    rw [← e1, ← e2]
    have := E.near32.near_mono (mul_le_mul_of_nonneg_left hle h0)
    exact E.near32.near_mono (by linarith)

/-- C75: `batch_normalization` in f32: all elements are finite numbers — no NaN, no infinity, whatever the variance — and of magnitude at most `|γ| √n + |β|`
(up to rounding), where `n` is the number of batches; where gamma and beta are the same and gamma is not negative, the elements of the batches keep their order. -/
theorem C75_batch_normalization (H : Normable d x gm be s sg sb s1 s2 f G B r γ β eps ε s.batch) (p : Profile) (m : Mem (Fl f32)) :
    ∃ (Y : Arr (Fl f32)) (y : Arr ℝ), Yields (TF.batchNormalization p m x gm be eps true) d s2 Y ∧
      (∀ c b, s2.Valid c b → (Y c b).Is (y c b) ∧
        |y c b| ≤ (|γ (bc sg c) (bb sg b)| * Real.sqrt s.batch + |β (bc sb c) (bb sb b)|) * (1 + 1 / 2 ^ 20) + 1 / 2 ^ 149) ∧
      ∀ c b b', s2.Valid c b → s2.Valid c b' → γ (bc sg c) (bb sg b) = γ (bc sg c) (bb sg b') → β (bc sb c) (bb sb b) = β (bc sb c) (bb sb b') →
        0 ≤ γ (bc sg c) (bb sg b) → r (bc s c) (bb s b) ≤ r (bc s c) (bb s b') → y c b ≤ y c b' := by
  have key : ∀ c : Nat → Nat, (∀ i, c i < s.get i) → ∃ w : Nat → ℝ, (∀ k, k < s.batch → (batchNormed s.batch f eps c k).Is (w k) ∧
      |w k| ≤ Real.sqrt s.batch * (1 + 1 / 2 ^ 21)) ∧ ∀ j k, j < s.batch → k < s.batch → r c j ≤ r c k → w j ≤ w k := fun c hc =>
    standardize_ok (fun k => f c k) (fun k => r c k) H.n_pos H.n_le (fun k hk => H.is c k ⟨hc, hk⟩) (fun k hk => H.le c k ⟨hc, hk⟩) H.eis H.ele
  have hw : ∀ c b, s.Valid c b → (batchNormed s.batch f eps c b).Is (batchNormed s.batch f eps c b).val ∧
      |(batchNormed s.batch f eps c b).val| ≤ Real.sqrt s.batch * (1 + 1 / 2 ^ 21) := fun c b hv => by
    obtain ⟨w, h1, -⟩ := key c hv.1
    obtain ⟨h2, h3⟩ := h1 b hv.2
    rw [h2.val_eq]
    exact ⟨h2, h3⟩
  obtain ⟨Y, y, h1, h2, h3⟩ := H.result (w := fun c b => (batchNormed s.batch f eps c b).val)
    (C46_batch_normalization add_comm32 mul_comm32 H.hx H.hg H.hb H.f1 H.j1 H.z1 H.f2 H.j2 H.z2 eps p m) hw
  refine ⟨Y, y, h1, h2, fun c b b' hv hv' e1 e2 h0 hle => h3 c b c b' e1 e2 h0 ?_⟩
  obtain ⟨v1, -, -⟩ := H.valid hv
  obtain ⟨v2, -, -⟩ := H.valid hv'
  obtain ⟨w, k1, k2⟩ := key _ v1.1
  show Fl.val _ ≤ Fl.val _
  rw [(k1 _ v1.2).1.val_eq, (k1 _ v2.2).1.val_eq]
  exact k2 _ _ v1.2 v2.2 hle

/-- C75: `layer_normalization` in f32: the same, where `n` is the number of elements of a batch, and it is the elements of one batch that keep their order. -/
theorem C75_layer_normalization (H : Normable d x gm be s sg sb s1 s2 f G B r γ β eps ε s.volume) (p : Profile) (m : Mem (Fl f32)) :
    ∃ (Y : Arr (Fl f32)) (y : Arr ℝ), Yields (TF.layerNormalization p m x gm be eps) d s2 Y ∧
      (∀ c b, s2.Valid c b → (Y c b).Is (y c b) ∧
        |y c b| ≤ (|γ (bc sg c) (bb sg b)| * Real.sqrt s.volume + |β (bc sb c) (bb sb b)|) * (1 + 1 / 2 ^ 20) + 1 / 2 ^ 149) ∧
      ∀ c c' b, s2.Valid c b → s2.Valid c' b → γ (bc sg c) (bb sg b) = γ (bc sg c') (bb sg b) → β (bc sb c) (bb sb b) = β (bc sb c') (bb sb b) →
        0 ≤ γ (bc sg c) (bb sg b) → r (bc s c) (bb s b) ≤ r (bc s c') (bb s b) → y c b ≤ y c' b := by
  have wf := H.hx.wf
  have hat : ∀ c b, s.Valid c b → ∃ k, k < s.volume ∧ elemAt s f b k = f c b ∧ Arr.flat s r (k + b * s.volume) = r c b := fun c b hv => by
    obtain ⟨h1, h2⟩ := wf.offset_div hv
    have e : s.offset c b % s.volume + b * s.volume = s.offset c b := by
      have := Nat.mod_add_div (s.offset c b) s.volume
      rw [h1, Nat.mul_comm] at this
      exact this
    refine ⟨s.offset c b % s.volume, Nat.mod_lt _ wf.volume_pos, ?_, ?_⟩
    · unfold elemAt; rw [e]; exact Arr.flat_offset wf f hv
    · rw [e]; exact Arr.flat_offset wf r hv
  have key : ∀ b, b < s.batch → ∃ w : Nat → ℝ, (∀ k, k < s.volume →
      (standardize (elemAt s f b k) (layerMu s f b) (layerVar s f b) eps).Is (w k) ∧ |w k| ≤ Real.sqrt s.volume * (1 + 1 / 2 ^ 21)) ∧
      ∀ j k, j < s.volume → k < s.volume → Arr.flat s r (j + b * s.volume) ≤ Arr.flat s r (k + b * s.volume) → w j ≤ w k := fun b hb => by
    have hval : ∀ k, k < s.volume → s.Valid (s.coord ((k + b * s.volume) % s.volume)) ((k + b * s.volume) / s.volume) := fun k hk => by
      refine (wf.offset_coord ?_).1
      unfold Shape.size
      calc k + b * s.volume < (b + 1) * s.volume := by rw [Nat.add_mul, Nat.one_mul]; omega
        _ ≤ s.batch * s.volume := Nat.mul_le_mul_right _ hb
    exact standardize_ok (elemAt s f b) (fun k => Arr.flat s r (k + b * s.volume)) H.n_pos H.n_le (fun k hk => H.is _ _ (hval k hk))
      (fun k hk => H.le _ _ (hval k hk)) H.eis H.ele
  have hw : ∀ c b, s.Valid c b → (layerNormed s f eps c b).Is (layerNormed s f eps c b).val ∧
      |(layerNormed s f eps c b).val| ≤ Real.sqrt s.volume * (1 + 1 / 2 ^ 21) := fun c b hv => by
    obtain ⟨w, h1, -⟩ := key b hv.2
    obtain ⟨k, hk, e, -⟩ := hat c b hv
    obtain ⟨h2, h3⟩ := h1 k hk
    have e : standardize (elemAt s f b k) (layerMu s f b) (layerVar s f b) eps = layerNormed s f eps c b := by unfold layerNormed; rw [e]
    rw [e] at h2
    rw [h2.val_eq]
    exact ⟨h2, h3⟩
  obtain ⟨Y, y, h1, h2, h3⟩ := H.result (w := fun c b => (layerNormed s f eps c b).val)
    (C46_layer_normalization add_comm32 mul_comm32 H.hx H.hg H.hb H.f1 H.j1 H.z1 H.f2 H.j2 H.z2 eps p m) hw
  refine ⟨Y, y, h1, h2, fun c c' b hv hv' e1 e2 h0 hle => h3 c b c' b e1 e2 h0 ?_⟩
  obtain ⟨v1, -, -⟩ := H.valid hv
  obtain ⟨v2, -, -⟩ := H.valid hv'
  obtain ⟨w, k1, k2⟩ := key _ v1.2
  obtain ⟨k, hk, e, er⟩ := hat _ _ v1
  obtain ⟨k', hk', e', er'⟩ := hat _ _ v2
  have l1 : (layerNormed s f eps (bc s c) (bb s b)).Is (w k) := by unfold layerNormed; rw [← e]; exact (k1 k hk).1
  have l2 : (layerNormed s f eps (bc s c') (bb s b)).Is (w k') := by unfold layerNormed; rw [← e']; exact (k1 k' hk').1
  show Fl.val _ ≤ Fl.val _
  rw [l1.val_eq, l2.val_eq]
  exact k2 _ _ hk hk' (by rw [er, er']; exact hle)


/-! ### limits -/

theorem mul_nan32 (u : Fl f32) : u * .nan = .nan := by show Fl.mul _ _ _ = _; cases u <;> rfl
theorem nan_add32 (u : Fl f32) : .nan + u = (.nan : Fl f32) := by show Fl.add _ _ _ = _; cases u <;> rfl

/-- `γ · 0 + β` is `β`. -/
theorem affine_zero {g z b : Fl f32} {β : ℝ} (hg : g.Finite) (hz : z.Is 0) (hb : b.Is β) : (g * z + b).Is β := by
  have h1 : (g * z).Is 0 := Fl.mul_is_zero hg hz has0
  obtain ⟨t, e⟩ := Fl.add_eq (N := E.near32) h1 hb
  show (Fl.add E.near32 _ _).Is β
  have e : Fl.add E.near32 (g * z) b = _ := e
  rw [e, zero_add]
  exact Fl.round_in hb.has hb.has le_rfl le_rfl

/-- C75: `batch_normalization` of a single batch, or of an element that is 0 in all of at most `2^24` batches: the result is exactly beta — or, with
`ε = 0`, NaN, whatever gamma and beta. -/
theorem C75_batch_constant (H : NormArgs d x gm be s sg sb s1 s2 f G B) (he : eps.Is ε) (p : Profile) (m : Mem (Fl f32)) :
    ∃ Y : Arr (Fl f32), Yields (TF.batchNormalization p m x gm be eps true) d s2 Y ∧ ∀ c b, s2.Valid c b →
      (s.batch = 1 ∧ (f (bc s c) 0).Finite ∨ s.batch ≤ 2 ^ 24 ∧ ∀ k, k < s.batch → (f (bc s c) k).Is 0) →
      (ε = 0 → Y c b = .nan) ∧
      (1 / 2 ^ 100 ≤ ε → (G (bc sg c) (bb sg b)).Finite → ∀ v, (B (bc sb c) (bb sb b)).Is v → (Y c b).Is v) := by
  refine ⟨_, C46_batch_normalization add_comm32 mul_comm32 H.hx H.hg H.hb H.f1 H.j1 H.z1 H.f2 H.j2 H.z2 eps p m, fun c b hv hc => ?_⟩
  obtain ⟨v1, v2, v3⟩ := H.valid hv
  have key : (1 / 2 ^ 100 ≤ ε → (batchNormed s.batch f eps (bc s c) (bb s b)).Is 0) ∧ (ε = 0 → batchNormed s.batch f eps (bc s c) (bb s b) = .nan) := by
    rcases hc with ⟨h1, h2⟩ | ⟨h1, h2⟩
    · obtain ⟨v, -, hv⟩ := h2.exists_in
      refine standardize_const (fun k => f (bc s c) k) H.hx.wf.batch_pos (by rw [h1]; norm_num) (v := v) (fun k hk => ?_) ?_ he v1.2
      · obtain rfl : k = 0 := by omega
        exact hv
      · rw [h1]; exact avg_one _ hv
    · exact standardize_const (fun k => f (bc s c) k) H.hx.wf.batch_pos h1 h2 (avg_zero _ H.hx.wf.batch_pos h1 h2) he v1.2
  refine ⟨fun h0 => ?_, fun h0 hg v hb => affine_zero hg (key.1 h0) hb⟩
  show _ * _ + _ = _
  rw [key.2 h0, mul_nan32, nan_add32]

/-- C75: `layer_normalization` of a tensor with a single element in every batch, or of a batch of zeros: exactly beta or, with `ε = 0`, NaN. -/
theorem C75_layer_constant (H : NormArgs d x gm be s sg sb s1 s2 f G B) (he : eps.Is ε) (p : Profile) (m : Mem (Fl f32)) :
    ∃ Y : Arr (Fl f32), Yields (TF.layerNormalization p m x gm be eps) d s2 Y ∧ ∀ c b, s2.Valid c b →
      (s.volume = 1 ∧ (f (bc s c) (bb s b)).Finite ∨ s.volume ≤ 2 ^ 24 ∧ ∀ c', s.Valid c' (bb s b) → (f c' (bb s b)).Is 0) →
      (ε = 0 → Y c b = .nan) ∧
      (1 / 2 ^ 100 ≤ ε → (G (bc sg c) (bb sg b)).Finite → ∀ v, (B (bc sb c) (bb sb b)).Is v → (Y c b).Is v) := by
  refine ⟨_, C46_layer_normalization add_comm32 mul_comm32 H.hx H.hg H.hb H.f1 H.j1 H.z1 H.f2 H.j2 H.z2 eps p m, fun c b hv hc => ?_⟩
  obtain ⟨v1, v2, v3⟩ := H.valid hv
  have wf := H.hx.wf
  obtain ⟨h1, -⟩ := wf.offset_div v1
  have e : s.offset (bc s c) (bb s b) % s.volume + bb s b * s.volume = s.offset (bc s c) (bb s b) := by
    have := Nat.mod_add_div (s.offset (bc s c) (bb s b)) s.volume
    rw [h1, Nat.mul_comm] at this
    exact this
  have hk : s.offset (bc s c) (bb s b) % s.volume < s.volume := Nat.mod_lt _ wf.volume_pos
  have ef : elemAt s f (bb s b) (s.offset (bc s c) (bb s b) % s.volume) = f (bc s c) (bb s b) := by
    unfold elemAt; rw [e]; exact Arr.flat_offset wf f v1
  generalize s.offset (bc s c) (bb s b) % s.volume = k at *
  have el : layerNormed s f eps (bc s c) (bb s b) = standardize (elemAt s f (bb s b) k) (layerMu s f (bb s b)) (layerVar s f (bb s b)) eps := by
    unfold layerNormed; rw [ef]
  have key : (1 / 2 ^ 100 ≤ ε → (layerNormed s f eps (bc s c) (bb s b)).Is 0) ∧ (ε = 0 → layerNormed s f eps (bc s c) (bb s b) = .nan) := by
    rw [el]
    rcases hc with ⟨h1, h2⟩ | ⟨h1, h2⟩
    · obtain ⟨v, -, hv⟩ := h2.exists_in
      have hv : (f (bc s c) (bb s b)).Is v := hv
      obtain rfl : k = 0 := by omega
      rw [← ef] at hv
      refine standardize_const (elemAt s f (bb s b)) wf.volume_pos (by rw [h1]; norm_num) (v := v) (fun j hj => ?_) ?_ he hk
      · obtain rfl : j = 0 := by omega
        exact hv
      · rw [h1]; exact avg_one _ hv
    · have hz : ∀ j, j < s.volume → (elemAt s f (bb s b) j).Is 0 := fun j hj => by
        have hlt : j + bb s b * s.volume < s.size := by
          unfold Shape.size
          calc j + bb s b * s.volume < (bb s b + 1) * s.volume := by rw [Nat.add_mul, Nat.one_mul]; omega
            _ ≤ s.batch * s.volume := Nat.mul_le_mul_right _ v1.2
        have hval := (wf.offset_coord hlt).1
        unfold elemAt Arr.flat
        have hd : (j + bb s b * s.volume) / s.volume = bb s b := by
          rw [Nat.add_mul_div_right _ _ wf.volume_pos, Nat.div_eq_of_lt hj, Nat.zero_add]
        rw [hd] at hval ⊢
        exact h2 _ hval
      exact standardize_const (elemAt s f (bb s b)) wf.volume_pos h1 hz (avg_zero _ wf.volume_pos h1 hz) he hk
  refine ⟨fun h0 => ?_, fun h0 hg v hb => affine_zero hg (key.1 h0) hb⟩
  show _ * _ + _ = _
  rw [key.2 h0, mul_nan32, nan_add32]

/-- C75: large finite numbers: two batches with elements of at least `2^127` are normalized to NaN, whatever `ε`, gamma and beta, because their sum overflows. -/
theorem C75_batch_overflow (H : NormArgs d x gm be s sg sb s1 s2 f G B) (hn : s.batch = 2) (p : Profile) (m : Mem (Fl f32)) :
    ∃ Y : Arr (Fl f32), Yields (TF.batchNormalization p m x gm be eps true) d s2 Y ∧ ∀ c b, s2.Valid c b → ∀ v w, (f (bc s c) 0).Is v → (f (bc s c) 1).Is w →
      2 ^ 127 ≤ v → 2 ^ 127 ≤ w → Y c b = .nan := by
  refine ⟨_, C46_batch_normalization add_comm32 mul_comm32 H.hx H.hg H.hb H.f1 H.j1 H.z1 H.f2 H.j2 H.z2 eps p m, fun c b hv v w h0 h1 hv0 hw0 => ?_⟩
  obtain ⟨v1, v2, v3⟩ := H.valid hv
  have key : batchNormed s.batch f eps (bc s c) (bb s b) = .nan := by
    refine standardize_overflow (fun k => f (bc s c) k) H.hx.wf.batch_pos (by rw [hn]; norm_num) (fun k hk => ?_) ?_ eps v1.2
    · have : k = 0 ∨ k = 1 := by omega
      rcases this with rfl | rfl
      exacts [h0.finite, h1.finite]
    · rw [hn]; exact sumTo_two_overflow _ h0 h1 hv0 hw0
  show _ * _ + _ = _
  rw [key, mul_nan32, nan_add32]


/-! ### examples -/

/-- Four batches (or two, or one) of 2 × 3 elements, with gamma and beta for all batches, for the examples. -/
theorem norm_example (n : Nat) (hw : (matShape 2 3 n).WF) (hn : (matShape 2 3 n).size ≤ 2 ^ 31) (v g b : Nat → Fl f32) :
    ∃ x gm be : Tensor (Fl f32), NormArgs 0 x gm be (matShape 2 3 n) (matShape 2 3 1) (matShape 2 3 1) (matShape 2 3 n) (matShape 2 3 n)
      (fun c b => v ((matShape 2 3 n).offset c b)) (fun c b => g ((matShape 2 3 1).offset c b)) (fun c k => b ((matShape 2 3 1).offset c k)) := by
  obtain ⟨x, hx⟩ := exists_holds hw hn 0 v
  obtain ⟨gm, hg⟩ := exists_holds (matShape_wf (n := 2) (m := 3) (b := 1) rfl) (by decide) 0 g
  obtain ⟨be, hb⟩ := exists_holds (matShape_wf (n := 2) (m := 3) (b := 1) rfl) (by decide) 0 b
  have hp : 1 ≤ n := hw.batch_pos
  exact ⟨x, gm, be, hx, hg, hb, ⟨.inl fun _ => rfl, .inr (.inl rfl)⟩, ⟨hw, fun i => (max_self _).symm, (max_eq_right hp).symm⟩, hn,
    ⟨.inl fun _ => rfl, .inr (.inr rfl)⟩, ⟨hw, fun i => (max_self _).symm, (max_eq_left hp).symm⟩, hn⟩

/-- The first batch is `2^103` everywhere, the others are 1. -/
noncomputable def mixed (k : Nat) : Fl f32 := if k < 6 then flPos (has_pow 103 (by norm_num) (by norm_num)) (by positivity) else fl1

theorem mixed_is (k : Nat) : (mixed k).Is (if k < 6 then 2 ^ (103 : ℤ) else 1) := by
  unfold mixed
  split
  · exact flPos_is _ _
  · exact ⟨le_rfl, le_rfl⟩

theorem mixed_le (k : Nat) : |(if k < 6 then 2 ^ (103 : ℤ) else 1 : ℝ)| ≤ 2 ^ 103 := by
  split
  · rw [abs_of_nonneg (by positivity)]; norm_num
  · rw [abs_one]; norm_num

/-- The usual `ε`, about `10^-5`. -/
noncomputable def epsilon : Fl f32 := flPos (has_pow (-17) (by norm_num) (by norm_num)) (by positivity)

theorem mixed_normable {n k : Nat} (hw : (matShape 2 3 n).WF) (hn : (matShape 2 3 n).size ≤ 2 ^ 31) (hk0 : 0 < k) (hk : k ≤ 16) :
    ∃ x gm be : Tensor (Fl f32), Normable 0 x gm be (matShape 2 3 n) (matShape 2 3 1) (matShape 2 3 1) (matShape 2 3 n) (matShape 2 3 n)
      (fun c b => mixed ((matShape 2 3 n).offset c b)) (fun _ _ => flPos has2 (by norm_num)) (fun _ _ => fl1)
      (fun c b => if (matShape 2 3 n).offset c b < 6 then 2 ^ (103 : ℤ) else 1) (fun _ _ => 2) (fun _ _ => 1) epsilon ((2 : ℝ) ^ (-17 : ℤ)) k := by
  obtain ⟨x, gm, be, H⟩ := norm_example n hw hn mixed (fun _ => flPos has2 (by norm_num)) (fun _ => fl1)
  refine ⟨x, gm, be, ⟨H, fun c b _ => mixed_is _, fun c b _ => mixed_le _, fun _ _ _ => flPos_is _ _, fun _ _ _ => ⟨le_rfl, le_rfl⟩, flPos_is _ _, by norm_num, hk0,
    by omega, fun c b _ => ?_⟩⟩
  have : Real.sqrt k ≤ 4 := by
    rw [show (4 : ℝ) = Real.sqrt 16 by rw [show (16 : ℝ) = 4 ^ 2 by norm_num, Real.sqrt_sq (by norm_num)]]
    exact Real.sqrt_le_sqrt (by exact_mod_cast hk)
  rw [abs_one, abs_of_pos (by norm_num : (0 : ℝ) < 2)]
  have h2 : (9 : ℝ) ≤ 2 ^ 126 := by norm_num
  linarith

/-- Four batches, one of `2^103` and three of 1 (the squares overflow): the hypotheses hold; all results are finite and at most 6 in magnitude, and that of the
first batch is the largest. -/
example (p : Profile) (m : Mem (Fl f32)) : ∃ (x gm be : Tensor (Fl f32)) (Y : Arr (Fl f32)) (y : Arr ℝ),
    Yields (TF.batchNormalization p m x gm be epsilon true) 0 (matShape 2 3 4) Y ∧
    ∀ c b, (matShape 2 3 4).Valid c b → (Y c b).Is (y c b) ∧ |y c b| ≤ 6 ∧ y c b ≤ y c 0 := by
  obtain ⟨x, gm, be, H⟩ := mixed_normable (n := 4) (k := 4) (matShape_wf rfl) (by decide) (by omega) (by omega)
  obtain ⟨Y, y, h1, h2, h3⟩ := C75_batch_normalization H p m
  refine ⟨x, gm, be, Y, y, h1, fun c b hv => ⟨(h2 c b hv).1, (h2 c b hv).2.trans ?_, ?_⟩⟩
  · have : Real.sqrt ((matShape 2 3 4).batch : ℝ) = 2 := by
      rw [show ((matShape 2 3 4).batch : ℝ) = 2 ^ 2 by show ((4 : ℕ) : ℝ) = _; norm_num, Real.sqrt_sq (by norm_num)]
    rw [this, abs_one, abs_of_pos (by norm_num : (0 : ℝ) < 2)]
    norm_num
  · have hv0 : (matShape 2 3 4).Valid c 0 := ⟨hv.1, by decide⟩
    refine h3 c b 0 hv hv0 rfl rfl (by norm_num) ?_
    have e0 : bb (matShape 2 3 4) 0 = 0 := rfl
    have w : (matShape 2 3 4).WF := matShape_wf rfl
    rw [bc_valid hv, e0]
    have hlt : (matShape 2 3 4).offset c 0 < 6 := by
      have h4 := w.offset_div hv0
      have h5 : (matShape 2 3 4).volume = 6 := rfl
      rw [h5] at h4
      omega
    show (if _ then _ else _ : ℝ) ≤ (if _ then _ else _ : ℝ)
    rw [if_pos hlt]
    split
    · exact le_rfl
    · norm_num

/-- The same tensors under `layer_normalization` (groups of 6 equal elements): finite and at most 8. -/
example (p : Profile) (m : Mem (Fl f32)) : ∃ (x gm be : Tensor (Fl f32)) (Y : Arr (Fl f32)) (y : Arr ℝ),
    Yields (TF.layerNormalization p m x gm be epsilon) 0 (matShape 2 3 4) Y ∧ ∀ c b, (matShape 2 3 4).Valid c b → (Y c b).Is (y c b) ∧ |y c b| ≤ 8 := by
  obtain ⟨x, gm, be, H⟩ := mixed_normable (n := 4) (k := 6) (matShape_wf rfl) (by decide) (by omega) (by omega)
  obtain ⟨Y, y, h1, h2, h3⟩ := C75_layer_normalization H p m
  refine ⟨x, gm, be, Y, y, h1, fun c b hv => ⟨(h2 c b hv).1, (h2 c b hv).2.trans ?_⟩⟩
  have : Real.sqrt ((matShape 2 3 4).volume : ℝ) ≤ 3 := by
    rw [show (3 : ℝ) = Real.sqrt 9 by rw [show (9 : ℝ) = 3 ^ 2 by norm_num, Real.sqrt_sq (by norm_num)]]
    exact Real.sqrt_le_sqrt (by show ((6 : ℕ) : ℝ) ≤ 9; norm_num)
  rw [abs_one, abs_of_pos (by norm_num : (0 : ℝ) < 2)]
  have h4 : (2 * Real.sqrt ((matShape 2 3 4).volume : ℝ) + 1) * (1 + 1 / 2 ^ 20) ≤ (2 * 3 + 1) * (1 + 1 / 2 ^ 20) := by nlinarith
  have h5 : ((2 : ℝ) * 3 + 1) * (1 + 1 / 2 ^ 20) + 1 / 2 ^ 149 ≤ 8 := by norm_num
  linarith

/-- One batch, without `ε`: all NaN; with the usual `ε`: exactly beta. -/
example (p : Profile) (m : Mem (Fl f32)) : ∃ (x gm be : Tensor (Fl f32)) (Y Y' : Arr (Fl f32)),
    Yields (TF.batchNormalization p m x gm be 0 true) 0 (matShape 2 3 1) Y ∧ Yields (TF.batchNormalization p m x gm be epsilon true) 0 (matShape 2 3 1) Y' ∧
    ∀ c b, (matShape 2 3 1).Valid c b → Y c b = .nan ∧ (Y' c b).Is 1 := by
  obtain ⟨x, gm, be, H⟩ := norm_example 1 (matShape_wf rfl) (by decide) mixed (fun _ => fl26) (fun _ => fl1)
  obtain ⟨Y, h1, h2⟩ := C75_batch_constant H (zero_is (E := E)) p m
  obtain ⟨Y', h3, h4⟩ := C75_batch_constant H (eps := epsilon) (flPos_is _ _) p m
  refine ⟨x, gm, be, Y, Y', h1, h3, fun c b hv => ⟨(h2 c b hv (.inl ⟨rfl, (mixed_is _).finite⟩)).1 rfl,
    (h4 c b hv (.inl ⟨rfl, (mixed_is _).finite⟩)).2 (by norm_num) trivial 1 ⟨le_rfl, le_rfl⟩⟩⟩

/-- Zeros under `layer_normalization`. -/
example (p : Profile) (m : Mem (Fl f32)) : ∃ (x gm be : Tensor (Fl f32)) (Y : Arr (Fl f32)),
    Yields (TF.layerNormalization p m x gm be 0) 0 (matShape 2 3 5) Y ∧ ∀ c b, (matShape 2 3 5).Valid c b → Y c b = .nan := by
  obtain ⟨x, gm, be, H⟩ := norm_example 5 (matShape_wf rfl) (by decide) (fun _ => 0) (fun _ => fl26) (fun _ => fl1)
  obtain ⟨Y, h1, h2⟩ := C75_layer_constant H (zero_is (E := E)) p m
  exact ⟨x, gm, be, Y, h1, fun c b hv => (h2 c b hv (.inr ⟨by decide, fun _ _ => zero_is⟩)).1 rfl⟩

/-- Two batches of the largest number. -/
example (p : Profile) (m : Mem (Fl f32)) : ∃ (x gm be : Tensor (Fl f32)) (Y : Arr (Fl f32)),
    Yields (TF.batchNormalization p m x gm be epsilon true) 0 (matShape 2 3 2) Y ∧ ∀ c b, (matShape 2 3 2).Valid c b → Y c b = .nan := by
  have hp : (0 : ℝ) < maxF32 := by unfold maxF32; norm_num
  have h127 : (2 : ℝ) ^ 127 ≤ maxF32 := by unfold maxF32; norm_num
  obtain ⟨x, gm, be, H⟩ := norm_example 2 (matShape_wf rfl) (by decide) (fun _ => flPos maxF32_has hp) (fun _ => fl26) (fun _ => fl1)
  obtain ⟨Y, h1, h2⟩ := C75_batch_overflow H rfl (eps := epsilon) p m
  exact ⟨x, gm, be, Y, h1, fun c b hv => h2 c b hv _ _ (flPos_is _ _) (flPos_is _ _) h127 h127⟩

/-- A dropout with rate 1/2 of 2 × 3 elements 1, and of the largest number. -/
example (p : Profile) (m : Mem (Fl f32)) (rng : Rng (Fl f32)) : ∃ (x y : Tensor (Fl f32)) (g h : Arr (Fl f32)),
    Yields (TF.dropout p m rng x (flPos hasHalf (by norm_num)) true) 0 (matShape 2 3 4) g ∧ Yields (TF.dropout p m rng y (flPos hasHalf (by norm_num)) true) 0 (matShape 2 3 4) h ∧
    ∀ c b, (matShape 2 3 4).Valid c b → (∃ w, (g c b).Is w ∧ (w = 0 ∨ |w - 2| ≤ 1 / 2 ^ 20)) ∧ (h c b = .inf false ∨ h c b = .nan) := by
  have hp : (0 : ℝ) < maxF32 := by unfold maxF32; norm_num
  have h127 : (2 : ℝ) ^ 127 ≤ maxF32 := by unfold maxF32; norm_num
  obtain ⟨x, hx⟩ := exists_holds (matShape_wf (n := 2) (m := 3) (b := 4) rfl) (by decide) 0 (fun _ => fl1)
  obtain ⟨y, hy⟩ := exists_holds (matShape_wf (n := 2) (m := 3) (b := 4) rfl) (by decide) 0 (fun _ => flPos maxF32_has hp)
  obtain ⟨g, w, h1, h2⟩ := C75_dropout hx (r := fun _ _ => 1) (fun c b _ => ⟨⟨le_rfl, le_rfl⟩, by rw [abs_one]; norm_num⟩) (flPos_is hasHalf (by norm_num)) (by norm_num)
    (by norm_num) p m rng
  obtain ⟨h, h3, h4⟩ := C75_dropout_overflow hy (flPos_is hasHalf (by norm_num)) p m rng
  refine ⟨x, y, g, h, h1, h3, fun c b hv => ⟨⟨w c b, (h2 c b hv).1, ?_⟩, ?_⟩⟩
  · obtain ⟨-, k1, k2⟩ := h2 c b hv
    cases e : rng.coin (1 - flPos hasHalf (by norm_num)) ((matShape 2 3 4).offset c b) with
    | false => exact .inl (k1 e)
    | true =>
      right
      have := k2 e
      norm_num at this ⊢
      linarith
  · rw [h4 c b _ hv (flPos_is _ _) h127]
    split
    · exact .inl rfl
    · exact .inr rfl

/-- Whole columns of 2 × 3 elements `2^100` are dropped, or kept and doubled. -/
example (p : Profile) (m : Mem (Fl f32)) (rng : Rng (Fl f32)) : ∃ (x : Tensor (Fl f32)) (g : Arr (Fl f32)) (w : Arr ℝ),
    Yields (TF.dropoutDim p m rng x 0 (flPos hasHalf (by norm_num)) true) 0 (matShape 2 3 4) g ∧
    ∀ c b, (matShape 2 3 4).Valid c b → (g c b).Is (w c b) ∧ (w c b = 0 ∨ |w c b - 2 ^ 101| ≤ 2 ^ 80) := by
  obtain ⟨x, hx⟩ := exists_holds (matShape_wf (n := 2) (m := 3) (b := 4) rfl) (by decide) 0 (fun _ => flPos (has_p103 100 (by norm_num)) (by positivity))
  obtain ⟨coin, g, w, -, -, h1, h2⟩ := C75_dropout_dim hx (r := fun _ _ => 2 ^ 100) (fun c b _ => ⟨flPos_is _ _, by rw [abs_of_pos (by positivity)]; norm_num⟩)
    (flPos_is hasHalf (by norm_num)) (by norm_num) (by norm_num) (dim := 0) (by norm_num) p m rng
  refine ⟨x, g, w, h1, fun c b hv => ⟨(h2 c b hv).1, ?_⟩⟩
  obtain ⟨-, k1, k2⟩ := h2 c b hv
  cases e : coin c b with
  | false => exact .inl (k1 e)
  | true =>
    right
    have := k2 e
    norm_num at this ⊢
    linarith

/-- The mean of a million (any number up to `2^20`) of ones along an axis is within 1/7 of 1, and that of four batches within `2^-20`. -/
example (n : Nat) (h0 : 0 < n) (hn : n ≤ 2 ^ 20) (p : Profile) (m : Mem (Fl f32)) : ∃ (x y : Tensor (Fl f32)) (s : Shape) (g h : Arr (Fl f32)) (w u : ℝ),
    Yields (TF.mean p m x 0) 0 s g ∧ (g czero 0).Is w ∧ |w - 1| ≤ 1 / 7 ∧ Yields (TF.batchMean p m y) 0 (matShape 2 3 1) h ∧ (h czero 0).Is u ∧ |u - 1| ≤ 1 / 2 ^ 20 := by
  obtain ⟨sx, x, f, hsx, hx, hf⟩ := vector_exists (n := n) h0 (by omega) fun _ => fl1
  have hg : sx.get 0 = n := hsx.2.1 0
  have hmax : (2 : ℝ) ^ 30 ≤ maxF32 := by unfold maxF32; norm_num
  have hnr : (n : ℝ) ≤ 2 ^ 20 := by exact_mod_cast hn
  have hn0 : (n : ℝ) ≠ 0 := by exact_mod_cast h0.ne'
  have k1 : (1 + ulp) ^ n - 1 ≤ 1 / 8 := by
    refine (C69_factor (k := n) (by omega)).trans ?_
    rw [div_le_iff₀ (by positivity)]
    linarith
  have k2 : (1 + ulp) ^ (n - 1) ≤ (1 + ulp) ^ n := pow_le_pow_right₀ ulp_base (by omega)
  obtain ⟨s, g, w, hs, h1, h2⟩ := C75_mean hx (r := fun _ _ => 1) (dim := 0) (fun c b hv => by rw [(hf c b hv).2]; exact ⟨le_rfl, le_rfl⟩) (by norm_num)
    (by rw [hg]; omega) (fun c b _ => by
      rw [hg, Finset.sum_const, Finset.card_range, abs_one, nsmul_eq_mul, mul_one]
      refine le_trans ?_ hmax
      have h5 : (1 + ulp) ^ (n - 1) ≤ 2 := by linarith
      have h6 : (0 : ℝ) ≤ n := Nat.cast_nonneg n
      have h7 : (1 + ulp) ^ (n - 1) * n ≤ 2 * n := mul_le_mul_of_nonneg_right h5 h6
      refine h7.trans ?_
      have : (2 : ℝ) * 2 ^ 20 ≤ 2 ^ 30 := by norm_num
      linarith) p m
  obtain ⟨y, hy⟩ := exists_holds (matShape_wf (n := 2) (m := 3) (b := 4) rfl) (by decide) 0 (fun _ => fl1)
  have k3 : (1 + ulp) ^ 4 - 1 ≤ 1 / 2 ^ 21 := (C69_factor (k := 4) (by norm_num)).trans (by norm_num)
  have h4 : (((matShape 2 3 4).batch : ℕ) : ℝ) = 4 := by show ((4 : ℕ) : ℝ) = 4; norm_num
  have h4n : (matShape 2 3 4).batch = 4 := rfl
  obtain ⟨h, u, h3, h4'⟩ := C75_batch_mean hy (r := fun _ _ => 1) (s := matShape 2 3 1) (fun c b _ => ⟨le_rfl, le_rfl⟩) (by rw [h4n]; norm_num) (fun c b _ => by
      rw [Finset.sum_const, Finset.card_range, abs_one, nsmul_eq_mul, mul_one, h4n]
      refine le_trans ?_ hmax
      have : (1 + ulp) ^ 3 ≤ (1 + ulp) ^ 4 := pow_le_pow_right₀ ulp_base (by norm_num)
      push_cast
      have h6 : (1 : ℝ) / 2 ^ 21 ≤ 1 := by norm_num
      have h7 : (8 : ℝ) ≤ 2 ^ 30 := by norm_num
      linarith) ⟨matShape_wf rfl, fun _ => rfl, rfl⟩ p m
  obtain ⟨i1, i2⟩ := h2 czero 0 ⟨fun i => hs.1.get_pos i, hs.1.batch_pos⟩
  obtain ⟨i3, i4⟩ := h4' czero 0 ⟨fun i => (matShape_wf (n := 2) (m := 3) (b := 1) rfl).get_pos i, by decide⟩
  refine ⟨x, y, s, g, h, _, _, h1, i1, ?_, h3, i3, ?_⟩
  · rw [hg, Finset.sum_const, Finset.sum_const, Finset.card_range, abs_one, nsmul_eq_mul, mul_one, div_self hn0, mul_div_assoc, div_self hn0, mul_one] at i2
    refine i2.trans ?_
    have : (1 : ℝ) / 2 ^ 150 ≤ 1 / 7 - 1 / 8 := by norm_num
    linarith
  · rw [Finset.sum_const, Finset.sum_const, Finset.card_range, abs_one, nsmul_eq_mul, mul_one, h4, div_self (by norm_num), mul_div_assoc, div_self (by norm_num), mul_one, h4n] at i4
    refine i4.trans ?_
    have : (1 : ℝ) / 2 ^ 150 ≤ 1 / 2 ^ 20 - 1 / 2 ^ 21 := by norm_num
    linarith

end
end Verif
