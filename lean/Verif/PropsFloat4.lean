import Verif.FloatOpt
import Verif.PropsFloat3
import Verif.PropsOpt

/-!
# C70: gradient clipping and Adam in f32
-/

set_option linter.unusedSectionVars false
set_option linter.style.haveILetI false

namespace Verif
open Fmt Res Shape

section
variable [E : Ieee] {d : Nat}

/-- All elements of all gradients are finite. -/
def FiniteGrads (as : List (PArr (Fl f32))) : Prop := ∀ a ∈ as, ∀ c b, a.shape.Valid c b → (a.grad c b).Finite

theorem Params.wf {qs : List (Param (Fl f32))} {as : List (PArr (Fl f32))} (h : Params d qs as) : ∀ a ∈ as, a.shape.WF := by
  induction h with
  | nil => intro a ha; exact absurd ha List.not_mem_nil
  | cons hq _ ih =>
    intro a ha
    rcases List.mem_cons.mp ha with rfl | ha
    · exact hq.value.wf
    · exact ih a ha

/-- Flat positions are elements. -/
theorem flat_valid {s : Shape} (hs : s.WF) {i : Nat} (hi : i < s.size) : s.Valid (s.coord (i % s.volume)) (i / s.volume) := (hs.offset_coord hi).1

/-- The sum of the squares as two nested sums. -/
theorem sqTotal_eq32 (as : List (PArr (Fl f32))) : PArr.sqTotal as = as.foldl (fun acc a => Fl.add E.near32 acc
    ((List.range a.shape.size).foldl (fun acc i => Fl.add E.near32 acc (Fl.mul E.near32 (Arr.flat a.shape a.grad i) (Arr.flat a.shape a.grad i))) 0)) 0 := by
  unfold PArr.sqTotal PArr.elems
  simp only [List.foldl_map]
  rfl

theorem zero_nonneg : (0 : Fl f32).NonNeg := le_refl (0 : ℝ)

theorem inner_nonneg {a : PArr (Fl f32)} (hw : a.shape.WF) (hg : ∀ c b, a.shape.Valid c b → (a.grad c b).Finite) :
    ((List.range a.shape.size).foldl (fun acc i => Fl.add E.near32 acc (Fl.mul E.near32 (Arr.flat a.shape a.grad i) (Arr.flat a.shape a.grad i))) 0).NonNeg :=
  Fl.foldl_nonneg _ _ zero_nonneg fun i hi => Fl.sq_nonneg (by
    have := hg _ _ (flat_valid hw (List.mem_range.mp hi))
    unfold Arr.flat
    intro e
    rw [e] at this
    exact this)

theorem sqTotal_nonneg32 {as : List (PArr (Fl f32))} (hw : ∀ a ∈ as, a.shape.WF) (hg : FiniteGrads as) : (PArr.sqTotal as).NonNeg := by
  rw [sqTotal_eq32]
  exact Fl.foldl_nonneg _ _ zero_nonneg fun a ha => inner_nonneg (hw a ha) (hg a ha)

/-- The update with clipping is the update with the gradients multiplied by the factor, or unchanged. -/
theorem updated_eq {o : Opt (Fl f32)} {κ : ℝ} (hl2 : Flt.gt o.l2 0 = false) (hc : o.clip.Is κ) (h0 : 0 < κ) (as : List (PArr (Fl f32))) :
    PArr.updated o as = as.map fun a => ((a.withGrad fun c b =>
      if Fl.gt (PArr.sqTotal as) (Fl.mul E.near32 o.clip o.clip) then Fl.mul E.near32 (a.grad c b) (Fl.div E.near32 o.clip (Fl.sqrt E.near32 (PArr.sqTotal as)))
      else a.grad c b).rule o.kind (Flt.ofInt (o.epoch + 1)) o.lrScale).zeroed := by
  have hg : Flt.gt o.clip 0 = true := (Fl.gt_in hc zero_is).mpr h0
  have hd : as.map (PArr.decayed o.l2) = as := by
    unfold PArr.decayed
    simp [hl2]
  unfold PArr.updated
  rw [hd]
  unfold PArr.clipped
  rw [hg, Bool.true_and]
  show List.map _ (if Fl.gt (PArr.sqTotal as) (Fl.mul E.near32 o.clip o.clip) = true then _ else _) = _
  by_cases hq : Fl.gt (PArr.sqTotal as) (Fl.mul E.near32 o.clip o.clip) = true
  · simp only [hq, if_true, List.map_map]
    rfl
  · simp only [hq]
    rfl

/-- C70: clipping with a positive threshold never enlarges an element, changes its sign or makes it NaN: for finite gradients, an update uses
gradients `G` whose elements lie between 0 and the original element. -/
theorem C70_clip_shrinks {o : Opt (Fl f32)} {κ : ℝ} (hl2 : Flt.gt o.l2 0 = false) (hc : o.clip.Is κ) (h0 : 0 < κ) (he : o.epoch + 1 < U32)
    {qs : List (Param (Fl f32))} {as : List (PArr (Fl f32))} (h : Params d qs as) (hr : ∀ a, a ∈ as → a.Ready o.kind) (hg : FiniteGrads as) (p : Profile)
    (m : Nat → Nat → Mem (Fl f32)) :
    ∃ (qs' : List (Param (Fl f32))) (G : PArr (Fl f32) → Arr (Fl f32)), o.updateParameters p m qs = (qs', ok (o.epoch + 1)) ∧
      Params d qs' (as.map fun a => ((a.withGrad (G a)).rule o.kind (Flt.ofInt (o.epoch + 1)) o.lrScale).zeroed) ∧
      ∀ a ∈ as, ∀ c b, a.shape.Valid c b → (G a c b).In (min 0 (a.grad c b).val) (max 0 (a.grad c b).val) := by
  obtain ⟨qs', e, hq⟩ := updateParameters_ok (Fl.mul_comm E.near32) o he h hr p m
  rw [updated_eq hl2 hc h0] at hq
  refine ⟨qs', _, e, hq, fun a ha c b hv => ?_⟩
  have hf := hg a ha c b hv
  show (ite _ _ _ : Fl f32).In _ _
  split
  · rename_i hs
    refine Fl.mul_shrink hf.is_val ?_
    rcases Fl.factor hc h0 (sqTotal_nonneg32 h.wf hg) hs with ⟨-, h1⟩ | ⟨S, -, -, -, -, -, h1⟩
    · exact Fl.In.mono h1 le_rfl (by norm_num)
    · exact h1
  · exact Fl.In.mono hf.is_val (min_le_right _ _) (le_max_right _ _)

theorem sqTotal_inf {as : List (PArr (Fl f32))} (hw : ∀ a ∈ as, a.shape.WF) (hg : FiniteGrads as) {a : PArr (Fl f32)} (ha : a ∈ as) {c : Nat → Nat} {b : Nat}
    (hv : a.shape.Valid c b) (hb : 2 ^ 64 ≤ |(a.grad c b).val|) : PArr.sqTotal as = .inf false := by
  rw [sqTotal_eq32]
  refine Fl.foldl_inf _ _ zero_nonneg (fun a ha => inner_nonneg (hw a ha) (hg a ha)) (Or.inr ⟨a, ha, ?_⟩)
  have hi := (hw a ha).offset_lt hv
  refine Fl.foldl_inf _ _ zero_nonneg (fun i hi => Fl.sq_nonneg ?_) (Or.inr ⟨_, List.mem_range.mpr hi, ?_⟩)
  · have := hg a ha _ _ (flat_valid (hw a ha) (List.mem_range.mp hi))
    unfold Arr.flat
    intro e
    rw [e] at this
    exact this
  · rw [Arr.flat_offset (hw a ha) a.grad hv]
    exact Fl.sq_inf (hg a ha c b hv).is_val hb

theorem sq_gt {c : Fl f32} {κ : ℝ} (hc : c.Is κ) (h0 : 0 < κ) (h1 : κ ≤ 2 ^ 63) : Fl.gt (.inf false) (Fl.mul E.near32 c c) = true := by
  obtain ⟨z, e⟩ := Fl.mul_eq (N := E.near32) hc hc
  rw [e]
  have h2 : |κ * κ| ≤ maxF32 := by
    rw [abs_of_nonneg (mul_self_nonneg κ)]
    have := mul_le_mul h1 h1 h0.le (by positivity)
    exact this.trans (by unfold maxF32; norm_num)
  have h3 := Fl.Appr.round_is (N := E.near32) z h2
  cases hr : Fl.round E.near32 z (κ * κ) with
  | fin s u hu => rfl
  | inf s => rw [hr] at h3; exact h3.elim
  | nan => rw [hr] at h3; exact h3.elim

/-- `v - g * lr` with a zero gradient. -/
theorem sgd_zero {v g r : Fl f32} {x y : ℝ} (hv : v.Is x) (hg : g.Is 0) (hr : r.Is y) : (Fl.sub E.near32 v (Fl.mul E.near32 g r)).Is x := by
  obtain ⟨z, e⟩ := Fl.mul_eq (N := E.near32) hg hr
  have h1 : (Fl.mul E.near32 g r).Is 0 := by
    rw [e, zero_mul]
    have := Fl.round_eq (N := E.near32) z 0 (by rw [E.near32.near_grid has0.1, abs_zero]; exact top_pos)
    rwa [E.near32.near_grid has0.1] at this
  obtain ⟨z', e'⟩ := Fl.sub_eq (N := E.near32) hv h1
  have hx := Fl.Appr.has_of_is hv
  rw [e', sub_zero]
  have := Fl.round_eq (N := E.near32) z' x (by rw [E.near32.near_grid hx.1]; exact hx.2)
  rwa [E.near32.near_grid hx.1] at this

/-- C70, a limit of the claim: if one element of a finite gradient has magnitude `2^64` or more, the norm overflows and clipping (with any threshold up to
`2^63`) sets all gradients of all parameters to zero instead of scaling them: an update of SGD leaves every element of every parameter as it was. -/
theorem C70_clip_overflow {o : Opt (Fl f32)} {eta : Fl f32} {κ : ℝ} (hk : o.kind = .sgd eta) (hlr : (Fl.mul E.near32 o.lrScale eta).Finite)
    (hl2 : Flt.gt o.l2 0 = false) (hc : o.clip.Is κ) (h0 : 0 < κ) (h1 : κ ≤ 2 ^ 63) (he : o.epoch + 1 < U32)
    {qs : List (Param (Fl f32))} {as : List (PArr (Fl f32))} (h : Params d qs as) (hg : FiniteGrads as)
    (hb : ∃ a ∈ as, ∃ c b, a.shape.Valid c b ∧ 2 ^ 64 ≤ |(a.grad c b).val|) (p : Profile) (m : Nat → Nat → Mem (Fl f32)) :
    ∃ qs' as', o.updateParameters p m qs = (qs', ok (o.epoch + 1)) ∧ Params d qs' as' ∧ List.Forall₂ (fun a a' : PArr (Fl f32) =>
      a'.shape = a.shape ∧ ∀ c b, a.shape.Valid c b → ∀ v, (a.value c b).Is v → (a'.value c b).Is v) as as' := by
  obtain ⟨qs', e, hq⟩ := updateParameters_ok (Fl.mul_comm E.near32) o he h (by intro a _; rw [hk]; trivial) p m
  rw [updated_eq hl2 hc h0] at hq
  refine ⟨qs', _, e, hq, ?_⟩
  rw [List.forall₂_map_right_iff, List.forall₂_same]
  intro a ha
  obtain ⟨a0, ha0, c0, b0, hv0, hb0⟩ := hb
  have hinf := sqTotal_inf h.wf hg ha0 hv0 hb0
  rw [hk]
  refine ⟨rfl, fun c b hv v hx => ?_⟩
  show (Fl.sub E.near32 (a.value c b) (Fl.mul E.near32 (ite _ _ _ : Fl f32) (Fl.mul E.near32 o.lrScale eta))).Is v
  have hgt := sq_gt (E := E) hc h0 h1
  rw [hinf, if_pos hgt]
  refine sgd_zero hx ?_ hlr.is_val
  rcases Fl.factor (N := E.near32) hc h0 (q := .inf false) rfl hgt with ⟨-, h2⟩ | ⟨S, h2, -⟩
  · obtain ⟨z, e⟩ := Fl.mul_eq (N := E.near32) (hg a ha c b hv).is_val h2
    rw [e, mul_zero]
    have := Fl.round_eq (N := E.near32) z 0 (by rw [E.near32.near_grid has0.1, abs_zero]; exact top_pos)
    rwa [E.near32.near_grid has0.1] at this
  · exact h2.elim

/-- C70, a limit of the claim: if all elements of all gradients have magnitude at most `2^-76`, the squares vanish and nothing is clipped, however small the
threshold is: an update of SGD uses the gradients as they are. -/
theorem C70_clip_underflow {o : Opt (Fl f32)} {eta : Fl f32} {κ : ℝ} (hk : o.kind = .sgd eta) (hl2 : Flt.gt o.l2 0 = false) (hc : o.clip.Is κ) (h0 : 0 < κ)
    (he : o.epoch + 1 < U32) {qs : List (Param (Fl f32))} {as : List (PArr (Fl f32))} (h : Params d qs as)
    (hg : ∀ a ∈ as, ∀ c b, a.shape.Valid c b → (a.grad c b).In (-(1 / 2 ^ 76)) (1 / 2 ^ 76)) (p : Profile) (m : Nat → Nat → Mem (Fl f32)) :
    ∃ qs', o.updateParameters p m qs = (qs', ok (o.epoch + 1)) ∧ Params d qs' (as.map fun a =>
      ⟨a.shape, fun c b => a.value c b - a.grad c b * (o.lrScale * eta), fun _ _ => 0, a.stat⟩) := by
  obtain ⟨qs', e, hq⟩ := updateParameters_ok (Fl.mul_comm E.near32) o he h (by intro a _; rw [hk]; trivial) p m
  rw [updated_eq hl2 hc h0] at hq
  have hz : (PArr.sqTotal as).Is 0 := by
    rw [sqTotal_eq32]
    refine Fl.foldl_zero _ _ zero_is fun a ha => Fl.foldl_zero _ _ zero_is fun i hi => ?_
    obtain ⟨v, -, h1, h2, h3⟩ := (hg a ha _ _ (flat_valid (h.wf a ha) (List.mem_range.mp hi))).exists_in
    exact Fl.sq_zero h1 (abs_le.mpr ⟨h2, h3⟩)
  have hn : ¬ Fl.gt (PArr.sqTotal as) (Fl.mul E.near32 o.clip o.clip) = true := by
    intro hgt
    rcases Fl.factor hc h0 (hz.nonneg le_rfl) hgt with ⟨e, -⟩ | ⟨S, h1, h2, -⟩
    · rw [e] at hz; exact hz
    · have := h1.unique hz
      nlinarith [mul_self_nonneg κ]
  refine ⟨qs', e, ?_⟩
  rw [hk] at hq
  simp only [hn] at hq
  exact hq

/-! ### Adam -/

/-- The next second moment of an element, `m * beta + g * (1 - beta) * g`. -/
theorem adam_m2 {m2 β g : Fl f32} {y : ℝ} (hm : m2.NonNeg) (hβ : β.Is y) (h0 : 0 < y) (h1 : y ≤ 1) (hg : g.Finite) :
    (Fl.add E.near32 (Fl.mul E.near32 m2 β) (Fl.mul E.near32 (Fl.mul E.near32 g (Fl.sub E.near32 1 β)) g)).NonNeg ∧
    (m2 = .inf false → Fl.add E.near32 (Fl.mul E.near32 m2 β) (Fl.mul E.near32 (Fl.mul E.near32 g (Fl.sub E.near32 1 β)) g) = .inf false) := by
  have ho : (1 : Fl f32).Is 1 := ⟨le_rfl, le_rfl⟩
  have hδ : (Fl.sub E.near32 1 β).In 0 1 := Fl.sub_in ho hβ has0 has1 (by linarith) (by linarith)
  have hs := Fl.mul_shrink (N := E.near32) hg.is_val hδ
  obtain ⟨w, -, hw, w1, w2⟩ := hs.exists_in
  obtain ⟨z, e⟩ := Fl.mul_eq (N := E.near32) hw hg.is_val
  have hnn : (Fl.mul E.near32 (Fl.mul E.near32 g (Fl.sub E.near32 1 β)) g).NonNeg := by
    rw [e]
    refine Fl.round_nonneg z ?_
    rcases le_total 0 g.val with h | h
    · rw [min_eq_left h] at w1; exact mul_nonneg w1 h
    · rw [max_eq_left h] at w2; exact mul_nonneg_of_nonpos_of_nonpos w2 h
  have hβf : ∃ hu, β = .fin false y hu := by
    cases β with
    | fin s u hu =>
      obtain rfl : u = y := le_antisymm hβ.2 hβ.1
      cases s with
      | false => exact ⟨hu, rfl⟩
      | true => exact absurd (hu.2.2.1 rfl) (not_le.mpr h0)
    | inf s => exact hβ.elim
    | nan => exact hβ.elim
  obtain ⟨hu, rfl⟩ := hβf
  have hmi : Fl.mul E.near32 (.inf false) (.fin false y hu) = .inf false := by
    show (if y = 0 then Fl.nan else .inf (false ^^ false)) = _
    rw [if_neg h0.ne']; rfl
  refine ⟨Fl.add_nonneg ?_ hnn, fun e => by rw [e, hmi]; exact Fl.inf_add hnn⟩
  cases m2 with
  | fin s u hu' => exact Fl.round_nonneg _ (mul_nonneg hm h0.le)
  | inf s => obtain rfl : s = false := hm; rw [hmi]; rfl
  | nan => exact hm.elim

/-- The second moment overflows. -/
theorem adam_m2_inf {m2 β g : Fl f32} {y v : ℝ} (hm : m2.NonNeg) (hβ : β.Is y) (h0 : 0 < y) (h1 : y ≤ 999 / 1000) (hg : g.Is v) (hv : 2 ^ 70 ≤ |v|) :
    Fl.add E.near32 (Fl.mul E.near32 m2 β) (Fl.mul E.near32 (Fl.mul E.near32 g (Fl.sub E.near32 1 β)) g) = .inf false := by
  have ho : (1 : Fl f32).Is 1 := ⟨le_rfl, le_rfl⟩
  have hgf : g.Finite := Fl.In.finite hg
  have ht : f32.Has ((1 : ℝ) / 2 ^ 10) :=
    ⟨⟨1, -10, by norm_num [f32], by norm_num [f32], by norm_num [f32], by norm_num⟩, by rw [top32]; norm_num [abs_of_pos]⟩
  have hδ : (Fl.sub E.near32 1 β).In (1 / 2 ^ 10) 1 := Fl.sub_in ho hβ ht has1 (by norm_num at h1 ⊢; linarith) (by linarith)
  obtain ⟨δ, -, hδ', δ1, δ2⟩ := hδ.exists_in
  have hs := Fl.mul_shrink (N := E.near32) hg (Fl.In.mono hδ (by positivity) le_rfl)
  obtain ⟨w, hwh, hw, w1, w2⟩ := hs.exists_in
  obtain ⟨z, e⟩ := Fl.mul_eq (N := E.near32) hg hδ'
  have hvm : |v| ≤ maxF32 := (Fl.Appr.has_of_is hg).le_max
  have hw' : w = E.near32.near (v * δ) := by
    refine Fl.Is.unique (show (Fl.mul E.near32 g (Fl.sub E.near32 1 β)).Is w from hw) ?_
    rw [e]
    refine Fl.Appr.round_is z ?_
    rw [abs_mul, abs_of_nonneg (show 0 ≤ δ by linarith [show (0 : ℝ) ≤ 1 / 2 ^ 10 by positivity])]
    exact (mul_le_of_le_one_right (abs_nonneg v) δ2).trans hvm
  have h60 : f32.Has ((2 : ℝ) ^ 60) := ⟨grid_nat 1 60 (by norm_num) (by norm_num [f32]) (by norm_num [f32]) (by norm_num [f32]), by rw [top32]; norm_num⟩
  obtain ⟨z', e'⟩ := Fl.mul_eq (N := E.near32) hw hg
  have hprod : (2 : ℝ) ^ 128 ≤ w * v := by
    have hpd : (2 : ℝ) ^ 60 ≤ |v| * δ := by
      have := mul_le_mul hv δ1 (by positivity) (abs_nonneg v)
      norm_num at this ⊢
      exact this
    rcases le_total 0 v with h | h
    · rw [abs_of_nonneg h] at hv hpd
      have h2 : (2 : ℝ) ^ 60 ≤ w := by rw [hw']; exact E.near32.le_near h60.1 hpd
      have := mul_le_mul h2 hv (by positivity) (by linarith [show (0 : ℝ) < 2 ^ 60 by positivity])
      norm_num at this ⊢
      linarith
    · rw [abs_of_nonpos h] at hv hpd
      have h2 : w ≤ -2 ^ 60 := by rw [hw']; exact E.near32.near_le h60.neg.1 (by linarith)
      have := mul_le_mul (show (2 : ℝ) ^ 60 ≤ -w by linarith) hv (by positivity) (by linarith [show (0 : ℝ) < 2 ^ 60 by positivity])
      norm_num at this ⊢
      linarith
  have hinf : Fl.mul E.near32 (Fl.mul E.near32 g (Fl.sub E.near32 1 β)) g = .inf false := by
    rw [e']
    have hgd : ((2 : ℝ) ^ 128) ∈ f32.grid := grid_nat (2 ^ 24) 104 (by norm_num) (by norm_num [f32]) (by norm_num [f32]) (by norm_num [f32])
    have h2 := E.near32.le_near hgd hprod
    unfold Fl.round
    rw [dif_neg (by rw [top32, not_lt]; exact h2.trans (le_abs_self _)), decide_eq_false (not_lt.mpr (le_trans (by positivity) h2))]
  have hmb : (Fl.mul E.near32 m2 β).NonNeg := by
    cases m2 with
    | fin s u hu' =>
      obtain ⟨z, e⟩ := Fl.mul_eq (N := E.near32) (Fl.Is.of_fin (s := s) (hu := hu')) hβ
      rw [e]; exact Fl.round_nonneg _ (mul_nonneg hm h0.le)
    | inf s =>
      obtain rfl : s = false := hm
      cases β with
      | fin s u hu =>
        obtain rfl : u = y := le_antisymm hβ.2 hβ.1
        show (if u = 0 then Fl.nan else .inf (false ^^ s)).NonNeg
        rw [if_neg h0.ne']
        cases s with
        | false => rfl
        | true => exact absurd (hu.2.2.1 rfl) (not_le.mpr h0)
      | inf s => exact hβ.elim
      | nan => exact hβ.elim
    | nan => exact hm.elim
  rw [hinf]
  exact Fl.add_inf hmb

/-- A step divided by an infinite root. -/
theorem adam_frozen {v X D eps : Fl f32} {x y : ℝ} (hv : v.Is x) (hX : X.Finite) (hD : D.Is y) (hD0 : 0 < y) (he : eps.Finite) :
    (Fl.sub E.near32 v (Fl.div E.near32 X (Fl.add E.near32 (Fl.sqrt E.near32 (Fl.div E.near32 (.inf false) D)) eps))).Is x := by
  have h1 : Fl.div E.near32 (.inf false) D = .inf false := by
    cases D with
    | fin s u hu =>
      obtain rfl : u = y := le_antisymm hD.2 hD.1
      cases s with
      | false => rfl
      | true => exact absurd (hu.2.2.1 rfl) (not_le.mpr hD0)
    | inf s => exact hD.elim
    | nan => exact hD.elim
  have h2 : Fl.add E.near32 (Fl.sqrt E.near32 (.inf false)) eps = .inf false := by
    cases eps with
    | fin s u hu => rfl
    | inf s => exact he.elim
    | nan => exact he.elim
  have h3 : (Fl.div E.near32 X (.inf false)).Is 0 := by
    cases X with
    | fin s u hu =>
      have := Fl.round_eq (N := E.near32) (s ^^ false) 0 (by rw [E.near32.near_grid has0.1, abs_zero]; exact top_pos)
      rwa [E.near32.near_grid has0.1] at this
    | inf s => exact hX.elim
    | nan => exact hX.elim
  rw [h1, h2]
  obtain ⟨z', e'⟩ := Fl.sub_eq (N := E.near32) hv h3
  have hx := Fl.Appr.has_of_is hv
  rw [e', sub_zero]
  have := Fl.round_eq (N := E.near32) z' x (by rw [E.near32.near_grid hx.1]; exact hx.2)
  rwa [E.near32.near_grid hx.1] at this

/-- The settings of Adam that matter here: `0 < beta2 ≤ 1`, a finite `eps`, and a correction `1 - beta2^t` that is positive. -/
structure AdamSane (o : Opt (Fl f32)) (alpha beta1 beta2 eps : Fl f32) : Prop where
  kind : o.kind = .adam alpha beta1 beta2 eps
  no_decay : Flt.gt o.l2 0 = false
  no_clip : Flt.gt o.clip 0 = false
  decay : ∃ y : ℝ, beta2.Is y ∧ 0 < y ∧ y ≤ 1
  finite : eps.Finite
  correction : ∃ y : ℝ, (Fl.sub E.near32 1 (E.libm32.powf beta2 (Flt.ofInt (o.epoch + 1)))).Is y ∧ 0 < y

/-- C70: Adam's second moments never become negative or NaN, whatever finite gradients come: after an update they are at least 0 (possibly `∞`) if they
were before.  With `beta2 ≤ 0.999` one gradient element of magnitude `2^70` or more makes the moment `∞`.  A moment that is `∞` is `∞` ever after, and the element of the parameter does not move any
more (as long as the numerator of its step is finite). -/
theorem C70_adam {o : Opt (Fl f32)} {alpha beta1 beta2 eps : Fl f32} (ho : AdamSane o alpha beta1 beta2 eps) (he : o.epoch + 1 < U32)
    {qs : List (Param (Fl f32))} {as : List (PArr (Fl f32))} (h : Params d qs as) (hr : ∀ a, a ∈ as → ∃ m1 m2, a.Has "Adam.m1" m1 ∧ a.Has "Adam.m2" m2)
    (hg : FiniteGrads as) (p : Profile) (m : Nat → Nat → Mem (Fl f32)) :
    ∃ qs' as', o.updateParameters p m qs = (qs', ok (o.epoch + 1)) ∧ Params d qs' as' ∧ List.Forall₂ (fun a a' : PArr (Fl f32) =>
      a'.shape = a.shape ∧ ∀ c b, a.shape.Valid c b → (a.read "Adam.m2" c b).NonNeg → (a'.read "Adam.m2" c b).NonNeg ∧
        ((∀ y, beta2.Is y → y ≤ 999 / 1000) → 2 ^ 70 ≤ |(a.grad c b).val| → a'.read "Adam.m2" c b = .inf false) ∧
        (a.read "Adam.m2" c b = .inf false → a'.read "Adam.m2" c b = .inf false ∧ ∀ v, (a.value c b).Is v →
          (a'.read "Adam.m1" c b / (1 - Flt.powf beta1 (Flt.ofInt (o.epoch + 1))) * (o.lrScale * alpha)).Finite → (a'.value c b).Is v)) as as' := by
  obtain ⟨qs', e, hq⟩ := updateParameters_ok (Fl.mul_comm E.near32) o he h (by
    intro a ha; rw [ho.kind]; obtain ⟨m1, m2, h1, h2⟩ := hr a ha; exact ⟨⟨m1, h1⟩, ⟨m2, h2⟩⟩) p m
  refine ⟨qs', _, e, hq, ?_⟩
  unfold PArr.updated PArr.clipped
  rw [ho.no_clip]
  simp only [Bool.false_and, Bool.false_eq_true, if_false, List.map_map]
  rw [List.forall₂_map_right_iff, List.forall₂_same]
  intro a ha
  have hd : PArr.decayed o.l2 a = a := by unfold PArr.decayed; rw [ho.no_decay]; rfl
  simp only [Function.comp, hd, ho.kind]
  obtain ⟨y, hy, y0, y1⟩ := ho.decay
  refine ⟨rfl, fun c b hv hm => ?_⟩
  obtain ⟨h1, h2⟩ := adam_m2 (E := E) hm hy y0 y1 (hg a ha c b hv)
  refine ⟨h1, fun hy2 hb => adam_m2_inf (E := E) hm hy y0 (hy2 y hy) (hg a ha c b hv).is_val hb, fun hi => ⟨h2 hi, fun v hx hf => ?_⟩⟩
  have h3 := h2 hi
  obtain ⟨D, hD, hD0⟩ := ho.correction
  show (Fl.sub E.near32 (a.value c b) (Fl.div E.near32 _ (Fl.add E.near32 (Fl.sqrt E.near32 (Fl.div E.near32
    (Fl.add E.near32 (Fl.mul E.near32 (a.read "Adam.m2" c b) beta2) (Fl.mul E.near32 (Fl.mul E.near32 (a.grad c b) (Fl.sub E.near32 1 beta2)) (a.grad c b)))
    (Fl.sub E.near32 1 (E.libm32.powf beta2 (Flt.ofInt (o.epoch + 1)))))) eps))).Is v
  rw [h3]
  exact adam_frozen hx hf hD hD0 ho.finite

/-! ### The norm after clipping -/

/-- The sum of the squares of all elements of the gradients `G`, as real numbers. -/
noncomputable def sqNorm (as : List (PArr (Fl f32))) (G : PArr (Fl f32) → Arr (Fl f32)) : ℝ :=
  (as.map fun a => ((List.range a.shape.size).map fun i => (Arr.flat a.shape (G a) i).val ^ 2).sum).sum

theorem sum_const_le {ι : Type} (l : List ι) (t : ι → ℝ) {B : ℝ} (h : ∀ i ∈ l, t i ≤ B) : (l.map t).sum ≤ l.length * B := by
  induction l with
  | nil => simp
  | cons i l ih =>
    rw [List.map_cons, List.sum_cons, List.length_cons]
    have h1 := ih fun j hj => h j (List.mem_cons_of_mem _ hj)
    have h2 := h i List.mem_cons_self
    push_cast
    linarith

theorem sum_map_le {ι : Type} (l : List ι) (s t : ι → ℝ) (h : ∀ i ∈ l, s i ≤ t i) : (l.map s).sum ≤ (l.map t).sum := by
  induction l with
  | nil => simp
  | cons i l ih =>
    rw [List.map_cons, List.sum_cons, List.map_cons, List.sum_cons]
    have h1 := ih fun j hj => h j (List.mem_cons_of_mem _ hj)
    have h2 := h i List.mem_cons_self
    linarith

theorem sum_map_lin {ι : Type} (l : List ι) (t : ι → ℝ) (c e : ℝ) : (l.map fun i => c * t i + e).sum = c * (l.map t).sum + l.length * e := by
  induction l with
  | nil => simp
  | cons i l ih =>
    rw [List.map_cons, List.sum_cons, List.map_cons, List.sum_cons, List.length_cons, ih]
    push_cast
    ring

theorem sqNorm_nonneg (as : List (PArr (Fl f32))) (G : PArr (Fl f32) → Arr (Fl f32)) : 0 ≤ sqNorm as G :=
  List.sum_nonneg fun x hx => by
    obtain ⟨a, -, rfl⟩ := List.mem_map.mp hx
    exact List.sum_nonneg fun y hy => by
      obtain ⟨i, -, rfl⟩ := List.mem_map.mp hy
      positivity

theorem sum_part_le {ι : Type} (l : List ι) (t : ι → ℝ) (h : ∀ i ∈ l, 0 ≤ t i) {i : ι} (hi : i ∈ l) : t i ≤ (l.map t).sum :=
  List.single_le_sum (fun x hx => by obtain ⟨j, hj, rfl⟩ := List.mem_map.mp hx; exact h j hj) _ (List.mem_map.mpr ⟨i, hi, rfl⟩)

/-- What the computed sum of squares is. -/
theorem sqTotal_appr {as : List (PArr (Fl f32))} (hw : ∀ a ∈ as, a.shape.WF) (hg : FiniteGrads as) {M : Nat} (hM : ∀ a ∈ as, a.shape.size ≤ M)
    (hK : M + as.length + 3 ≤ 2 ^ 21) (hN : sqNorm as PArr.grad ≤ 2 ^ 126) :
    ∃ S, (PArr.sqTotal as).Is S ∧ |S - sqNorm as PArr.grad| ≤ 2 * (M + as.length + 3 : ℕ) / 2 ^ 24 * (sqNorm as PArr.grad + 1 / 2 ^ 84) := by
  have hτ : (0 : ℝ) ≤ 1 / 2 ^ 126 := by positivity
  have hpow : ∀ k, k ≤ M + as.length + 3 → (1 + ulp) ^ k ≤ 5 / 4 := fun k hk => by
    have h1 := C69_factor (k := k) (by omega)
    have h2 : (k : ℝ) ≤ 2 ^ 21 := by exact_mod_cast hk.trans hK
    have h3 : 2 * (k : ℝ) / 2 ^ 24 ≤ 2 * 2 ^ 21 / 2 ^ 24 := div_le_div_of_nonneg_right (by linarith) (by positivity)
    norm_num at h3 ⊢
    norm_num at h1
    linarith
  have hn1 : (M : ℝ) ≤ 2 ^ 21 := by exact_mod_cast (by omega : M ≤ 2 ^ 21)
  have hn2 : (as.length : ℝ) ≤ 2 ^ 21 := by exact_mod_cast (by omega : as.length ≤ 2 ^ 21)
  -- one parameter
  have hA1 : ∀ a ∈ as, ((List.range a.shape.size).map fun i => (Arr.flat a.shape a.grad i).val ^ 2 + 1 / 2 ^ 126).sum ≤
      ((List.range a.shape.size).map fun i => (Arr.flat a.shape a.grad i).val ^ 2).sum + 1 / 2 ^ 105 := fun a ha => by
    have h1 := sum_map_lin (List.range a.shape.size) (fun i => (Arr.flat a.shape a.grad i).val ^ 2) 1 (1 / 2 ^ 126)
    simp only [one_mul, List.length_range] at h1
    rw [h1]
    have h2 : (a.shape.size : ℝ) ≤ 2 ^ 21 := le_trans (by exact_mod_cast hM a ha) hn1
    have h3 : (a.shape.size : ℝ) * (1 / 2 ^ 126) ≤ 2 ^ 21 * (1 / 2 ^ 126) := mul_le_mul_of_nonneg_right h2 hτ
    have h4 : (2 : ℝ) ^ 21 * (1 / 2 ^ 126) = 1 / 2 ^ 105 := by norm_num
    linarith
  have hpart : ∀ a ∈ as, ((List.range a.shape.size).map fun i => (Arr.flat a.shape a.grad i).val ^ 2).sum ≤ sqNorm as PArr.grad := fun a ha =>
    sum_part_le as (fun a => ((List.range a.shape.size).map fun i => (Arr.flat a.shape a.grad i).val ^ 2).sum) (fun a _ => List.sum_nonneg fun y hy => by
      obtain ⟨i, -, rfl⟩ := List.mem_map.mp hy
      positivity) ha
  have hin : ∀ a ∈ as, ((List.range a.shape.size).foldl (fun acc i => Fl.add E.near32 acc (Fl.mul E.near32 (Arr.flat a.shape a.grad i) (Arr.flat a.shape a.grad i))) 0).Appr
      ((List.range a.shape.size).map fun i => (Arr.flat a.shape a.grad i).val ^ 2).sum
      ((List.range a.shape.size).map fun i => (Arr.flat a.shape a.grad i).val ^ 2 + 1 / 2 ^ 126).sum (M + 1) := by
    intro a ha
    have hel : ∀ i ∈ List.range a.shape.size, (Fl.mul E.near32 (Arr.flat a.shape a.grad i) (Arr.flat a.shape a.grad i)).Appr
        ((Arr.flat a.shape a.grad i).val ^ 2) ((Arr.flat a.shape a.grad i).val ^ 2 + 1 / 2 ^ 126) 1 := by
      intro i hi
      have hf : (Arr.flat a.shape a.grad i).Finite := hg a ha _ _ (flat_valid (hw a ha) (List.mem_range.mp hi))
      have h1 : (Arr.flat a.shape a.grad i).val ^ 2 ≤ 2 ^ 126 := by
        refine le_trans ?_ ((hpart a ha).trans hN)
        exact sum_part_le (List.range a.shape.size) (fun i => (Arr.flat a.shape a.grad i).val ^ 2) (fun i _ => by positivity) hi
      have h2 : |(Arr.flat a.shape a.grad i).val * (Arr.flat a.shape a.grad i).val| = (Arr.flat a.shape a.grad i).val ^ 2 := by
        rw [abs_of_nonneg (mul_self_nonneg _), sq]
      have := Fl.Appr.mul (N := E.near32) hf.is_val hf.is_val (by rw [h2]; exact h1.trans (by unfold maxF32; norm_num))
      rw [h2, ← sq] at this
      exact this
    have h0 : (0 : Fl f32).Appr 0 0 1 := (Fl.Appr.of_is zero_is).mono (by omega) (by simp)
    have := Fl.Appr.foldl_sum (N := E.near32) (fun i => Fl.mul E.near32 (Arr.flat a.shape a.grad i) (Arr.flat a.shape a.grad i))
      (fun i => (Arr.flat a.shape a.grad i).val ^ 2) (fun i => (Arr.flat a.shape a.grad i).val ^ 2 + 1 / 2 ^ 126) (List.range a.shape.size) h0 le_rfl hel (by
        rw [List.length_range, zero_add]
        have h1 := hpow (1 + a.shape.size) (by have := hM a ha; omega)
        have h2 := (hA1 a ha).trans (add_le_add ((hpart a ha).trans hN) le_rfl)
        have h3 : 0 ≤ ((List.range a.shape.size).map fun i => (Arr.flat a.shape a.grad i).val ^ 2 + 1 / 2 ^ 126).sum := List.sum_nonneg fun y hy => by
          obtain ⟨i, -, rfl⟩ := List.mem_map.mp hy
          positivity
        refine (mul_le_mul h1 h2 h3 (by norm_num)).trans ?_
        unfold maxF32; norm_num)
    rw [List.length_range, zero_add, zero_add] at this
    exact this.mono (by have := hM a ha; omega) le_rfl
  have hA2 : (as.map fun a => ((List.range a.shape.size).map fun i => (Arr.flat a.shape a.grad i).val ^ 2 + 1 / 2 ^ 126).sum).sum ≤ sqNorm as PArr.grad + 1 / 2 ^ 84 := by
    refine (sum_map_le _ _ _ hA1).trans ?_
    have h1 := sum_map_lin as (fun a => ((List.range a.shape.size).map fun i => (Arr.flat a.shape a.grad i).val ^ 2).sum) 1 (1 / 2 ^ 105)
    simp only [one_mul] at h1
    rw [h1]
    have h3 : (as.length : ℝ) * (1 / 2 ^ 105) ≤ 2 ^ 21 * (1 / 2 ^ 105) := mul_le_mul_of_nonneg_right hn2 (by positivity)
    have h4 : (2 : ℝ) ^ 21 * (1 / 2 ^ 105) = 1 / 2 ^ 84 := by norm_num
    unfold sqNorm
    linarith
  have hA0 : 0 ≤ (as.map fun a => ((List.range a.shape.size).map fun i => (Arr.flat a.shape a.grad i).val ^ 2 + 1 / 2 ^ 126).sum).sum :=
    List.sum_nonneg fun x hx => by
      obtain ⟨a, -, rfl⟩ := List.mem_map.mp hx
      exact List.sum_nonneg fun y hy => by
        obtain ⟨i, -, rfl⟩ := List.mem_map.mp hy
        positivity
  have h0 : (0 : Fl f32).Appr 0 0 (M + 1) := (Fl.Appr.of_is zero_is).mono (by omega) (by simp)
  have key := Fl.Appr.foldl_sum (N := E.near32) _ _ _ as h0 le_rfl hin (by
    rw [zero_add]
    have h1 := hpow (M + 1 + as.length) (by omega)
    refine (mul_le_mul h1 (hA2.trans (add_le_add hN le_rfl)) hA0 (by norm_num)).trans ?_
    unfold maxF32; norm_num)
  rw [zero_add, zero_add] at key
  obtain ⟨S, h1, h2, -⟩ := key.mono (show M + 1 + as.length ≤ M + as.length + 3 by omega) hA2
  rw [← sqTotal_eq32] at h1
  refine ⟨S, h1, h2.trans ?_⟩
  have h3 : 0 ≤ sqNorm as PArr.grad + 1 / 2 ^ 84 := hA0.trans hA2
  exact mul_le_mul_of_nonneg_right (C69_factor (by omega)) h3

/-- The final inequality of the bound. -/
theorem clip_bound {x κ T : ℝ} (h1 : 6 / 2 ^ 24 ≤ x) (h2 : x ≤ 1 / 4) (h0 : 0 ≤ κ) (hT : (1 - x) * T ≤ κ ^ 2 * (1 + 16 / 2 ^ 24)) :
    Real.sqrt T ≤ κ * (1 + 2 * x) := by
  have hx : 0 ≤ x := le_trans (by positivity) h1
  refine Real.sqrt_le_iff.mpr ⟨mul_nonneg h0 (by linarith), ?_⟩
  have h3 : 1 + 16 / 2 ^ 24 ≤ (1 - x) * (1 + 2 * x) ^ 2 := by
    have h7 : x * x ≤ 1 / 4 * (1 / 4) := mul_le_mul h2 h2 hx (by norm_num)
    have h4 : x ^ 3 ≤ x / 16 := by
      have h8 := mul_le_mul_of_nonneg_left h7 hx
      have h9 : x ^ 3 = x * (x * x) := by ring
      rw [h9]; linarith
    have h5 : (1 - x) * (1 + 2 * x) ^ 2 = 1 + 3 * x - 4 * x ^ 3 := by ring
    rw [h5]
    norm_num at h1 ⊢
    linarith
  have h6 : (1 - x) * T ≤ (1 - x) * (κ * (1 + 2 * x)) ^ 2 := by
    refine hT.trans ?_
    have := mul_le_mul_of_nonneg_left h3 (_root_.sq_nonneg κ)
    calc _ ≤ _ := this
      _ = _ := by ring
  exact le_of_mul_le_mul_left h6 (by linarith)

/-- The rounded product with a factor. -/
theorem scaled_sq {v φ w : ℝ} (h : |v * φ - w| ≤ |v * φ| / 2 ^ 24 + 1 / 2 ^ 150) : w ^ 2 ≤ (1 + 4 / 2 ^ 24) * φ ^ 2 * v ^ 2 + 1 / 2 ^ 275 := by
  have h1 : |w| ≤ |v * φ| * (1 + 1 / 2 ^ 24) + 1 / 2 ^ 150 := by
    have := abs_sub_abs_le_abs_sub w (v * φ)
    rw [abs_sub_comm] at this
    linarith
  have h2 : w ^ 2 ≤ (|v * φ| * (1 + 1 / 2 ^ 24) + 1 / 2 ^ 150) ^ 2 := by
    rw [← sq_abs w]
    exact pow_le_pow_left₀ (abs_nonneg w) h1 2
  have h3 : φ ^ 2 * v ^ 2 = |v * φ| ^ 2 := by rw [sq_abs]; ring
  rw [mul_assoc, h3]
  generalize |v * φ| = p at *
  refine h2.trans ?_
  have key : ∀ u b : ℝ, 0 < u → (p * (1 + u) + b) ^ 2 ≤ ((1 + u) ^ 2 + u * (1 + u)) * p ^ 2 + (1 + (1 + u) / u) * b ^ 2 := by
    intro u b hu
    have h5 : 0 ≤ (1 + u) / u * (u * p - b) ^ 2 := by positivity
    have h6 : (1 + u) / u * (u * p - b) ^ 2 = u * (1 + u) * p ^ 2 - 2 * (1 + u) * p * b + (1 + u) / u * b ^ 2 := by
      field_simp
      ring
    rw [h6] at h5
    have h7 : (p * (1 + u) + b) ^ 2 = (1 + u) ^ 2 * p ^ 2 + 2 * (1 + u) * p * b + b ^ 2 := by ring
    rw [h7]
    linarith
  refine (key (1 / 2 ^ 24) (1 / 2 ^ 150) (by positivity)).trans (add_le_add (mul_le_mul_of_nonneg_right ?_ (_root_.sq_nonneg p)) ?_)
  · norm_num
  · rw [div_pow, one_pow, ← pow_mul, mul_one_div, div_le_div_iff₀ (by positivity) (by positivity), one_mul]
    have h8 : (1 : ℝ) + (1 + 1 / 2 ^ 24) / (1 / 2 ^ 24) ≤ 2 ^ 25 := by norm_num
    calc _ ≤ (2 : ℝ) ^ 25 * 2 ^ 275 := mul_le_mul_of_nonneg_right h8 (by positivity)
      _ = 2 ^ (150 * 2) := by rw [← pow_add]

set_option exponentiation.threshold 400 in
/-- C70: clipping bounds the norm.  If the gradients are finite and do not overflow (sum of squares at most `2^126`), no parameter has more than `M`
elements and the threshold `κ` is at least `2^-30`: an update uses gradients `G` that are the original ones or all of them multiplied by one factor in
[0, 1] (rounded), and whose exact norm is at most `κ (1 + 4 (M + number of parameters + 3) 2^-24)`. -/
theorem C70_clip_norm {o : Opt (Fl f32)} {κ : ℝ} (hl2 : Flt.gt o.l2 0 = false) (hc : o.clip.Is κ) (h0 : 1 / 2 ^ 30 ≤ κ) (he : o.epoch + 1 < U32)
    {qs : List (Param (Fl f32))} {as : List (PArr (Fl f32))} (h : Params d qs as) (hr : ∀ a, a ∈ as → a.Ready o.kind) (hg : FiniteGrads as)
    {M : Nat} (hM : ∀ a ∈ as, a.shape.size ≤ M) (hK : M + as.length + 3 ≤ 2 ^ 21) (hN : sqNorm as PArr.grad ≤ 2 ^ 126) (p : Profile)
    (m : Nat → Nat → Mem (Fl f32)) :
    ∃ (qs' : List (Param (Fl f32))) (G : PArr (Fl f32) → Arr (Fl f32)), o.updateParameters p m qs = (qs', ok (o.epoch + 1)) ∧
      Params d qs' (as.map fun a => ((a.withGrad (G a)).rule o.kind (Flt.ofInt (o.epoch + 1)) o.lrScale).zeroed) ∧
      (G = PArr.grad ∨ ∃ φ : Fl f32, φ.In 0 1 ∧ ∀ a c b, G a c b = a.grad c b * φ) ∧
      Real.sqrt (sqNorm as G) ≤ κ * (1 + 4 * (M + as.length + 3 : ℕ) / 2 ^ 24) := by
  have h0' : 0 < κ := lt_of_lt_of_le (by positivity) h0
  obtain ⟨qs', e, hq⟩ := updateParameters_ok (Fl.mul_comm E.near32) o he h hr p m
  rw [updated_eq hl2 hc h0'] at hq
  obtain ⟨S, hS, hS2⟩ := sqTotal_appr h.wf hg hM hK hN
  have hsum0 := sqNorm_nonneg as PArr.grad
  have hKr : ((M + as.length + 3 : ℕ) : ℝ) ≤ 2 ^ 21 := by exact_mod_cast hK
  have hK3 : (3 : ℝ) ≤ ((M + as.length + 3 : ℕ) : ℝ) := by exact_mod_cast (by omega)
  obtain ⟨x, hx⟩ : ∃ x : ℝ, x = 2 * (M + as.length + 3 : ℕ) / 2 ^ 24 := ⟨_, rfl⟩
  have hx1 : 6 / 2 ^ 24 ≤ x := by rw [hx]; exact div_le_div_of_nonneg_right (by linarith) (by positivity)
  have hx2 : x ≤ 1 / 4 := by
    rw [hx]
    refine (div_le_div_of_nonneg_right (mul_le_mul_of_nonneg_left hKr (by norm_num)) (by positivity)).trans ?_
    norm_num
  have hx0 : 0 ≤ x := le_trans (by positivity) hx1
  rw [← hx] at hS2
  have hgoal : κ * (1 + 4 * (M + as.length + 3 : ℕ) / 2 ^ 24) = κ * (1 + 2 * x) := by rw [hx]; ring
  rw [hgoal]
  have hκ2 : (1 : ℝ) / 2 ^ 60 ≤ κ ^ 2 := by
    have := mul_le_mul h0 h0 (by positivity) h0'.le
    rw [sq]
    norm_num at this ⊢
    exact this
  have hS3 := (abs_le.mp hS2).1
  refine ⟨qs', _, e, hq, ?_⟩
  by_cases hs : Fl.gt (PArr.sqTotal as) (Fl.mul E.near32 o.clip o.clip) = true
  · rcases Fl.factor hc h0' (sqTotal_nonneg32 h.wf hg) hs with ⟨ei, -⟩ | ⟨S', hS', k1, k2, k3, k4, k5⟩
    · rw [ei] at hS; exact hS.elim
    obtain rfl : S' = S := hS'.unique hS
    refine ⟨Or.inr ⟨_, k5, fun a c b => by simp only [hs, if_true]; rfl⟩, clip_bound hx1 hx2 h0'.le ?_⟩
    obtain ⟨R, hR⟩ : ∃ R, R = E.near32.near (Real.sqrt S') := ⟨_, rfl⟩
    obtain ⟨φ, hφ⟩ : ∃ φ, φ = E.near32.near (κ / R) := ⟨_, rfl⟩
    rw [← hR] at k2 k3 k4
    rw [← hφ] at k4
    have hS0 : 0 ≤ S' := (mul_self_nonneg κ).trans k1.le
    have hR0 : 0 < R := h0'.trans_le k2
    have hSmax : S' ≤ 2 ^ 128 := ((le_abs_self S').trans (Fl.Appr.has_of_is hS).le_max).trans maxF32_lt.le
    have hsq : Real.sqrt S' ≤ 2 ^ 64 := by
      rw [show (2 : ℝ) ^ 64 = Real.sqrt (2 ^ 128) by rw [show (2 : ℝ) ^ 128 = (2 ^ 64) ^ 2 by norm_num, Real.sqrt_sq (by positivity)]]
      exact Real.sqrt_le_sqrt hSmax
    have hκs : κ ≤ Real.sqrt S' := by
      rw [show κ = Real.sqrt (κ * κ) from (Real.sqrt_mul_self h0'.le).symm]
      exact Real.sqrt_le_sqrt k1.le
    have hR64 : R ≤ 2 ^ 64 := by
      rw [hR]
      exact E.near32.near_le (grid_nat 1 64 (by norm_num) (by norm_num [f32]) (by norm_num [f32]) (by norm_num [f32])) hsq
    have hq0 : 1 / 2 ^ 94 ≤ κ / R := by
      rw [le_div_iff₀ hR0]
      refine (mul_le_mul_of_nonneg_left hR64 (by positivity)).trans (le_trans (le_of_eq ?_) h0)
      norm_num
    have hq1 : κ / R ≤ 1 := (div_le_one hR0).mpr k2
    have e1 := E.near32.err32 (x := κ / R) (by rw [abs_of_nonneg (le_trans (by positivity) hq0)]; linarith [show (1 : ℝ) < 2 ^ 128 by norm_num])
    have e2 := E.near32.err32 (x := Real.sqrt S') (by rw [abs_of_nonneg (Real.sqrt_nonneg _)]; exact hsq.trans_lt (by norm_num))
    rw [← hφ, abs_of_nonneg (show 0 ≤ κ / R from le_trans (by positivity) hq0)] at e1
    rw [← hR, abs_of_nonneg (Real.sqrt_nonneg _)] at e2
    have e3 := (abs_le.mp e1).1
    have e4 := (abs_le.mp e2).2
    have hφ0 : 0 ≤ φ := by rw [hφ]; exact E.near32.le_near has0.1 (le_trans (by positivity) hq0)
    have e5 : φ ≤ κ / R * (1 + 2 / 2 ^ 24) := by norm_num at hq0 e3 ⊢; linarith
    have e6 : Real.sqrt S' * (1 - 2 / 2 ^ 24) ≤ R := by
      have := h0.trans hκs
      norm_num at this e4 ⊢; linarith
    have e7 : φ * R ≤ κ * (1 + 2 / 2 ^ 24) := by
      have := mul_le_mul_of_nonneg_right e5 hR0.le
      rwa [mul_right_comm, div_mul_cancel₀ _ hR0.ne'] at this
    have e8 : φ * Real.sqrt S' ≤ κ * (1 + 5 / 2 ^ 24) := by
      have h8 := (mul_le_mul_of_nonneg_left e6 hφ0).trans e7
      have h9 : κ * (1 + 2 / 2 ^ 24) ≤ κ * (1 + 5 / 2 ^ 24) * (1 - 2 / 2 ^ 24) := by
        rw [mul_assoc]
        exact mul_le_mul_of_nonneg_left (by norm_num) h0'.le
      have h10 : (φ * Real.sqrt S') * (1 - 2 / 2 ^ 24) ≤ κ * (1 + 5 / 2 ^ 24) * (1 - 2 / 2 ^ 24) := by
        refine le_trans (le_of_eq ?_) (h8.trans h9); ring
      exact le_of_mul_le_mul_right h10 (by norm_num)
    have e9 : φ ^ 2 * S' ≤ κ ^ 2 * (1 + 11 / 2 ^ 24) := by
      have h8 := pow_le_pow_left₀ (mul_nonneg hφ0 (Real.sqrt_nonneg _)) e8 2
      rw [mul_pow, Real.sq_sqrt hS0, mul_pow] at h8
      exact h8.trans (mul_le_mul_of_nonneg_left (by norm_num) (_root_.sq_nonneg κ))
    have e10 : (1 - x) * sqNorm as PArr.grad ≤ S' * (1 + x / 2 ^ 24) := by
      have h8 : 1 / 2 ^ 84 ≤ S' / 2 ^ 24 := by
        have : (1 : ℝ) / 2 ^ 60 ≤ S' := hκ2.trans (by rw [sq]; exact k1.le)
        norm_num at this ⊢; linarith
      have h9 := mul_le_mul_of_nonneg_left h8 hx0
      calc (1 - x) * sqNorm as PArr.grad ≤ S' + x * (1 / 2 ^ 84) := by linarith
        _ ≤ S' + x * (S' / 2 ^ 24) := by linarith
        _ = _ := by ring
    -- the sum of the squares of the products
    have e11 : sqNorm as (fun a c b => if Fl.gt (PArr.sqTotal as) (Fl.mul E.near32 o.clip o.clip) = true then
        Fl.mul E.near32 (a.grad c b) (Fl.div E.near32 o.clip (Fl.sqrt E.near32 (PArr.sqTotal as))) else a.grad c b) ≤
        (1 + 4 / 2 ^ 24) * φ ^ 2 * sqNorm as PArr.grad + 1 / 2 ^ 233 := by
      simp only [hs, if_true]
      unfold sqNorm
      refine (sum_map_le as _ (fun a => (1 + 4 / 2 ^ 24) * φ ^ 2 * ((List.range a.shape.size).map fun i => (Arr.flat a.shape a.grad i).val ^ 2).sum + 1 / 2 ^ 254)
        fun a ha => ?_).trans ?_
      · refine (sum_map_le _ _ (fun i => (1 + 4 / 2 ^ 24) * φ ^ 2 * (Arr.flat a.shape a.grad i).val ^ 2 + 1 / 2 ^ 275) fun i hi => ?_).trans ?_
        · have hf : (Arr.flat a.shape a.grad i).Finite := hg a ha _ _ (flat_valid (h.wf a ha) (List.mem_range.mp hi))
          obtain ⟨z, ez⟩ := Fl.mul_eq (N := E.near32) hf.is_val k4
          have hb : |(Arr.flat a.shape a.grad i).val * φ| ≤ maxF32 := by
            rw [abs_mul, abs_of_nonneg hφ0]
            have hφ1 : φ ≤ 1 := by rw [hφ]; exact E.near32.near_le has1.1 hq1
            exact (mul_le_of_le_one_right (abs_nonneg _) hφ1).trans (Fl.Appr.has_of_is hf.is_val).le_max
          have hz := Fl.Appr.round_is (N := E.near32) z hb
          rw [← ez] at hz
          have hval := hz.val_eq
          show (Fl.mul E.near32 (Arr.flat a.shape a.grad i) _).val ^ 2 ≤ _
          rw [hval]
          exact scaled_sq (E.near32.err32 (hb.trans_lt maxF32_lt))
        · rw [sum_map_lin, List.length_range]
          have h2 : (a.shape.size : ℝ) ≤ 2 ^ 21 := by exact_mod_cast (hM a ha).trans (by omega)
          have h3 : (a.shape.size : ℝ) * (1 / 2 ^ 275) ≤ 2 ^ 21 * (1 / 2 ^ 275) := mul_le_mul_of_nonneg_right h2 (by positivity)
          have h4 : (2 : ℝ) ^ 21 * (1 / 2 ^ 275) = 1 / 2 ^ 254 := by norm_num
          linarith
      · rw [sum_map_lin]
        have h2 : (as.length : ℝ) ≤ 2 ^ 21 := by exact_mod_cast (by omega : as.length ≤ 2 ^ 21)
        have h3 : (as.length : ℝ) * (1 / 2 ^ 254) ≤ 2 ^ 21 * (1 / 2 ^ 254) := mul_le_mul_of_nonneg_right h2 (by positivity)
        have h4 : (2 : ℝ) ^ 21 * (1 / 2 ^ 254) = 1 / 2 ^ 233 := by norm_num
        linarith
    have e12 : (1 - x) * ((1 + 4 / 2 ^ 24) * φ ^ 2 * sqNorm as PArr.grad) ≤ κ ^ 2 * ((1 + 4 / 2 ^ 24) * (1 + 11 / 2 ^ 24) * (1 + 1 / 2 ^ 26)) := by
      calc (1 - x) * ((1 + 4 / 2 ^ 24) * φ ^ 2 * sqNorm as PArr.grad) = (1 + 4 / 2 ^ 24) * φ ^ 2 * ((1 - x) * sqNorm as PArr.grad) := by ring
        _ ≤ (1 + 4 / 2 ^ 24) * φ ^ 2 * (S' * (1 + x / 2 ^ 24)) := mul_le_mul_of_nonneg_left e10 (by positivity)
        _ = (1 + 4 / 2 ^ 24) * (1 + x / 2 ^ 24) * (φ ^ 2 * S') := by ring
        _ ≤ (1 + 4 / 2 ^ 24) * (1 + x / 2 ^ 24) * (κ ^ 2 * (1 + 11 / 2 ^ 24)) := mul_le_mul_of_nonneg_left e9 (by positivity)
        _ = (1 + x / 2 ^ 24) * (κ ^ 2 * ((1 + 4 / 2 ^ 24) * (1 + 11 / 2 ^ 24))) := by ring
        _ ≤ (1 + 1 / 2 ^ 26) * (κ ^ 2 * ((1 + 4 / 2 ^ 24) * (1 + 11 / 2 ^ 24))) := mul_le_mul_of_nonneg_right (by norm_num; linarith) (by positivity)
        _ = _ := by ring
    have e13 : (1 : ℝ) / 2 ^ 233 ≤ κ ^ 2 * (1 / 2 ^ 26) := by
      refine le_trans ?_ (mul_le_mul_of_nonneg_right hκ2 (by positivity))
      norm_num
    have e14 := mul_le_mul_of_nonneg_left e11 (show 0 ≤ 1 - x by linarith)
    have e15 : κ ^ 2 * ((1 + 4 / 2 ^ 24) * (1 + 11 / 2 ^ 24) * (1 + 1 / 2 ^ 26)) + κ ^ 2 * (1 / 2 ^ 26) ≤ κ ^ 2 * (1 + 16 / 2 ^ 24) := by
      rw [← mul_add]
      exact mul_le_mul_of_nonneg_left (by norm_num) (_root_.sq_nonneg κ)
    have e16 : (1 - x) * (1 / 2 ^ 233) ≤ 1 / 2 ^ 233 := mul_le_of_le_one_left (by positivity) (by linarith)
    rw [mul_add] at e14
    linarith
  · refine ⟨Or.inl ?_, ?_⟩
    · funext a c b; simp only [hs]; rfl
    · have hG : (fun (a : PArr (Fl f32)) c b => if Fl.gt (PArr.sqTotal as) (Fl.mul E.near32 o.clip o.clip) = true then
        Fl.mul E.near32 (a.grad c b) (Fl.div E.near32 o.clip (Fl.sqrt E.near32 (PArr.sqTotal as))) else a.grad c b) = PArr.grad := by
        funext a c b; simp only [hs]; rfl
      rw [hG]
      refine clip_bound hx1 hx2 h0'.le ?_
      by_cases hbig : κ ≤ 2 ^ 63
      · obtain ⟨z, ez⟩ := Fl.mul_eq (N := E.near32) hc hc
        have hκm : κ * κ ≤ 2 ^ 126 := by
          have := mul_le_mul hbig hbig h0'.le (by positivity)
          norm_num at this ⊢
          exact this
        have hb : |κ * κ| ≤ maxF32 := by rw [abs_of_nonneg (mul_self_nonneg κ)]; exact hκm.trans (by unfold maxF32; norm_num)
        have hz := Fl.Appr.round_is (N := E.near32) z hb
        rw [← ez] at hz
        have hle : S ≤ E.near32.near (κ * κ) := by
          by_contra hn
          exact hs ((Fl.gt_in hS hz).mpr (not_le.mp hn))
        have e1 := (abs_le.mp (E.near32.err32 (x := κ * κ) (hb.trans_lt maxF32_lt))).1
        rw [abs_of_nonneg (mul_self_nonneg κ), ← sq] at e1
        rw [← sq] at hle
        have e2 : x * (1 / 2 ^ 84) ≤ 1 / 4 * (1 / 2 ^ 84) := mul_le_mul_of_nonneg_right hx2 (by positivity)
        norm_num at e1 e2 hκ2 hS3 ⊢
        linarith
      · have hbig := not_le.mp hbig
        have : (2 : ℝ) ^ 126 ≤ κ ^ 2 := by
          have := mul_le_mul hbig.le hbig.le (by positivity) h0'.le
          rw [sq]
          norm_num at this ⊢
          exact this
        have h5 : (1 - x) * sqNorm as PArr.grad ≤ sqNorm as PArr.grad := mul_le_of_le_one_left hsum0 (by linarith)
        have h6 : κ ^ 2 ≤ κ ^ 2 * (1 + 16 / 2 ^ 24) := le_mul_of_one_le_right (_root_.sq_nonneg κ) (by norm_num)
        linarith

end

/-! ## The premises are met -/

/-- A positive number as a value. -/
noncomputable def flPos {x : ℝ} (h : f32.Has x) (h0 : 0 < x) : Fl f32 := .fin false x ⟨h.1, h.2, nofun, fun _ => h0.le⟩

theorem flPos_is {x : ℝ} (h : f32.Has x) (h0 : 0 < x) : (flPos h h0).Is x := ⟨le_rfl, le_rfl⟩

theorem has_pow (k : ℤ) (h1 : -149 ≤ k) (h2 : k ≤ 104) : f32.Has ((2 : ℝ) ^ k) := by
  refine ⟨⟨1, k, by norm_num [f32], h1, h2, by norm_num⟩, ?_⟩
  rw [abs_of_pos (by positivity), top32]
  calc (2 : ℝ) ^ k ≤ 2 ^ (104 : ℤ) := zpow_le_zpow_right₀ (by norm_num) h2
    _ < 2 ^ 128 := by norm_num

/-- A parameter of shape 2×3 with the given elements. -/
theorem grad_exists [Ieee] (d : Nat) (v g : Fl f32) : ∃ (q : Param (Fl f32)) (a : PArr (Fl f32)), q.Is d a ∧ a.shape.size = 6 ∧ (∀ c b, a.value c b = v) ∧
    ∀ c b, a.grad c b = g := by
  obtain ⟨q, hq⟩ := exists_param (matShape_wf (n := 2) (m := 3) (b := 1) rfl) (by decide) rfl d (fun _ => v) (fun _ => g) (fun _ => v) "x"
  exact ⟨q, _, hq, rfl, fun _ _ => rfl, fun _ _ => rfl⟩

section
variable [E : Ieee]

theorem gt_zero_zero : Flt.gt (0 : Fl f32) 0 = false := by
  by_contra h
  exact absurd ((Fl.gt_in zero_is zero_is).mp (Bool.not_eq_false _ ▸ h)) (lt_irrefl _)

/-- Two parameters with gradients 2^21 and 2^-10 clipped at 1. -/
example (p : Profile) (m : Nat → Nat → Mem (Fl f32)) : ∃ (o : Opt (Fl f32)) (qs qs' : List (Param (Fl f32))) (as : List (PArr (Fl f32)))
    (G : PArr (Fl f32) → Arr (Fl f32)), as.length = 2 ∧ Params 0 qs as ∧ o.updateParameters p m qs = (qs', ok 1) ∧
      Real.sqrt (sqNorm as G) ≤ 1 + 44 / 2 ^ 24 ∧ 24 * 2 ^ 40 ≤ sqNorm as PArr.grad := by
  obtain ⟨q1, a1, h1, n1, -, g1⟩ := grad_exists 0 fl1 (flPos (has_pow 21 (by norm_num) (by norm_num)) (by positivity))
  obtain ⟨q2, a2, h2, n2, -, g2⟩ := grad_exists 0 fl1 (flPos (has_pow (-10) (by norm_num) (by norm_num)) (by positivity))
  have hN : sqNorm [a1, a2] PArr.grad = 6 * ((2 : ℝ) ^ (21 : ℤ)) ^ 2 + 6 * ((2 : ℝ) ^ (-10 : ℤ)) ^ 2 := by
    simp [sqNorm, n1, n2, Arr.flat, g1, g2, flPos, Fl.val]
    ring
  obtain ⟨qs', G, e, -, -, hb⟩ := C70_clip_norm (o := ⟨0, fl1, 0, fl1, .sgd fl1⟩) (κ := 1) gt_zero_zero ⟨le_rfl, le_rfl⟩ (by norm_num) (by show 0 + 1 < U32; decide)
    (.cons h1 (.cons h2 .nil)) (fun _ _ => trivial) (by
      intro a ha c b _
      rcases List.mem_cons.mp ha with rfl | ha
      · rw [g1]; trivial
      · rw [List.mem_singleton.mp ha, g2]; trivial) (M := 6) (by
      intro a ha
      rcases List.mem_cons.mp ha with rfl | ha
      · exact n1.le
      · rw [List.mem_singleton.mp ha]; exact n2.le) (by show 6 + 2 + 3 ≤ 2 ^ 21; norm_num) (by rw [hN]; norm_num) p m
  refine ⟨_, _, qs', _, G, rfl, .cons h1 (.cons h2 .nil), e, hb.trans ?_, ?_⟩
  · norm_num
  · rw [hN]; norm_num

/-- Overflow: gradients `2^64` clipped at 1 do not move the parameter at all. -/
example (p : Profile) (m : Nat → Nat → Mem (Fl f32)) : ∃ (o : Opt (Fl f32)) (qs qs' : List (Param (Fl f32))) (as as' : List (PArr (Fl f32))),
    Params 0 qs as ∧ o.updateParameters p m qs = (qs', ok 1) ∧ Params 0 qs' as' ∧ List.Forall₂ (fun a a' : PArr (Fl f32) => a'.shape = a.shape ∧
      ∀ c b, a.shape.Valid c b → (a.grad c b).Is ((2 : ℝ) ^ (64 : ℤ)) ∧ (a.value c b).Is 1 ∧ (a'.value c b).Is 1) as as' := by
  obtain ⟨q, a, h, n, v, g⟩ := grad_exists 0 fl1 (flPos (has_pow 64 (by norm_num) (by norm_num)) (by positivity))
  have hone : (Fl.mul E.near32 fl1 fl1).Finite := by
    obtain ⟨z, ez⟩ := Fl.mul_eq (N := E.near32) (show fl1.Is 1 from ⟨le_rfl, le_rfl⟩) (show fl1.Is 1 from ⟨le_rfl, le_rfl⟩)
    have := Fl.Appr.round_is (N := E.near32) z (w := 1 * 1) (by unfold maxF32; norm_num)
    rw [← ez] at this
    exact this.finite
  have hg : FiniteGrads [a] := by
    intro a' ha c b _
    rw [List.mem_singleton.mp ha, g]; trivial
  have hpos := h.value.wf
  obtain ⟨qs', as', e, h2, h3⟩ := C70_clip_overflow (o := ⟨0, fl1, 0, fl1, .sgd fl1⟩) (κ := 1) rfl hone gt_zero_zero ⟨le_rfl, le_rfl⟩ (by norm_num)
    (by norm_num) (by show 0 + 1 < U32; decide) (.cons h .nil) hg
    ⟨a, List.mem_singleton.mpr rfl, czero, 0, ⟨fun i => hpos.get_pos i, hpos.batch_pos⟩, by rw [g]; show _ ≤ |(2 : ℝ) ^ (64 : ℤ)|; norm_num⟩ p m
  refine ⟨_, _, qs', _, as', .cons h .nil, e, h2, ?_⟩
  cases h3 with
  | cons h4 h5 =>
    cases h5
    refine .cons ⟨h4.1, fun c b hv => ⟨by rw [g]; exact flPos_is _ _, by rw [v]; exact ⟨le_rfl, le_rfl⟩, h4.2 c b hv 1 (by rw [v]; exact ⟨le_rfl, le_rfl⟩)⟩⟩ .nil

/-- Underflow: six gradient elements `2^-76` with a threshold of `2^-80` are not clipped. -/
example (p : Profile) (m : Nat → Nat → Mem (Fl f32)) : ∃ (o : Opt (Fl f32)) (qs qs' : List (Param (Fl f32))) (a : PArr (Fl f32)), Params 0 qs [a] ∧
    o.clip.Is ((2 : ℝ) ^ (-80 : ℤ)) ∧ 16 * (2 : ℝ) ^ (-80 : ℤ) ≤ Real.sqrt (sqNorm [a] PArr.grad) ∧
    o.updateParameters p m qs = (qs', ok 1) ∧ Params 0 qs' [⟨a.shape, fun c b => a.value c b - a.grad c b * (fl1 * fl1), fun _ _ => 0, a.stat⟩] := by
  obtain ⟨q, a, h, n, v, g⟩ := grad_exists 0 fl1 (flPos (has_pow (-76) (by norm_num) (by norm_num)) (by positivity))
  obtain ⟨qs', e, h2⟩ := C70_clip_underflow (o := ⟨0, fl1, 0, flPos (has_pow (-80) (by norm_num) (by norm_num)) (by positivity), .sgd fl1⟩) rfl gt_zero_zero
    (show Fl.Is (flPos (has_pow (-80) (by norm_num) (by norm_num)) (by positivity)) _ from flPos_is _ _) (by positivity) (by show 0 + 1 < U32; decide) (.cons h .nil) (by
      intro a' ha c b _
      rw [List.mem_singleton.mp ha, g]
      exact ⟨le_trans (by norm_num) (show (0 : ℝ) ≤ 2 ^ (-76 : ℤ) by positivity), by norm_num⟩) p m
  refine ⟨⟨0, fl1, 0, flPos (has_pow (-80) (by norm_num) (by norm_num)) (by positivity), .sgd fl1⟩, _, qs', a, .cons h .nil, ⟨le_rfl, le_rfl⟩, ?_, e, h2⟩
  have hN : sqNorm [a] PArr.grad = 6 * ((2 : ℝ) ^ (-76 : ℤ)) ^ 2 := by simp [sqNorm, n, Arr.flat, g, flPos, Fl.val]; ring
  rw [hN]
  refine Real.le_sqrt_of_sq_le ?_
  norm_num

end

section
variable [E : Ieee]

/-- The contents of a scalar parameter with Adam's statistics. -/
def adamArr32 (v g m1 m2 : Fl f32) : PArr (Fl f32) :=
  ⟨matShape 1 1 1, fun _ _ => v, fun _ _ => g, fun n => if n = "Adam.m2" then some (matShape 1 1 1, fun _ _ => m2) else if n = "Adam.m1" then some (matShape 1 1 1, fun _ _ => m1) else none⟩

theorem exists_adam32 (d : Nat) (v g m1 m2 : Fl f32) : ∃ q : Param (Fl f32), q.Is d (adamArr32 v g m1 m2) := by
  obtain ⟨t1, h1⟩ := exists_holds (α := Fl f32) (matShape_wf (n := 1) (m := 1) (b := 1) rfl) (by decide) d (fun _ => v)
  obtain ⟨t2, h2⟩ := exists_holds (α := Fl f32) (matShape_wf (n := 1) (m := 1) (b := 1) rfl) (by decide) d (fun _ => g)
  obtain ⟨t3, h3⟩ := exists_holds (α := Fl f32) (matShape_wf (n := 1) (m := 1) (b := 1) rfl) (by decide) d (fun _ => m1)
  obtain ⟨t4, h4⟩ := exists_holds (α := Fl f32) (matShape_wf (n := 1) (m := 1) (b := 1) rfl) (by decide) d (fun _ => m2)
  refine ⟨⟨t1, t2, [("Adam.m2", t4), ("Adam.m1", t3)]⟩, rfl, h1, h2, fun n hn => ?_, by simp, fun n s f hn => ?_⟩
  · simp only [adamArr32] at hn
    split at hn
    · simp at hn
    · split at hn
      · simp at hn
      · rename_i e1 e2
        have b1 : (n == "Adam.m2") = false := by simpa using e1
        have b2 : (n == "Adam.m1") = false := by simpa using e2
        simp [Param.stat, List.lookup_cons, b1, b2]
  · simp only [adamArr32] at hn
    split at hn
    · rename_i e1
      subst e1
      simp only [Option.some.injEq, Prod.mk.injEq] at hn
      obtain ⟨rfl, rfl⟩ := hn
      exact ⟨t4, by simp [Param.stat], h4⟩
    · split at hn
      · rename_i e1
        subst e1
        simp only [Option.some.injEq, Prod.mk.injEq] at hn
        obtain ⟨rfl, rfl⟩ := hn
        exact ⟨t3, by simp [Param.stat, List.lookup_cons], h3⟩
      · simp at hn

end

/-- Adam: with the arithmetic that rounds every exact result, `beta2 = 1/2` and the first update. -/
example : ∃ (E : Ieee) (o : Opt (Fl f32)) (b : Fl f32) (qs : List (Param (Fl f32))) (a : PArr (Fl f32)), AdamSane o fl1 b b fl1 ∧ Params 0 qs [a] ∧
    FiniteGrads [a] ∧ (∃ m1 m2, a.Has "Adam.m1" m1 ∧ a.Has "Adam.m2" m2) ∧ (a.read "Adam.m2" czero 0).NonNeg ∧ 2 ^ 70 ≤ |(a.grad czero 0).val| := by
  obtain ⟨E, h1, h2⟩ := Ieee.exists_ideal
  refine ⟨E, ⟨0, fl1, 0, 0, .adam fl1 (flPos hasHalf (by norm_num)) (flPos hasHalf (by norm_num)) fl1⟩, flPos hasHalf (by norm_num), ?_⟩
  obtain ⟨q, a, hq, hm1, hm2, hg⟩ : ∃ (q : Param (Fl f32)) (a : PArr (Fl f32)), q.Is 0 a ∧ a.Has "Adam.m1" (fun _ _ => fl1) ∧
      a.Has "Adam.m2" (fun _ _ => fl1) ∧ ∀ c b, a.grad c b = flPos (has_pow 70 (by norm_num) (by norm_num)) (by positivity) := by
    obtain ⟨q, hq⟩ := exists_adam32 0 fl1 (flPos (has_pow 70 (by norm_num) (by norm_num)) (by positivity)) fl1 fl1
    exact ⟨q, _, hq, by unfold PArr.Has adamArr32; simp, by unfold PArr.Has adamArr32; simp, fun _ _ => rfl⟩
  refine ⟨[q], a, ⟨rfl, gt_zero_zero, gt_zero_zero, ⟨1 / 2, ⟨le_rfl, le_rfl⟩, by norm_num, by norm_num⟩, trivial, ?_⟩, .cons hq .nil, ?_,
    ⟨_, _, hm1, hm2⟩, ?_, ?_⟩
  · rw [h1]
    have e1 : (Flt.ofInt (((0 : Nat) : Int) + 1) : Fl f32).Is 1 := by
      have := Fl.Appr.round_is (N := E.near32) false (w := 1) (by unfold maxF32; norm_num)
      rw [E.near32.near_grid has1.1] at this
      show (Fl.round E.near32 false ((((0 : Nat) : Int) + 1 : Int) : ℝ)).Is 1
      simpa using this
    generalize (Flt.ofInt (((0 : Nat) : Int) + 1) : Fl f32) = y at e1 ⊢
    cases y with
    | fin s u hu =>
      obtain rfl : (1 : ℝ) = u := le_antisymm e1.1 e1.2
      have e2 : ((Libm.ideal E.near32).powf (flPos hasHalf (by norm_num)) (.fin s 1 hu)).Is (1 / 2) := by
        show Fl.Is (if (0 : ℝ) < 1 / 2 then Fl.round E.near32 false ((1 / 2) ^ (1 : ℝ)) else .nan) _
        rw [if_pos (by norm_num), Real.rpow_one]
        have := Fl.Appr.round_is (N := E.near32) false (w := 1 / 2) (by unfold maxF32; norm_num)
        rwa [E.near32.near_grid hasHalf.1] at this
      obtain ⟨z, e3⟩ := Fl.sub_eq (N := E.near32) (show (1 : Fl f32).Is 1 from ⟨le_rfl, le_rfl⟩) e2
      have e4 := Fl.Appr.round_is (N := E.near32) z (w := 1 - 1 / 2) (by unfold maxF32; norm_num)
      rw [← e3, show (1 : ℝ) - 1 / 2 = 1 / 2 by norm_num, E.near32.near_grid hasHalf.1] at e4
      exact ⟨_, e4, by norm_num⟩
    | inf s => exact e1.elim
    | nan => exact e1.elim
  · intro a' ha c b _
    rw [List.mem_singleton.mp ha, hg]; trivial
  · unfold PArr.read; rw [hm2]; exact zero_le_one
  · rw [hg]; show _ ≤ |(2 : ℝ) ^ (70 : ℤ)|; norm_num

end Verif
