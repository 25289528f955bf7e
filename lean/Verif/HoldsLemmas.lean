import Verif.TensorSpec
import Verif.FwLemmas7
import Verif.Refines

/-!
# From flat positions to coordinates
-/

namespace Verif
open Res
variable {α : Type} {d : Nat}

theorem cset_eq (c : Nat → Nat) (dim j : Nat) : cset c dim j = setC c dim j := rfl

/-- The array as a function of the flat position. -/
def Arr.flat (s : Shape) (f : Arr α) (k : Nat) : α := f (s.coord (k % s.volume)) (k / s.volume)

theorem Shape.WF.coord_offset {s : Shape} (h : s.WF) {c : Nat → Nat} {b : Nat} (hv : s.Valid c b) :
    s.coord (s.offset c b % s.volume) = c ∧ s.offset c b / s.volume = b := by
  obtain ⟨h1, h2⟩ := h.offset_coord (h.offset_lt hv)
  obtain ⟨e1, e2⟩ := h.offset_inj h1 hv h2
  exact ⟨funext e2, e1⟩

theorem Arr.flat_offset {s : Shape} (h : s.WF) (f : Arr α) {c : Nat → Nat} {b : Nat} (hv : s.Valid c b) :
    Arr.flat s f (s.offset c b) = f c b := by
  obtain ⟨h1, h2⟩ := h.coord_offset hv
  unfold Arr.flat; rw [h1, h2]

theorem Tensor.Holds.flat {t : Tensor α} {s : Shape} {f : Arr α} (h : t.Holds d s f) : t.Flat d s (Arr.flat s f) := by
  obtain ⟨l, h1, h2, h3⟩ := h.buf
  refine ⟨h.device, h.host, h.shape, h.wf, h.small, l, h1, h2, fun k hk => ?_⟩
  obtain ⟨v, e⟩ := h.wf.offset_coord hk
  have := h3 _ _ v
  rw [e] at this
  exact this

theorem Tensor.Flat.holds {t : Tensor α} {s : Shape} {g : Nat → α} {f : Arr α} (h : t.Flat d s g)
    (hf : ∀ c b, s.Valid c b → g (s.offset c b) = f c b) : t.Holds d s f := by
  obtain ⟨l, h1, h2, h3⟩ := h.buf
  exact ⟨h.device, h.host, h.shape, h.wf, h.small, l, h1, h2, fun c b hv => by
    rw [h3 _ (h.wf.offset_lt hv), hf c b hv]⟩

theorem Tensor.Holds.congr {t : Tensor α} {s : Shape} {f g : Arr α} (h : t.Holds d s f)
    (hg : ∀ c b, s.Valid c b → g c b = f c b) : t.Holds d s g :=
  h.flat.holds (fun c b hv => by rw [Arr.flat_offset h.wf f hv, hg c b hv])

/-- `Holds` determines the elements. -/
theorem Tensor.Holds.unique {t : Tensor α} {d' : Nat} {s s' : Shape} {f g : Arr α} (h : t.Holds d s f) (h' : t.Holds d' s' g) :
    d = d' ∧ s = s' ∧ ∀ c b, s.Valid c b → f c b = g c b := by
  have hs : s = s' := by rw [← h.shape, h'.shape]
  subst hs
  refine ⟨by have := h.device; rw [h'.device] at this; exact (Option.some.inj this).symm, rfl, fun c b hv => ?_⟩
  obtain ⟨l, h1, _, h3⟩ := h.buf
  obtain ⟨l', h1', _, h3'⟩ := h'.buf
  rw [h1] at h1'; cases h1'
  have := h3 c b hv
  rw [h3' c b hv] at this
  exact (Option.some.inj this).symm

/-! ## Positions -/

theorem Shape.WF.offset_eq {s : Shape} (h : s.WF) (c : Nat → Nat) (b : Nat) :
    s.offset c b = offN s.get c 8 + b * s.volume := by unfold Shape.offset; rw [h.vol]

theorem vol_of_dims {s t : Shape} (hs : s.WF) (ht : t.WF) (h : ∀ i, s.get i = t.get i) : s.volume = t.volume := by
  rw [hs.vol, ht.vol]; exact volN_congr (fun i _ => h i)

theorem valid_bb {sa s : Shape} (ha : sa.WF) (h : ∀ i, sa.get i = s.get i) (hb : sa.batch = 1 ∨ sa.batch = s.batch)
    {c : Nat → Nat} {b : Nat} (hv : s.Valid c b) : sa.Valid c (bb sa b) := by
  refine ⟨fun d => by rw [h]; exact hv.1 d, ?_⟩
  unfold bb
  have := hv.2
  by_cases h1 : sa.batch = 1
  · simp [h1]
  · rw [if_neg h1]; omega

theorem bidx_offset {sa s : Shape} (ha : sa.WF) (hs : s.WF) (h : ∀ i, sa.get i = s.get i)
    {c : Nat → Nat} {b : Nat} (hv : s.Valid c b) : bidx sa (s.offset c b) = sa.offset c (bb sa b) := by
  have hvol := vol_of_dims ha hs h
  have ho : offN s.get c 8 = offN sa.get c 8 := offN_congr (fun i _ => (h i).symm) (fun _ _ => rfl)
  unfold bidx bb
  by_cases h1 : sa.batch = 1
  · rw [if_pos h1, if_pos h1, hvol, (hs.offset_div hv).2, ho]
    unfold Shape.offset; rw [Nat.zero_mul, Nat.add_zero]
  · rw [if_neg h1, if_neg h1, hs.offset_eq, ha.offset_eq, hvol, ho]

theorem valid_cset {sx s : Shape} {dim j : Nat} (h : ∀ i, i ≠ dim → sx.get i = s.get i) (hj : j < sx.get dim)
    (hb : sx.batch = s.batch) {c : Nat → Nat} {b : Nat} (hv : s.Valid c b) : sx.Valid (cset c dim j) b := by
  refine ⟨fun i => ?_, by rw [hb]; exact hv.2⟩
  unfold cset
  by_cases hi : i = dim
  · subst hi; rw [if_pos rfl]; exact hj
  · rw [if_neg hi, h i hi]; exact hv.1 i

/-- Offset in a tensor that differs from `s` only in axis `dim`. -/
theorem offset_axis {sx s : Shape} (hx : sx.WF) (hs : s.WF) {dim j : Nat} (h : ∀ i, i ≠ dim → sx.get i = s.get i)
    (hj : j < sx.get dim) (hb : sx.batch = s.batch) {c : Nat → Nat} {b : Nat} (hv : s.Valid c b) :
    sx.offset (cset c dim j) b = s.lo dim c + s.lowerVolume dim * (j + sx.get dim * s.hi dim c b) := by
  rw [hx.offset_split (valid_cset h hj hb hv) dim, Shape.lowerVolume_congr hx hs h]
  have hc : ∀ i, i ≠ dim → cset c dim j i = c i := fun i hi => if_neg hi
  rw [Shape.lo_congr h hc, Shape.hi_congr b h hc]
  simp [cset]

theorem fibPos_offset {sx s : Shape} (hx : sx.WF) (hs : s.WF) {dim j : Nat} (h : ∀ i, i ≠ dim → sx.get i = s.get i)
    (h1 : s.get dim = 1) (hj : j < sx.get dim) (hb : sx.batch = s.batch) {c : Nat → Nat} {b : Nat} (hv : s.Valid c b) :
    K.fibPos (s.lowerVolume dim) (sx.get dim) (s.offset c b) j = sx.offset (cset c dim j) b := by
  have hlo := hs.lo_lt hv dim
  have hc0 : c dim = 0 := by have := hv.1 dim; omega
  rw [offset_axis hx hs h hj hb hv, hs.offset_split hv dim, h1, hc0, fibPos_eq, (flat_div hlo).1, (flat_div hlo).2]
  ring

theorem fibSrc_offset {sx s : Shape} (hx : sx.WF) (hs : s.WF) {dim : Nat} (h : ∀ i, i ≠ dim → sx.get i = s.get i)
    (h1 : sx.get dim = 1) (hb : sx.batch = s.batch) {c : Nat → Nat} {b : Nat} (hv : s.Valid c b) :
    fibSrc (s.lowerVolume dim) (s.get dim) (s.offset c b) = sx.offset (cset c dim 0) b := by
  have hlo := hs.lo_lt hv dim
  rw [offset_axis hx hs h (by omega) hb hv, hs.offset_split hv dim, h1]
  unfold fibSrc
  rw [← Nat.div_div_eq_div_mul, (flat_div hlo).1, (flat_div hlo).2]
  have hd := hv.1 dim
  rw [Nat.add_mul_div_left _ _ (by omega), Nat.div_eq_of_lt hd]
  ring

/-- Offsets in matrices. -/
theorem offset_mat {s : Shape} (h : s.WF) (hm : ∀ i, 2 ≤ i → s.get i = 1) {c : Nat → Nat} {b : Nat} (hv : s.Valid c b) :
    s.offset c b = c 0 + c 1 * s.get 0 + b * (s.get 0 * s.get 1) := by
  rw [h.offset_eq, h.matrix_volume hm]
  have h2 : ∀ i, 2 ≤ i → c i = 0 := fun i hi => by have := hv.1 i; rw [hm i hi] at this; omega
  have e : offN s.get c 8 = offN s.get c 2 := by
    rw [show (8 : Nat) = 2 + 6 from rfl, offN_add, offN_zero (fun i _ => h2 (2 + i) (by omega))]; simp
  rw [e]
  simp [offN, volN]

theorem valid_mat {s : Shape} (hm : ∀ i, 2 ≤ i → s.get i = 1) {i j b : Nat} (hi : i < s.get 0) (hj : j < s.get 1)
    (hb : b < s.batch) : s.Valid (mat i j) b := by
  refine ⟨fun d => ?_, hb⟩
  unfold mat
  rcases d with _ | _ | d
  · simpa using hi
  · simpa using hj
  · simp [hm (d + 2) (by omega)]

end Verif
