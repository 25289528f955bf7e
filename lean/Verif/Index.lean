import Verif.ShapeLemmas

/-!
# Coordinates and flat positions

Splitting the flat position of an element around one axis, and the bijection between coordinates and positions.
-/

namespace Verif
open Res

theorem offN_coord {f c : Nat → Nat} {n d : Nat} (hc : ∀ i, i < n → c i < f i) (hd : d < n) :
    offN f c n / volN f d % f d = c d := by
  obtain ⟨k, rfl⟩ : ∃ k, n = d + (1 + k) := ⟨n - d - 1, by omega⟩
  rw [offN_add, offN_add]
  have h1 : offN f c d < volN f d := offN_lt (fun i hi => hc i (by omega))
  have hp : 0 < volN f d := by omega
  have e : offN (fun i => f (d + i)) (fun i => c (d + i)) 1 = c d := by simp [offN, volN]
  have e2 : volN (fun i => f (d + i)) 1 = f d := by simp [volN]
  rw [e, e2, Nat.add_mul_div_left _ _ hp, Nat.div_eq_of_lt h1, Nat.zero_add, Nat.add_mul_mod_self_left,
    Nat.mod_eq_of_lt (hc d hd)]

theorem offN_of_flat (f : Nat → Nat) (k n : Nat) :
    offN f (fun d => k / volN f d % f d) n = k % volN f n := by
  induction n with
  | zero => simp [offN, volN, Nat.mod_one]
  | succ n ih => rw [offN, ih, volN, Nat.mod_mul, Nat.mul_comm]

namespace Shape

/-- Position below axis `dim`. -/
def lo (s : Shape) (dim : Nat) (c : Nat → Nat) : Nat := offN s.get c dim
/-- Position above axis `dim` (including the batch). -/
def hi (s : Shape) (dim : Nat) (c : Nat → Nat) (b : Nat) : Nat :=
  offN (fun i => s.get (dim + 1 + i)) (fun i => c (dim + 1 + i)) 8 + b * volN (fun i => s.get (dim + 1 + i)) 8
/-- Product of the dims above axis `dim`. -/
def up (s : Shape) (dim : Nat) : Nat := volN (fun i => s.get (dim + 1 + i)) 8

theorem lo_congr {s t : Shape} {dim : Nat} {c e : Nat → Nat} (h : ∀ i, i ≠ dim → s.get i = t.get i)
    (hc : ∀ i, i ≠ dim → c i = e i) : s.lo dim c = t.lo dim e :=
  offN_congr (fun i hi => h i (by omega)) (fun i hi => hc i (by omega))

theorem hi_congr {s t : Shape} {dim : Nat} {c e : Nat → Nat} (b : Nat) (h : ∀ i, i ≠ dim → s.get i = t.get i)
    (hc : ∀ i, i ≠ dim → c i = e i) : s.hi dim c b = t.hi dim e b := by
  unfold hi
  rw [offN_congr (fun i _ => h _ (by omega)) (fun i _ => hc _ (by omega)), volN_congr (fun i _ => h _ (by omega))]

theorem up_congr {s t : Shape} {dim : Nat} (h : ∀ i, i ≠ dim → s.get i = t.get i) : s.up dim = t.up dim :=
  volN_congr (fun i _ => h _ (by omega))

theorem lowerVolume_congr {s t : Shape} (hs : s.WF) (ht : t.WF) {dim : Nat}
    (h : ∀ i, i ≠ dim → s.get i = t.get i) : s.lowerVolume dim = t.lowerVolume dim := by
  rw [hs.lowerVolume_eq, ht.lowerVolume_eq]; exact volN_congr (fun i hi => h i (by omega))

theorem WF.volume_split {s : Shape} (h : s.WF) (dim : Nat) :
    s.volume = s.lowerVolume dim * s.get dim * s.up dim := by
  rw [h.lowerVolume_eq, ← h.volN_get_eq (n := dim + 1 + 8) (by have := h.depth_le; omega), volN_add, volN]
  rfl

theorem WF.up_pos {s : Shape} (h : s.WF) (dim : Nat) : 1 ≤ s.up dim := volN_pos (fun _ _ => h.get_pos _)

theorem WF.valid_big {s : Shape} (h : s.WF) {c : Nat → Nat} {b : Nat} (hv : s.Valid c b) {d : Nat} (hd : 8 ≤ d) :
    c d = 0 := by
  have := hv.1 d
  rw [h.get_big hd] at this; omega

theorem WF.offN_get_eq {s : Shape} (h : s.WF) {c : Nat → Nat} {b : Nat} (hv : s.Valid c b) {n : Nat} (hn : 8 ≤ n) :
    offN s.get c n = offN s.get c 8 := by
  obtain ⟨k, rfl⟩ := Nat.exists_eq_add_of_le hn
  rw [offN_add, offN_zero (n := k) (fun i _ => h.valid_big hv (by omega)), Nat.mul_zero, Nat.add_zero]

theorem WF.lo_lt {s : Shape} (h : s.WF) {c : Nat → Nat} {b : Nat} (hv : s.Valid c b) (dim : Nat) :
    s.lo dim c < s.lowerVolume dim := by
  rw [h.lowerVolume_eq]; exact offN_lt (fun i _ => hv.1 i)

theorem WF.hi_lt {s : Shape} (_ : s.WF) {c : Nat → Nat} {b : Nat} (hv : s.Valid c b) (dim : Nat) :
    s.hi dim c b < s.up dim * s.batch := by
  unfold hi up
  have h1 : offN (fun i => s.get (dim + 1 + i)) (fun i => c (dim + 1 + i)) 8 <
    volN (fun i => s.get (dim + 1 + i)) 8 := offN_lt (fun i _ => hv.1 _)
  have h2 : b + 1 ≤ s.batch := hv.2
  calc _ < volN (fun i => s.get (dim + 1 + i)) 8 + b * volN (fun i => s.get (dim + 1 + i)) 8 := by omega
    _ = volN (fun i => s.get (dim + 1 + i)) 8 * (b + 1) := by ring
    _ ≤ _ := Nat.mul_le_mul_left _ h2

/-- The flat position split around axis `dim`. -/
theorem WF.offset_split {s : Shape} (h : s.WF) {c : Nat → Nat} {b : Nat} (hv : s.Valid c b) (dim : Nat) :
    s.offset c b = s.lo dim c + s.lowerVolume dim * (c dim + s.get dim * s.hi dim c b) := by
  unfold offset
  rw [← h.offN_get_eq hv (n := dim + 1 + 8) (by omega)]
  have e1 : volN s.get 8 = volN s.get (dim + 1 + 8) := by
    rw [h.volN_get_eq (by have := h.depth_le; omega), h.volN_get_eq (by have := h.depth_le; omega)]
  rw [e1, offN_add, volN_add, h.lowerVolume_eq]
  unfold hi lo
  simp only [offN, volN]
  ring_nf

theorem WF.offset_lt {s : Shape} (h : s.WF) {c : Nat → Nat} {b : Nat} (hv : s.Valid c b) :
    s.offset c b < s.size := by
  unfold offset size
  rw [h.vol]
  have h1 : offN s.get c 8 < volN s.get 8 := offN_lt (fun i _ => hv.1 i)
  have h2 : b + 1 ≤ s.batch := hv.2
  calc _ < volN s.get 8 + b * volN s.get 8 := by omega
    _ = (b + 1) * volN s.get 8 := by ring
    _ ≤ _ := Nat.mul_le_mul_right _ h2

theorem WF.offset_div {s : Shape} (h : s.WF) {c : Nat → Nat} {b : Nat} (hv : s.Valid c b) :
    s.offset c b / s.volume = b ∧ s.offset c b % s.volume = offN s.get c 8 := by
  unfold offset
  rw [h.vol]
  have h1 : offN s.get c 8 < volN s.get 8 := offN_lt (fun i _ => hv.1 i)
  constructor
  · rw [Nat.add_mul_div_right _ _ (by omega), Nat.div_eq_of_lt h1, Nat.zero_add]
  · rw [Nat.add_mul_mod_self_right, Nat.mod_eq_of_lt h1]

theorem WF.offset_inj {s : Shape} (h : s.WF) {c e : Nat → Nat} {b b' : Nat} (hv : s.Valid c b) (hv' : s.Valid e b')
    (heq : s.offset c b = s.offset e b') : b = b' ∧ ∀ d, c d = e d := by
  have h1 := h.offset_div hv
  have h2 := h.offset_div hv'
  rw [heq] at h1
  refine ⟨by rw [← h1.1, h2.1], fun d => ?_⟩
  by_cases hd : d < 8
  · rw [← offN_coord (n := 8) (fun i _ => hv.1 i) hd, ← h1.2, h2.2, offN_coord (n := 8) (fun i _ => hv'.1 i) hd]
  · rw [h.valid_big hv (by omega), h.valid_big hv' (by omega)]

/-- Coordinates of a flat position. -/
def coord (s : Shape) (k : Nat) (d : Nat) : Nat := k / volN s.get d % s.get d

theorem WF.offset_coord {s : Shape} (h : s.WF) {k : Nat} (hk : k < s.size) :
    s.Valid (s.coord (k % s.volume)) (k / s.volume) ∧ s.offset (s.coord (k % s.volume)) (k / s.volume) = k := by
  refine ⟨⟨fun d => Nat.mod_lt _ (h.get_pos d), ?_⟩, ?_⟩
  · exact (Nat.div_lt_iff_lt_mul h.volume_pos).mpr hk
  · unfold offset
    have : offN s.get (s.coord (k % s.volume)) 8 = k % s.volume := by
      show offN s.get (fun d => k % s.volume / volN s.get d % s.get d) 8 = _
      rw [offN_of_flat, ← h.vol, Nat.mod_mod]
    rw [this, ← h.vol, Nat.mul_comm]
    exact Nat.mod_add_div k s.volume

/-- Replace one coordinate. -/
def _root_.Verif.setC (c : Nat → Nat) (dim j : Nat) : Nat → Nat := fun d => if d = dim then j else c d

@[simp] theorem _root_.Verif.setC_self (c : Nat → Nat) (dim j : Nat) : setC c dim j dim = j := by simp [setC]
theorem _root_.Verif.setC_ne {c : Nat → Nat} {dim j d : Nat} (h : d ≠ dim) : setC c dim j d = c d := by simp [setC, h]

end Shape

/-- Arithmetic of positions `l + base * (j + n * h)`. -/
theorem flat_div {l base q : Nat} (hl : l < base) : (l + base * q) / base = q ∧ (l + base * q) % base = l := by
  constructor
  · rw [Nat.add_mul_div_left _ _ (by omega), Nat.div_eq_of_lt hl, Nat.zero_add]
  · rw [Nat.add_mul_mod_self_left, Nat.mod_eq_of_lt hl]

theorem flat_lt {l base q m : Nat} (hl : l < base) (hq : q < m) : l + base * q < base * m := by
  calc l + base * q < base + base * q := by omega
    _ = base * (q + 1) := by ring
    _ ≤ base * m := Nat.mul_le_mul_left _ hq

end Verif
