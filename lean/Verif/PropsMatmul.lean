import Verif.PropsFw3
import Verif.DevBw
import Verif.PropsFloat8

/-!
# C96: laws of matrix products and of `+`, `*` that hold bit by bit
-/

set_option linter.unusedSectionVars false
set_option linter.style.haveILetI false

namespace Verif
open Res
variable {α : Type} [Flt α] {d : Nat} {x y : Tensor α} {s sx sy : Shape} {f g : Arr α}

theorem cset_mat1 (i j k : Nat) : cset (mat i j) 1 k = mat i k := by
  funext e
  unfold cset mat
  by_cases h0 : e = 0 <;> by_cases h1 : e = 1 <;> simp [h0, h1]

theorem cset_mat0 (i j k : Nat) : cset (mat i j) 0 k = mat k j := by
  funext e
  unfold cset mat
  by_cases h0 : e = 0 <;> by_cases h1 : e = 1 <;> simp [h0, h1]

theorem bb_congr {s t : Shape} (h : s.batch = t.batch) (b : Nat) : bb s b = bb t b := by unfold bb; rw [h]

/-- C96: the columns of a product are computed independently of each other, in any arithmetic: columns `lower … upper-1` of `matmul(x, y)` are
the product of `x` and these columns of `y`, bit by bit (and whatever the memory contained). -/
theorem C96_columns (hx : x.Holds d sx f) (hy : y.Holds d sy g) (h : MatFits sx sy) (hv : sx.get 0 * sy.get 1 < U32)
    (hsz : sx.get 0 * sy.get 1 * max sx.batch sy.batch ≤ 2 ^ 31) {lower upper : Nat} (h1 : lower < upper) (h2 : upper ≤ sy.get 1)
    (p : Profile) (m₁ m₂ m₃ m₄ : Nat → α) :
    ∃ (s : Shape) (F : Arr α), s.Is (fun i => if i = 0 then sx.get 0 else if i = 1 then upper - lower else 1) (max sx.batch sy.batch) ∧
      Yields (do let t ← TF.matmul p m₁ x y; TF.slice p m₂ t 1 lower upper) d s F ∧
      Yields (do let t ← TF.slice p m₃ y 1 lower upper; TF.matmul p m₄ x t) d s F := by
  obtain ⟨s0, hs0, Y0⟩ := C24_matmul hx hy h hv hsz p m₁
  have g0 : ∀ i, s0.get i = if i = 0 then sx.get 0 else if i = 1 then sy.get 1 else 1 := hs0.2.1
  obtain ⟨s1, hs1⟩ := slice_shape hs0.1 (dim := 1) (by omega) h1 (by rw [g0]; exact h2)
  obtain ⟨t, ht⟩ := slice_shape hy.wf (dim := 1) (by omega) h1 h2
  have gt : ∀ i, t.get i = if i = 1 then upper - lower else sy.get i := ht.2.1
  have hx0 := hx.wf.get_pos 0
  have hfit : MatFits sx t := ⟨h.1, fun i hi => by rw [gt, if_neg (by omega)]; exact h.2.1 i hi, by rw [gt, if_neg (by omega)]; exact h.2.2.1, by
    have := h.2.2.2
    unfold BatchCompat at *
    rw [ht.2.2]; exact this⟩
  have hle : sx.get 0 * t.get 1 ≤ sx.get 0 * sy.get 1 := Nat.mul_le_mul_left _ (by rw [gt, if_pos rfl]; omega)
  refine ⟨s1, fun c b => sumBlk (sx.get 1) (fun j => f (mat (c 0) j) (bb sx b) * g (mat j (lower + c 1)) (bb sy b)), ⟨hs1.1, fun i => ?_, hs1.2.2.trans hs0.2.2⟩,
    Y0.bind fun z hz => ?_, (C26_slice hy (by omega) h1 h2 ht p m₃).bind fun z hz => ?_⟩
  · refine (hs1.2.1 i).trans ?_
    unfold cset
    rw [g0]
    by_cases h0 : i = 0
    · subst h0; simp
    · by_cases h1' : i = 1
      · subst h1'; simp
      · simp [h0, h1']
  · exact (C26_slice hz (by omega) h1 (by rw [g0]; exact h2) hs1 p m₂).congr fun c b _ => rfl
  · obtain ⟨s2, hs2, Y2⟩ := C24_matmul hx hz hfit (lt_of_le_of_lt hle hv) (by
      rw [ht.2.2]; exact (Nat.mul_le_mul_right _ hle).trans hsz) p m₄
    have e : s2 = s1 := hs2.1.ext hs1.1 (by rw [hs2.2.2, hs1.2.2, hs0.2.2, ht.2.2]) (fun i => by
      rw [show s1.get i = _ from hs1.2.1 i]
      refine (hs2.2.1 i).trans ?_
      unfold cset
      rw [g0]
      by_cases h0 : i = 0
      · subst h0; simp
      · by_cases h1' : i = 1
        · subst h1'; simp [gt]
        · simp [h0, h1'])
    subst e
    refine Y2.congr fun c b _ => ?_
    refine K.sumBlk_congr fun j _ => ?_
    rw [cset_mat1, bb_congr ht.2.2]
    rfl

/-- C96: so are the rows: rows `lower … upper-1` of `matmul(x, y)` are the product of these rows of `x` and `y`. -/
theorem C96_rows (hx : x.Holds d sx f) (hy : y.Holds d sy g) (h : MatFits sx sy) (hv : sx.get 0 * sy.get 1 < U32)
    (hsz : sx.get 0 * sy.get 1 * max sx.batch sy.batch ≤ 2 ^ 31) {lower upper : Nat} (h1 : lower < upper) (h2 : upper ≤ sx.get 0)
    (p : Profile) (m₁ m₂ m₃ m₄ : Nat → α) :
    ∃ (s : Shape) (F : Arr α), s.Is (fun i => if i = 0 then upper - lower else if i = 1 then sy.get 1 else 1) (max sx.batch sy.batch) ∧
      Yields (do let t ← TF.matmul p m₁ x y; TF.slice p m₂ t 0 lower upper) d s F ∧
      Yields (do let t ← TF.slice p m₃ x 0 lower upper; TF.matmul p m₄ t y) d s F := by
  obtain ⟨s0, hs0, Y0⟩ := C24_matmul hx hy h hv hsz p m₁
  have g0 : ∀ i, s0.get i = if i = 0 then sx.get 0 else if i = 1 then sy.get 1 else 1 := hs0.2.1
  obtain ⟨s1, hs1⟩ := slice_shape hs0.1 (dim := 0) (by omega) h1 (by rw [g0]; exact h2)
  obtain ⟨t, ht⟩ := slice_shape hx.wf (dim := 0) (by omega) h1 h2
  have gt : ∀ i, t.get i = if i = 0 then upper - lower else sx.get i := ht.2.1
  have hy1 := hy.wf.get_pos 1
  have hfit : MatFits t sy := ⟨fun i hi => by rw [gt, if_neg (by omega)]; exact h.1 i hi, h.2.1, by rw [gt, if_neg (by omega)]; exact h.2.2.1, by
    have := h.2.2.2
    unfold BatchCompat at *
    rw [ht.2.2]; exact this⟩
  have hle : t.get 0 * sy.get 1 ≤ sx.get 0 * sy.get 1 := Nat.mul_le_mul_right _ (by rw [gt, if_pos rfl]; omega)
  refine ⟨s1, fun c b => sumBlk (sx.get 1) (fun j => f (mat (lower + c 0) j) (bb sx b) * g (mat j (c 1)) (bb sy b)), ⟨hs1.1, fun i => ?_, hs1.2.2.trans hs0.2.2⟩,
    Y0.bind fun z hz => ?_, (C26_slice hx (by omega) h1 h2 ht p m₃).bind fun z hz => ?_⟩
  · refine (hs1.2.1 i).trans ?_
    unfold cset
    rw [g0]
    by_cases h0 : i = 0
    · subst h0; simp
    · by_cases h1' : i = 1
      · subst h1'; simp
      · simp [h0, h1']
  · exact (C26_slice hz (by omega) h1 (by rw [g0]; exact h2) hs1 p m₂).congr fun c b _ => rfl
  · obtain ⟨s2, hs2, Y2⟩ := C24_matmul hz hy hfit (lt_of_le_of_lt hle hv) (by
      rw [ht.2.2]; exact (Nat.mul_le_mul_right _ hle).trans hsz) p m₄
    have e : s2 = s1 := hs2.1.ext hs1.1 (by rw [hs2.2.2, hs1.2.2, hs0.2.2, ht.2.2]) (fun i => by
      rw [show s1.get i = _ from hs1.2.1 i]
      refine (hs2.2.1 i).trans ?_
      unfold cset
      rw [g0]
      by_cases h0 : i = 0
      · subst h0; simp [gt]
      · by_cases h1' : i = 1
        · subst h1'; simp
        · simp [h0, h1'])
    subst e
    refine Y2.congr fun c b _ => ?_
    rw [show t.get 1 = sx.get 1 by rw [gt, if_neg (by omega)]]
    refine K.sumBlk_congr fun j _ => ?_
    rw [cset_mat0, bb_congr ht.2.2]
    rfl

/-- C96: if multiplication of elements commutes, the transpose of a product is the product of the transposes in reverse order, bit by bit: no other law
of arithmetic is needed. -/
theorem C96_transpose (hmul : ∀ u v : α, u * v = v * u) (hx : x.Holds d sx f) (hy : y.Holds d sy g) (h : MatFits sx sy)
    (hv : sx.get 0 * sy.get 1 < U32) (hsz : sx.get 0 * sy.get 1 * max sx.batch sy.batch ≤ 2 ^ 31) (p : Profile) (m₁ m₂ m₃ m₄ m₅ : Nat → α) :
    ∃ (s : Shape) (F : Arr α), s.Is (fun i => if i = 0 then sy.get 1 else if i = 1 then sx.get 0 else 1) (max sx.batch sy.batch) ∧
      Yields (do let t ← TF.matmul p m₁ x y; TF.transpose p m₂ t) d s F ∧
      Yields (do let u ← TF.transpose p m₃ y; let v ← TF.transpose p m₄ x; TF.matmul p m₅ u v) d s F := by
  obtain ⟨s0, hs0, Y0⟩ := C24_matmul hx hy h hv hsz p m₁
  have g0 : ∀ i, s0.get i = if i = 0 then sx.get 0 else if i = 1 then sy.get 1 else 1 := hs0.2.1
  have hm0 : IsMat s0 := fun i hi => by rw [g0, if_neg (by omega), if_neg (by omega)]
  have hx0 := hx.wf.get_pos 0
  have hy1 := hy.wf.get_pos 1
  obtain ⟨tx, htx, Yx⟩ := C25_transpose hx h.1 p m₄
  obtain ⟨ty, hty, Yy⟩ := C25_transpose hy h.2.1 p m₃
  have gx : ∀ i, tx.get i = if i = 0 then sx.get 1 else if i = 1 then sx.get 0 else 1 := htx.2.1
  have gy : ∀ i, ty.get i = if i = 0 then sy.get 1 else if i = 1 then sy.get 0 else 1 := hty.2.1
  have hfit : MatFits ty tx := ⟨fun i hi => by rw [gy, if_neg (by omega), if_neg (by omega)], fun i hi => by rw [gx, if_neg (by omega), if_neg (by omega)],
    by rw [gy, gx]; exact h.2.2.1.symm, by
      have := h.2.2.2
      unfold BatchCompat at *
      rw [htx.2.2, hty.2.2]
      rcases this with h | h | h
      · exact .inl h.symm
      · exact .inr (.inr h)
      · exact .inr (.inl h)⟩
  obtain ⟨z0, e0, hz0⟩ := Y0
  obtain ⟨s1, hs1, Y1⟩ := C25_transpose hz0 hm0 p m₂
  refine ⟨s1, _, ⟨hs1.1, fun i => ?_, hs1.2.2.trans hs0.2.2⟩, by rw [e0, ok_bind]; exact Y1, Yy.bind fun u hu => Yx.bind fun v hv' => ?_⟩
  · refine (hs1.2.1 i).trans ?_
    rw [g0, g0]
    rfl
  · have ea : ty.get 0 = sy.get 1 := gy 0
    have eb : tx.get 1 = sx.get 0 := gx 1
    have ec : ty.get 1 = sx.get 1 := (gy 1).trans h.2.2.1.symm
    obtain ⟨s2, hs2, Y2⟩ := C24_matmul hu hv' hfit (by rw [ea, eb, Nat.mul_comm]; exact hv) (by
      rw [ea, eb, htx.2.2, hty.2.2, Nat.mul_comm (sy.get 1), max_comm]; exact hsz) p m₅
    have e : s2 = s1 := hs2.1.ext hs1.1 (by rw [hs2.2.2, hs1.2.2, hs0.2.2, htx.2.2, hty.2.2, max_comm]) (fun i => by
      refine (hs2.2.1 i).trans ((hs1.2.1 i).trans ?_).symm
      rw [g0, g0, ea, eb]
      rfl)
    subst e
    refine Y2.congr fun c b _ => ?_
    rw [ec]
    refine K.sumBlk_congr fun j _ => ?_
    rw [bb_congr htx.2.2, bb_congr hty.2.2, hmul]
    rfl

section
variable [E : Ieee] {x y : Tensor (Fl f32)} {f g : Arr (Fl f32)}

/-- C96: in f32 with its rounding, overflows and NaN: `transpose(matmul(x, y))` and `matmul(transpose(y), transpose(x))` are the same, bit by bit. -/
theorem C96_transpose_f32 (hx : x.Holds d sx f) (hy : y.Holds d sy g) (h : MatFits sx sy)
    (hv : sx.get 0 * sy.get 1 < U32) (hsz : sx.get 0 * sy.get 1 * max sx.batch sy.batch ≤ 2 ^ 31) (p : Profile) (m₁ m₂ m₃ m₄ m₅ : Nat → Fl f32) :
    ∃ (s : Shape) (F : Arr (Fl f32)), s.Is (fun i => if i = 0 then sy.get 1 else if i = 1 then sx.get 0 else 1) (max sx.batch sy.batch) ∧
      Yields (do let t ← TF.matmul p m₁ x y; TF.transpose p m₂ t) d s F ∧
      Yields (do let u ← TF.transpose p m₃ y; let v ← TF.transpose p m₄ x; TF.matmul p m₅ u v) d s F :=
  C96_transpose mul_comm32 hx hy h hv hsz p m₁ m₂ m₃ m₄ m₅

/-- C96: in f32 `x + y` and `y + x`, `x * y` and `y * x` are the same, bit by bit, scalars and batches broadcast on either side. -/
theorem C96_commute (hx : x.Holds d sx f) (hy : y.Holds d sy g) (h : OpFits sx sy) (hs : s.IsJoin sx sy) (hsz : s.size ≤ 2 ^ 31) (p : Profile)
    (m₁ m₂ : Nat → Fl f32) :
    (∃ F : Arr (Fl f32), Yields (TF.add p m₁ x y) d s F ∧ Yields (TF.add p m₂ y x) d s F) ∧
    (∃ F : Arr (Fl f32), Yields (TF.mul p m₁ x y) d s F ∧ Yields (TF.mul p m₂ y x) d s F) := by
  have h' : OpFits sy sx := by
    refine ⟨?_, ?_⟩
    · rcases h.1 with h | h | h
      · exact .inl fun i => (h i).symm
      · exact .inr (.inr h)
      · exact .inr (.inl h)
    · rcases h.2 with h | h | h
      · exact .inl h.symm
      · exact .inr (.inr h)
      · exact .inr (.inl h)
  have hs' : s.IsJoin sy sx := ⟨hs.1, fun i => (hs.2.1 i).trans (max_comm _ _), hs.2.2.trans (max_comm _ _)⟩
  obtain ⟨a1, a2⟩ := C20_add_mul add_comm32 mul_comm32 hx hy h hs hsz p m₁
  obtain ⟨b1, b2⟩ := C20_add_mul add_comm32 mul_comm32 hy hx h' hs' hsz p m₂
  exact ⟨⟨_, a1, b1.congr fun c b _ => add_comm32 _ _⟩, ⟨_, a2, b2.congr fun c b _ => mul_comm32 _ _⟩⟩

/-- Arbitrary f32 elements (lists `u`, `v`) in matrices 9×10 with two batches and 10×3 without meet the hypotheses; columns 1, 2 and rows 4 … 7. -/
example (u v : List (Fl f32)) (hu : u.length = 180) (hv : v.length = 30) (m : Nat → Fl f32) : ∃ x y s t r F G H,
    Dev.newBySlice .debug 0 m (matShape 9 10 2) u = ok x ∧ Dev.newBySlice .debug 0 m (matShape 10 3 1) v = ok y ∧
    Yields (do let z ← TF.matmul .debug m x y; TF.slice .debug m z 1 1 3) 0 s F ∧ Yields (do let z ← TF.slice .debug m y 1 1 3; TF.matmul .debug m x z) 0 s F ∧
    s.get 0 = 9 ∧ s.get 1 = 2 ∧
    Yields (do let z ← TF.matmul .debug m x y; TF.slice .debug m z 0 4 8) 0 t G ∧ Yields (do let z ← TF.slice .debug m x 0 4 8; TF.matmul .debug m z y) 0 t G ∧
    t.get 0 = 4 ∧ t.get 1 = 3 ∧
    Yields (do let z ← TF.matmul .debug m x y; TF.transpose .debug m z) 0 r H ∧ r.get 0 = 3 ∧ r.get 1 = 9 ∧ r.batch = 2 := by
  obtain ⟨x, e1, h1⟩ := Dev.newBySlice_ok (α := Fl f32) (s := matShape 9 10 2) (matShape_wf rfl) (by decide) .debug 0 m (v := u) hu
  obtain ⟨y, e2, h2⟩ := Dev.newBySlice_ok (α := Fl f32) (s := matShape 10 3 1) (matShape_wf rfl) (by decide) .debug 0 m (v := v) hv
  have tail : ∀ {n k q}, ∀ i, 2 ≤ i → (matShape n k q).get i = 1 := by
    intro n k q i hi
    have : ∀ j, Shape.raw (matShape n k q).dims (j + 2) = 1 := fun j => by
      unfold matShape Shape.raw
      match j with
      | 0 | 1 | 2 | 3 | 4 | 5 => rfl
      | j + 6 => rfl
    unfold Shape.get
    obtain ⟨j, rfl⟩ := Nat.exists_eq_add_of_le' hi
    split
    · exact this j
    · rfl
  have fit : MatFits (matShape 9 10 2) (matShape 10 3 1) := ⟨tail, tail, rfl, .inr (.inr rfl)⟩
  obtain ⟨s, F, hs, a1, a2⟩ := C96_columns h1 h2 fit (by decide) (by decide) (lower := 1) (upper := 3) (by omega) (by decide) .debug m m m m
  obtain ⟨t, G, ht, b1, b2⟩ := C96_rows h1 h2 fit (by decide) (by decide) (lower := 4) (upper := 8) (by omega) (by decide) .debug m m m m
  obtain ⟨r, H, hr, c1, -⟩ := C96_transpose_f32 h1 h2 fit (by decide) (by decide) .debug m m m m m
  exact ⟨x, y, s, t, r, F, G, H, e1, e2, a1, a2, hs.2.1 0, hs.2.1 1, b1, b2, ht.2.1 0, ht.2.1 1, c1, hr.2.1 0, hr.2.1 1, hr.2.2⟩

/-- `+` and `*` of a scalar with one sample and a matrix with two. -/
example (u : List (Fl f32)) (hu : u.length = 12) (k : Fl f32) (m : Nat → Fl f32) : ∃ x y F G,
    Dev.newBySlice .debug 0 m (matShape 3 2 2) u = ok x ∧ Dev.newByConstant .debug 0 m (vecShape 1 1) k = ok y ∧
    Yields (TF.add .debug m x y) 0 (matShape 3 2 2) F ∧ Yields (TF.add .debug m y x) 0 (matShape 3 2 2) F ∧
    Yields (TF.mul .debug m x y) 0 (matShape 3 2 2) G ∧ Yields (TF.mul .debug m y x) 0 (matShape 3 2 2) G := by
  obtain ⟨x, e1, h1⟩ := Dev.newBySlice_ok (α := Fl f32) (s := matShape 3 2 2) (matShape_wf rfl) (by decide) .debug 0 m (v := u) hu
  obtain ⟨y, e2, h2⟩ := Dev.newByConstant_ok (α := Fl f32) (vecShape_wf (n := 1) (b := 1) rfl) (by decide) .debug 0 m k
  have hsc : ∀ i, (vecShape 1 1).get i = 1 := fun i => by unfold Shape.get; rw [if_neg (show ¬ i < (vecShape 1 1).depth from Nat.not_lt_zero i)]
  have w := h1.wf
  obtain ⟨⟨F, a1, a2⟩, G, b1, b2⟩ := C96_commute (s := matShape 3 2 2) h1 h2 ⟨.inr (.inr hsc), .inr (.inr rfl)⟩
    ⟨w, fun i => by beta_reduce; rw [hsc i]; exact (max_eq_left (w.get_pos i)).symm, rfl⟩ h1.small .debug m m
  exact ⟨x, y, F, G, e1, e2, a1, a2, b1, b2⟩
end

end Verif
