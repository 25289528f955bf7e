import Verif.DevFw

/-!
# Every forward device function computes its meaning: element-wise functions, reductions, matrices
-/

set_option linter.unusedSectionVars false

namespace Verif
open Res Shape ShapeOps
variable {α : Type} [Flt α] {d : Nat} {p : Profile}

namespace K

theorem compat_bb {a b s : Shape} (ha : a.WF) (hb : b.WF) (h : BatchCompat a b) (hs : s.batch = max a.batch b.batch) :
    (a.batch = 1 ∨ a.batch = s.batch) ∧ (b.batch = 1 ∨ b.batch = s.batch) := by
  have := ha.batch_pos; have := hb.batch_pos
  unfold BatchCompat at h; omega

theorem un_holds (op : α → α) {x y : Tensor α} {s : Shape} {f : Arr α} {u v} (hx : x.Holds d s f) (hy : y.Room d s) :
    ∃ y', K.fwX op p [x] u v y = ok y' ∧ y'.Holds d s (fun c b => op (f c b)) := by
  obtain ⟨y', h1, h2⟩ := K.fwX_ok (p := p) (u := u) (f := v) (rest := []) op hx.flat hy
  exact ⟨y', h1, h2.holds (fun c b hv => by simp only [Arr.flat_offset hx.wf f hv])⟩

theorem cn_holds (op : α → α → α) {x y : Tensor α} {s : Shape} {f : Arr α} {u} {k : α} (hx : x.Holds d s f) (hy : y.Room d s) :
    ∃ y', K.fwConst op p [x] u [k] y = ok y' ∧ y'.Holds d s (fun c b => op (f c b) k) := by
  obtain ⟨y', h1, h2⟩ := K.fwConst_ok (p := p) (u := u) (c := k) (f := []) (rest := []) op hx.flat hy
  exact ⟨y', h1, h2.holds (fun c b hv => by simp only [Arr.flat_offset hx.wf f hv])⟩

theorem powi_holds {x y : Tensor α} {s : Shape} {f : Arr α} {v} {k : Int} (hk : (FwOp.powi k : FwOp α).Fits s)
    (hx : x.Holds d s f) (hy : y.Room d s) :
    ∃ y', K.powiFw p [x] [asU32 k] v y = ok y' ∧ y'.Holds d s (fun c b => Flt.powi (f c b) k) := by
  obtain ⟨y', h1, h2⟩ := K.powiFw_ok (p := p) (n := asU32 k) (u := []) (f := v) (rest := []) hx.flat hy
  refine ⟨y', h1, h2.holds (fun c b hv => ?_)⟩
  simp only [Arr.flat_offset hx.wf f hv, asI32_asU32 hk.1 hk.2]

theorem bi_holds (op : α → α → α) {a b y : Tensor α} {sa sb s : Shape} {f g : Arr α} {u v}
    (ha : a.Holds d sa f) (hb : b.Holds d sb g) (hs : elementwise sa sb = ok s) (hy : y.Room d s) :
    ∃ y', K.fwAb op p [a, b] u v y = ok y' ∧ y'.Holds d s (fun c n => op (f c (bb sa n)) (g c (bb sb n))) := by
  obtain ⟨e1, e2, hw, e3, e4⟩ := (elementwise_iff ha.wf hb.wf).mp hs
  obtain ⟨c1, c2⟩ := compat_bb ha.wf hb.wf e2 e4
  have ga : ∀ i, sa.get i = s.get i := fun i => (e3 i).symm
  have gb : ∀ i, sb.get i = s.get i := fun i => by rw [← e1, ga]
  obtain ⟨y', h1, h2⟩ := K.fwAb_ok (p := p) (u := u) (f := v) (rest := []) op ha.flat hb.flat hy
    (vol_of_dims ha.wf hw ga) (vol_of_dims hb.wf hw gb) c1 c2
  refine ⟨y', h1, h2.holds (fun c n hv => ?_)⟩
  simp only [bidx_offset ha.wf hw ga hv, bidx_offset hb.wf hw gb hv,
    Arr.flat_offset ha.wf f (valid_bb ha.wf ga c1 hv), Arr.flat_offset hb.wf g (valid_bb hb.wf gb c2 hv)]

theorem offset_scalar {s : Shape} (h : s.WF) (hs : ∀ i, s.get i = 1) (b : Nat) : s.offset czero b = b := by
  rw [h.offset_eq, h.scalar_volume hs, offN_zero (c := czero) (fun _ _ => rfl)]; omega

theorem sc_holds (op : α → α → α) {x k y : Tensor α} {sx sk s : Shape} {f g : Arr α} {u v}
    (hx : x.Holds d sx f) (hk : k.Holds d sk g) (hs : scalarOp sx sk = ok s) (hy : y.Room d s) :
    ∃ y', K.fwScalar op p [x, k] u v y = ok y' ∧ y'.Holds d s (fun c n => op (f c (bb sx n)) (g czero (bb sk n))) := by
  obtain ⟨e1, e2, hw, e3, e4⟩ := (scalarOp_iff hx.wf hk.wf).mp hs
  obtain ⟨c1, c2⟩ := compat_bb hx.wf hk.wf e2 e4
  have ga : ∀ i, sx.get i = s.get i := fun i => (e3 i).symm
  obtain ⟨y', h1, h2⟩ := K.fwScalar_ok (p := p) (u := u) (f := v) (rest := []) op hx.flat hk.flat hy
    (vol_of_dims hx.wf hw ga) (hk.wf.scalar_volume e1) c1 c2
  refine ⟨y', h1, h2.holds (fun c n hv => ?_)⟩
  have hvk : sk.Valid czero (bb sk n) := by
    refine ⟨fun i => by rw [e1]; exact Nat.zero_lt_one, ?_⟩
    have := hv.2
    unfold bb
    by_cases h : sk.batch = 1
    · simp [h]
    · rw [if_neg h]; omega
  have hpos : (if sk.batch = 1 then 0 else s.offset c n / s.volume) = sk.offset czero (bb sk n) := by
    rw [offset_scalar hk.wf e1, (hw.offset_div hv).1]; rfl
  simp only [bidx_offset hx.wf hw ga hv, hpos, Arr.flat_offset hx.wf f (valid_bb hx.wf ga c1 hv),
    Arr.flat_offset hk.wf g hvk]

/-- Axis reductions. -/
theorem reduce_holds {fibre : List α → Nat → Nat → Nat → Res α} {F : Nat → (Nat → α) → α}
    (hF : ∀ (px : List α) n skip off (r : Nat → α), 1 ≤ n → (∀ j, j < n → rd px (off + j * skip) = ok (r j)) →
      fibre px n skip off = ok (F n r))
    (hc : ∀ n r r', 1 ≤ n → (∀ j, j < n → r j = r' j) → F n r = F n r')
    {x y : Tensor α} {sx s : Shape} {f : Arr α} {dim : Nat} {v} (hx : x.Holds d sx f)
    (hs : sx.resizeDim .debug dim 1 = ok s) (hy : y.Room d s) :
    ∃ y', K.reduce fibre p [x] [dim] v y = ok y' ∧
      y'.Holds d s (fun c b => F (sx.get dim) (fun j => f (cset c dim j) b)) := by
  obtain ⟨_, _, _, hw, e3, e4⟩ := hx.wf.resizeDim_iff.mp hs
  have hd : ∀ i, i ≠ dim → sx.get i = s.get i := fun i hi => by rw [e3, setC_ne hi]
  have h1 : s.get dim = 1 := by rw [e3, setC_self]
  obtain ⟨y', q1, q2⟩ := K.reduce_ok (p := p) (u := []) (f := v) (rest := []) hF hx.flat hy hd h1 e4.symm
  refine ⟨y', q1, q2.holds (fun c b hv => hc _ _ _ (hx.wf.get_pos dim) (fun j hj => ?_))⟩
  rw [fibPos_offset hx.wf hw hd h1 hj e4.symm hv, Arr.flat_offset hx.wf f (valid_cset hd hj e4.symm hv)]

theorem foldN_congr' {σ : Type} {n : Nat} {f g : Nat → σ → σ} {s t : σ} (hs : s = t)
    (h : ∀ i, i < n → ∀ a, f i a = g i a) : foldN n f s = foldN n g t := by
  subst hs; exact foldN_congr h

theorem sum_holds {x y : Tensor α} {sx s : Shape} {f : Arr α} {dim : Nat} {v} (hx : x.Holds d sx f)
    (hs : sx.resizeDim .debug dim 1 = ok s) (hy : y.Room d s) :
    ∃ y', K.sumFw p [x] [dim] v y = ok y' ∧
      y'.Holds d s (fun c b => sumTo (sx.get dim) (fun j => f (cset c dim j) b)) :=
  reduce_holds (F := fun n r => sumTo n r) (fun _ _ _ _ _ h1 h => sumFibre_ok _ _ _ _ _ h1 h)
    (fun _ _ _ _ h => foldN_congr (fun j hj t => by rw [h j hj])) hx hs hy

theorem ext_holds (better : α → α → Bool) {x y : Tensor α} {sx s : Shape} {f : Arr α} {dim : Nat} {v} (hx : x.Holds d sx f)
    (hs : sx.resizeDim .debug dim 1 = ok s) (hy : y.Room d s) :
    ∃ y', K.reduce (extFibre better) p [x] [dim] v y = ok y' ∧
      y'.Holds d s (fun c b => scanTo better (sx.get dim) (fun j => f (cset c dim j) b)) :=
  reduce_holds (F := fun n r => scanTo better n r) (fun _ _ _ _ _ h1 h => extFibre_ok better _ _ _ _ _ h1 h)
    (fun n r r' h1 h => foldN_congr' (h 0 (by omega)) (fun j hj t => by rw [h j hj])) hx hs hy

theorem lse_holds {x y : Tensor α} {sx s : Shape} {f : Arr α} {dim : Nat} {v} (hx : x.Holds d sx f)
    (hs : sx.resizeDim .debug dim 1 = ok s) (hy : y.Room d s) :
    ∃ y', K.logsumexpFw p [x] [dim] v y = ok y' ∧
      y'.Holds d s (fun c b => Flt.down (foldN (sx.get dim - 1) (fun j a => Scalar.lseStep a (Flt.up (f (cset c dim (j + 1)) b)))
        (Flt.up (f (cset c dim 0) b)))) :=
  reduce_holds (F := fun n r => Flt.down (foldN (n - 1) (fun j a => Scalar.lseStep a (Flt.up (r (j + 1)))) (Flt.up (r 0))))
    (fun _ _ _ _ _ h1 h => lseFibre_ok _ _ _ _ _ h1 h)
    (fun n r r' h1 h => congrArg Flt.down (foldN_congr' (congrArg Flt.up (h 0 (by omega))) (fun j hj t => by rw [h (j + 1) (by omega)]))) hx hs hy

theorem broadcast_holds {x y : Tensor α} {sx s : Shape} {f : Arr α} {dim n : Nat} {v} (hx : x.Holds d sx f)
    (hs : broadcast .debug sx dim n = ok s) (hy : y.Room d s) :
    ∃ y', K.broadcastFw p [x] [dim, n] v y = ok y' ∧ y'.Holds d s (fun c b => f (cset c dim 0) b) := by
  obtain ⟨_, e1, e2, _, hw, e3, e4⟩ := (broadcast_iff hx.wf).mp hs
  have hd : ∀ i, i ≠ dim → sx.get i = s.get i := fun i hi => by rw [e3, setC_ne hi]
  have hn : s.get dim = n := by rw [e3, setC_self]
  obtain ⟨y', q1, q2⟩ := K.broadcastFw_ok (p := p) (u := []) (f := v) (rest := []) hx.flat hy hd e1 hn e4.symm
  refine ⟨y', q1, q2.holds (fun c b hv => ?_)⟩
  subst hn
  show Arr.flat sx f (fibSrc _ _ _) = _
  rw [fibSrc_offset hx.wf hw hd e1 e4.symm hv, Arr.flat_offset hx.wf f (valid_cset hd (by omega) e4.symm hv)]

theorem slice_holds {x y : Tensor α} {sx s : Shape} {f : Arr α} {dim lo up : Nat} {v} (hx : x.Holds d sx f)
    (hs : slice .debug sx dim lo up = ok s) (hy : y.Room d s) :
    ∃ y', K.sliceFw p [x] [dim, lo] v y = ok y' ∧ y'.Holds d s (fun c b => f (cset c dim (lo + c dim)) b) := by
  obtain ⟨_, e1, e2, hw, e3, e4⟩ := (slice_iff hx.wf).mp hs
  have hd : ∀ i, i ≠ dim → sx.get i = s.get i := fun i hi => by rw [e3, setC_ne hi]
  have hn : s.get dim = up - lo := by rw [e3, setC_self]
  obtain ⟨y', q1, q2⟩ := K.sliceFw_ok (p := p) (off := lo) (u := []) (f := v) (rest := []) hx.flat hy hd (by omega) e4.symm
  refine ⟨y', q1, q2.holds (fun c b hv => ?_)⟩
  have hcd := hv.1 dim
  have hj : lo + c dim < sx.get dim := by omega
  rw [← Arr.flat_offset hx.wf f (valid_cset hd hj e4.symm hv), offset_axis hx.wf hw hd hj e4.symm hv]
  congr 1
  have hlo := hw.lo_lt hv dim
  have hlv := hw.lowerVolume_pos dim
  rw [hw.offset_split hv dim, show s.lo dim c + s.lowerVolume dim * (c dim + s.get dim * s.hi dim c b) =
    (s.lo dim c + s.lowerVolume dim * c dim) + s.lowerVolume dim * s.get dim * s.hi dim c b by ring]
  have hlt : s.lo dim c + s.lowerVolume dim * c dim < s.lowerVolume dim * s.get dim := flat_lt hlo hcd
  rw [(flat_div hlt).1, (flat_div hlt).2]
  ring

theorem transpose_holds {x y : Tensor α} {sx s : Shape} {f : Arr α} {u v} (hx : x.Holds d sx f)
    (hs : transpose .debug sx = ok s) (hy : y.Room d s) :
    ∃ y', K.transposeFw p [x] u v y = ok y' ∧ y'.Holds d s (fun c b => f (mat (c 1) (c 0)) b) := by
  obtain ⟨hm, hw, e3, e4⟩ := (transpose_iff hx.wf).mp hs
  have g0 : s.get 0 = sx.get 1 := by rw [e3]; rfl
  have g1 : s.get 1 = sx.get 0 := by rw [e3]; rfl
  have hms : ∀ i, 2 ≤ i → s.get i = 1 := fun i hi => by
    rw [e3]; unfold matDims; rw [if_neg (by omega), if_neg (by omega)]
  have vx := hx.wf.matrix_volume hm
  have vs := hw.matrix_volume hms
  have hv' : s.volume = sx.get 0 * sx.get 1 := by rw [vs, g0, g1, Nat.mul_comm]
  have hsize : s.size = s.batch * (sx.get 0 * sx.get 1) := by unfold Shape.size; rw [hv']
  obtain ⟨y', q1, q2⟩ := K.transposeFw_ok (p := p) (u := u) (f := v) (rest := []) hx.flat hy
    (by rw [hsize]; unfold Shape.size; rw [vx, e4]) hsize
  refine ⟨y', q1, q2.holds (fun c b hv => ?_)⟩
  have c0 := hv.1 0
  have c1 := hv.1 1
  rw [g0] at c0; rw [g1] at c1
  have hb := hv.2
  have hvx : sx.Valid (mat (c 1) (c 0)) b := valid_mat hm c1 c0 (by rw [← e4]; exact hb)
  rw [← Arr.flat_offset hx.wf f hvx]
  congr 1
  rw [offset_mat hx.wf hm hvx, offset_mat hw hms hv, g0, g1]
  simp only [mat, if_true, Nat.one_ne_zero, if_false]
  have hlt : c 0 + c 1 * sx.get 1 < sx.get 0 * sx.get 1 := by
    rw [Nat.mul_comm (c 1), Nat.mul_comm (sx.get 0)]; exact flat_lt c0 c1
  rw [Nat.mul_comm (sx.get 1) (sx.get 0), Nat.mul_comm b, (flat_div hlt).1, (flat_div hlt).2]
  have e1 : (c 0 + c 1 * sx.get 1 + sx.get 0 * sx.get 1 * b) % sx.get 1 = c 0 := by
    rw [show c 0 + c 1 * sx.get 1 + sx.get 0 * sx.get 1 * b = c 0 + sx.get 1 * (c 1 + sx.get 0 * b) by ring,
      (flat_div c0).2]
  have e2 : (c 0 + c 1 * sx.get 1) / sx.get 1 = c 1 := by
    rw [Nat.mul_comm, (flat_div c0).1]
  rw [e1, e2]; ring

theorem triangular_holds {lower : Bool} {x y : Tensor α} {s : Shape} {f : Arr α} {k : Nat} {v} (hx : x.Holds d s f)
    (hm : s.isMatrix = true ∧ s.get 0 = s.get 1) (hk : s.get 0 + k ≤ U32) (hy : y.Room d s) :
    ∃ y', K.triangularFw lower p [x] [k] v y = ok y' ∧
      y'.Holds d s (fun c b => if (if lower then c 1 + k ≤ c 0 else c 0 + k ≤ c 1) then f c b else 0) := by
  obtain ⟨hm, hsq⟩ := hm
  rw [hx.wf.isMatrix_iff] at hm
  have hvol := hx.wf.matrix_volume hm
  obtain ⟨y', q1, q2⟩ := K.triangularFw_ok (p := p) (lower := lower) (c := k) (u := []) (f := v) (rest := []) hx.flat hy
    (by unfold Shape.size; rw [hvol, ← hsq]) (fun j hj => by omega)
  refine ⟨y', q1, q2.holds (fun c b hv => ?_)⟩
  have c0 := hv.1 0
  have c1 := hv.1 1
  rw [← hsq] at c1
  have eoff : s.offset c b = c 0 + s.get 0 * c 1 + s.get 0 * s.get 0 * b := by
    rw [offset_mat hx.wf hm hv, ← hsq]; ring
  have hlt : c 0 + s.get 0 * c 1 < s.get 0 * s.get 0 := flat_lt c0 c1
  have e1 : s.offset c b % (s.get 0 * s.get 0) / s.get 0 = c 1 := by
    rw [eoff, (flat_div hlt).2, (flat_div c0).1]
  have e2 : s.offset c b % s.get 0 = c 0 := by
    rw [eoff, show c 0 + s.get 0 * c 1 + s.get 0 * s.get 0 * b = c 0 + s.get 0 * (c 1 + s.get 0 * b) by ring,
      (flat_div c0).2]
  simp only [e1, e2, Arr.flat_offset hx.wf f hv]

theorem sumBlk_eq (n : Nat) (t : Nat → α) : sumBlk n t = blockSum n t := rfl

theorem blockSum_congr {n : Nat} {t t' : Nat → α} (h : ∀ j, j < n → t j = t' j) : blockSum n t = blockSum n t' := by
  unfold blockSum
  apply foldN_congr
  intro q hq w
  congr 1
  apply foldN_congr
  intro j hj a
  rw [h]
  omega

theorem matmul_holds {a b y : Tensor α} {sa sb s : Shape} {f g : Arr α} {u v} (ha : a.Holds d sa f) (hb : b.Holds d sb g)
    (hs : matmul .debug sa sb = ok s) (hy : y.Room d s) :
    ∃ y', K.matmulFw p [a, b] u v y = ok y' ∧ y'.Holds d s (fun c n =>
      sumBlk (sa.get 1) (fun j => f (mat (c 0) j) (bb sa n) * g (mat j (c 1)) (bb sb n))) := by
  obtain ⟨hma, hmb, hin, hbc, _, hw, e3, e4⟩ := (matmul_iff ha.wf hb.wf).mp hs
  obtain ⟨b1, b2⟩ := compat_bb ha.wf hb.wf hbc e4
  have g0 : s.get 0 = sa.get 0 := by rw [e3]; rfl
  have g1 : s.get 1 = sb.get 1 := by rw [e3]; rfl
  have hms : ∀ i, 2 ≤ i → s.get i = 1 := fun i hi => by
    rw [e3]; unfold matDims; rw [if_neg (by omega), if_neg (by omega)]
  have va := ha.wf.matrix_volume hma
  have vb := hb.wf.matrix_volume hmb
  have vs := hw.matrix_volume hms
  obtain ⟨y', q1, q2⟩ := K.matmulFw_ok (p := p) (u := u) (f := v) (rest := []) ha.flat hb.flat hy va
    (by rw [vb, hin]) (by rw [vs, g0, g1]) b1 b2
  refine ⟨y', q1, q2.holds (fun c n hv => ?_)⟩
  have c0 := hv.1 0
  have c1 := hv.1 1
  rw [g0] at c0; rw [g1] at c1
  have hn := hv.2
  obtain ⟨d1, d2⟩ := hw.offset_div hv
  have eo : offN s.get c 8 = c 0 + sa.get 0 * c 1 := by
    have := offset_mat hw hms hv
    rw [hw.offset_eq, vs, g0, Nat.mul_comm (c 1)] at this
    exact Nat.add_right_cancel this
  rw [eo] at d2
  have e1 : s.offset c n % sa.get 0 = c 0 := by
    rw [offset_mat hw hms hv, g0, show c 0 + c 1 * sa.get 0 + n * (sa.get 0 * s.get 1) =
      c 0 + sa.get 0 * (c 1 + n * s.get 1) by ring, (flat_div c0).2]
  simp only [d1, d2, e1, (flat_div c0).1]
  rw [sumBlk_eq]
  refine blockSum_congr (α := α) (fun j hj => ?_)
  have hva : sa.Valid (mat (c 0) j) (bb sa n) := valid_mat hma c0 hj (by unfold bb; split <;> omega)
  have hvb : sb.Valid (mat j (c 1)) (bb sb n) := valid_mat hmb (by omega) c1 (by unfold bb; split <;> omega)
  rw [← Arr.flat_offset ha.wf f hva, ← Arr.flat_offset hb.wf g hvb, offset_mat ha.wf hma hva, offset_mat hb.wf hmb hvb,
    va, vb, hin]
  simp only [mat, if_true, Nat.one_ne_zero, if_false]
  have x1 : (if sa.batch = 1 then 0 else n) * (sa.get 0 * sb.get 0) + (c 0 + j * sa.get 0) =
      c 0 + j * sa.get 0 + bb sa n * (sa.get 0 * sb.get 0) := by unfold bb; ring
  have x2 : (if sb.batch = 1 then 0 else n) * (sb.get 0 * sb.get 1) + (j + c 1 * sb.get 0) =
      j + c 1 * sb.get 0 + bb sb n * (sb.get 0 * sb.get 1) := by unfold bb; ring
  rw [x1, x2]

end K
end Verif
