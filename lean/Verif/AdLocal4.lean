import Verif.AdLocal3

/-!
# Operators that rearrange elements; matrix products
-/

set_option linter.unusedSectionVars false

namespace Verif
open Res Shape
attribute [local instance] realFlt

variable {p : Profile} {d : Nat} {m : Mem ℝ} {s sx sa sb se : Shape} {x : Nat → Arr ℝ}

/-- An operator that reads every element at most once. -/
theorem local_read {op : NodeOp ℝ} (h1 : NF.Single op) (hx : sx.WF) (hs : s.WF) (r e : (Nat → Nat) × Nat → (Nat → Nat) × Nat)
    (I : (Nat → Nat) × Nat → Prop) [DecidablePred I]
    (hr : ∀ q, s.Valid q.1 q.2 → sx.Valid (r q).1 (r q).2 ∧ I (r q) ∧ e (r q) = q)
    (he : ∀ q, sx.Valid q.1 q.2 → I q → s.Valid (e q).1 (e q).2 ∧ r (e q) = q)
    (hreal : ∀ x c b, s.Valid c b → op.real [sx] x 0 c b = x 0 (r (c, b)).1 (r (c, b)).2)
    (hfw : ∀ t, t.Holds d sx (x 0) → Yields (op.apply1 p d m [t]) d s (op.real [sx] x 0))
    (f : Tensor ℝ → Tensor ℝ → Tensor ℝ → Tensor ℝ → Res (Tensor ℝ))
    (hbw : ∀ t y gy, op.bw p d m [t] [y] [gy] [sx] = [(0, f t y gy)])
    (hf : ∀ t y gy gx G H, t.Holds d sx (x 0) → y.Holds d s (op.real [sx] x 0) → gy.Holds d s G → gx.Holds d sx H →
      Yields (f t y gy gx) d sx (fun c b => H c b + if I (c, b) then G (e (c, b)).1 (e (c, b)).2 else 0)) :
    LocalAD d (op.oper p d m) (op.real [sx]) [sx] [s] x := by
  refine local1 h1 hfw (fun δ c b => δ (r (c, b)).1 (r (c, b)).2) (fun V t0 δ hV hm c b hv => ?_) (fun G c b => if I (c, b) then G (e (c, b)).1 (e (c, b)).2 else 0)
    f hbw hf fun G δ => dot_inj hx hs r e I hr he G δ
  simp only [hreal _ c b hv]
  exact hm _ _ (hr (c, b) hv).1

theorem local_slice {dim lower upper : Nat} (hx : sx.WF) (hsz : s.size ≤ 2 ^ 31) (he : ShapeOps.slice .debug sx dim lower upper = ok s) :
    LocalAD d ((NodeOp.slice dim lower upper).oper p d m) ((NodeOp.slice dim lower upper).real [sx]) [sx] [s] x := by
  obtain ⟨h8, h1, h2, hs⟩ := (slice_iff hx).mp he
  have hg : s.get dim = upper - lower := by rw [hs.2.1]; simp [setC]
  have hne : ∀ i, i ≠ dim → s.get i = sx.get i := fun i hi => by rw [hs.2.1]; simp [setC, hi]
  refine local_read (op := .slice dim lower upper) trivial hx hs.1 (fun q => (cset q.1 dim (lower + q.1 dim), q.2))
    (fun q => (cset q.1 dim (q.1 dim - lower), q.2)) (fun q => lower ≤ q.1 dim ∧ q.1 dim < upper) (fun q hv => ?_) (fun q hv hI => ?_)
    (fun x c b hv => rfl) (fun t ht => ?_) (fun t y gy gx => Dev.bw (.slice dim lower) p d m [] [] gy gx) (fun t y gy => rfl)
    (fun t y gy gx G H ht hy hgy hgx => ?_)
  · have hd := hv.1 dim
    refine ⟨valid_cset (fun i hi => (hne i hi).symm) (by omega) hs.2.2.symm hv, ⟨by show lower ≤ cset _ dim _ dim; rw [cset_at]; omega, by show cset _ dim _ dim < upper; rw [cset_at]; omega⟩, ?_⟩
    show (cset (cset q.1 dim (lower + q.1 dim)) dim (cset q.1 dim (lower + q.1 dim) dim - lower), q.2) = q
    rw [cset_cset, cset_at, Nat.add_sub_cancel_left, cset_self]
  · have h3 : lower ≤ q.1 dim ∧ q.1 dim < upper := hI
    refine ⟨valid_cset hne (by omega) hs.2.2 hv, ?_⟩
    show (cset (cset q.1 dim (q.1 dim - lower)) dim (lower + cset q.1 dim (q.1 dim - lower) dim), q.2) = q
    rw [cset_cset, cset_at, Nat.add_sub_cancel' h3.1, cset_self]
  · exact Dev.fw_ok (op := .slice dim lower upper) (ins := [(sx, x 0)]) (xs := [t]) (.cons ht .nil) he hsz trivial p (m 0)
  · refine Yields.congr (C29_slice h8 h1 h2 hs hgy hgx p m) fun c b hv => ?_
    dsimp only
    split <;> simp

theorem mat_eta (hm : ∀ i, 2 ≤ i → s.get i = 1) {c : Nat → Nat} {b : Nat} (hv : s.Valid c b) : mat (c 0) (c 1) = c := by
  funext i
  unfold mat
  split
  · rename_i h; rw [h]
  · split
    · rename_i h; rw [h]
    · have := hv.1 i
      rw [hm i (by omega)] at this
      omega

theorem local_transpose (hx : sx.WF) (hsz : s.size ≤ 2 ^ 31) (he : ShapeOps.transpose .debug sx = ok s) :
    LocalAD d (NodeOp.transpose.oper p d m) (NodeOp.transpose.real [sx]) [sx] [s] x := by
  obtain ⟨hm, hs⟩ := (transpose_iff hx).mp he
  have hms : ∀ i, 2 ≤ i → s.get i = 1 := fun i hi => by rw [hs.2.1]; unfold matDims; rw [if_neg (by omega), if_neg (by omega)]
  have h0 : s.get 0 = sx.get 1 := by rw [hs.2.1]; rfl
  have h1 : s.get 1 = sx.get 0 := by rw [hs.2.1]; rfl
  have tv : ∀ {a b : Shape}, a.get 0 = b.get 1 → a.get 1 = b.get 0 → (∀ i, 2 ≤ i → a.get i = 1) → (∀ i, 2 ≤ i → b.get i = 1) → a.batch = b.batch →
      ∀ c k, a.Valid c k → b.Valid (mat (c 1) (c 0)) k := by
    intro a b e0 e1 ha hb e c k hv
    refine ⟨fun i => ?_, by rw [← e]; exact hv.2⟩
    unfold mat
    split
    · rename_i h; rw [h, ← e1]; exact hv.1 1
    · split
      · rename_i h; rw [h, ← e0]; exact hv.1 0
      · rw [hb i (by omega)]; omega
  refine local_read (op := .transpose) trivial hx hs.1 (fun q => (mat (q.1 1) (q.1 0), q.2))
    (fun q => (mat (q.1 1) (q.1 0), q.2)) (fun _ => True) (fun q hv => ⟨tv h0 h1 hms hm hs.2.2 _ _ hv, trivial, ?_⟩)
    (fun q hv hI => ⟨tv h1.symm h0.symm hm hms hs.2.2.symm _ _ hv, ?_⟩)
    (fun x c b hv => rfl) (fun t ht => ?_) (fun t y gy gx => Dev.bw .transpose p d m [t] [y] gy gx) (fun t y gy => rfl)
    (fun t y gy gx G H ht hy hgy hgx => ?_)
  · exact Prod.ext (mat_eta hms hv) rfl
  · exact Prod.ext (mat_eta hm hv) rfl
  · exact Dev.fw_ok (op := .transpose) (ins := [(sx, x 0)]) (xs := [t]) (.cons ht .nil) he hsz trivial p (m 0)
  · exact Yields.congr (C29_transpose ht hm hs hy hgy hgx p m) fun c b hv => by simp

theorem local_reshape (hx : sx.WF) (hs : s.WF) (hsz : s.size = sx.size) :
    LocalAD d ((NodeOp.reshape s).oper p d m) ((NodeOp.reshape s).real [sx]) [sx] [s] x := by
  have back : ∀ {a b : Shape}, a.WF → b.WF → a.size = b.size → ∀ c k, a.Valid c k →
      b.Valid (b.coord (a.offset c k % b.volume)) (a.offset c k / b.volume) ∧
      b.offset (b.coord (a.offset c k % b.volume)) (a.offset c k / b.volume) = a.offset c k := by
    intro a b ha hb e c k hv
    exact hb.offset_coord (by rw [← e]; exact ha.offset_lt hv)
  refine local_read (op := .reshape s) trivial hx hs (fun q => (sx.coord (s.offset q.1 q.2 % sx.volume), s.offset q.1 q.2 / sx.volume))
    (fun q => (s.coord (sx.offset q.1 q.2 % s.volume), sx.offset q.1 q.2 / s.volume)) (fun _ => True) (fun q hv => ?_) (fun q hv hI => ?_)
    (fun x c b hv => rfl) (fun t ht => ?_) (fun t y gy gx => do
      let t ← Dev.copyTensor p d (m 0) gy
      let t ← t.updateShape p gx.shape
      TF.addAssign p gx t) (fun t y gy => rfl)
    (fun t y gy gx G H ht hy hgy hgx => ?_)
  · obtain ⟨h1, h2⟩ := back hs hx hsz _ _ hv
    refine ⟨h1, trivial, ?_⟩
    dsimp only
    rw [h2]
    obtain ⟨h3, h4⟩ := hs.coord_offset hv
    exact Prod.ext h3 h4
  · obtain ⟨h1, h2⟩ := back hx hs hsz.symm _ _ hv
    refine ⟨h1, ?_⟩
    dsimp only
    rw [h2]
    obtain ⟨h3, h4⟩ := hx.coord_offset hv
    exact Prod.ext h3 h4
  · obtain ⟨y, e, h⟩ := Dev.copyTensor_ok ht p d (m 0)
    obtain ⟨z, e2, h2⟩ := Tensor.updateShape_ok h hs hsz p
    exact ⟨z, by
      show (do let t ← Dev.copyTensor p d (m 0) t; t.updateShape p s : Res _) = _
      rw [e, ok_bind, e2], h2⟩
  · obtain ⟨y, e, h⟩ := Dev.copyTensor_ok hgy p d (m 0)
    obtain ⟨z, e2, h2⟩ := Tensor.updateShape_ok h hx hsz.symm p
    dsimp only
    rw [e, ok_bind, hgx.shape, e2, ok_bind]
    exact (TF.addAssign_same hgx h2 p).congr fun c b hv => by rw [if_pos trivial]; rfl

theorem local_batchSum (hx : sx.WF) (hsz : sx.size ≤ 2 ^ 31) (he : sx.resizeBatch 1 = ok s) :
    LocalAD d (NodeOp.batchSum.oper p d m) (NodeOp.batchSum.real [sx]) [sx] [s] x := by
  obtain ⟨y, hy, hs⟩ := hx.resizeBatch_is (b := 1) (le_refl 1)
  rw [he, Res.ok.injEq] at hy
  subst hy
  have h1 : s.batch = 1 := hs.2.2
  have hb0 : ∀ b, bb s b = 0 := fun b => if_pos h1
  have hszs : s.size ≤ sx.size := size_le_of_dims hs.1 hx (fun i => by rw [hs.2.1]) (by rw [h1]; exact hx.batch_pos)
  refine local1 (op := .batchSum) trivial (fun t ht => ?_) (fun δ c _ => ∑ b ∈ Finset.range sx.batch, δ c b) (fun V t0 δ hV hm c b hv => ?_)
    (fun G c b => G c (bb s b)) (fun t y gy gx => TF.addAssign p gx gy) (fun t y gy => rfl)
    (fun t y gy gx G H ht hy hgy hgx => ?_) fun G δ => ?_
  · refine Yields.congr (Dev.fw_ok (op := .batchSum) (ins := [(sx, x 0)]) (xs := [t]) (.cons ht .nil) he (hszs.trans hsz) trivial p (m 0)) fun c b hv => ?_
    show _ = sumTo sx.batch _
    rw [sumTo_real]; rfl
  · exact HasDerivAt.fun_sum fun b hb => hm c b ⟨fun i => by have := hv.1 i; rw [hs.2.1] at this; exact this, Finset.mem_range.mp hb⟩
  · refine Yields.congr (TF.addAssign_batch hgx hgy (fun i => hs.2.1 i) (.inr (.inl h1)) p) fun c b hv => ?_
    have : max s.batch sx.batch = sx.batch := by have := hx.batch_pos; omega
    rw [this, K.overBatch_same rfl hv.2]
  · rw [dot_comm, ← dot_batch hs.1 hx (fun i => hs.2.1 i) (.inl h1) δ G, dot_comm]
    refine dot_congr hs.1 fun c b hv => ?_
    have : b = 0 := by have := hv.2; omega
    congr 1
    simp [hb0, this]

theorem indicator_sum {n k : Nat} (hk : k < n) (D : Nat → ℝ) : ∑ j ∈ Finset.range n, (if j = k then (1 : ℝ) else 0) * D j = D k := by
  simp [hk]

/-- The index that `pick` reads in batch `b`. -/
def idAt (ids : List Nat) (b : Nat) : Nat := ids.getD (if ids.length = 1 then 0 else b) 0

theorem idAt_lt {ids : List Nat} {n b : Nat} (hne : ids ≠ []) (hid : ∀ id, id ∈ ids → id < n) (hb : ids.length = 1 ∨ b < ids.length) : idAt ids b < n := by
  unfold idAt
  have hp : 0 < ids.length := List.length_pos_iff.mpr hne
  have : (if ids.length = 1 then 0 else b) < ids.length := by split <;> omega
  generalize (if ids.length = 1 then 0 else b) = k at this
  rw [List.getD_eq_getElem?_getD, List.getElem?_eq_getElem this]
  exact hid _ (List.getElem_mem _)

/-- The terms that the backward pass of `pick` adds. -/
theorem pick_back {gy gx : Tensor ℝ} {G H : Arr ℝ} {ids : List Nat} {dim : Nat} (hd : dim < 8) (hne : ids ≠ [])
    (hb : sx.batch = ids.length ∨ sx.batch = 1 ∨ ids.length = 1)
    (hid : ∀ id, id ∈ ids → id < sx.get dim) (hs : s.Is (cset sx.get dim 1) (max sx.batch ids.length)) (hgy : gy.Holds d s G)
    (hgx : gx.Holds d sx H) (p : Profile) (m : Mem ℝ) :
    Yields (Dev.bw (.pick ids dim) p d m [] [] gy gx) d sx (fun c b =>
      H c b + ∑ b' ∈ readers sx s.batch b, (if c dim = idAt ids b' then 1 else 0) * G (cset c dim 0) b') := by
  refine Yields.congr (C29_pick hd hne hb hid hs hgy hgx p m) fun c b hv => ?_
  unfold readers
  rw [← overBatch_sum]
  unfold overBatch
  refine foldN_congr fun b' hb' acc => ?_
  dsimp only
  show _ = if bb sx b' = b then (if c dim = idAt ids b' then _ else _) else _
  split
  · by_cases h : c dim = idAt ids b'
    · rw [if_pos h, if_pos h, one_mul]
    · rw [if_neg h, if_neg h, zero_mul, add_zero]
  · rfl

theorem local_pick {ids : List Nat} {dim : Nat} (hx : sx.WF) (hsz : s.size ≤ 2 ^ 31) (he : ShapeOps.pick .debug sx ids dim = ok s) :
    LocalAD d ((NodeOp.pick ids dim).oper p d m) ((NodeOp.pick ids dim).real [sx]) [sx] [s] x := by
  obtain ⟨h8, hne, hb, hid, hs⟩ := (pick_iff hx).mp he
  have hp : 0 < ids.length := List.length_pos_iff.mpr hne
  have hxb := hx.batch_pos
  have hsb : s.batch = max sx.batch ids.length := hs.2.2
  have hbs : sx.batch = 1 ∨ sx.batch = s.batch := by omega
  obtain ⟨se, -, hse⟩ := hx.resizeBatch_is (b := s.batch) hs.1.batch_pos
  have hlt : ∀ c b, s.Valid c b → idAt ids b < sx.get dim := fun c b hv => idAt_lt hne hid (by have := hv.2; omega)
  have hval : ∀ c b, s.Valid c b → sx.Valid (cset c dim (idAt ids b)) (bb sx b) := fun c b hv => by
    refine valid_bb hx (s := se) (fun i => (hse.2.1 i).symm) (by rw [hse.2.2]; exact hbs) ?_
    refine valid_cset (s := s) (fun i hi => ?_) (by rw [hse.2.1]; exact hlt c b hv) hse.2.2 hv
    rw [hse.2.1, hs.2.1]; simp [setC, hi]
  refine local1 (op := .pick ids dim) trivial (fun t ht => ?_) (fun δ c b => δ (cset c dim (idAt ids b)) (bb sx b)) (fun V t0 δ hV hm c b hv => ?_)
    (fun G c b => ∑ b' ∈ readers sx s.batch b, (if c dim = idAt ids b' then 1 else 0) * G (cset c dim 0) b')
    (fun t y gy gx => do let e ← gy.dev; Dev.bw (.pick ids dim) p e m [] [] gy gx) (fun t y gy => rfl)
    (fun t y gy gx G H ht hy hgy hgx => ?_) fun G δ => ?_
  · exact TF.call1 (op := .pick ids dim) ht he hsz trivial p (m 0)
  · exact hm _ _ (hval c b hv)
  · simp only [Tensor.dev, hgy.device, unwrap, ok_bind]
    exact pick_back h8 hne hb hid hs hgy hgx p m
  · rw [dot_axis_batch hx hse hbs (by rw [hsb]; exact hs) (fun c b' => if c dim = idAt ids b' then 1 else 0) G δ]
    refine dot_congr hs.1 fun c b hv => ?_
    congr 1
    simp only [cset_at]
    exact indicator_sum (hlt c b hv) (fun j => δ (cset c dim j) (bb sx b))

theorem local_matmul (ha : sa.WF) (hb : sb.WF) (hsz : s.size ≤ 2 ^ 31) (he : ShapeOps.matmul .debug sa sb = ok s)
    (hta : s.batch * sa.volume ≤ 2 ^ 31) (htb : s.batch * sb.volume ≤ 2 ^ 31) :
    LocalAD d (NodeOp.matmul.oper p d m) (NodeOp.matmul.real [sa, sb]) [sa, sb] [s] x := by
  obtain ⟨hma, hmb, hk, hbc, hv, hs⟩ := (matmul_iff ha hb).mp he
  have h0 : s.get 0 = sa.get 0 := by rw [hs.2.1]; rfl
  have h1 : s.get 1 = sb.get 1 := by rw [hs.2.1]; rfl
  have hba := batch_left hbc ha hb hs.2.2
  have hbb := batch_right hbc ha hb hs.2.2
  obtain ⟨ea, -, hea⟩ := ha.resizeBatch_is (b := s.batch) hs.1.batch_pos
  obtain ⟨eb, -, heb⟩ := hb.resizeBatch_is (b := s.batch) hs.1.batch_pos
  have isMat : ∀ {t : Shape} {n : Nat} (u : Shape), t.Is u.get n → (∀ i, 2 ≤ i → u.get i = 1) → t.Is (matDims (u.get 0) (u.get 1)) n := by
    intro t n u ht hm
    refine ⟨ht.1, fun i => ?_, ht.2.2⟩
    rw [ht.2.1]
    match i with
    | 0 => rfl
    | 1 => rfl
    | i + 2 => rw [hm _ (by omega)]; rfl
  have va : ∀ {c b j}, s.Valid c b → j < sa.get 1 → sa.Valid (mat (c 0) j) (bb sa b) := by
    intro c b j hv hj
    refine valid_bb ha (s := ea) (fun i => (hea.2.1 i).symm) (by rw [hea.2.2]; exact hba) ⟨fun i => ?_, by rw [hea.2.2]; exact hv.2⟩
    rw [hea.2.1]
    match i with
    | 0 => have := hv.1 0; rw [h0] at this; exact this
    | 1 => exact hj
    | i + 2 => rw [hma _ (by omega)]; exact Nat.one_pos
  have vb : ∀ {c b j}, s.Valid c b → j < sa.get 1 → sb.Valid (mat j (c 1)) (bb sb b) := by
    intro c b j hv hj
    refine valid_bb hb (s := eb) (fun i => (heb.2.1 i).symm) (by rw [heb.2.2]; exact hbb) ⟨fun i => ?_, by rw [heb.2.2]; exact hv.2⟩
    rw [heb.2.1]
    match i with
    | 0 => rw [← hk]; exact hj
    | 1 => have := hv.1 1; rw [h1] at this; exact this
    | i + 2 => rw [hmb _ (by omega)]; exact Nat.one_pos
  refine local2 (op := .matmul) trivial (fun t u ht hu => ?_)
    (fun δ δ' c b => (∑ j ∈ Finset.range (sa.get 1), δ (mat (c 0) j) (bb sa b) * x 1 (mat j (c 1)) (bb sb b)) +
      ∑ j ∈ Finset.range (sa.get 1), x 0 (mat (c 0) j) (bb sa b) * δ' (mat j (c 1)) (bb sb b))
    (fun V t0 δ δ' hV hm hm' c b hv => ?_)
    (fun G c b => ∑ b' ∈ readers sa s.batch b, ∑ j ∈ Finset.range (s.get 1), G (mat (c 0) j) b' * x 1 (mat (c 1) j) (bb sb b'))
    (fun G c b => ∑ b' ∈ readers sb s.batch b, ∑ i ∈ Finset.range (sa.get 0), x 0 (mat i (c 0)) (bb sa b') * G (mat i (c 1)) b')
    (fun t u y gy gx => Dev.bw .matmulA p d m [t, u] [y] gy gx) (fun t u y gy gx => Dev.bw .matmulB p d m [t, u] [y] gy gx) (fun t u y gy => rfl)
    (fun t u y gy gx G H ht hu hy hgy hgx => ?_) (fun t u y gy gx G H ht hu hy hgy hgx => ?_) (fun G δ δ' => ?_)
  · refine Yields.congr (Dev.fw_ok (op := .matmul) (ins := [(sa, x 0), (sb, x 1)]) (xs := [t, u]) (.cons ht (.cons hu .nil)) he hsz trivial p (m 0)) fun c b hv => ?_
    exact (sumBlk_real (sa.get 1) fun j => x 0 (mat (c 0) j) (bb sa b) * x 1 (mat j (c 1)) (bb sb b)).symm
  · subst hV
    dsimp only
    rw [← Finset.sum_add_distrib]
    exact HasDerivAt.fun_sum fun j hj => (hm _ _ (va hv (Finset.mem_range.mp hj))).mul (hm' _ _ (vb hv (Finset.mem_range.mp hj)))
  · refine Yields.congr (C29_matmul ht hu ⟨hma, hmb, hk, hbc⟩ hv hs hy hgy hgx hu hta htb p m).1 fun c b _ => ?_
    unfold readers
    rw [overBatch_sum]
    simp only [sumBlk_real]
  · refine Yields.congr (C29_matmul ht hu ⟨hma, hmb, hk, hbc⟩ hv hs hy hgy ht hgx hta htb p m).2 fun c b _ => ?_
    unfold readers
    rw [overBatch_sum]
    simp only [sumBlk_real]
  · have e1 := dot_batch ha hea.1 (fun i => (hea.2.1 i).symm) (by rw [hea.2.2]; exact hba)
      (fun c b' => ∑ j ∈ Finset.range (s.get 1), G (mat (c 0) j) b' * x 1 (mat (c 1) j) (bb sb b')) δ
    have e2 := dot_batch hb heb.1 (fun i => (heb.2.1 i).symm) (by rw [heb.2.2]; exact hbb)
      (fun c b' => ∑ i ∈ Finset.range (sa.get 0), x 0 (mat i (c 0)) (bb sa b') * G (mat i (c 1)) b') δ'
    rw [hea.2.2] at e1
    rw [heb.2.2] at e2
    unfold readers
    rw [e1, e2, dot_add_right]
    have hms : s.Is (matDims (sa.get 0) (sb.get 1)) s.batch := ⟨hs.1, hs.2.1, rfl⟩
    congr 1
    · unfold dot
      rw [sum_pos_mat (isMat sa hea hma) (fun c b => (∑ j ∈ Finset.range (s.get 1), G (mat (c 0) j) b * x 1 (mat (c 1) j) (bb sb b)) * δ c (bb sa b)),
        sum_pos_mat hms (fun c b => G c b * ∑ j ∈ Finset.range (sa.get 1), δ (mat (c 0) j) (bb sa b) * x 1 (mat j (c 1)) (bb sb b))]
      refine Finset.sum_congr rfl fun b _ => Finset.sum_congr rfl fun i _ => ?_
      simp only [Finset.sum_mul, Finset.mul_sum]
      rw [Finset.sum_comm, h1]
      exact Finset.sum_congr rfl fun j _ => Finset.sum_congr rfl fun k _ => by simp only [mat]; simp; ring
    · unfold dot
      rw [sum_pos_mat (isMat sb heb hmb) (fun c b => (∑ i ∈ Finset.range (sa.get 0), x 0 (mat i (c 0)) (bb sa b) * G (mat i (c 1)) b) * δ' c (bb sb b)),
        sum_pos_mat hms (fun c b => G c b * ∑ j ∈ Finset.range (sa.get 1), x 0 (mat (c 0) j) (bb sa b) * δ' (mat j (c 1)) (bb sb b))]
      refine Finset.sum_congr rfl fun b _ => ?_
      simp only [Finset.sum_mul, Finset.mul_sum]
      rw [← hk]
      rw [Finset.sum_congr rfl fun i (_ : i ∈ Finset.range (sa.get 1)) => Finset.sum_comm, Finset.sum_comm]
      refine Finset.sum_congr rfl fun i _ => ?_
      rw [Finset.sum_comm]
      exact Finset.sum_congr rfl fun j _ => Finset.sum_congr rfl fun k _ => by simp only [mat]; simp; ring

end Verif
