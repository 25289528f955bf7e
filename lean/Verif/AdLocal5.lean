import Verif.AdLocal4

/-!
# Softmax cross entropy
-/

set_option linter.unusedSectionVars false

namespace Verif
open Res Shape
attribute [local instance] realFlt

variable {p : Profile} {d : Nat} {m : Mem ℝ} {s sx sa sb se : Shape} {x : Nat → Arr ℝ}

theorem log_softmax {a S : ℝ} (hS : 0 < S) : Real.log (Real.exp a / S) = a - Real.log S := by
  rw [Real.log_div (Real.exp_ne_zero _) hS.ne', Real.log_exp]

/-- `ln softmax` along an axis. -/
noncomputable def lsm (s : Shape) (f : Arr ℝ) (dim : Nat) : Arr ℝ := fun c b => f c b - Real.log (expSum s f dim c b)

theorem exp_lsm (hw : s.WF) (f : Arr ℝ) (dim : Nat) (c : Nat → Nat) (b : Nat) : Real.exp (lsm s f dim c b) = Real.exp (f c b) / expSum s f dim c b := by
  unfold lsm
  rw [Real.exp_sub, Real.exp_log (expSum_pos hw f dim c b)]

/-- Derivative of `ln softmax`. -/
theorem lsm_hasDerivAt (hw : s.WF) {V : ℝ → Arr ℝ} {t0 : ℝ} {δ : Arr ℝ} {dim : Nat} {c : Nat → Nat} {b : Nat} {i : Nat} (hi : i < s.get dim)
    (hj : ∀ j, j < s.get dim → HasDerivAt (fun t => V t (cset c dim j) b) (δ (cset c dim j) b) t0) :
    HasDerivAt (fun t => lsm s (V t) dim (cset c dim i) b)
      (δ (cset c dim i) b - ∑ j ∈ Finset.range (s.get dim), Real.exp (lsm s (V t0) dim (cset c dim j) b) * δ (cset c dim j) b) t0 := by
  have hS := HasDerivAt.fun_sum (u := Finset.range (s.get dim)) fun j hj' => (hj j (Finset.mem_range.mp hj')).exp
  have hl := hS.log (expSum_pos hw (V t0) dim c b).ne'
  have := (hj i hi).sub hl
  have hf : (fun t => lsm s (V t) dim (cset c dim i) b) = fun t => V t (cset c dim i) b - Real.log (expSum s (V t) dim c b) := by
    funext t
    unfold lsm
    rw [expSum_cset]
  rw [hf]
  refine this.congr_deriv ?_
  rw [Finset.sum_div]
  congr 1
  refine Finset.sum_congr rfl fun j _ => ?_
  rw [exp_lsm hw, expSum_cset]
  unfold expSum
  ring

theorem local_sce {dim : Nat} (ha : sa.WF) (hb : sb.WF) (hza : sa.size ≤ 2 ^ 31) (hzb : sb.size ≤ 2 ^ 31)
    (he : ShapeOps.elementwise sa sb = ok se) (hr : se.resizeDim .debug dim 1 = ok s)
    (hone : ∀ c b, sb.Valid c b → ∑ j ∈ Finset.range (sb.get dim), x 1 (cset c dim j) b = 1) :
    LocalAD d ((NodeOp.softmaxCrossEntropy dim).oper p d m) ((NodeOp.softmaxCrossEntropy dim).real [sa, sb]) [sa, sb] [s] x := by
  obtain ⟨hd, hbc, hse⟩ := (Shape.elementwise_iff ha hb).mp he
  obtain ⟨h8, -, -, hs⟩ := hse.1.resizeDim_iff.mp hr
  obtain ⟨e1, e2, -, -⟩ := resize1 hse.1 h8 hs
  have hba := batch_left hbc ha hb hse.2.2
  have hbb := batch_right hbc ha hb hse.2.2
  have hda : ∀ i, sa.get i = se.get i := fun i => (hse.2.1 i).symm
  have hdb : ∀ i, sb.get i = se.get i := fun i => by rw [hse.2.1, hd]
  have hzse : se.size ≤ 2 ^ 31 := by
    have h3 := ha.batch_pos
    have h4 := hb.batch_pos
    have h2 := hse.2.2
    rcases hbc with h | h | h
    · exact (size_le_of_dims hse.1 ha (fun i => (hda i).ge) (by omega)).trans hza
    · exact (size_le_of_dims hse.1 hb (fun i => (hdb i).ge) (by omega)).trans hzb
    · exact (size_le_of_dims hse.1 ha (fun i => (hda i).ge) (by omega)).trans hza
  have hsb : s.Is (cset sa.get dim 1) se.batch := ⟨hs.1, fun i => by rw [hs.2.1]; unfold setC cset; split <;> simp [hda], hs.2.2⟩
  have hsb' : s.Is (cset sb.get dim 1) se.batch := ⟨hs.1, fun i => by rw [hs.2.1]; unfold setC cset; split <;> simp [hdb], hs.2.2⟩
  have hsea : se.Is sa.get se.batch := ⟨hse.1, hse.2.1, rfl⟩
  have hseb : se.Is sb.get se.batch := ⟨hse.1, fun i => (hdb i).symm, rfl⟩
  have hnd : se.get dim = sa.get dim := (hda dim).symm
  have hndb : sb.get dim = sa.get dim := (hd dim).symm
  have va : ∀ {c b j}, s.Valid c b → j < sa.get dim → sa.Valid (cset c dim j) (bb sa b) := fun hv hj =>
    valid_bb ha hda hba (cset_valid hs hv (by rw [hnd]; exact hj))
  have vb : ∀ {c b j}, s.Valid c b → j < sa.get dim → sb.Valid (cset c dim j) (bb sb b) := fun hv hj =>
    valid_bb hb hdb hbb (cset_valid hs hv (by rw [hnd]; exact hj))
  have hreal : ∀ (x : Nat → Arr ℝ) c b, (NodeOp.softmaxCrossEntropy dim).real [sa, sb] x 0 c b =
      -∑ j ∈ Finset.range (sa.get dim), x 1 (cset c dim j) (bb sb b) * lsm sa (x 0) dim (cset c dim j) (bb sa b) := by
    intro x c b
    show -∑ j ∈ Finset.range (sa.get dim), _ = _
    congr 1
    refine Finset.sum_congr rfl fun j _ => ?_
    congr 1
    unfold lsm
    rw [expSum_cset]
    exact log_softmax (expSum_pos ha _ _ _ _)
  refine local2 (op := .softmaxCrossEntropy dim) trivial (fun t u ht hu => ?_)
    (fun δ δ' c b => (∑ j ∈ Finset.range (sa.get dim),
        (Real.exp (lsm sa (x 0) dim (cset c dim j) (bb sa b)) - x 1 (cset c dim j) (bb sb b)) * δ (cset c dim j) (bb sa b)) +
      ∑ j ∈ Finset.range (sb.get dim), -lsm sa (x 0) dim (cset c dim j) (bb sa b) * δ' (cset c dim j) (bb sb b))
    (fun V t0 δ δ' hV hm hm' c b hv => ?_)
    (fun G c b => ∑ b' ∈ readers sa se.batch b, (Real.exp (lsm sa (x 0) dim c (bb sa b')) - x 1 c (bb sb b')) * G (cset c dim 0) b')
    (fun G c b => ∑ b' ∈ readers sb se.batch b, -lsm sa (x 0) dim c (bb sa b') * G (cset c dim 0) b')
    (fun x t y gy gx => do
      let l ← TF.lnSoftmax p m x dim
      let b ← TF.broadcast p (m 3) gy dim (x.shape.get dim)
      let e ← TF.exp p (m 4) l
      let e ← TF.sub p (m 5) e t
      let e ← TF.mul p (m 6) e b
      TF.addAssign p gx e)
    (fun x t y gy gx => do
      let l ← TF.lnSoftmax p m x dim
      let b ← TF.broadcast p (m 3) gy dim (x.shape.get dim)
      let e ← TF.mul p (m 7) l b
      TF.subAssign p gx e) (fun t u y gy => rfl)
    (fun t u y gy gx G H ht hu hy hgy hgx => ?_) (fun t u y gy gx G H ht hu hy hgy hgx => ?_) (fun G δ δ' => ?_)
  · show Yields (TF.softmaxCrossEntropy p m t u dim) d s _
    unfold TF.softmaxCrossEntropy
    refine (TF.lnSoftmax_real ht h8 p m).bind fun l hl => ?_
    refine (mul_b hu hl (fun i => (hd i).symm) (by rcases hbc with h | h | h; exacts [.inl h.symm, .inr (.inr h), .inr (.inl h)])
      ⟨hse.1, fun i => (hdb i).symm, by rw [hse.2.2, max_comm]⟩ hzse p (m 3)).bind fun z hz => ?_
    refine (TF.call1 (op := .sum dim) hz e1 (e2.trans hzse) trivial p (m 4)).bind fun w hw => ?_
    refine (TF.un_yields .neg hw p (m 5)).congr fun c b hv => ?_
    rw [hreal]
    show -_ = -sumTo (se.get dim) _
    rw [sumTo_real, hnd]
    rfl
  · subst hV
    simp only [hreal]
    have hn := HasDerivAt.fun_sum (u := Finset.range (sa.get dim)) fun j hj =>
      (hm' _ _ (vb hv (Finset.mem_range.mp hj))).mul
        (lsm_hasDerivAt ha (V := fun t => V t 0) (δ := δ) (dim := dim) (c := c) (b := bb sa b) (Finset.mem_range.mp hj) fun k hk => hm _ _ (va hv hk))
    refine hn.fun_neg.congr_deriv ?_
    rw [Finset.sum_add_distrib, neg_add, add_comm, hndb]
    congr 1
    · simp only [mul_sub, Finset.sum_sub_distrib, sub_mul]
      rw [← Finset.sum_mul]
      have := hone (cset c dim 0) (bb sb b) (vb hv (ha.get_pos dim))
      rw [hndb] at this
      simp only [cset_cset] at this
      rw [this, one_mul]
      ring
    · rw [← Finset.sum_neg_distrib]
      exact Finset.sum_congr rfl fun j _ => by ring
  · refine (TF.lnSoftmax_real ht h8 p m).bind fun l hl => ?_
    rw [ht.shape, ← hnd]
    refine (TF.broadcast_back hs hse.1 hzse h8 hgy p (m 3)).bind fun g hg => ?_
    refine (TF.un_yields .exp hl p (m 4)).bind fun e he => ?_
    refine (sub_b he hu hd hbc hse hzse p (m 5)).bind fun z hz => ?_
    refine (TF.mul_same (fun u v => mul_comm u v) hz hg p (m 6)).bind fun w hw => ?_
    exact addAssign_reduce hgx hw (fun i => (hda i).symm) hba p
  · refine (TF.lnSoftmax_real ht h8 p m).bind fun l hl => ?_
    rw [ht.shape, ← hnd]
    refine (TF.broadcast_back hs hse.1 hzse h8 hgy p (m 3)).bind fun g hg => ?_
    refine (mul_l hl hg hda hba p (m 7)).bind fun w hw => ?_
    refine (subAssign_reduce hgx hw (fun i => (hdb i).symm) hbb p).congr fun c b _ => ?_
    simp only [neg_mul]
    rfl
  · rw [dot_add_right]
    congr 1
    · exact dot_axis_batch ha hsea hba hsb (fun c b' => Real.exp (lsm sa (x 0) dim c (bb sa b')) - x 1 c (bb sb b')) G δ
    · exact dot_axis_batch hb hseb hbb hsb' (fun c b' => -lsm sa (x 0) dim c (bb sa b')) G δ'

theorem local_ssce {ids : List Nat} {dim : Nat} (hx : sx.WF) (hsz : s.size ≤ 2 ^ 31) (he : ShapeOps.pick .debug sx ids dim = ok s)
    (hz : s.batch * sx.volume ≤ 2 ^ 31) :
    LocalAD d ((NodeOp.sparseSoftmaxCrossEntropy ids dim).oper p d m) ((NodeOp.sparseSoftmaxCrossEntropy ids dim).real [sx]) [sx] [s] x := by
  obtain ⟨h8, hne, hb, hid, hs⟩ := (pick_iff hx).mp he
  have hp : 0 < ids.length := List.length_pos_iff.mpr hne
  have hxb := hx.batch_pos
  have hsb : s.batch = max sx.batch ids.length := hs.2.2
  have hbs : sx.batch = 1 ∨ sx.batch = s.batch := by omega
  obtain ⟨se, -, hse⟩ := hx.resizeBatch_is (b := s.batch) hs.1.batch_pos
  have hde : ∀ i, sx.get i = se.get i := fun i => (hse.2.1 i).symm
  have hzse : se.size ≤ 2 ^ 31 := by
    unfold Shape.size
    rw [hse.2.2, vol_of_get hse.1 hx hse.2.1]
    exact hz
  have hs' : s.Is (cset sx.get dim 1) s.batch := ⟨hs.1, hs.2.1, rfl⟩
  have hsr : s.Is (cset se.get dim 1) se.batch := ⟨hs.1, fun i => by rw [hs.2.1]; unfold setC cset; split <;> simp [hde], hse.2.2.symm⟩
  have hlt : ∀ c b, s.Valid c b → idAt ids b < sx.get dim := fun c b hv => idAt_lt hne hid (by have := hv.2; omega)
  have hval : ∀ {c b j}, s.Valid c b → j < sx.get dim → sx.Valid (cset c dim j) (bb sx b) := fun hv hj =>
    valid_bb hx hde (by rw [hse.2.2]; exact hbs) (cset_valid hsr hv (by rw [← hde]; exact hj))
  have hreal : ∀ (x : Nat → Arr ℝ) c b, (NodeOp.sparseSoftmaxCrossEntropy ids dim).real [sx] x 0 c b =
      -lsm sx (x 0) dim (cset c dim (idAt ids b)) (bb sx b) := by
    intro x c b
    show -Real.log _ = _
    congr 1
    unfold lsm
    rw [expSum_cset]
    exact log_softmax (expSum_pos hx _ _ _ _)
  refine ⟨fun xs hxs => ?_, fun δ _ c b => (∑ j ∈ Finset.range (sx.get dim), Real.exp (lsm sx (x 0) dim (cset c dim j) (bb sx b)) * δ 0 (cset c dim j) (bb sx b)) -
      δ 0 (cset c dim (idAt ids b)) (bb sx b), fun V t0 δ hV hm v s' hv => ?_, fun xs ys gys G hxs hys hgys => ?_⟩
  · obtain ⟨t, rfl, ht⟩ := hxs.one
    have hfw : Yields (TF.sparseSoftmaxCrossEntropy p m t ids dim) d s ((NodeOp.sparseSoftmaxCrossEntropy ids dim).real [sx] x 0) := by
      unfold TF.sparseSoftmaxCrossEntropy
      refine (TF.lnSoftmax_real ht h8 p m).bind fun l hl => ?_
      refine (TF.call1 (op := .pick ids dim) hl he hsz trivial p (m 3)).bind fun w hw => ?_
      exact (TF.un_yields .neg hw p (m 4)).congr fun c b hv => hreal x c b
    obtain ⟨y, hy, hyh⟩ := hfw
    obtain ⟨z, hz, hzh⟩ := put_holds hyh
    refine ⟨[z], ?_, .mk1 hzh⟩
    show (do let t ← TF.sparseSoftmaxCrossEntropy p m t ids dim; NodeOp.put [Tensor.new d s] 0 t : Res _) = _
    rw [hy]; exact hz
  · cases v with
    | succ v => simp at hv
    | zero =>
      simp at hv; subst hv
      intro c b hv
      subst hV
      simp only [hreal]
      have := lsm_hasDerivAt hx (V := fun t => V t 0) (δ := δ 0) (dim := dim) (c := c) (b := bb sx b) (hlt c b hv) fun k hk => hm 0 sx rfl _ _ (hval hv hk)
      exact this.fun_neg.congr_deriv (by ring)
  · obtain ⟨t, rfl, ht⟩ := hxs.one
    obtain ⟨y, rfl, hy⟩ := hys.one
    obtain ⟨gy, rfl, hgy⟩ := hgys.one
    refine ⟨[(0, fun c b => ∑ b' ∈ readers sx s.batch b, Real.exp (lsm sx (x 0) dim c (bb sx b')) * G 0 (cset c dim 0) b'),
      (0, fun c b => ∑ b' ∈ readers sx s.batch b, (if c dim = idAt ids b' then 1 else 0) * -G 0 (cset c dim 0) b')], ?_, fun δ => ?_⟩
    · refine .cons ⟨rfl, sx, rfl, fun gx H hgx => ?_⟩ (.cons ⟨rfl, sx, rfl, fun gx H hgx => ?_⟩ .nil)
      · show Yields (do
          let s ← TF.softmax p m t dim
          let b ← TF.broadcast p (m 4) gy dim (t.shape.get dim)
          let e ← TF.mul p (m 5) s b
          TF.addAssign p gx e) d sx _
        refine (TF.softmax_real ht h8 p m).bind fun l hl => ?_
        rw [ht.shape, hde]
        refine (TF.broadcast_back hsr hse.1 hzse h8 hgy p (m 4)).bind fun g hg => ?_
        refine (mul_l hl hg hde (by rw [hse.2.2]; exact hbs) p (m 5)).bind fun w hw => ?_
        refine (addAssign_reduce hgx hw (fun i => (hde i).symm) (by rw [hse.2.2]; exact hbs) p).congr fun c b _ => ?_
        rw [hse.2.2]
        simp only [exp_lsm hx]
      · show Yields (do
          let e ← gy.dev
          let n ← TF.neg p (m 6) gy
          Dev.bw (.pick ids dim) p e (fun i => m (i + 7)) [] [] n gx) d sx _
        simp only [Tensor.dev, hgy.device, unwrap, ok_bind]
        refine (TF.un_yields .neg hgy p (m 6)).bind fun n hn => ?_
        exact pick_back h8 hne hb hid hs hn hgx p _
    · simp only [List.map_cons, List.map_nil, List.sum_cons, List.sum_nil, add_zero, List.length_singleton, Finset.sum_range_one]
      have a1 := dot_axis_batch hx hse hbs hs' (fun c b' => Real.exp (lsm sx (x 0) dim c (bb sx b'))) (G 0) (δ 0)
      have a2 := dot_axis_batch hx hse hbs hs' (fun c b' => if c dim = idAt ids b' then 1 else 0) (fun c b => -G 0 c b) (δ 0)
      show dot sx _ (δ 0) + dot sx _ (δ 0) = dot s (G 0) _
      rw [a1, a2]
      unfold dot
      rw [← Finset.sum_add_distrib]
      refine Finset.sum_congr rfl fun q hq => ?_
      have hv := hs.1.mem_pos.mp hq
      simp only [cset_at]
      rw [indicator_sum (hlt _ _ hv) (fun j => δ 0 (cset q.1 dim j) (bb sx q.2))]
      ring

end Verif
