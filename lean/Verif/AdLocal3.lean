import Verif.AdSums2
import Mathlib.Topology.Order.OrderClosed
import Mathlib.Order.Filter.Finite

/-!
# Reductions of an axis, broadcasting of an axis
-/

set_option linter.unusedSectionVars false

namespace Verif
open Res Shape
attribute [local instance] realFlt

variable {p : Profile} {d : Nat} {m : Mem ℝ} {s sx sa sb : Shape} {x : Nat → Arr ℝ}

theorem cset_valid {dim j : Nat} {c : Nat → Nat} {b : Nat} (hs : s.Is (cset sx.get dim 1) sx.batch) (hv : s.Valid c b) (hj : j < sx.get dim) :
    sx.Valid (cset c dim j) b :=
  valid_cset (fun i hi => by rw [hs.2.1]; exact (cset_ne _ hi).symm) hj hs.2.2.symm hv

/-- Reduction of an axis. -/
theorem local_axis {op : NodeOp ℝ} (h1 : NF.Single op) {dim : Nat} (hx : sx.WF) (hs : s.Is (cset sx.get dim 1) sx.batch)
    (hfw : ∀ t, t.Holds d sx (x 0) → Yields (op.apply1 p d m [t]) d s (op.real [sx] x 0)) (w : Arr ℝ)
    (hdiff : ∀ (V : ℝ → Nat → Arr ℝ) (t0 : ℝ) (δ : Arr ℝ), V t0 = x → ∀ c b, s.Valid c b →
      (∀ j, j < sx.get dim → HasDerivAt (fun t => V t 0 (cset c dim j) b) (δ (cset c dim j) b) t0) →
      HasDerivAt (fun t => op.real [sx] (V t) 0 c b) (∑ j ∈ Finset.range (sx.get dim), w (cset c dim j) b * δ (cset c dim j) b) t0)
    (f : Tensor ℝ → Tensor ℝ → Tensor ℝ → Tensor ℝ → Res (Tensor ℝ))
    (hbw : ∀ t y gy, op.bw p d m [t] [y] [gy] [sx] = [(0, f t y gy)])
    (hf : ∀ t y gy gx G H, t.Holds d sx (x 0) → y.Holds d s (op.real [sx] x 0) → gy.Holds d s G → gx.Holds d sx H →
      Yields (f t y gy gx) d sx (fun c b => H c b + w c b * G (cset c dim 0) b)) :
    LocalAD d (op.oper p d m) (op.real [sx]) [sx] [s] x :=
  local1 h1 hfw (fun δ c b => ∑ j ∈ Finset.range (sx.get dim), w (cset c dim j) b * δ (cset c dim j) b)
    (fun V t0 δ hV hm c b hv => hdiff V t0 δ hV c b hv fun _ hj => hm _ _ (cset_valid hs hv hj))
    (fun G c b => w c b * G (cset c dim 0) b) f hbw hf fun G δ => dot_axis_w hx hs w G δ

theorem dimOf_ok {t : Tensor ℝ} {f : Arr ℝ} {dim : Nat} (ht : t.Holds d sx f) (hd : dim < sx.depth) : NodeOp.dimOf t dim = ok (sx.get dim) := by
  unfold NodeOp.dimOf
  rw [ht.shape]
  have hlen : sx.dims.length = 8 := ht.wf.len
  have h8 := ht.wf.depth_le
  unfold Shape.dimsSlice ix Shape.get
  rw [if_pos hd]
  simp [hd, Shape.raw, hlen, List.getD_eq_getElem?_getD, show dim < 8 by omega]

theorem local_sum {dim : Nat} (hx : sx.WF) (hsz : sx.size ≤ 2 ^ 31) (he : sx.resizeDim .debug dim 1 = ok s) (hd : dim < sx.depth) :
    LocalAD d ((NodeOp.sum dim).oper p d m) ((NodeOp.sum dim).real [sx]) [sx] [s] x := by
  obtain ⟨h8, -, -, hs⟩ := hx.resizeDim_iff.mp he
  obtain ⟨e1, e2, -, -⟩ := resize1 hx h8 hs
  refine local_axis (op := .sum dim) trivial hx hs (fun t ht => ?_) (fun _ _ => 1) (fun V t0 δ hV c b hv hj => ?_)
    (fun t y gy gx => do
      let size ← NodeOp.dimOf t dim
      let t ← TF.broadcast p (m 0) gy dim size
      TF.addAssign p gx t) (fun t y gy => rfl) (fun t y gy gx G H ht hy hgy hgx => ?_)
  · refine Yields.congr (Dev.fw_ok (op := .sum dim) (ins := [(sx, x 0)]) (xs := [t]) (.cons ht .nil) e1 (e2.trans hsz) trivial p (m 0)) fun c b _ => ?_
    show _ = sumTo (sx.get dim) _
    rw [sumTo_real]
    rfl
  · simp only [one_mul]
    exact HasDerivAt.fun_sum fun j hj' => hj j (Finset.mem_range.mp hj')
  · rw [dimOf_ok ht hd, ok_bind]
    refine (TF.broadcast_back hs hx hsz h8 hgy p (m 0)).bind fun z hz => ?_
    exact (TF.addAssign_same hgx hz p).congr fun c b _ => by rw [one_mul]

theorem local_lse {dim : Nat} (hx : sx.WF) (hsz : sx.size ≤ 2 ^ 31) (he : sx.resizeDim .debug dim 1 = ok s) (hd : dim < sx.depth) :
    LocalAD d ((NodeOp.logsumexp dim).oper p d m) ((NodeOp.logsumexp dim).real [sx]) [sx] [s] x := by
  obtain ⟨h8, -, -, hs⟩ := hx.resizeDim_iff.mp he
  obtain ⟨e1, e2, -, -⟩ := resize1 hx h8 hs
  refine local_axis (op := .logsumexp dim) trivial hx hs (fun t ht => ?_) (fun c b => Real.exp (x 0 c b - Real.log (expSum sx (x 0) dim c b)))
    (fun V t0 δ hV c b hv hj => ?_)
    (fun t y gy gx => do
      let size ← NodeOp.dimOf t dim
      let b ← TF.broadcast p (m 0) y dim size
      let t ← TF.sub p (m 1) t b
      let t ← TF.exp p (m 2) t
      let g ← TF.broadcast p (m 3) gy dim size
      let t ← TF.mul p (m 4) t g
      TF.addAssign p gx t) (fun t y gy => rfl) (fun t y gy gx G H ht hy hgy hgx => ?_)
  · obtain ⟨y, e, h⟩ := TF.logsumexp_real ht h8 hs p (m 0)
    refine ⟨y, ?_, h⟩
    rw [← e]
    simp only [TF.logsumexp, TF.call, Tensor.dev, ht.device, unwrap, ok_bind]
    rfl
  · subst hV
    have hS := HasDerivAt.fun_sum (u := Finset.range (sx.get dim)) fun j hj' => (hj j (Finset.mem_range.mp hj')).exp
    refine (hS.log (expSum_pos hx (V t0 0) dim c b).ne').congr_deriv ?_
    rw [Finset.sum_div]
    refine Finset.sum_congr rfl fun j _ => ?_
    rw [expSum_cset, Real.exp_sub, Real.exp_log (expSum_pos hx (V t0 0) dim c b)]
    unfold expSum
    ring
  · rw [dimOf_ok ht hd, ok_bind]
    refine (TF.broadcast_back hs hx hsz h8 hy p (m 0)).bind fun z hz => ?_
    refine (TF.sub_same ht hz p (m 1)).bind fun u hu => ?_
    refine (TF.un_yields .exp hu p (m 2)).bind fun w hw => ?_
    refine (TF.broadcast_back hs hx hsz h8 hgy p (m 3)).bind fun g hg => ?_
    refine (TF.mul_same (fun u v => mul_comm u v) hw hg p (m 4)).bind fun v hv => ?_
    refine (TF.addAssign_same hgx hv p).congr fun c b _ => ?_
    show _ = H c b + Real.exp (x 0 c b - Real.log (expSum sx (x 0) dim (cset c dim 0) b)) * _
    rw [expSum_cset]

/-- The greatest of finitely many functions, near a point where one of them is strictly greater than the others. -/
theorem iSup_hasDerivAt {n j : Nat} (hj : j < n) {f : ℝ → Nat → ℝ} {t0 : ℝ} {δ : Nat → ℝ} (hd : ∀ i, i < n → HasDerivAt (fun t => f t i) (δ i) t0)
    (hu : ∀ i, i < n → i ≠ j → f t0 i < f t0 j) : HasDerivAt (fun t => ⨆ i : Fin n, f t i) (δ j) t0 := by
  refine (hd j hj).congr_of_eventuallyEq ?_
  have : ∀ᶠ t in nhds t0, ∀ i : Fin n, f t i ≤ f t j := by
    rw [Filter.eventually_all]
    intro i
    by_cases hi : i.1 = j
    · exact Filter.Eventually.of_forall fun t => by rw [hi]
    · exact ((hd i i.2).continuousAt.eventually_lt (hd j hj).continuousAt (hu i i.2 hi)).mono fun t h => h.le
  filter_upwards [this] with t ht
  have : Nonempty (Fin n) := ⟨⟨j, hj⟩⟩
  exact le_antisymm (ciSup_le ht) (le_ciSup (f := fun i : Fin n => f t i) (Set.finite_range _).bddAbove ⟨j, hj⟩)

/-- The least of finitely many functions. -/
theorem iInf_hasDerivAt {n j : Nat} (hj : j < n) {f : ℝ → Nat → ℝ} {t0 : ℝ} {δ : Nat → ℝ} (hd : ∀ i, i < n → HasDerivAt (fun t => f t i) (δ i) t0)
    (hu : ∀ i, i < n → i ≠ j → f t0 j < f t0 i) : HasDerivAt (fun t => ⨅ i : Fin n, f t i) (δ j) t0 := by
  refine (hd j hj).congr_of_eventuallyEq ?_
  have : ∀ᶠ t in nhds t0, ∀ i : Fin n, f t j ≤ f t i := by
    rw [Filter.eventually_all]
    intro i
    by_cases hi : i.1 = j
    · exact Filter.Eventually.of_forall fun t => by rw [hi]
    · exact ((hd j hj).continuousAt.eventually_lt (hd i i.2).continuousAt (hu i i.2 hi)).mono fun t h => h.le
  filter_upwards [this] with t ht
  have : Nonempty (Fin n) := ⟨⟨j, hj⟩⟩
  exact le_antisymm (ciInf_le (f := fun i : Fin n => f t i) (Set.finite_range _).bddBelow ⟨j, hj⟩) (le_ciInf ht)

theorem scanTo_iSup {n : Nat} (hn : 1 ≤ n) (t : Nat → ℝ) : scanTo (fun v t => Flt.gt v t) n t = ⨆ i : Fin n, t i := by
  obtain ⟨⟨j, hj, h1⟩, h2⟩ := scanTo_max hn t (fun v t => Flt.gt v t) (fun _ _ => rfl)
  have : Nonempty (Fin n) := ⟨⟨j, hj⟩⟩
  refine le_antisymm ?_ (ciSup_le fun i => h2 i i.2)
  rw [h1]
  exact le_ciSup (f := fun i : Fin n => t i) (Set.finite_range _).bddAbove ⟨j, hj⟩

theorem scanTo_iInf {n : Nat} (hn : 1 ≤ n) (t : Nat → ℝ) : scanTo (fun v t => Flt.gt t v) n t = ⨅ i : Fin n, t i := by
  obtain ⟨⟨j, hj, h1⟩, h2⟩ := scanTo_min hn t (fun v t => Flt.gt t v) (fun _ _ => rfl)
  have : Nonempty (Fin n) := ⟨⟨j, hj⟩⟩
  refine le_antisymm (le_ciInf fun i => h2 i i.2) ?_
  rw [h1]
  exact ciInf_le (f := fun i : Fin n => t i) (Set.finite_range _).bddBelow ⟨j, hj⟩

open Classical in
/-- Weights of `max` and `min`: 1 at the element that the result comes from. -/
noncomputable def extW (n dim : Nat) (f y : Arr ℝ) : Arr ℝ := fun c b =>
  if firstIdx n (fun j => Flt.feq (f (cset c dim j) b) (y (cset c dim 0) b)) = some (c dim) then 1 else 0

theorem extW_at {n dim j i : Nat} {f y : Arr ℝ} {c : Nat → Nat} {b : Nat} (hj : j < n) (hy : y (cset c dim 0) b = f (cset c dim j) b)
    (hu : ∀ i, i < n → i ≠ j → f (cset c dim i) b ≠ f (cset c dim j) b) :
    extW n dim f y (cset c dim i) b = if i = j then 1 else 0 := by
  unfold extW
  simp only [cset_cset, cset_at, hy]
  have : firstIdx n (fun i => Flt.feq (f (cset c dim i) b) (f (cset c dim j) b)) = some j := by
    rw [firstIdx_iff]
    refine ⟨hj, ?_, fun i hi => ?_⟩
    · show decide (f (cset c dim j) b = f (cset c dim j) b) = true
      simp
    · show decide (f (cset c dim i) b = f (cset c dim j) b) = false
      simpa using hu i (by omega) (by omega)
  rw [this]
  by_cases h : i = j
  · rw [if_pos h, if_pos (by rw [h])]
  · rw [if_neg h, if_neg (fun e => h (Option.some.inj e).symm)]

theorem local_max {dim : Nat} (hx : sx.WF) (hsz : sx.size ≤ 2 ^ 31) (he : sx.resizeDim .debug dim 1 = ok s)
    (hu : ∀ c b, s.Valid c b → ∃ j, j < sx.get dim ∧ ∀ i, i < sx.get dim → i ≠ j → x 0 (cset c dim i) b < x 0 (cset c dim j) b) :
    LocalAD d ((NodeOp.max dim).oper p d m) ((NodeOp.max dim).real [sx]) [sx] [s] x := by
  obtain ⟨h8, -, -, hs⟩ := hx.resizeDim_iff.mp he
  obtain ⟨e1, e2, -, -⟩ := resize1 hx h8 hs
  refine local_axis (op := .max dim) trivial hx hs (fun t ht => ?_) (extW (sx.get dim) dim (x 0) ((NodeOp.max dim).real [sx] x 0))
    (fun V t0 δ hV c b hv hj => ?_)
    (fun t y gy gx => Dev.bw (.max dim) p d m [t] [y] gy gx) (fun t y gy => rfl) (fun t y gy gx G H ht hy hgy hgx => ?_)
  · refine Yields.congr (Dev.fw_ok (op := .max dim) (ins := [(sx, x 0)]) (xs := [t]) (.cons ht .nil) e1 (e2.trans hsz) trivial p (m 0)) fun c b _ => ?_
    exact (scanTo_iSup (hx.get_pos dim) fun j => x 0 (cset c dim j) b).symm
  · subst hV
    obtain ⟨j, hjn, hlt⟩ := hu c b hv
    refine (iSup_hasDerivAt (f := fun t i => V t 0 (cset c dim i) b) (δ := fun i => δ (cset c dim i) b) hjn hj hlt).congr_deriv ?_
    have hy : (NodeOp.max dim).real [sx] (V t0) 0 (cset c dim 0) b = V t0 0 (cset c dim j) b := by
      show (⨆ i : Fin (sx.get dim), V t0 0 (cset (cset c dim 0) dim i) b) = _
      simp only [cset_cset]
      have : Nonempty (Fin (sx.get dim)) := ⟨⟨j, hjn⟩⟩
      refine le_antisymm (ciSup_le fun i => ?_) (le_ciSup (f := fun i : Fin (sx.get dim) => V t0 0 (cset c dim i) b) (Set.finite_range _).bddAbove ⟨j, hjn⟩)
      by_cases h : i.1 = j
      · rw [h]
      · exact (hlt i i.2 h).le
    rw [Finset.sum_congr rfl fun i _ => by rw [extW_at (f := V t0 0) hjn hy fun i hi hne => (hlt i hi hne).ne]]
    simp [hjn]
  · refine Yields.congr (C29_max_min ht h8 hs hy hgy hgx p m).1 fun c b hv => ?_
    unfold extW
    split <;> simp

theorem local_min {dim : Nat} (hx : sx.WF) (hsz : sx.size ≤ 2 ^ 31) (he : sx.resizeDim .debug dim 1 = ok s)
    (hu : ∀ c b, s.Valid c b → ∃ j, j < sx.get dim ∧ ∀ i, i < sx.get dim → i ≠ j → x 0 (cset c dim j) b < x 0 (cset c dim i) b) :
    LocalAD d ((NodeOp.min dim).oper p d m) ((NodeOp.min dim).real [sx]) [sx] [s] x := by
  obtain ⟨h8, -, -, hs⟩ := hx.resizeDim_iff.mp he
  obtain ⟨e1, e2, -, -⟩ := resize1 hx h8 hs
  refine local_axis (op := .min dim) trivial hx hs (fun t ht => ?_) (extW (sx.get dim) dim (x 0) ((NodeOp.min dim).real [sx] x 0))
    (fun V t0 δ hV c b hv hj => ?_)
    (fun t y gy gx => Dev.bw (.min dim) p d m [t] [y] gy gx) (fun t y gy => rfl) (fun t y gy gx G H ht hy hgy hgx => ?_)
  · refine Yields.congr (Dev.fw_ok (op := .min dim) (ins := [(sx, x 0)]) (xs := [t]) (.cons ht .nil) e1 (e2.trans hsz) trivial p (m 0)) fun c b _ => ?_
    exact (scanTo_iInf (hx.get_pos dim) fun j => x 0 (cset c dim j) b).symm
  · subst hV
    obtain ⟨j, hjn, hlt⟩ := hu c b hv
    refine (iInf_hasDerivAt (f := fun t i => V t 0 (cset c dim i) b) (δ := fun i => δ (cset c dim i) b) hjn hj hlt).congr_deriv ?_
    have hy : (NodeOp.min dim).real [sx] (V t0) 0 (cset c dim 0) b = V t0 0 (cset c dim j) b := by
      show (⨅ i : Fin (sx.get dim), V t0 0 (cset (cset c dim 0) dim i) b) = _
      simp only [cset_cset]
      have : Nonempty (Fin (sx.get dim)) := ⟨⟨j, hjn⟩⟩
      refine le_antisymm (ciInf_le (f := fun i : Fin (sx.get dim) => V t0 0 (cset c dim i) b) (Set.finite_range _).bddBelow ⟨j, hjn⟩) (le_ciInf fun i => ?_)
      by_cases h : i.1 = j
      · rw [h]
      · exact (hlt i i.2 h).le
    rw [Finset.sum_congr rfl fun i _ => by rw [extW_at (f := V t0 0) hjn hy fun i hi hne => (hlt i hi hne).ne']]
    simp [hjn]
  · refine Yields.congr (C29_max_min ht h8 hs hy hgy hgx p m).2 fun c b hv => ?_
    unfold extW
    split <;> simp

theorem local_broadcast {dim n : Nat} (hx : sx.WF) (hsz : s.size ≤ 2 ^ 31) (he : ShapeOps.broadcast .debug sx dim n = ok s) :
    LocalAD d ((NodeOp.broadcast dim n).oper p d m) ((NodeOp.broadcast dim n).real [sx]) [sx] [s] x := by
  obtain ⟨h8, h1, -, -, hs⟩ := (broadcast_iff hx).mp he
  have hback : sx.Is (cset s.get dim 1) s.batch := by
    refine ⟨hx, fun i => ?_, hs.2.2.symm⟩
    unfold cset
    split
    · rename_i h; rw [h, h1]
    · rename_i h; rw [hs.2.1]; simp [setC, h]
  obtain ⟨e1, e2, -, -⟩ := resize1 hs.1 h8 hback
  refine local1 (op := .broadcast dim n) trivial (fun t ht => ?_) (fun δ c b => δ (cset c dim 0) b) (fun V t0 δ hV hm c b hv => hm _ _ ?_)
    (fun G c b => ∑ j ∈ Finset.range (s.get dim), G (cset c dim j) b) (fun t y gy gx => do let t ← TF.sum p (m 0) gy dim; TF.addAssign p gx t) (fun t y gy => rfl)
    (fun t y gy gx G H ht hy hgy hgx => ?_) fun G δ => ?_
  · exact Dev.fw_ok (op := .broadcast dim n) (ins := [(sx, x 0)]) (xs := [t]) (.cons ht .nil) he hsz trivial p (m 0)
  · exact Valid.reduced hback hv
  · refine (TF.call1 (op := .sum dim) hgy e1 (e2.trans hsz) trivial p (m 0)).bind fun z hz => ?_
    refine (TF.addAssign_same hgx hz p).congr fun c b _ => ?_
    show _ = H c b + sumTo (s.get dim) _
    rw [sumTo_real]
  · rw [dot_comm, ← dot_axis hs.1 hback δ G, dot_comm]

end Verif
