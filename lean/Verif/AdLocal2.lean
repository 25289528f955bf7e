import Verif.AdLocal1
import Verif.OptLemmas

/-!
# Element-wise operators of two arguments, with broadcasting of batches
-/

set_option linter.unusedSectionVars false

namespace Verif
open Res Shape
attribute [local instance] realFlt

variable {p : Profile} {d : Nat} {m : Mem ℝ} {s sx sa sb : Shape} {x : Nat → Arr ℝ}

/-- The batches that read batch `b` of an operand of shape `sa`. -/
def readers (sa : Shape) (n b : Nat) : Finset Nat := (Finset.range n).filter fun b' => bb sa b' = b

theorem batch_left (hb : BatchCompat sa sb) (ha : sa.WF) (hbw : sb.WF) (hs : s.batch = max sa.batch sb.batch) : sa.batch = 1 ∨ sa.batch = s.batch := by
  have h1 := ha.batch_pos; have h2 := hbw.batch_pos
  rcases hb with h | h | h <;> omega

theorem batch_right (hb : BatchCompat sa sb) (ha : sa.WF) (hbw : sb.WF) (hs : s.batch = max sa.batch sb.batch) : sb.batch = 1 ∨ sb.batch = s.batch := by
  have h1 := ha.batch_pos; have h2 := hbw.batch_pos
  rcases hb with h | h | h <;> omega

/-- Broadcasting of batches and its transposed, with weights. -/
theorem local_bc {op : NodeOp ℝ} (h1 : NF.Single op) (ha : sa.WF) (hb : sb.WF) (hd : ∀ i, sa.get i = sb.get i) (hbc : BatchCompat sa sb)
    (hs : s.Is sa.get (max sa.batch sb.batch)) (wa wb : Arr ℝ)
    (hfw : ∀ t u, t.Holds d sa (x 0) → u.Holds d sb (x 1) → Yields (op.apply1 p d m [t, u]) d s (op.real [sa, sb] x 0))
    (hdiff : ∀ (V : ℝ → Nat → Arr ℝ) (t0 a' b' : ℝ) c b, V t0 = x → s.Valid c b → HasDerivAt (fun t => V t 0 c (bb sa b)) a' t0 →
      HasDerivAt (fun t => V t 1 c (bb sb b)) b' t0 → HasDerivAt (fun t => op.real [sa, sb] (V t) 0 c b) (wa c b * a' + wb c b * b') t0)
    (fa fb : Tensor ℝ → Tensor ℝ → Tensor ℝ → Tensor ℝ → Tensor ℝ → Res (Tensor ℝ))
    (hbw : ∀ t u y gy, op.bw p d m [t, u] [y] [gy] [sa, sb] = [(0, fa t u y gy), (1, fb t u y gy)])
    (hfa : ∀ t u y gy gx G H, t.Holds d sa (x 0) → u.Holds d sb (x 1) → y.Holds d s (op.real [sa, sb] x 0) → gy.Holds d s G → gx.Holds d sa H →
      Yields (fa t u y gy gx) d sa (fun c b => H c b + ∑ b' ∈ readers sa s.batch b, G c b' * wa c b'))
    (hfb : ∀ t u y gy gx G H, t.Holds d sa (x 0) → u.Holds d sb (x 1) → y.Holds d s (op.real [sa, sb] x 0) → gy.Holds d s G → gx.Holds d sb H →
      Yields (fb t u y gy gx) d sb (fun c b => H c b + ∑ b' ∈ readers sb s.batch b, G c b' * wb c b')) :
    LocalAD d (op.oper p d m) (op.real [sa, sb]) [sa, sb] [s] x := by
  have hba := batch_left hbc ha hb hs.2.2
  have hbb := batch_right hbc ha hb hs.2.2
  have hda : ∀ i, sa.get i = s.get i := fun i => (hs.2.1 i).symm
  have hdb : ∀ i, sb.get i = s.get i := fun i => by rw [hs.2.1, hd]
  refine local2 h1 hfw (fun δ δ' c b => wa c b * δ c (bb sa b) + wb c b * δ' c (bb sb b)) (fun V t0 δ δ' hV hm hm' c b hv => ?_) _ _ fa fb hbw hfa hfb
    (fun G δ δ' => ?_)
  · exact hdiff V t0 _ _ c b hV hv (hm _ _ (valid_bb ha hda hba hv)) (hm' _ _ (valid_bb hb hdb hbb hv))
  · rw [dot_add_right]
    congr 1
    · refine (dot_batch ha hs.1 hda hba (fun c b' => G c b' * wa c b') δ).trans ?_
      exact dot_congr hs.1 fun c b _ => by ring
    · refine (dot_batch hb hs.1 hdb hbb (fun c b' => G c b' * wb c b') δ').trans ?_
      exact dot_congr hs.1 fun c b _ => by ring

theorem local_bi (o : Bi) (ha : sa.WF) (hb : sb.WF) (he : ShapeOps.elementwise sa sb = ok s) (hsz : s.size ≤ 2 ^ 31)
    (hdom : ∀ c b, s.Valid c b → o.Dom (x 0 c (bb sa b)) (x 1 c (bb sb b))) :
    LocalAD d ((NodeOp.bi o).oper p d m) ((NodeOp.bi o).real [sa, sb]) [sa, sb] [s] x := by
  obtain ⟨hd, hbc, hs⟩ := (Shape.elementwise_iff ha hb).mp he
  have hfw : ∀ t u, t.Holds d sa (x 0) → u.Holds d sb (x 1) → Yields (Dev.fw (.bi o) p d (m 0) [t, u]) d s
      (fun c b => o.real (x 0 c (bb sa b)) (x 1 c (bb sb b))) := fun t u ht hu =>
    (Dev.fw_ok (op := .bi o) (ins := [(sa, x 0), (sb, x 1)]) (xs := [t, u]) (.cons ht (.cons hu .nil)) (s := s) he hsz trivial p (m 0)).imp
      fun y h => ⟨h.1, h.2.congr fun c b _ => (Bi.fn_real o _ _).symm⟩
  refine local_bc (op := .bi o) trivial ha hb hd hbc hs (fun c b => o.stepA 0 (x 0 c (bb sa b)) (x 1 c (bb sb b)) 1)
    (fun c b => o.stepB 0 (x 0 c (bb sa b)) (x 1 c (bb sb b)) (o.real (x 0 c (bb sa b)) (x 1 c (bb sb b))) 1) hfw
    (fun V t0 a' b' c b hV hv h1 h2 => ?_) (fun t u y gy gx => Dev.bw (.biA o) p d m [t, u] [y] gy gx)
    (fun t u y gy gx => Dev.bw (.biB o) p d m [t, u] [y] gy gx) (fun t u y gy => rfl) (fun t u y gy gx G H ht hu hy hgy hgx => ?_)
    (fun t u y gy gx G H ht hu hy hgy hgx => ?_)
  · subst hV
    obtain ⟨da, db, h3, h4, h5⟩ := o.hasDerivAt h1 h2 (hdom c b hv)
    rw [h4, h5]
    simp only [zero_add, one_mul]
    exact h3
  · refine Yields.congr (Dev.bw_ok (op := .biA o) (xi := [(sa, x 0), (sb, x 1)]) (yi := [(s, _)])
      (.cons ht (.cons hu .nil)) (.cons hy .nil) hgy hgx (by
        show (do Verif.check (sa = sa); Verif.check (s = s); let t ← ShapeOps.elementwise sa sb; Verif.check (s = t) : Res Unit) = _
        rw [he]; simp [Verif.check]) trivial p m) fun c b hv => ?_
    show _ = overBatch sa s.batch b (fun b' acc => o.stepA acc (x 0 c (bb sa b')) (x 1 c (bb sb b')) (G c b')) (H c b)
    unfold readers
    rw [← overBatch_sum]
    unfold overBatch
    refine foldN_congr fun b' hb' acc => ?_
    split
    · have hv' : s.Valid c b' := ⟨fun i => by rw [hs.2.1]; exact hv.1 i, hb'⟩
      obtain ⟨da, db, _, h4, _⟩ := o.hasDerivAt (hasDerivAt_const (0 : ℝ) (x 0 c (bb sa b'))) (hasDerivAt_const (0 : ℝ) (x 1 c (bb sb b'))) (hdom c b' hv')
      dsimp only; rw [h4, h4]; ring
    · rfl
  · refine Yields.congr (Dev.bw_ok (op := .biB o) (xi := [(sa, x 0), (sb, x 1)]) (yi := [(s, _)])
      (.cons ht (.cons hu .nil)) (.cons hy .nil) hgy hgx (by
        show (do Verif.check (sb = sb); Verif.check (s = s); let t ← ShapeOps.elementwise sa sb; Verif.check (s = t) : Res Unit) = _
        rw [he]; simp [Verif.check]) trivial p m) fun c b hv => ?_
    show _ = overBatch sb s.batch b (fun b' acc => o.stepB acc (x 0 c (bb sa b')) (x 1 c (bb sb b')) (o.real (x 0 c (bb sa b')) (x 1 c (bb sb b'))) (G c b')) (H c b)
    unfold readers
    rw [← overBatch_sum]
    unfold overBatch
    refine foldN_congr fun b' hb' acc => ?_
    split
    · have hv' : s.Valid c b' := ⟨fun i => by rw [hs.2.1, hd]; exact hv.1 i, hb'⟩
      obtain ⟨da, db, _, _, h4⟩ := o.hasDerivAt (hasDerivAt_const (0 : ℝ) (x 0 c (bb sa b'))) (hasDerivAt_const (0 : ℝ) (x 1 c (bb sb b'))) (hdom c b' hv')
      dsimp only; rw [h4, h4]; ring
    · rfl

section
variable {α : Type} [Flt α] {t u : Tensor α} {f g : Arr α} {y : Tensor α}

/-- `∘` on operands of equal extents, batches broadcast. -/
theorem abBatch {o : Bi} {l r : Sc} (hl : ∀ u v : α, l.fn u v = o.fn v u) (hr : ∀ u v : α, r.fn u v = o.fn u v)
    (ht : t.Holds d sa f) (hu : u.Holds d sb g) (hd : ∀ i, sa.get i = sb.get i) (hb : BatchCompat sa sb) (hs : s.Is sa.get (max sa.batch sb.batch))
    (hsz : s.size ≤ 2 ^ 31) (p : Profile) (m : Nat → α) :
    Yields (TF.abOp o l r p m t u) d s (fun c b => o.fn (f c (bb sa b)) (g c (bb sb b))) :=
  (abOp_yields hl hr ht hu ⟨.inl hd, hb⟩ ⟨hs.1, fun i => by rw [hs.2.1]; dsimp only; rw [hd, max_self], hs.2.2⟩ hsz p m).congr fun c b hv => by
    have : ∀ {t' : Shape}, (∀ i, t'.get i = s.get i) → bc t' c = c := by
      intro t' h; funext i; unfold bc
      have := hv.1 i
      split
      · rename_i e; rw [h] at e; omega
      · rfl
    rw [this (fun i => (hs.2.1 i).symm), this (fun i => by rw [hs.2.1, hd])]
end

section
variable {t u gx : Tensor ℝ} {f g H : Arr ℝ} {st : Shape}

/-- `gx += t`, the batches of `t` added up. -/
theorem addAssign_reduce (hgx : gx.Holds d sa H) (ht : t.Holds d st f) (hd : ∀ i, st.get i = sa.get i) (hb : sa.batch = 1 ∨ sa.batch = st.batch) (p : Profile) :
    Yields (TF.addAssign p gx t) d sa (fun c b => H c b + ∑ b' ∈ readers sa st.batch b, f c b') := by
  refine Yields.congr (TF.addAssign_batch hgx ht hd (by rcases hb with h | h; exacts [.inr (.inr h), .inl h.symm]) p) fun c b _ => ?_
  have hp := ht.wf.batch_pos
  have : max st.batch sa.batch = st.batch := by omega
  rw [this]
  unfold readers
  rw [← overBatch_sum]
  unfold overBatch
  refine foldN_congr fun b' hb' acc => ?_
  have : bb st b' = b' := by unfold bb; split <;> omega
  dsimp only
  rw [this]

/-- `gx -= t`, the batches of `t` added up. -/
theorem subAssign_reduce (hgx : gx.Holds d sa H) (ht : t.Holds d st f) (hd : ∀ i, st.get i = sa.get i) (hb : sa.batch = 1 ∨ sa.batch = st.batch) (p : Profile) :
    Yields (TF.subAssign p gx t) d sa (fun c b => H c b + ∑ b' ∈ readers sa st.batch b, -f c b') := by
  refine Yields.congr (TF.subAssign_batch hgx ht hd (by rcases hb with h | h; exacts [.inr (.inr h), .inl h.symm]) p) fun c b _ => ?_
  have hp := ht.wf.batch_pos
  have : max st.batch sa.batch = st.batch := by omega
  rw [this]
  unfold readers
  rw [← overBatch_sum]
  unfold overBatch
  refine foldN_congr fun b' hb' acc => ?_
  have : bb st b' = b' := by unfold bb; split <;> omega
  dsimp only
  rw [this]
  split <;> ring

/-- `t.flatten().sum(0)` of a scalar tensor. -/
theorem total_scalar (ht : t.Holds d st f) (h1 : ∀ i, st.get i = 1) (p : Profile) (m : Mem ℝ) :
    ∃ s' : Shape, (∀ i, s'.get i = 1) ∧ s'.batch = st.batch ∧ Yields (NodeOp.total p m t) d s' f := by
  have hv : st.volume = 1 := by
    rw [ht.wf.vol]
    have : volN st.get 8 = volN (fun _ => 1) 8 := volN_congr fun i _ => h1 i
    rw [this]; rfl
  obtain ⟨s1, hs1, y, e, hy⟩ := TF.flatten_ok ht p (m 0)
  have hg0 : s1.get 0 = 1 := by rw [hs1.2.1]; exact hv
  have hgi : ∀ i, i ≠ 0 → s1.get i = 1 := fun i hi => by rw [hs1.2.1]; exact if_neg hi
  obtain ⟨s2, hs2⟩ := exists_reduced hy.wf (dim := 0) (by decide)
  obtain ⟨e1, e2, -, -⟩ := resize1 hy.wf (by decide : (0 : Nat) < 8) hs2
  refine ⟨s2, fun i => ?_, hs2.2.2.trans hs1.2.2, ?_⟩
  · rw [hs2.2.1]; unfold cset; split
    · rfl
    · rename_i hi; exact hgi i hi
  unfold NodeOp.total
  rw [e, ok_bind]
  refine Yields.congr (TF.call1 (op := .sum 0) hy e1 (e2.trans hy.small) trivial p (m 1)) fun c b hvd => ?_
  show _ = sumTo (s1.get 0) (fun j => Arr.flat st f ((cset c 0 j) 0 + b * st.volume))
  have hc : c = czero := by
    funext i
    have := hvd.1 i
    rw [hs2.2.1] at this
    unfold cset at this
    split at this
    · show c i = 0; omega
    · rename_i hi; rw [hgi i hi] at this; show c i = 0; omega
  have hbv : b < st.batch := by rw [← hs1.2.2, ← hs2.2.2]; exact hvd.2
  rw [hg0, hv, sumTo_real, Finset.sum_range_one, cset_at]
  have hval : st.Valid czero b := ⟨fun i => by rw [h1]; exact Nat.one_pos, hbv⟩
  have ho : st.offset czero b = b := by
    unfold Shape.offset
    rw [← ht.wf.vol, hv]
    have : ∀ n, offN st.get czero n = 0 := by
      intro n; induction n with
      | zero => rfl
      | succ n ih => simp [offN, ih, czero]
    rw [this]; omega
  have := Arr.flat_offset ht.wf f hval
  rw [ho] at this
  rw [hc, ← this]
  congr 1
  omega

theorem mul_b (ht : t.Holds d sa f) (hu : u.Holds d sb g) (hd : ∀ i, sa.get i = sb.get i) (hb : BatchCompat sa sb)
    (hs : s.Is sa.get (max sa.batch sb.batch)) (hsz : s.size ≤ 2 ^ 31) (p : Profile) (m : Nat → ℝ) :
    Yields (TF.mul p m t u) d s (fun c b => f c (bb sa b) * g c (bb sb b)) :=
  abBatch (o := .mul) (l := .mul) (r := .mul) (fun u v => mul_comm u v) (fun _ _ => rfl) ht hu hd hb hs hsz p m

theorem div_b (ht : t.Holds d sa f) (hu : u.Holds d sb g) (hd : ∀ i, sa.get i = sb.get i) (hb : BatchCompat sa sb)
    (hs : s.Is sa.get (max sa.batch sb.batch)) (hsz : s.size ≤ 2 ^ 31) (p : Profile) (m : Nat → ℝ) :
    Yields (TF.div p m t u) d s (fun c b => f c (bb sa b) / g c (bb sb b)) :=
  abBatch (o := .div) (l := .divL) (r := .divR) (fun _ _ => rfl) (fun _ _ => rfl) ht hu hd hb hs hsz p m

theorem sub_b (ht : t.Holds d sa f) (hu : u.Holds d sb g) (hd : ∀ i, sa.get i = sb.get i) (hb : BatchCompat sa sb)
    (hs : s.Is sa.get (max sa.batch sb.batch)) (hsz : s.size ≤ 2 ^ 31) (p : Profile) (m : Nat → ℝ) :
    Yields (TF.sub p m t u) d s (fun c b => f c (bb sa b) - g c (bb sb b)) :=
  abBatch (o := .sub) (l := .subL) (r := .subR) (fun _ _ => rfl) (fun _ _ => rfl) ht hu hd hb hs hsz p m

/-- `t * u` where `u` has the shape of the result. -/
theorem mul_l (ht : t.Holds d sa f) (hu : u.Holds d s g) (hd : ∀ i, sa.get i = s.get i) (hb : sa.batch = 1 ∨ sa.batch = s.batch) (p : Profile) (m : Nat → ℝ) :
    Yields (TF.mul p m t u) d s (fun c b => f c (bb sa b) * g c b) := by
  have hp := hu.wf.batch_pos
  refine (mul_b ht hu hd (by rcases hb with h | h; exacts [.inr (.inl h), .inl h]) ⟨hu.wf, fun i => (hd i).symm, by omega⟩ hu.small p m).congr fun c b hv => ?_
  rw [bb_valid hv]

/-- `t * u` where `t` has the shape of the result. -/
theorem mul_r (ht : t.Holds d s f) (hu : u.Holds d sb g) (hd : ∀ i, sb.get i = s.get i) (hb : sb.batch = 1 ∨ sb.batch = s.batch) (p : Profile) (m : Nat → ℝ) :
    Yields (TF.mul p m t u) d s (fun c b => f c b * g c (bb sb b)) := by
  have hp := ht.wf.batch_pos
  refine (mul_b ht hu (fun i => (hd i).symm) (by rcases hb with h | h; exacts [.inr (.inr h), .inl h.symm]) ⟨ht.wf, fun _ => rfl, by omega⟩ ht.small p m).congr fun c b hv => ?_
  rw [bb_valid hv]

/-- `t / u` where `t` has the shape of the result. -/
theorem div_r (ht : t.Holds d s f) (hu : u.Holds d sb g) (hd : ∀ i, sb.get i = s.get i) (hb : sb.batch = 1 ∨ sb.batch = s.batch) (p : Profile) (m : Nat → ℝ) :
    Yields (TF.div p m t u) d s (fun c b => f c b / g c (bb sb b)) := by
  have hp := ht.wf.batch_pos
  refine (div_b ht hu (fun i => (hd i).symm) (by rcases hb with h | h; exacts [.inr (.inr h), .inl h.symm]) ⟨ht.wf, fun _ => rfl, by omega⟩ ht.small p m).congr fun c b hv => ?_
  rw [bb_valid hv]

end

theorem Sc.fn_real (o : Sc) (x k : ℝ) : o.fn x k = o.real x k := by cases o <;> rfl

/-- Derivative of a scalar operator with respect to its first argument. -/
noncomputable def Sc.wx : Sc → ℝ → ℝ → ℝ
  | .add => fun _ _ => 1
  | .subL => fun _ _ => -1
  | .subR => fun _ _ => 1
  | .mul => fun _ k => k
  | .divL => fun x k => -(1 / x * (k / x))
  | .divR => fun _ k => 1 / k
  | .powfL => fun x k => k ^ x * Real.log k
  | .powfR => fun x k => x ^ k * k / x

/-- Derivative of a scalar operator with respect to the scalar. -/
noncomputable def Sc.wk : Sc → ℝ → ℝ → ℝ
  | .add => fun _ _ => 1
  | .subL => fun _ _ => 1
  | .subR => fun _ _ => -1
  | .mul => fun x _ => x
  | .divL => fun x _ => 1 / x
  | .divR => fun x k => -(1 / k * (x / k))
  | .powfL => fun x k => k ^ x * x / k
  | .powfR => fun x k => x ^ k * Real.log x

theorem Sc.hasDerivAt (o : Sc) {a k : ℝ → ℝ} {t a' k' : ℝ} (ha : HasDerivAt a a' t) (hk : HasDerivAt k k' t) (h : o.Dom (a t) (k t)) :
    HasDerivAt (fun s => o.real (a s) (k s)) (o.wx (a t) (k t) * a' + o.wk (a t) (k t) * k') t := by
  cases o
  case add => exact (ha.add hk).congr_deriv (by simp [Sc.wx, Sc.wk])
  case subL => exact (hk.sub ha).congr_deriv (by simp [Sc.wx, Sc.wk]; ring)
  case subR => exact (ha.sub hk).congr_deriv (by simp [Sc.wx, Sc.wk]; ring)
  case mul => exact (ha.mul hk).congr_deriv (by simp [Sc.wx, Sc.wk]; ring)
  case divL =>
    have h : a t ≠ 0 := h
    exact (hk.div ha h).congr_deriv (by simp only [Sc.wx, Sc.wk]; field_simp; ring)
  case divR =>
    have h : k t ≠ 0 := h
    exact (ha.div hk h).congr_deriv (by simp only [Sc.wx, Sc.wk]; field_simp; ring)
  case powfL =>
    have h : 0 < k t := h
    refine (hk.rpow ha h).congr_deriv ?_
    simp only [Sc.wx, Sc.wk]
    rw [Real.rpow_sub_one h.ne']
    field_simp
    ring
  case powfR =>
    have h : 0 < a t := h
    refine (ha.rpow hk h).congr_deriv ?_
    simp only [Sc.wx, Sc.wk]
    rw [Real.rpow_sub_one h.ne']
    field_simp

theorem local_sc (o : Sc) (ha : sa.WF) (hb : sb.WF) (he : ShapeOps.elementwise sa sb = ok s) (h1a : ∀ i, sa.get i = 1) (h1b : ∀ i, sb.get i = 1)
    (hsz : s.size ≤ 2 ^ 31) (hdom : ∀ c b, s.Valid c b → o.Dom (x 0 c (bb sa b)) (x 1 c (bb sb b))) :
    LocalAD d ((NodeOp.sc o).oper p d m) ((NodeOp.sc o).real [sa, sb]) [sa, sb] [s] x := by
  obtain ⟨hd, hbc, hs⟩ := (Shape.elementwise_iff ha hb).mp he
  have hba := batch_left hbc ha hb hs.2.2
  have hbb := batch_right hbc ha hb hs.2.2
  have h1s : ∀ i, s.get i = 1 := fun i => by rw [hs.2.1, h1a]
  have hda : ∀ i, sa.get i = s.get i := fun i => (hs.2.1 i).symm
  have hdb : ∀ i, sb.get i = s.get i := fun i => by rw [hs.2.1, hd]
  have hz : ∀ c b, s.Valid c b → c = czero := fun c b hv => funext fun i => by have := hv.1 i; rw [h1s] at this; show c i = 0; omega
  have hfw : ∀ t u, t.Holds d sa (x 0) → u.Holds d sb (x 1) → Yields (Dev.fw (.sc o) p d (m 0) [t, u]) d s
      (fun c b => o.real (x 0 c (bb sa b)) (x 1 c (bb sb b))) := fun t u ht hu =>
    (Dev.fw_ok (op := .sc o) (ins := [(sa, x 0), (sb, x 1)]) (xs := [t, u]) (.cons ht (.cons hu .nil)) (s := s)
      ((Shape.scalarOp_iff ha hb).mpr ⟨h1b, hbc, hs⟩) hsz trivial p (m 0)).imp
      fun y h => ⟨h.1, h.2.congr fun c b hv => by
        show _ = o.fn (x 0 c (bb sa b)) (x 1 czero (bb sb b))
        rw [Sc.fn_real, hz c b hv]⟩
  -- the updates: a tensor with the elements `f` of the shape of the result, or its total, is added or subtracted
  have add_a : ∀ {t gx : Tensor ℝ} {f H w : Arr ℝ}, t.Holds d s f → gx.Holds d sa H → (∀ c b, s.Valid c b → f c b = w c b) →
      Yields (TF.addAssign p gx t) d sa (fun c b => H c b + ∑ b' ∈ readers sa s.batch b, w c b') := fun {t gx f H w} ht hgx hw =>
    addAssign_reduce hgx (ht.congr fun c b hv => (hw c b hv).symm) (fun i => (hda i).symm) hba p
  have sub_a : ∀ {t gx : Tensor ℝ} {f H w : Arr ℝ}, t.Holds d s f → gx.Holds d sa H → (∀ c b, s.Valid c b → -f c b = w c b) →
      Yields (TF.subAssign p gx t) d sa (fun c b => H c b + ∑ b' ∈ readers sa s.batch b, w c b') := fun {t gx f H w} ht hgx hw => by
    refine (subAssign_reduce (f := fun c b => -w c b) hgx (ht.congr fun c b hv => by rw [← hw c b hv, neg_neg]) (fun i => (hda i).symm) hba p).congr fun c b _ => ?_
    simp only [neg_neg]
  have add_b : ∀ {t gx : Tensor ℝ} {f H w : Arr ℝ} (m : Mem ℝ), t.Holds d s f → gx.Holds d sb H → (∀ c b, s.Valid c b → f c b = w c b) →
      Yields (NodeOp.total p m t >>= fun t => TF.addAssign p gx t) d sb (fun c b => H c b + ∑ b' ∈ readers sb s.batch b, w c b') := fun {t gx f H w} m ht hgx hw => by
    obtain ⟨s', h1, h2, h3⟩ := total_scalar (ht.congr fun c b hv => (hw c b hv).symm) h1s p m
    refine h3.bind fun y hy => ?_
    rw [← h2]
    exact addAssign_reduce hgx hy (fun i => by rw [h1, h1b]) (by rw [h2]; exact hbb) p
  have sub_b : ∀ {t gx : Tensor ℝ} {f H w : Arr ℝ} (m : Mem ℝ), t.Holds d s f → gx.Holds d sb H → (∀ c b, s.Valid c b → -f c b = w c b) →
      Yields (NodeOp.total p m t >>= fun t => TF.subAssign p gx t) d sb (fun c b => H c b + ∑ b' ∈ readers sb s.batch b, w c b') := fun {t gx f H w} m ht hgx hw => by
    obtain ⟨s', h1, h2, h3⟩ := total_scalar (ht.congr (g := fun c b => -w c b) fun c b hv => by rw [← hw c b hv, neg_neg]) h1s p m
    refine h3.bind fun y hy => ?_
    rw [← h2]
    refine (subAssign_reduce hgx hy (fun i => by rw [h1, h1b]) (by rw [h2]; exact hbb) p).congr fun c b _ => ?_
    simp only [neg_neg]
  have key := fun (fa fb : Tensor ℝ → Tensor ℝ → Tensor ℝ → Tensor ℝ → Tensor ℝ → Res (Tensor ℝ)) => local_bc (p := p) (m := m) (d := d) (op := .sc o) (x := x) trivial ha hb hd hbc hs
    (fun c b => o.wx (x 0 c (bb sa b)) (x 1 c (bb sb b)))
    (fun c b => o.wk (x 0 c (bb sa b)) (x 1 c (bb sb b))) hfw
    (fun V t0 a' b' c b hV hv h1 h2 => by subst hV; exact o.hasDerivAt h1 h2 (hdom c b hv)) fa fb
  cases o
  case add =>
    refine key _ _ (fun t u y gy => rfl) (fun t u y gy gx G H ht hu hy hgy hgx => ?_) (fun t u y gy gx G H ht hu hy hgy hgx => ?_)
    · exact add_a hgy hgx fun c b _ => by simp [Sc.wx]
    · exact add_b m hgy hgx fun c b _ => by simp [Sc.wk]
  case subL =>
    refine key _ _ (fun t u y gy => rfl) (fun t u y gy gx G H ht hu hy hgy hgx => ?_) (fun t u y gy gx G H ht hu hy hgy hgx => ?_)
    · exact sub_a hgy hgx fun c b _ => by simp [Sc.wx]
    · exact add_b m hgy hgx fun c b _ => by simp [Sc.wk]
  case subR =>
    refine key _ _ (fun t u y gy => rfl) (fun t u y gy gx G H ht hu hy hgy hgx => ?_) (fun t u y gy gx G H ht hu hy hgy hgx => ?_)
    · exact add_a hgy hgx fun c b _ => by simp [Sc.wx]
    · exact sub_b m hgy hgx fun c b _ => by simp [Sc.wk]
  case mul =>
    refine key _ _ (fun t u y gy => rfl) (fun t u y gy gx G H ht hu hy hgy hgx => ?_) (fun t u y gy gx G H ht hu hy hgy hgx => ?_)
    · refine (mul_l hu hgy hdb hbb p (m 0)).bind fun z hz => ?_
      exact add_a hz hgx fun c b _ => by simp only [Sc.wx]; ring
    · refine (mul_l ht hgy hda hba p (m 0)).bind fun z hz => ?_
      exact add_b _ hz hgx fun c b _ => by simp only [Sc.wk]; ring
  case divL =>
    refine key _ _ (fun t u y gy => rfl) (fun t u y gy gx G H ht hu hy hgy hgx => ?_) (fun t u y gy gx G H ht hu hy hgy hgx => ?_)
    · refine (div_r hgy ht hda hba p (m 0)).bind fun z hz => ?_
      refine (TF.mul_same (fun u v => mul_comm u v) hz hy p (m 1)).bind fun w hw => ?_
      exact sub_a hw hgx fun c b _ => by simp only [Sc.wx, NodeOp.real, Sc.real]; simp only [shp, List.getD_cons_zero, List.getD_cons_succ]; ring
    · refine (div_r hgy ht hda hba p (m 0)).bind fun z hz => ?_
      exact add_b _ hz hgx fun c b _ => by simp only [Sc.wk]; ring
  case divR =>
    refine key _ _ (fun t u y gy => rfl) (fun t u y gy gx G H ht hu hy hgy hgx => ?_) (fun t u y gy gx G H ht hu hy hgy hgx => ?_)
    · refine (div_r hgy hu hdb hbb p (m 0)).bind fun z hz => ?_
      exact add_a hz hgx fun c b _ => by simp only [Sc.wx]; ring
    · refine (div_r hgy hu hdb hbb p (m 0)).bind fun z hz => ?_
      refine (TF.mul_same (fun u v => mul_comm u v) hz hy p (m 1)).bind fun w hw => ?_
      exact sub_b _ hw hgx fun c b _ => by simp only [Sc.wk, NodeOp.real, Sc.real]; simp only [shp, List.getD_cons_zero, List.getD_cons_succ]; ring
  case powfL =>
    refine key _ _ (fun t u y gy => rfl) (fun t u y gy gx G H ht hu hy hgy hgx => ?_) (fun t u y gy gx G H ht hu hy hgy hgx => ?_)
    · refine (TF.mul_same (fun u v => mul_comm u v) hgy hy p (m 0)).bind fun z hz => ?_
      refine (TF.un_yields .ln hu p (m 1)).bind fun l hl => ?_
      refine (mul_r hz hl hdb hbb p (m 2)).bind fun w hw => ?_
      exact add_a hw hgx fun c b _ => by
        simp only [Sc.wx, NodeOp.real, Sc.real]; simp only [shp, List.getD_cons_zero, List.getD_cons_succ]
        show _ * Real.log _ = _
        ring
    · refine (TF.mul_same (fun u v => mul_comm u v) hgy hy p (m 0)).bind fun z hz => ?_
      refine (mul_r hz ht hda hba p (m 3)).bind fun w hw => ?_
      refine (div_r hw hu hdb hbb p (m 4)).bind fun v hv => ?_
      exact add_b _ hv hgx fun c b _ => by
        simp only [Sc.wk, NodeOp.real, Sc.real]; simp only [shp, List.getD_cons_zero, List.getD_cons_succ]
        ring
  case powfR =>
    refine key _ _ (fun t u y gy => rfl) (fun t u y gy gx G H ht hu hy hgy hgx => ?_) (fun t u y gy gx G H ht hu hy hgy hgx => ?_)
    · refine (TF.mul_same (fun u v => mul_comm u v) hgy hy p (m 0)).bind fun z hz => ?_
      refine (mul_r hz hu hdb hbb p (m 1)).bind fun w hw => ?_
      refine (div_r hw ht hda hba p (m 2)).bind fun v hv => ?_
      exact add_a hv hgx fun c b _ => by
        simp only [Sc.wx, NodeOp.real, Sc.real]; simp only [shp, List.getD_cons_zero, List.getD_cons_succ]
        ring
    · refine (TF.mul_same (fun u v => mul_comm u v) hgy hy p (m 0)).bind fun z hz => ?_
      refine (TF.un_yields .ln ht p (m 3)).bind fun l hl => ?_
      refine (mul_r hz hl hda hba p (m 4)).bind fun w hw => ?_
      exact add_b _ hw hgx fun c b _ => by
        simp only [Sc.wk, NodeOp.real, Sc.real]; simp only [shp, List.getD_cons_zero, List.getD_cons_succ]
        show _ * Real.log _ = _
        ring

end Verif
