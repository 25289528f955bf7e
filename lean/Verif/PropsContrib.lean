import Verif.ContribLemmas
import Verif.ContribSpec
import Verif.RealSoft

/-!
# Property C46: the functions of `prima_undine_contrib` on tensors
-/

set_option linter.unusedSectionVars false

namespace Verif
open Res
variable {α : Type} [Flt α] {d : Nat} {x y : Tensor α} {s t sx sy : Shape} {f g : Arr α}

/-- C46: `mean(dim)` is the sum of the axis divided by its length. -/
theorem C46_mean (hx : x.Holds d sx f) {dim : Nat} (hd : dim < 8) (p : Profile) (m : Mem α) :
    ∃ s : Shape, s.Is (cset sx.get dim 1) sx.batch ∧
      Yields (TF.mean p m x dim) d s (fun c b => avg (sx.get dim) (fun j => f (cset c dim j) b)) := by
  obtain ⟨s, hs, h⟩ := C21_sum hx hd p (m 0)
  refine ⟨s, hs, h.bind fun a ha => ?_⟩
  rw [hx.shape]
  exact TF.cn_yields .divR _ ha p (m 1)

/-- C46: `batch_mean` is the sum of the batches divided by their number. -/
theorem C46_batch_mean (hx : x.Holds d sx f) (hs : s.Is sx.get 1) (p : Profile) (m : Mem α) :
    Yields (TF.batchMean p m x) d s (fun c _ => avg sx.batch (fun b => f c b)) := by
  refine (C28_batch_sum hx hs p (m 0)).bind fun a ha => ?_
  rw [hx.shape]
  exact TF.cn_yields .divR _ ha p (m 1)

/-- C46: `dropout` and `dropout_dim` that are not enabled multiply by 1; with a rate of 1 or more they multiply by 0. -/
theorem C46_dropout_off (hx : x.Holds d s f) (p : Profile) (m : Mem α) (r : Rng α) (rate : α) (dim : Nat) :
    Yields (TF.dropout p m r x rate false) d s (fun c b => f c b * 1) ∧
    Yields (TF.dropoutDim p m r x dim rate false) d s (fun c b => f c b * 1) ∧
    (Flt.le 1 rate = true → Yields (TF.dropout p m r x rate true) d s (fun c b => f c b * 0) ∧
      Yields (TF.dropoutDim p m r x dim rate true) d s (fun c b => f c b * 0)) := by
  refine ⟨TF.cn_yields .mul _ hx p (m 0), TF.cn_yields .mul _ hx p (m 0), fun h => ?_⟩
  constructor
  · unfold TF.dropout
    rw [if_neg (by decide), if_pos h]
    exact TF.cn_yields .mul _ hx p (m 0)
  · unfold TF.dropoutDim
    rw [if_neg (by decide), if_pos h]
    exact TF.cn_yields .mul _ hx p (m 0)

/-- C46: … so with the law `a * 1 = a` a dropout that is not enabled changes nothing. -/
theorem C46_dropout_identity (h1 : ∀ u : α, u * 1 = u) (hx : x.Holds d s f) (p : Profile) (m : Mem α) (r : Rng α) (rate : α) (dim : Nat) :
    Yields (TF.dropout p m r x rate false) d s f ∧ Yields (TF.dropoutDim p m r x dim rate false) d s f := by
  obtain ⟨a, b, _⟩ := C46_dropout_off hx p m r rate dim
  exact ⟨a.congr fun c b _ => (h1 _).symm, b.congr fun c b _ => (h1 _).symm⟩

/-- C46: `dropout` that is enabled: every element is either dropped or multiplied by `1 / (1 - rate)`, as decided by its own coin. -/
theorem C46_dropout (hmul : ∀ u v : α, u * v = v * u) (hx : x.Holds d s f) (p : Profile) (m : Mem α) (r : Rng α) {rate : α}
    (h1 : Flt.le 1 rate = false) (h2 : Flt.le 0 (1 - rate) = true) (h3 : Flt.le (1 - rate) 1 = true) :
    Yields (TF.dropout p m r x rate true) d s
      (fun c b => f c b * (1 / (1 - rate)) * (if r.coin (1 - rate) (s.offset c b) then 1 else 0)) := by
  unfold TF.dropout
  rw [if_neg (by decide), h1, if_neg (by decide)]
  refine (TF.cn_yields .mul (1 / (1 - rate)) hx p (m 0)).bind fun a ha => ?_
  simp only [Tensor.dev, hx.device, unwrap, ok_bind, hx.shape]
  refine (Dev.randomBernoulli_ok hx.wf hx.small p d (m 1) r h2 h3).bind fun b hb => ?_
  exact TF.mul_same hmul ha hb p (m 2)

/-- C46: a rate below 0 panics. -/
theorem C46_dropout_panics (hx : x.Holds d s f) (p : Profile) (m : Mem α) (r : Rng α) {rate : α}
    (h1 : Flt.le 1 rate = false) (h2 : ¬ (Flt.le 0 (1 - rate) = true ∧ Flt.le (1 - rate) 1 = true)) :
    TF.dropout p m r x rate true = panic := by
  unfold TF.dropout
  rw [if_neg (by decide), h1, if_neg (by decide)]
  obtain ⟨a, e, ha⟩ := TF.cn_yields .mul (1 / (1 - rate)) hx p (m 0)
  have e : TF.cMul p (m 0) (1 / (1 - rate)) x = ok a := e
  simp only [e, Tensor.dev, hx.device, unwrap, ok_bind, hx.shape, (Dev.random_panics hx.wf hx.small p d (m 1) r 0 (1 - rate)).1 h2]
  rfl

/-- C46: `dropout_dim`: one coin for all the elements that differ only in their position on the axis. -/
theorem C46_dropout_dim (hmul : ∀ u v : α, u * v = v * u) (hx : x.Holds d s f) {dim : Nat} (hd : dim < 8) (p : Profile) (m : Mem α) (r : Rng α)
    {rate : α} (h1 : Flt.le 1 rate = false) (h2 : Flt.le 0 (1 - rate) = true) (h3 : Flt.le (1 - rate) 1 = true) :
    ∃ coin : (Nat → Nat) → Nat → Bool, (∀ c b j, coin (cset c dim j) b = coin c b) ∧
      (∃ s1 : Shape, s1.Is (cset s.get dim 1) s.batch ∧ ∀ c b, coin c b = r.coin (1 - rate) (s1.offset (cset c dim 0) b)) ∧
      Yields (TF.dropoutDim p m r x dim rate true) d s (fun c b => f c b * (1 / (1 - rate)) * (if coin c b then 1 else 0)) := by
  obtain ⟨s1, hs1⟩ := Shape.exists_is_cset hx.wf hd (le_refl 1) (lt_of_le_of_lt (volN_le (g := s.get) fun i _ => by
    unfold cset; split
    · exact hx.wf.get_pos i
    · exact le_refl _) (by rw [← hx.wf.vol]; exact hx.wf.vol_lt))
  obtain ⟨e1, e2, -, -⟩ := resize1 hx.wf hd hs1
  have e1' : s.resizeDim p dim 1 = ok s1 := by
    cases p
    · exact e1
    · exact refines_resizeDim _ _ _ _ e1
  refine ⟨fun c b => r.coin (1 - rate) (s1.offset (cset c dim 0) b), fun c b j => ?_, ⟨s1, hs1, fun _ _ => rfl⟩, ?_⟩
  · show r.coin _ (s1.offset (cset (cset c dim j) dim 0) b) = _
    rw [cset_cset]
  · unfold TF.dropoutDim
    rw [if_neg (by decide), h1, if_neg (by decide)]
    simp only [Tensor.dev, hx.device, unwrap, ok_bind, hx.shape, e1']
    refine (Dev.randomBernoulli_ok hs1.1 (e2.trans hx.small) p d (m 0) r h2 h3).bind fun rb hrb => ?_
    refine (TF.cn_yields .mul (1 / (1 - rate)) hx p (m 1)).bind fun a ha => ?_
    refine (TF.broadcast_back hs1 hx.wf hx.small hd hrb p (m 2)).bind fun b hb => ?_
    exact TF.mul_same hmul ha hb p (m 3)

/-! ### slice_sum -/

theorem bc_join {a s' x : Shape} (ha : a.WF) (h : s'.IsJoin a x) (c : Nat → Nat) : bc a (bc s' c) = bc a c := by
  funext i
  unfold bc
  by_cases h1 : a.get i = 1
  · rw [if_pos h1, if_pos h1]
  · rw [if_neg h1, if_neg h1, if_neg]
    intro h2
    have e : s'.get i = max (a.get i) (x.get i) := h.2.1 i
    have := le_max_left (a.get i) (x.get i)
    have := ha.get_pos i
    omega

theorem bb_join {a s' x : Shape} (ha : a.WF) (h : s'.IsJoin a x) (b : Nat) : bb a (bb s' b) = bb a b := by
  unfold bb
  by_cases h1 : a.batch = 1
  · rw [if_pos h1, if_pos h1]
  · rw [if_neg h1, if_neg h1, if_neg]
    intro h2
    have e : s'.batch = max a.batch x.batch := h.2.2
    have := le_max_left a.batch x.batch
    have := ha.batch_pos
    omega

theorem join_symm {s a b : Shape} (h : s.IsJoin a b) : s.IsJoin b a :=
  ⟨h.1, fun i => by rw [h.2.1 i]; exact max_comm _ _, by rw [h.2.2]; exact max_comm _ _⟩

/-- The sum of a list of arrays, each read with broadcasting, added to `z`. -/
def addAll (z : α) (ins : List (Shape × Arr α)) (c : Nat → Nat) (b : Nat) : α :=
  ins.foldl (fun acc i => acc + i.2 (bc i.1 c) (bb i.1 b)) z

theorem sumFrom_ok (hadd : ∀ u v : α, u + v = v + u) {a : Shape} {F : Arr α} {acc : Tensor α} {xs : List (Tensor α)} {ins : List (Shape × Arr α)}
    (hacc : acc.Holds d a F) (hx : HoldAll d xs ins) (h : SumShape a (ins.map Prod.fst) t) (p : Profile) (m : Mem α) (i : Nat) :
    Yields (TF.sumFrom p m i acc xs) d t (fun c b => addAll (F (bc a c) (bb a b)) ins c b) := by
  induction hx generalizing a F acc i with
  | nil =>
    cases h
    refine ⟨acc, rfl, hacc.congr fun c b hv => ?_⟩
    show F _ _ = _
    rw [bc_valid hv, bb_valid hv]
  | @cons x in' xs ins hx hrest ih =>
    cases h with
    | @cons _ _ s' _ _ hf hj hsz hrest' =>
      unfold TF.sumFrom
      refine (abOp_yields (o := .add) (l := .add) (r := .add) (fun u v => hadd u v) (fun _ _ => rfl) hacc hx hf hj hsz p (m i)).bind fun acc' hacc' => ?_
      refine (ih hacc' hrest' (i + 1)).congr fun c b hv => ?_
      show addAll _ _ _ _ = addAll _ _ _ _
      simp only [Bi.fn, Scalar.addFw, bc_join hacc.wf hj, bb_join hacc.wf hj, bc_join hx.wf (join_symm hj), bb_join hx.wf (join_symm hj)]
      rfl

/-- C46: `slice_sum` of a non-empty list is the sum from left to right, starting from zeros of the first shape; the operands are broadcast
like those of `+`. -/
theorem C46_slice_sum (hadd : ∀ u v : α, u + v = v + u) {x0 : Tensor α} {xs : List (Tensor α)} {i0 : Shape × Arr α} {ins : List (Shape × Arr α)}
    (hx0 : x0.Holds d i0.1 i0.2) (hx : HoldAll d xs ins) (h : SumShape i0.1 (ins.map Prod.fst) t) (p : Profile) (m : Mem α) :
    Yields (TF.sliceSum p m (x0 :: xs)) d t
      (fun c b => (i0 :: ins).foldl (fun acc i => acc + i.2 (bc i.1 c) (bb i.1 b)) 0) := by
  unfold TF.sliceSum
  rw [check_true _ (by simp), ok_bind]
  simp only [ix, List.getElem?_cons_zero, ok_bind, Tensor.dev, hx0.device, unwrap, hx0.shape]
  obtain ⟨z, e, hz⟩ := Dev.newByConstant_ok hx0.wf hx0.small p d (m 0) (0 : α)
  rw [e, ok_bind]
  exact sumFrom_ok hadd hz (ins := i0 :: ins) (.cons hx0 hx) (.cons (.inl (fun _ => rfl) |> fun h => ⟨h, .inl rfl⟩) (Shape.IsJoin.self hx0.wf) hx0.small h) p m 1

/-- C46: `slice_sum` of nothing panics. -/
theorem C46_slice_sum_empty (p : Profile) (m : Mem α) : TF.sliceSum p m ([] : List (Tensor α)) = panic := rfl

/-! ### normalizations -/

/-- The common end of the two normalizations. -/
theorem normalized_ok (hadd : ∀ u v : α, u + v = v + u) (hmul : ∀ u v : α, u * v = v * u) {sm sg sb s1 s2 : Shape} {mean v gm be : Tensor α}
    {mu va G B : Arr α} (hx : x.Holds d s f) (hmean : mean.Holds d sm mu) (hv : v.Holds d sm va)
    (hj : s.IsJoin s sm) (hf : OpFits s sm) (hg : gm.Holds d sg G) (hb : be.Holds d sb B)
    (f1 : OpFits sg s) (j1 : s1.IsJoin sg s) (z1 : s1.size ≤ 2 ^ 31) (f2 : OpFits s1 sb) (j2 : s2.IsJoin s1 sb) (z2 : s2.size ≤ 2 ^ 31)
    (p : Profile) (m : Mem α) :
    Yields (TF.normalized p m x mean v gm be) d s2 (fun c b => G (bc sg c) (bb sg b) *
      ((f (bc s c) (bb s b) - mu (bc sm c) (bb sm b)) / Flt.sqrt (va (bc sm c) (bb sm b))) + B (bc sb c) (bb sb b)) := by
  unfold TF.normalized
  refine (C20_sub_div hx hmean hf hj hx.small p (m 0)).1.bind fun a ha => ?_
  refine (TF.un_yields .sqrt hv p (m 1)).bind fun w hw => ?_
  refine (C20_sub_div ha hw hf hj hx.small p (m 2)).2.bind fun z hz => ?_
  refine (C20_add_mul hadd hmul hg hz f1 j1 z1 p (m 3)).2.bind fun y hy => ?_
  refine ((C20_add_mul hadd hmul hy hb f2 j2 z2 p (m 4)).1).congr fun c b _ => ?_
  have e1 : ∀ c, bc s (bc s1 c) = bc s c := fun c => bc_join hx.wf (join_symm j1) c
  have e2 : ∀ b, bb s (bb s1 b) = bb s b := fun c => bb_join hx.wf (join_symm j1) c
  have e3 : ∀ c, bc sg (bc s1 c) = bc sg c := fun c => bc_join hg.wf j1 c
  have e4 : ∀ b, bb sg (bb s1 b) = bb sg b := fun c => bb_join hg.wf j1 c
  have e5 : ∀ c, bc sm (bc s c) = bc sm c := fun c => bc_join hmean.wf (join_symm hj) c
  have e6 : ∀ b, bb sm (bb s b) = bb sm b := fun c => bb_join hmean.wf (join_symm hj) c
  have e7 : ∀ c, bc s (bc s c) = bc s c := fun c => bc_join hx.wf hj c
  have e8 : ∀ b, bb s (bb s b) = bb s b := fun c => bb_join hx.wf hj c
  simp only [Un.fn, Scalar.sqrtFw, e1, e2, e3, e4, e5, e6, e7, e8]

/-- C46: `batch_normalization`: `γ · (x - μ) / √(σ² + ε) + β`, where `μ` and `σ²` are the mean and the variance of the element over the
batches; `γ` and `β` are broadcast like operands of `*` and `+`. -/
theorem C46_batch_normalization (hadd : ∀ u v : α, u + v = v + u) (hmul : ∀ u v : α, u * v = v * u) {sg sb s1 s2 : Shape} {gm be : Tensor α}
    {G B : Arr α} (hx : x.Holds d s f) (hg : gm.Holds d sg G) (hb : be.Holds d sb B)
    (f1 : OpFits sg s) (j1 : s1.IsJoin sg s) (z1 : s1.size ≤ 2 ^ 31) (f2 : OpFits s1 sb) (j2 : s2.IsJoin s1 sb) (z2 : s2.size ≤ 2 ^ 31)
    (eps : α) (p : Profile) (m : Mem α) :
    Yields (TF.batchNormalization p m x gm be eps true) d s2 (fun c b => G (bc sg c) (bb sg b) *
      batchNormed s.batch f eps (bc s c) (bb s b) + B (bc sb c) (bb sb b)) := by
  obtain ⟨sm, hsm⟩ := batch_shape hx.wf (le_refl 1)
  have hf : OpFits s sm := ⟨.inl fun i => (hsm.2.1 i).symm, .inr (.inr hsm.2.2)⟩
  have hj : s.IsJoin s sm := ⟨hx.wf, fun i => by show _ = max _ _; rw [hsm.2.1 i, max_self], by
    rw [hsm.2.2]; exact (max_eq_left hx.wf.batch_pos).symm⟩
  unfold TF.batchNormalization
  rw [if_pos rfl]
  refine (C46_batch_mean hx hsm p m).bind fun mean hmean => ?_
  refine (C20_sub_div hx hmean hf hj hx.small p (m 2)).1.bind fun sh hsh => ?_
  refine (TF.mul_same hmul hsh hsh p (m 3)).bind fun sq hsq => ?_
  refine (C46_batch_mean hsq hsm p _).bind fun v hv => ?_
  refine (TF.cn_yields .add eps hv p (m 6)).bind fun v' hv' => ?_
  refine (normalized_ok hadd hmul hx hmean hv' hj hf hg hb f1 j1 z1 f2 j2 z2 p _).congr fun c b hv => ?_
  show _ * batchNormed _ _ _ _ _ + _ = _ * _ + _
  have ec : bc sm c = bc s c := by
    funext i; unfold bc; rw [hsm.2.1 i]
  congr 2
  unfold batchNormed standardize batchVar batchMu
  simp only [Cn.fn, Scalar.addConstFw, ec]
  have e1 : bc s (bc s c) = bc s c := bc_join hx.wf hj c
  have e3 : bc sm (bc s c) = bc s c := by rw [show bc sm (bc s c) = bc sm c from bc_join hmean.wf (join_symm hj) c, ec]
  congr 3
  unfold avg sumTo
  congr 1
  refine foldN_congr fun k hk acc => ?_
  dsimp only
  have e2 : bb s k = k := by unfold bb; split <;> omega
  rw [e1, e2, e3]

/-- C46: `batch_normalization` that is not enabled multiplies by 1. -/
theorem C46_batch_normalization_off (hx : x.Holds d s f) (gm be : Tensor α) (eps : α) (p : Profile) (m : Mem α) :
    Yields (TF.batchNormalization p m x gm be eps false) d s (fun c b => f c b * 1) := TF.cn_yields .mul _ hx p (m 0)

/-- The mean of all the elements of each batch: `x.flatten().mean(0)`. -/
theorem flatMean (hx : x.Holds d s f) {sm : Shape} (hsm : sm.Is (fun _ => 1) s.batch) {β : Type} (p : Profile) (m : Nat → α) (m' : Mem α)
    {k : Tensor α → Res β} {Q : β → Prop}
    (hk : ∀ z : Tensor α, z.Holds d sm (fun _ b => layerMu s f b) → ∃ r, k z = ok r ∧ Q r) :
    ∃ r, (do let a ← TF.flatten p m x; let z ← TF.mean p m' a 0; k z) = ok r ∧ Q r := by
  obtain ⟨t, ht, y, e, hy⟩ := TF.flatten_ok hx p m
  obtain ⟨s', hs', z, e', hz⟩ := C46_mean hy (dim := 0) (by decide) p m'
  have hget : t.get 0 = s.volume := by rw [ht.2.1]; rfl
  have : s' = sm := by
    refine Shape.Is.unique (f := fun _ => 1) (b := s.batch) ⟨hs'.1, fun i => ?_, ?_⟩ hsm
    · rw [hs'.2.1]; unfold cset; split
      · rfl
      · rename_i h; rw [ht.2.1]; exact if_neg h
    · rw [hs'.2.2, ht.2.2]
  subst this
  rw [e, ok_bind, e', ok_bind]
  refine hk z (hz.congr fun c b hv => ?_)
  show avg _ _ = avg _ _
  rw [hget]
  rfl

/-- C46: `layer_normalization`: `γ · (x - μ) / √(σ² + ε) + β`, where `μ` and `σ²` are the mean and the variance of all the elements of a batch. -/
theorem C46_layer_normalization (hadd : ∀ u v : α, u + v = v + u) (hmul : ∀ u v : α, u * v = v * u) {sg sb s1 s2 : Shape} {gm be : Tensor α}
    {G B : Arr α} (hx : x.Holds d s f) (hg : gm.Holds d sg G) (hb : be.Holds d sb B)
    (f1 : OpFits sg s) (j1 : s1.IsJoin sg s) (z1 : s1.size ≤ 2 ^ 31) (f2 : OpFits s1 sb) (j2 : s2.IsJoin s1 sb) (z2 : s2.size ≤ 2 ^ 31)
    (eps : α) (p : Profile) (m : Mem α) :
    Yields (TF.layerNormalization p m x gm be eps) d s2 (fun c b => G (bc sg c) (bb sg b) *
      layerNormed s f eps (bc s c) (bb s b) + B (bc sb c) (bb sb b)) := by
  obtain ⟨sm, hsm⟩ : ∃ sm : Shape, sm.Is (fun _ => 1) s.batch := Shape.exists_is (fun _ => le_refl 1) (fun _ _ => rfl) (by
    simp [volN, U32]) hx.wf.batch_pos
  have hf : OpFits s sm := ⟨.inr (.inr fun i => hsm.2.1 i), .inl hsm.2.2.symm⟩
  have hj : s.IsJoin s sm := ⟨hx.wf, fun i => by show _ = max _ _; rw [hsm.2.1 i]; exact (max_eq_left (hx.wf.get_pos i)).symm, by
    rw [hsm.2.2, max_self]⟩
  have ec : ∀ c, bc sm c = czero := fun c => by funext i; unfold bc czero; rw [if_pos (hsm.2.1 i)]
  have eb : ∀ k, bb sm k = bb s k := fun k => by unfold bb; rw [hsm.2.2]
  unfold TF.layerNormalization
  refine flatMean hx hsm p (m 0) _ (β := Tensor α) (Q := fun y => y.Holds d s2 _) fun mean hmean => ?_
  refine (C20_sub_div hx hmean hf hj hx.small p (m 3)).1.bind fun sh hsh => ?_
  refine (TF.mul_same hmul hsh hsh p (m 4)).bind fun sq hsq => ?_
  refine flatMean hsq hsm p (m 5) _ (β := Tensor α) (Q := fun y => y.Holds d s2 _) fun v hv => ?_
  refine (TF.cn_yields .add eps hv p (m 8)).bind fun v' hv' => ?_
  refine (normalized_ok hadd hmul hx hmean hv' hj hf hg hb f1 j1 z1 f2 j2 z2 p _).congr fun c b hval => ?_
  show _ * layerNormed _ _ _ _ _ + _ = _ * _ + _
  congr 2
  unfold layerNormed standardize
  simp only [Cn.fn, Scalar.addConstFw, eb]
  congr 3
  unfold layerVar
  show avg _ _ = layerMu _ _ _
  unfold layerMu
  unfold avg sumTo
  congr 1
  refine foldN_congr fun k hk acc => ?_
  dsimp only
  congr 1
  have e7 : bb s (bb s b) = bb s b := bb_join hx.wf hj b
  have hvp := hx.wf.volume_pos
  have e8 : bc s (s.coord ((k + bb s b * s.volume) % s.volume)) = s.coord ((k + bb s b * s.volume) % s.volume) := by
    rw [Nat.add_mul_mod_self_right]
    exact bc_valid (hx.wf.offset_coord (k := k) (lt_of_lt_of_le hk (by
      unfold Shape.size; exact Nat.le_mul_of_pos_left _ hx.wf.batch_pos))).1
  have e9 : (k + bb s b * s.volume) / s.volume = bb s b := by
    rw [Nat.add_mul_div_right _ _ hvp, Nat.div_eq_of_lt hk, Nat.zero_add]
  unfold elemAt Arr.flat
  rw [e9]
  dsimp only
  rw [e8, e7]

end Verif
