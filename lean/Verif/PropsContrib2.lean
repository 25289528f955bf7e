import Verif.PropsContrib
import Verif.ContribNode
import Verif.NodeCalc

/-!
# Property C46: the functions of `prima_undine_contrib` on nodes
-/

set_option linter.unusedSectionVars false

namespace Verif
open Res
variable {α : Type} [Flt α]

namespace NF

variable {p : Profile} {m0 : Nat → α} {g : Graph (Tensor α)} {x y : Node} {d : Nat} {s t sx sy : Shape} {f f' : Arr α}

/-- Division of a node by a number. -/
theorem divC_yields (hr : Ready p m0 g) (hx : Evals p g x d s f) (m : Mem α) (k : α) : NYields p m0 g (divC p m g x k) d s (fun c b => f c b / k) :=
  unary_yields (.divC k) hr hx m fun _ ht => TF.cn_yields .divR k ht p (m 0)

theorem addC_yields (hr : Ready p m0 g) (hx : Evals p g x d s f) (m : Mem α) (k : α) : NYields p m0 g (addC p m g x k) d s (fun c b => f c b + k) :=
  unary_yields (.addC k) hr hx m fun _ ht => TF.cn_yields .add k ht p (m 0)

theorem cMul_yields (hr : Ready p m0 g) (hx : Evals p g x d s f) (m : Mem α) (k : α) : NYields p m0 g (cMul p m g x k) d s (fun c b => f c b * k) :=
  unary_yields (.cMul k) hr hx m fun _ ht => TF.cn_yields .mul k ht p (m 0)

/-- C46 on nodes: `mean(dim)`. -/
theorem C46_node_mean (hr : Ready p m0 g) (hx : Evals p g x d sx f) {dim : Nat} (hd : dim < 8) (m : Nat → Mem α) :
    ∃ s : Shape, s.Is (cset sx.get dim 1) sx.batch ∧
      NYields p m0 g (mean p m g x dim) d s (fun c b => avg (sx.get dim) (fun j => f (cset c dim j) b)) := by
  obtain ⟨s, hs⟩ := exists_reduced hx.wf hd
  refine ⟨s, hs, (unary_yields (.sum dim) hr hx (m 0) (s' := s) (F := fun c b => sumTo (sx.get dim) fun j => f (cset c dim j) b) fun t ht => ?_).bind
    fun g' n hr' hp hn => ?_⟩
  · obtain ⟨s', hs', h⟩ := C21_sum ht hd p (m 0 0)
    rw [Shape.Is.unique hs hs']
    exact h
  · dsimp only
    rw [(hx.mono hr hr' hp).shape hr', ok_bind]
    exact divC_yields hr' hn (m 1) _

/-- C46 on nodes: `batch_mean`. -/
theorem C46_node_batch_mean (hr : Ready p m0 g) (hx : Evals p g x d sx f) (hs : s.Is sx.get 1) (m : Nat → Mem α) :
    NYields p m0 g (batchMean p m g x) d s (fun c _ => avg sx.batch (fun b => f c b)) := by
  refine (unary_yields .batchSum hr hx (m 0) (fun t ht => C28_batch_sum ht hs p (m 0 0))).bind fun g' n hr' hp hn => ?_
  dsimp only
  rw [(hx.mono hr hr' hp).shape hr', ok_bind]
  exact divC_yields hr' hn (m 1) _

/-! ### dropout -/

theorem ab_same {o : Bi} {l r : Sc} (hl : ∀ u v : α, l.fn u v = o.fn v u) (hr' : ∀ u v : α, r.fn u v = o.fn u v) (hr : Ready p m0 g)
    (hx : Evals p g x d s f) (hy : Evals p g y d s f') (m : Mem α) :
    NYields p m0 g (ab o l r p m g x y) d s (fun c b => o.fn (f c b) (f' c b)) := by
  refine (ab_yields hl hr' hr hx hy rfl (OpFits.self s) (Shape.IsJoin.self hx.wf) hx.small m).congr fun c b hv => ?_
  rw [bc_valid hv, bb_valid hv]

/-- C46 on nodes: `dropout` and `dropout_dim` that are not enabled, or with a rate of 1 or more. -/
theorem C46_node_dropout_off (hr : Ready p m0 g) (hx : Evals p g x d s f) (m : Nat → Mem α) (r : Rng α) (rate : α) (dim : Nat) :
    NYields p m0 g (dropout p m r g x rate false) d s (fun c b => f c b * 1) ∧
    NYields p m0 g (dropoutDim p m r g x dim rate false) d s (fun c b => f c b * 1) ∧
    (Flt.le 1 rate = true → NYields p m0 g (dropout p m r g x rate true) d s (fun c b => f c b * 0) ∧
      NYields p m0 g (dropoutDim p m r g x dim rate true) d s (fun c b => f c b * 0)) := by
  refine ⟨cMul_yields hr hx (m 0) 1, cMul_yields hr hx (m 0) 1, fun h => ?_⟩
  constructor
  · unfold dropout
    rw [if_neg (by decide), if_pos h]
    exact cMul_yields hr hx (m 0) 0
  · unfold dropoutDim
    rw [if_neg (by decide), if_pos h]
    exact cMul_yields hr hx (m 0) 0

/-- C46 on nodes: `dropout`. The coins are tossed when the node is created, once for all evaluations. -/
theorem C46_node_dropout (hmul : ∀ u v : α, u * v = v * u) (hr : Ready p m0 g) (hx : Evals p g x d s f) (m : Nat → Mem α) (r : Rng α) {rate : α}
    (h1 : Flt.le 1 rate = false) (h2 : Flt.le 0 (1 - rate) = true) (h3 : Flt.le (1 - rate) 1 = true) :
    NYields p m0 g (dropout p m r g x rate true) d s
      (fun c b => f c b * (1 / (1 - rate)) * (if r.coin (1 - rate) (s.offset c b) then 1 else 0)) := by
  unfold dropout
  rw [if_neg (by decide), h1, if_neg (by decide)]
  refine (cMul_yields hr hx (m 0) (1 / (1 - rate))).bind fun g1 a hr1 hp1 ha => ?_
  have hx1 := hx.mono hr hr1 hp1
  obtain ⟨t, e, ht⟩ := Dev.randomBernoulli_ok hx.wf hx.small p d (m 3 0) r h2 h3
  simp only [hx1.shape hr1, ok_bind, hx.dev hr, e]
  refine (owned_yields hr1 ht (m 1)).bind fun g2 b hr2 hp2 hb => ?_
  exact ab_same (o := .mul) (l := .mul) (r := .mul) (fun u v => hmul u v) (fun _ _ => rfl) hr2 (ha.mono hr1 hr2 hp2) hb (m 2)

/-- C46 on nodes: `dropout_dim`. -/
theorem C46_node_dropout_dim (hmul : ∀ u v : α, u * v = v * u) (hr : Ready p m0 g) (hx : Evals p g x d s f) {dim : Nat} (hd : dim < 8)
    (m : Nat → Mem α) (r : Rng α) {rate : α}
    (h1 : Flt.le 1 rate = false) (h2 : Flt.le 0 (1 - rate) = true) (h3 : Flt.le (1 - rate) 1 = true) :
    ∃ coin : (Nat → Nat) → Nat → Bool, (∀ c b j, coin (cset c dim j) b = coin c b) ∧
      (∃ s1 : Shape, s1.Is (cset s.get dim 1) s.batch ∧ ∀ c b, coin c b = r.coin (1 - rate) (s1.offset (cset c dim 0) b)) ∧
      NYields p m0 g (dropoutDim p m r g x dim rate true) d s (fun c b => f c b * (1 / (1 - rate)) * (if coin c b then 1 else 0)) := by
  obtain ⟨s1, hs1⟩ := exists_reduced hx.wf hd
  obtain ⟨e1, e2, -, -⟩ := resize1 hx.wf hd hs1
  have e1' : s.resizeDim p dim 1 = ok s1 := by
    cases p
    · exact e1
    · exact refines_resizeDim _ _ _ _ e1
  refine ⟨fun c b => r.coin (1 - rate) (s1.offset (cset c dim 0) b), fun c b j => ?_, ⟨s1, hs1, fun _ _ => rfl⟩, ?_⟩
  · show r.coin _ (s1.offset (cset (cset c dim j) dim 0) b) = _
    rw [cset_cset]
  · unfold dropoutDim
    rw [if_neg (by decide), h1, if_neg (by decide)]
    obtain ⟨t, e, ht⟩ := Dev.randomBernoulli_ok hs1.1 (e2.trans hx.small) p d (m 3 0) r h2 h3
    simp only [hx.shape hr, ok_bind, e1', hx.dev hr, e]
    refine (cMul_yields hr hx (m 0) (1 / (1 - rate))).bind fun g1 a hr1 hp1 ha => ?_
    have hx1 := hx.mono hr hr1 hp1
    obtain ⟨u, e', hu⟩ := TF.broadcast_back hs1 hx.wf hx.small hd ht p (m 3 1)
    simp only [hx1.shape hr1, ok_bind, e']
    refine (owned_yields hr1 hu (m 1)).bind fun g2 b hr2 hp2 hb => ?_
    exact ab_same (o := .mul) (l := .mul) (r := .mul) (fun u v => hmul u v) (fun _ _ => rfl) hr2 (ha.mono hr1 hr2 hp2) hb (m 2)

/-! ### slice_sum -/

theorem isScalar_join {s a b : Shape} (h : s.IsJoin a b) (ha : a.WF) (hb : b.WF) (hk : a.isScalar = b.isScalar) : s.isScalar = a.isScalar := by
  rw [Bool.eq_iff_iff, h.1.isScalar_iff, ha.isScalar_iff]
  have hk' : (∀ i, a.get i = 1) ↔ ∀ i, b.get i = 1 := by rw [← ha.isScalar_iff, ← hb.isScalar_iff, hk]
  have e : ∀ i, s.get i = Max.max (a.get i) (b.get i) := h.2.1
  constructor
  · intro h1 i
    have := e i
    have := h1 i
    have := ha.get_pos i
    have := le_max_left (a.get i) (b.get i)
    omega
  · intro h1 i
    rw [e i, h1 i, hk'.mp h1 i, max_self]

/-- The nodes `xs` evaluate to the arrays `ins`. -/
inductive EvalAll (p : Profile) (g : Graph (Tensor α)) (d : Nat) : List Node → List (Shape × Arr α) → Prop
  | nil : EvalAll p g d [] []
  | cons {x : Node} {i : Shape × Arr α} {xs : List Node} {ins : List (Shape × Arr α)} :
      Evals p g x d i.1 i.2 → EvalAll p g d xs ins → EvalAll p g d (x :: xs) (i :: ins)

theorem EvalAll.mono {g g' : Graph (Tensor α)} {xs : List Node} {ins : List (Shape × Arr α)} (hr : Ready p m0 g) (hr' : Ready p m0 g')
    (hp : g <+: g') (h : EvalAll p g d xs ins) : EvalAll p g' d xs ins := by
  induction h with
  | nil => exact .nil
  | cons h _ ih => exact .cons (h.mono hr hr' hp) ih

theorem sumFrom_yields (hadd : ∀ u v : α, u + v = v + u) {a : Shape} {F : Arr α} {acc : Node} {xs : List Node} {ins : List (Shape × Arr α)}
    (hr : Ready p m0 g) (hacc : Evals p g acc d a F) (hx : EvalAll p g d xs ins) (hk : ∀ i ∈ ins, i.1.isScalar = a.isScalar)
    (h : SumShape a (ins.map Prod.fst) t) (m : Nat → Mem α) (i : Nat) :
    NYields p m0 g (sumFrom p m i g acc xs) d t (fun c b => addAll (F (bc a c) (bb a b)) ins c b) := by
  induction ins generalizing a F acc i g xs with
  | nil =>
    cases h; cases hx
    refine ⟨g, acc, rfl, hr, List.prefix_rfl, hacc.congr fun c b hv => ?_⟩
    show F _ _ = _
    rw [bc_valid hv, bb_valid hv]
  | cons in' ins ih =>
    cases hx with
    | cons hx hrest =>
    cases h with
    | @cons _ _ s' _ _ hf hj hsz hrest' =>
      unfold sumFrom
      have hk0 := hk in' List.mem_cons_self
      refine (ab_yields (o := .add) (l := .add) (r := .add) (fun u v => hadd u v) (fun _ _ => rfl) hr hacc hx hk0.symm hf hj hsz (m i)).bind
        fun g' acc' hr' hp hacc' => ?_
      have hk' : ∀ i ∈ ins, i.1.isScalar = s'.isScalar := fun i hi => by
        rw [isScalar_join hj hacc.wf hx.wf hk0.symm]; exact hk i (List.mem_cons_of_mem _ hi)
      refine (ih hr' hacc' (hrest.mono hr hr' hp) hk' hrest' (i + 1)).congr fun c b hv => ?_
      show addAll _ _ _ _ = addAll _ _ _ _
      simp only [Bi.fn, Scalar.addFw, bc_join hacc.wf hj, bb_join hacc.wf hj, bc_join hx.wf (join_symm hj), bb_join hx.wf (join_symm hj)]
      rfl

/-- C46 on nodes: `slice_sum` of a non-empty list, all scalars or no scalars among its shapes. -/
theorem C46_node_slice_sum (hadd : ∀ u v : α, u + v = v + u) (hr : Ready p m0 g) {x0 : Node} {xs : List Node} {i0 : Shape × Arr α}
    {ins : List (Shape × Arr α)} (hx0 : Evals p g x0 d i0.1 i0.2) (hx : EvalAll p g d xs ins) (hk : ∀ i ∈ ins, i.1.isScalar = i0.1.isScalar)
    (h : SumShape i0.1 (ins.map Prod.fst) t) (m : Nat → Mem α) :
    NYields p m0 g (sliceSum p m g (x0 :: xs)) d t
      (fun c b => (i0 :: ins).foldl (fun acc i => acc + i.2 (bc i.1 c) (bb i.1 b)) 0) := by
  unfold sliceSum
  rw [check_true _ (by simp), ok_bind]
  obtain ⟨z, e, hz⟩ := Dev.newByConstant_ok hx0.wf hx0.small p d (m 0 1) (0 : α)
  simp only [ix, List.getElem?_cons_zero, ok_bind, hx0.shape hr, hx0.dev hr, e]
  refine (owned_yields hr hz (m 0)).bind fun g' n hr' hp hn => ?_
  exact sumFrom_yields hadd hr' hn (ins := i0 :: ins) (.cons (hx0.mono hr hr' hp) (hx.mono hr hr' hp))
    (fun i hi => by
      rcases List.mem_cons.mp hi with rfl | hi
      · rfl
      · exact hk i hi) (.cons (OpFits.self _) (Shape.IsJoin.self hx0.wf) hx0.small h) m 1

/-- C46 on nodes: `slice_sum` of nothing panics. -/
theorem C46_node_slice_sum_empty (m : Nat → Mem α) : sliceSum p m g ([] : List Node) = panic := rfl

/-! ### normalizations -/

theorem normalized_yields (hadd : ∀ u v : α, u + v = v + u) (hmul : ∀ u v : α, u * v = v * u) {sm sg sb s1 s2 : Shape} {mean v gm be : Node}
    {mu va G B : Arr α} (hr : Ready p m0 g) (hx : Evals p g x d s f) (hmean : Evals p g mean d sm mu) (hv : Evals p g v d sm va)
    (hj : s.IsJoin s sm) (hf : OpFits s sm) (hg : Evals p g gm d sg G) (hb : Evals p g be d sb B)
    (k0 : s.isScalar = sm.isScalar) (k1 : sg.isScalar = s.isScalar) (k2 : sb.isScalar = s.isScalar)
    (f1 : OpFits sg s) (j1 : s1.IsJoin sg s) (z1 : s1.size ≤ 2 ^ 31) (f2 : OpFits s1 sb) (j2 : s2.IsJoin s1 sb) (z2 : s2.size ≤ 2 ^ 31)
    (m : Nat → Mem α) :
    NYields p m0 g (normalized p m g x mean v gm be) d s2 (fun c b => G (bc sg c) (bb sg b) *
      ((f (bc s c) (bb s b) - mu (bc sm c) (bb sm b)) / Flt.sqrt (va (bc sm c) (bb sm b))) + B (bc sb c) (bb sb b)) := by
  have k3 : s1.isScalar = sb.isScalar := by rw [isScalar_join j1 hg.wf hx.wf k1, k1, k2]
  unfold normalized
  refine (ab_yields (o := .sub) (l := .subL) (r := .subR) (fun _ _ => rfl) (fun _ _ => rfl) hr hx hmean k0 hf hj hx.small (m 0)).bind
    fun g1 a hr1 hp1 ha => ?_
  replace hv := hv.mono hr hr1 hp1
  replace hg := hg.mono hr hr1 hp1
  replace hb := hb.mono hr hr1 hp1
  refine (unary_yields .sqrt hr1 hv (m 1) fun _ ht => TF.un_yields .sqrt ht p (m 1 0)).bind fun g2 w hr2 hp2 hw => ?_
  replace ha := ha.mono hr1 hr2 hp2
  replace hg := hg.mono hr1 hr2 hp2
  replace hb := hb.mono hr1 hr2 hp2
  refine (ab_yields (o := .div) (l := .divL) (r := .divR) (fun _ _ => rfl) (fun _ _ => rfl) hr2 ha hw k0 hf hj hx.small (m 2)).bind
    fun g3 z hr3 hp3 hz => ?_
  replace hg := hg.mono hr2 hr3 hp3
  replace hb := hb.mono hr2 hr3 hp3
  refine (ab_yields (o := .mul) (l := .mul) (r := .mul) (fun u v => hmul u v) (fun _ _ => rfl) hr3 hg hz k1 f1 j1 z1 (m 3)).bind
    fun g4 y hr4 hp4 hy => ?_
  replace hb := hb.mono hr3 hr4 hp4
  refine (ab_yields (o := .add) (l := .add) (r := .add) (fun u v => hadd u v) (fun _ _ => rfl) hr4 hy hb k3 f2 j2 z2 (m 4)).congr
    fun c b _ => ?_
  have e1 : ∀ c, bc s (bc s1 c) = bc s c := fun c => bc_join hx.wf (join_symm j1) c
  have e2 : ∀ b, bb s (bb s1 b) = bb s b := fun c => bb_join hx.wf (join_symm j1) c
  have e3 : ∀ c, bc sg (bc s1 c) = bc sg c := fun c => bc_join hg.wf j1 c
  have e4 : ∀ b, bb sg (bb s1 b) = bb sg b := fun c => bb_join hg.wf j1 c
  have e5 : ∀ c, bc sm (bc s c) = bc sm c := fun c => bc_join hmean.wf (join_symm hj) c
  have e6 : ∀ b, bb sm (bb s b) = bb sm b := fun c => bb_join hmean.wf (join_symm hj) c
  have e7 : ∀ c, bc s (bc s c) = bc s c := fun c => bc_join hx.wf hj c
  have e8 : ∀ b, bb s (bb s b) = bb s b := fun c => bb_join hx.wf hj c
  simp only [Un.fn, Bi.fn, Scalar.sqrtFw, Scalar.addFw, Scalar.mulFw, Scalar.subFw, Scalar.divFw, e1, e2, e3, e4, e5, e6, e7, e8]

/-- C46 on nodes: `batch_normalization`; gamma and beta must be scalars if and only if `x` is. -/
theorem C46_node_batch_normalization (hadd : ∀ u v : α, u + v = v + u) (hmul : ∀ u v : α, u * v = v * u) {sg sb s1 s2 : Shape} {gm be : Node}
    {G B : Arr α} (hr : Ready p m0 g) (hx : Evals p g x d s f) (hg : Evals p g gm d sg G) (hb : Evals p g be d sb B)
    (k1 : sg.isScalar = s.isScalar) (k2 : sb.isScalar = s.isScalar)
    (f1 : OpFits sg s) (j1 : s1.IsJoin sg s) (z1 : s1.size ≤ 2 ^ 31) (f2 : OpFits s1 sb) (j2 : s2.IsJoin s1 sb) (z2 : s2.size ≤ 2 ^ 31)
    (eps : α) (m : Nat → Mem α) :
    NYields p m0 g (batchNormalization p m g x gm be eps true) d s2 (fun c b => G (bc sg c) (bb sg b) *
      batchNormed s.batch f eps (bc s c) (bb s b) + B (bc sb c) (bb sb b)) := by
  obtain ⟨sm, hsm⟩ := batch_shape hx.wf (le_refl 1)
  have hf : OpFits s sm := ⟨.inl fun i => (hsm.2.1 i).symm, .inr (.inr hsm.2.2)⟩
  have hj : s.IsJoin s sm := ⟨hx.wf, fun i => by show _ = Max.max _ _; rw [hsm.2.1 i, max_self], by
    rw [hsm.2.2]; exact (max_eq_left hx.wf.batch_pos).symm⟩
  have k0 : s.isScalar = sm.isScalar := by
    rw [Bool.eq_iff_iff, hx.wf.isScalar_iff, hsm.1.isScalar_iff]
    exact ⟨fun h i => by rw [hsm.2.1 i]; exact h i, fun h i => by rw [← hsm.2.1 i]; exact h i⟩
  unfold batchNormalization
  rw [if_pos rfl]
  refine (C46_node_batch_mean hr hx hsm m).bind fun g1 mean hr1 hp1 hmean => ?_
  replace hx := hx.mono hr hr1 hp1
  replace hg := hg.mono hr hr1 hp1
  replace hb := hb.mono hr hr1 hp1
  refine (ab_yields (o := .sub) (l := .subL) (r := .subR) (fun _ _ => rfl) (fun _ _ => rfl) hr1 hx hmean k0 hf hj hx.small (m 2)).bind
    fun g2 sh hr2 hp2 hsh => ?_
  refine (ab_same (o := .mul) (l := .mul) (r := .mul) (fun u v => hmul u v) (fun _ _ => rfl) hr2 hsh hsh (m 3)).bind
    fun g3 sq hr3 hp3 hsq => ?_
  refine (C46_node_batch_mean hr3 hsq hsm _).bind fun g4 v hr4 hp4 hv => ?_
  refine (addC_yields hr4 hv (m 6) eps).bind fun g5 v' hr5 hp5 hv' => ?_
  have hp15 : g1 <+: g5 := ((hp2.trans hp3).trans hp4).trans hp5
  replace hx := hx.mono hr1 hr5 hp15
  replace hg := hg.mono hr1 hr5 hp15
  replace hb := hb.mono hr1 hr5 hp15
  replace hmean := hmean.mono hr1 hr5 hp15
  refine (normalized_yields hadd hmul hr5 hx hmean hv' hj hf hg hb k0 k1 k2 f1 j1 z1 f2 j2 z2 _).congr fun c b hv => ?_
  show _ * batchNormed _ _ _ _ _ + _ = _ * _ + _
  have ec : bc sm c = bc s c := by
    funext i; unfold bc; rw [hsm.2.1 i]
  congr 2
  unfold batchNormed standardize batchVar batchMu
  simp only [ec]
  have e1 : bc s (bc s c) = bc s c := bc_join hx.wf hj c
  have e3 : bc sm (bc s c) = bc s c := by rw [show bc sm (bc s c) = bc sm c from bc_join hmean.wf (join_symm hj) c, ec]
  congr 3
  unfold avg sumTo
  congr 1
  refine foldN_congr fun k hk acc => ?_
  dsimp only
  have e2 : bb s k = k := by unfold bb; split <;> omega
  rw [e1, e2, e3]
  rfl

/-- C46 on nodes: `batch_normalization` that is not enabled multiplies by 1. -/
theorem C46_node_batch_normalization_off (hr : Ready p m0 g) (hx : Evals p g x d s f) (gm be : Node) (eps : α) (m : Nat → Mem α) :
    NYields p m0 g (batchNormalization p m g x gm be eps false) d s (fun c b => f c b * 1) := cMul_yields hr hx (m 0) 1

/-- The mean of all the elements of each batch: `x.flatten().mean(0)`. -/
theorem flatMean_node (hr : Ready p m0 g) (hx : Evals p g x d s f) {sm : Shape} (hsm : sm.Is (fun _ => 1) s.batch) (m : Mem α) (m' : Nat → Mem α) :
    NYields p m0 g (do let fl ← flatten p m g x; mean p m' fl.1 fl.2 0) d sm (fun _ b => layerMu s f b) := by
  obtain ⟨z, hz⟩ : ∃ t : Tensor α, t.Holds d s f := by obtain ⟨_, t, _, ht⟩ := hx; exact ⟨t, ht⟩
  obtain ⟨t, ht, -⟩ := TF.flatten_ok hz p (m 0)
  refine (unary_yields .flatten hr hx m (s' := t) (F := fun c b => elemAt s f b (c 0)) fun u hu => ?_).bind fun g' n hr' hp hn => ?_
  · obtain ⟨t', ht', y, e, hy⟩ := TF.flatten_ok hu p (m 0)
    rw [Shape.Is.unique ht ht']
    exact ⟨y, e, hy⟩
  have hget : t.get 0 = s.volume := by rw [ht.2.1]; rfl
  obtain ⟨s', hs', hm⟩ := C46_node_mean hr' hn (dim := 0) (by decide) m'
  have : s' = sm := by
    refine Shape.Is.unique (f := fun _ => 1) (b := s.batch) ⟨hs'.1, fun i => ?_, ?_⟩ hsm
    · rw [hs'.2.1]; unfold cset; split
      · rfl
      · rename_i h; rw [ht.2.1]; exact if_neg h
    · rw [hs'.2.2, ht.2.2]
  subst this
  refine hm.congr fun c b hv => ?_
  show avg _ _ = avg _ _
  rw [hget]
  rfl

/-- C46 is false of `layer_normalization` on nodes: whenever the input is not a scalar it panics (on tensors it works: C46_layer_normalization),
because the mean is a scalar and nodes cannot subtract a scalar from a non-scalar. -/
theorem C46_node_layer_normalization_panics (hr : Ready p m0 g) (hx : Evals p g x d s f) (hs : s.isScalar = false) (gm be : Node) (eps : α)
    (m : Nat → Mem α) : layerNormalization p m g x gm be eps = panic := by
  obtain ⟨sm, hsm⟩ : ∃ sm : Shape, sm.Is (fun _ => 1) s.batch := Shape.exists_is (fun _ => le_refl 1) (fun _ _ => rfl) (by
    simp [volN, U32]) hx.wf.batch_pos
  have hsc : sm.isScalar = true := hsm.1.isScalar_iff.mpr fun i => hsm.2.1 i
  obtain ⟨g', n, e, hr', hp, hn⟩ := flatMean_node hr hx hsm (m 0) (fun i => m (1 + i))
  simp only [Res.bind_eq_ok] at e
  obtain ⟨fl, e1, e2⟩ := e
  unfold layerNormalization
  rw [e1, ok_bind, e2, ok_bind]
  have := ab_panics (o := .sub) (l := .subL) (r := .subR) hr' (hx.mono hr hr' hp) hn (by rw [hs, hsc]; decide) (m 3)
  show (ab .sub .subL .subR p (m 3) g' x n >>= _) = panic
  rw [this]; rfl

/-- C46 on nodes: `layer_normalization` of scalars. -/
theorem C46_node_layer_normalization_scalar (hadd : ∀ u v : α, u + v = v + u) (hmul : ∀ u v : α, u * v = v * u) {sg sb s1 s2 : Shape} {gm be : Node}
    {G B : Arr α} (hr : Ready p m0 g) (hx : Evals p g x d s f) (hg : Evals p g gm d sg G) (hb : Evals p g be d sb B)
    (hs : s.isScalar = true) (k1 : sg.isScalar = true) (k2 : sb.isScalar = true)
    (f1 : OpFits sg s) (j1 : s1.IsJoin sg s) (z1 : s1.size ≤ 2 ^ 31) (f2 : OpFits s1 sb) (j2 : s2.IsJoin s1 sb) (z2 : s2.size ≤ 2 ^ 31)
    (eps : α) (m : Nat → Mem α) :
    NYields p m0 g (layerNormalization p m g x gm be eps) d s2 (fun c b => G (bc sg c) (bb sg b) *
      layerNormed s f eps (bc s c) (bb s b) + B (bc sb c) (bb sb b)) := by
  obtain ⟨sm, hsm⟩ : ∃ sm : Shape, sm.Is (fun _ => 1) s.batch := Shape.exists_is (fun _ => le_refl 1) (fun _ _ => rfl) (by
    simp [volN, U32]) hx.wf.batch_pos
  have hsc : sm.isScalar = true := hsm.1.isScalar_iff.mpr fun i => hsm.2.1 i
  have k0 : s.isScalar = sm.isScalar := by rw [hs, hsc]
  have hf : OpFits s sm := ⟨.inr (.inr fun i => hsm.2.1 i), .inl hsm.2.2.symm⟩
  have hj : s.IsJoin s sm := ⟨hx.wf, fun i => by show _ = Max.max _ _; rw [hsm.2.1 i]; exact (max_eq_left (hx.wf.get_pos i)).symm, by
    rw [hsm.2.2, max_self]⟩
  have ec : ∀ c, bc sm c = czero := fun c => by funext i; unfold bc czero; rw [if_pos (hsm.2.1 i)]
  have eb : ∀ k, bb sm k = bb s k := fun k => by unfold bb; rw [hsm.2.2]
  unfold layerNormalization
  rw [← Res.bind_assoc]
  refine (flatMean_node hr hx hsm (m 0) _).bind fun g1 mean hr1 hp1 hmean => ?_
  replace hx := hx.mono hr hr1 hp1
  replace hg := hg.mono hr hr1 hp1
  replace hb := hb.mono hr hr1 hp1
  refine (ab_yields (o := .sub) (l := .subL) (r := .subR) (fun _ _ => rfl) (fun _ _ => rfl) hr1 hx hmean k0 hf hj hx.small (m 3)).bind
    fun g2 sh hr2 hp2 hsh => ?_
  refine (ab_same (o := .mul) (l := .mul) (r := .mul) (fun u v => hmul u v) (fun _ _ => rfl) hr2 hsh hsh (m 4)).bind
    fun g3 sq hr3 hp3 hsq => ?_
  rw [← Res.bind_assoc]
  refine (flatMean_node hr3 hsq hsm (m 5) _).bind fun g4 v hr4 hp4 hv => ?_
  refine (addC_yields hr4 hv (m 8) eps).bind fun g5 v' hr5 hp5 hv' => ?_
  have hp15 : g1 <+: g5 := ((hp2.trans hp3).trans hp4).trans hp5
  replace hx := hx.mono hr1 hr5 hp15
  replace hg := hg.mono hr1 hr5 hp15
  replace hb := hb.mono hr1 hr5 hp15
  replace hmean := hmean.mono hr1 hr5 hp15
  refine (normalized_yields hadd hmul hr5 hx hmean hv' hj hf hg hb k0 (by rw [k1, hs]) (by rw [k2, hs]) f1 j1 z1 f2 j2 z2 _).congr fun c b hval => ?_
  show _ * layerNormed _ _ _ _ _ + _ = _ * _ + _
  congr 2
  unfold layerNormed standardize
  simp only [eb]
  congr 3
  unfold layerVar
  show avg _ _ = layerMu _ _ _
  unfold layerMu
  unfold avg sumTo
  congr 1
  refine foldN_congr fun k hk acc => ?_
  dsimp only
  congr 1
  have e7 : bb s (bb s b) = bb s b := bb_join hx.wf hj b
  have hvp := hx.wf.volume_pos
  have e8 : bc s (s.coord ((k + bb s b * s.volume) % s.volume)) = s.coord ((k + bb s b * s.volume) % s.volume) := by
    rw [Nat.add_mul_mod_self_right]
    exact bc_valid (hx.wf.offset_coord (k := k) (lt_of_lt_of_le hk (by
      unfold Shape.size; exact Nat.le_mul_of_pos_left _ hx.wf.batch_pos))).1
  have e9 : (k + bb s b * s.volume) / s.volume = bb s b := by
    rw [Nat.add_mul_div_right _ _ hvp, Nat.div_eq_of_lt hk, Nat.zero_add]
  unfold elemAt Arr.flat
  rw [e9]
  dsimp only
  rw [e8, e7]
  rfl

end NF
end Verif
