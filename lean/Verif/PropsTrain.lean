import Verif.PropsAd2
import Verif.PropsOpt

/-!
# C57: a training step is a step of gradient descent

`forward`, `backward` (C36) and the update of the optimizer (C40) together, over the real numbers.
-/

set_option linter.unusedSectionVars false

namespace Verif
open Res
attribute [local instance] realFlt

/-! ## Specification -/

/-- The values `θ` of the leaves, with the first `n` parameters, which are the leaves `leaf 0`, `leaf 1`, …, set to `W 0`, `W 1`, …. -/
def setLeaves (θ : Nat × Nat → Arr ℝ) (leaf : Nat → Nat) (n : Nat) (W : Nat → Arr ℝ) : Nat × Nat → Arr ℝ := fun a =>
  match (List.range n).find? (fun k => decide ((leaf k, 0) = a)) with
  | some k => W k
  | none => θ a

/-- The loss as a function of the parameters: the sum of the elements of the results of `root`, all other leaves being as in `θ`. -/
noncomputable def Graph.loss (P : Nat → NodeOp ℝ) (g : Graph (Tensor ℝ)) (root : Nat) (θ : Nat × Nat → Arr ℝ) (leaf : Nat → Nat) (n : Nat)
    (W : Nat → Arr ℝ) : ℝ := Graph.objective P g root (setLeaves θ leaf n W)

/-- `D` is the gradient at `w` of the function `L` of arrays of the shapes `ss`: along every differentiable path through `w` the derivative of
`L` is the inner product of `D` and the velocity. -/
def IsGradient (ss : List Shape) (L : (Nat → Arr ℝ) → ℝ) (w D : Nat → Arr ℝ) : Prop :=
  ∀ (W : ℝ → Nat → Arr ℝ) (t0 : ℝ) (V : Nat → Arr ℝ), (∀ k, k < ss.length → W t0 k = w k ∧ Moves (shp ss k) (fun t => W t k) t0 (V k)) →
    HasDerivAt (fun t => L (W t)) (∑ k ∈ Finset.range ss.length, dot (shp ss k) (D k) (V k)) t0

/-- The parameters `qs` are in the graph, each as one node: `leaf k` is the operator made by `parameter(&mut qs[k])`; the graph has no other
parameters. -/
structure Graph.InGraph (P : Nat → NodeOp ℝ) (g : Graph (Tensor ℝ)) (qs : List (Param ℝ)) (leaf : Nat → Nat) : Prop where
  inj : ∀ k l, k < qs.length → l < qs.length → leaf k = leaf l → k = l
  node : ∀ k q, qs[k]? = some q → leaf k < g.length ∧ P (leaf k) = .parameter q.value ∧ g.sinkOf (leaf k) = some q.gradient
  only : ∀ i t, g.sinkOf i = some t → ∃ k, k < qs.length ∧ leaf k = i

/-- The parameters when the graph, which borrows their gradients, has been dropped. -/
def Graph.giveBack (g : Graph (Tensor ℝ)) (leaf : Nat → Nat) (qs : List (Param ℝ)) : List (Param ℝ) :=
  qs.mapIdx fun k q => { q with gradient := (g.sinkOf (leaf k)).getD q.gradient }

/-- The values of the parameters. -/
def PArr.vals (as : List (PArr ℝ)) (k : Nat) : Arr ℝ := match as[k]? with
  | some a => a.value
  | none => fun _ _ => 0

/-- An iteration of training can start: parameters `qs` containing `as`, with gradients zero, in a graph made of library operators by any
history; the other inputs of the graph have the values `θ`; the operators needed for `root` are differentiable at these values (as in C36),
their results are of sizes that the memory pool accepts, have no gradients yet, and are used if there are several. -/
structure Graph.Iteration (p : Profile) (d : Nat) (m0 : Nat → ℝ) (P : Nat → NodeOp ℝ) (g : Graph (Tensor ℝ)) (root : Nat)
    (θ : Nat × Nat → Arr ℝ) (leaf : Nat → Nat) (qs : List (Param ℝ)) (as : List (PArr ℝ)) : Prop where
  made : ∃ tr, Graph.Made p d m0 P g tr
  root_lt : root < g.length
  inGraph : Graph.InGraph P g qs leaf
  zero : ∀ a ∈ as, a.grad = fun _ _ => 0
  input : ∀ i, Graph.Needs g root i → (P i).isLeaf = true → (∀ k, k < qs.length → leaf k ≠ i) →
    ∃ t : Tensor ℝ, (P i).leafValue = some t ∧ t.Holds d (g.nodeShape (i, 0)) (θ (i, 0))
  small : ∀ i v, Graph.Needs g root i → v < g.results i → (g.nodeShape (i, v)).size ≤ 2 ^ 31
  smooth : ∀ i, Graph.Needs g root i → (P i).isLeaf = false →
    (P i).Smooth (g.argShapes i) (g.argVal P (setLeaves θ leaf as.length (PArr.vals as)) i) (g.outShapes i)
  fresh : ∀ (i : Nat) (o : OpInfo (Tensor ℝ)), Graph.Needs g root i → g[i]? = some o → o.grads = o.init
  used : ∀ i v, Graph.Needs g root i → i ≠ root → 1 < g.results i → v < g.results i → ∃ j, Graph.Needs g root j ∧ (i, v) ∈ g.argsOf j

/-- The parameters after a step of gradient descent of length `rate` along `D`, gradients zero. -/
def PArr.descended (rate : ℝ) (D : Nat → Arr ℝ) (as : List (PArr ℝ)) : List (PArr ℝ) :=
  as.mapIdx fun k a => ⟨a.shape, fun c b => a.value c b - rate * D k c b, fun _ _ => 0, a.stat⟩

/-! ## Lemmas -/

theorem setLeaves_leaf {θ : Nat × Nat → Arr ℝ} {leaf : Nat → Nat} {n : Nat} (W : Nat → Arr ℝ)
    (hinj : ∀ k l, k < n → l < n → leaf k = leaf l → k = l) {k : Nat} (hk : k < n) : setLeaves θ leaf n W (leaf k, 0) = W k := by
  unfold setLeaves
  cases h : (List.range n).find? (fun l => decide ((leaf l, 0) = (leaf k, 0))) with
  | none =>
    have := List.find?_eq_none.mp h k (List.mem_range.mpr hk)
    simp at this
  | some l =>
    have h1 := List.find?_some h
    have h2 := List.mem_range.mp (List.mem_of_find?_eq_some h)
    simp only [Prod.mk.injEq, and_true, decide_eq_true_eq] at h1
    rw [hinj l k h2 hk h1]

theorem setLeaves_other {θ : Nat × Nat → Arr ℝ} {leaf : Nat → Nat} {n : Nat} (W : Nat → Arr ℝ) {a : Nat × Nat}
    (h : ∀ k, k < n → (leaf k, 0) ≠ a) : setLeaves θ leaf n W a = θ a := by
  unfold setLeaves
  rw [List.find?_eq_none.mpr fun k hk => by simpa using h k (List.mem_range.mp hk)]

namespace Graph
variable {p : Profile} {d : Nat} {m0 : Nat → ℝ} {P : Nat → NodeOp ℝ} {g : Graph (Tensor ℝ)} {root : Nat} {θ : Nat × Nat → Arr ℝ}

theorem param_nodeShape {tr : List Nat} (hm : Made p d m0 P g tr) {i : Nat} (hi : i < g.length) {t : Tensor ℝ} (hP : P i = .parameter t) :
    g.nodeShape (i, 0) = t.shape := by
  obtain ⟨-, -, ⟨outs, hsh, hinit⟩, -⟩ := hm.ops i g[i] (by simp [hi])
  rw [hP] at hsh
  have hsh : ok [t.shape] = ok outs := hsh
  obtain rfl := Res.ok.inj hsh
  simp only [nodeShape, show g[i]? = some g[i] by simp [hi], hinit]
  rfl

/-- Parameters whose nodes are not needed for the root keep their gradients. -/
theorem sink_not_needed {T : Type} {C : TensorLike T} {g g' : Graph T} {tr tr' order : List Nat} {root : Nat} (h : Hist C g tr) (hr : root < g.length)
    (hb : Backward C g root tr' order (ok g')) {i : Nat} (hi : ¬ Needs g root i) : g'.sinkOf i = g.sinkOf i := by
  obtain ⟨g1, hf, -, hmem, -, hacc⟩ := C32_backward_accumulates h hr hb
  obtain ⟨-, popped, -, -, -, hran, -⟩ := forward_spec h.inv hr hf
  have e : g1.sinkOf i = g.sinkOf i := by
    by_cases hm : i ∈ tr'
    · cases ho : g[i]? with
      | none =>
        have h1 : g1[i]? = none := by
          rw [List.getElem?_eq_none_iff] at ho ⊢
          rw [hran.len]; exact ho
        simp [sinkOf, ho, h1]
      | some o =>
        obtain ⟨_, ys, _, e⟩ := hran.run i o hm ho
        simp [sinkOf, ho, e]
    · simp [sinkOf, hran.frame i hm]
  rcases hacc.sinks i with h1 | h1
  · rw [h1, e]
  · exact absurd ((hmem i).mp h1) hi

/-- The gradients that `backward` leaves in the parameters are the gradient of the loss. -/
theorem backward_gradients {qs : List (Param ℝ)} {as : List (PArr ℝ)} {leaf : Nat → Nat} (hit : Iteration p d m0 P g root θ leaf qs as)
    (hq : Params d qs as) {tr' order : List Nat} {r : Res (Graph (Tensor ℝ))} (hb : Backward (tensorLike p m0) g root tr' order r) :
    ∃ (g' : Graph (Tensor ℝ)) (D : Nat → Arr ℝ), r = ok g' ∧
      IsGradient (as.map PArr.shape) (g.loss P root θ leaf as.length) (PArr.vals as) D ∧ GradsSet d D qs (g'.giveBack leaf qs) := by
  obtain ⟨⟨tr, hm⟩, hr, hu, hzero, hinput, hsmall, hsmooth, hfresh, hused⟩ := hit
  classical
  have hlen : qs.length = as.length := hq.length_eq
  have hat : ∀ k a, as[k]? = some a → ∃ q : Param ℝ, qs[k]? = some q ∧ q.Is d a := fun k a ha => by
    have hk : k < as.length := (List.getElem?_eq_some_iff.mp ha).1
    refine ⟨qs[k]'(by omega), List.getElem?_eq_getElem _, ?_⟩
    have := List.forall₂_iff_get.mp hq
    have h2 := this.2 k (by omega) hk
    rw [List.getElem?_eq_getElem hk] at ha
    simp only [List.get_eq_getElem] at h2
    rw [Option.some.inj ha] at h2
    exact h2
  have hshape : ∀ k a, as[k]? = some a → g.nodeShape (leaf k, 0) = a.shape := fun k a ha => by
    obtain ⟨q, hk, hi⟩ := hat k a ha
    obtain ⟨h1, h2, -⟩ := hu.node k q hk
    rw [param_nodeShape hm h1 h2, hi.value.shape]
  have hinj : ∀ k l, k < as.length → l < as.length → leaf k = leaf l → k = l := fun k l h1 h2 => hu.inj k l (by omega) (by omega)
  have hsome : ∀ k, k < qs.length → ∃ a, as[k]? = some a := fun k hk => ⟨as[k], by simp [← hlen, hk]⟩
  obtain ⟨g', D, rfl, -, hs, hder⟩ := C36_backward_is_gradient (θ := setLeaves θ leaf as.length (PArr.vals as)) (S := fun _ _ _ => 0) hm hr (by
      intro i hn hl
      by_cases hi : ∃ k, k < qs.length ∧ leaf k = i
      · obtain ⟨k, hk, rfl⟩ := hi
        obtain ⟨a, ha⟩ := hsome k hk
        obtain ⟨q, hqk, hia⟩ := hat k a ha
        obtain ⟨-, h2, -⟩ := hu.node k q hqk
        refine ⟨q.value, by rw [h2]; rfl, ?_⟩
        rw [hshape k a ha, setLeaves_leaf _ hinj (by omega)]
        have := hia.value
        rwa [show a.value = PArr.vals as k by simp [PArr.vals, ha]] at this
      · have := hinput i hn hl fun k hk e => hi ⟨k, hk, e⟩
        rwa [setLeaves_other _ fun k hk e => hi ⟨k, by omega, by simpa using e⟩]) hsmall hsmooth hfresh hused (by
      intro i t hn ht
      obtain ⟨k, hk, rfl⟩ := hu.only i t ht
      obtain ⟨a, ha⟩ := hsome k hk
      obtain ⟨q, hqk, hia⟩ := hat k a ha
      obtain ⟨-, h2, h3⟩ := hu.node k q hqk
      rw [h3] at ht
      obtain rfl := Option.some.inj ht
      refine ⟨by rw [h2]; rfl, ?_⟩
      rw [hshape k a ha]
      have := hia.grad
      rwa [hzero a (List.mem_of_getElem? ha)] at this) hb
  have hlf : ∀ i, i ∈ leaves P g root ↔ Needs g root i ∧ (P i).isLeaf = true := fun i => by
    unfold leaves
    rw [Finset.mem_filter, mem_needed hm.hist.inv.wf hr]
  refine ⟨g', fun k => if Needs g root (leaf k) then D (leaf k) else fun _ _ => 0, rfl, ?_, ?_⟩
  · intro W t0 V hW
    rw [List.length_map] at hW
    have hshp : ∀ k, k < as.length → shp (as.map PArr.shape) k = g.nodeShape (leaf k, 0) := fun k hk => by
      rw [hshape k as[k] (by simp [hk])]
      simp [shp, hk]
    have := hder (fun t => setLeaves θ leaf as.length (W t)) t0 (fun i => setLeaves (fun _ _ _ => 0) leaf as.length V (i, 0))
      (by
        funext a
        unfold setLeaves
        cases h : (List.range as.length).find? (fun k => decide ((leaf k, 0) = a)) with
        | none => rfl
        | some k => exact (hW k (List.mem_range.mp (List.mem_of_find?_eq_some h))).1) (by
        intro i hi
        by_cases hk : ∃ k, k < as.length ∧ leaf k = i
        · obtain ⟨k, hk, rfl⟩ := hk
          rw [setLeaves_leaf V hinj hk, ← hshp k hk]
          simp only [setLeaves_leaf _ hinj hk]
          exact (hW k hk).2
        · have hk : ∀ k, k < as.length → (leaf k, 0) ≠ (i, 0) := fun k h e => hk ⟨k, h, by simpa using e⟩
          rw [setLeaves_other V hk]
          simp only [setLeaves_other _ hk]
          exact fun c b _ => hasDerivAt_const _ _)
    refine this.congr_deriv ?_
    rw [List.length_map]
    have e1 : ∑ k ∈ Finset.range as.length, dot (shp (as.map PArr.shape) k) (if Needs g root (leaf k) then D (leaf k) else fun _ _ => 0) (V k) =
        ∑ k ∈ (Finset.range as.length).filter (fun k => leaf k ∈ leaves P g root),
          dot (g.nodeShape (leaf k, 0)) (D (leaf k)) (setLeaves (fun _ _ _ => 0) leaf as.length V (leaf k, 0)) := by
      rw [Finset.sum_filter]
      refine Finset.sum_congr rfl fun k hk => ?_
      have hk := Finset.mem_range.mp hk
      have hl : leaf k ∈ leaves P g root ↔ Needs g root (leaf k) := by
        rw [hlf]
        obtain ⟨q, h1, -⟩ := hat k as[k] (by simp [hk])
        rw [(hu.node k q h1).2.1]
        exact ⟨fun h => h.1, fun h => ⟨h, rfl⟩⟩
      rw [hshp k hk, setLeaves_leaf V hinj hk]
      by_cases hn : Needs g root (leaf k)
      · rw [if_pos hn, if_pos (hl.mpr hn)]
      · rw [if_neg hn, if_neg (fun h => hn (hl.mp h))]
        simp [dot]
    rw [e1, ← Finset.sum_image (f := fun i => dot (g.nodeShape (i, 0)) (D i) (setLeaves (fun _ _ _ => 0) leaf as.length V (i, 0)))
      (fun k hk l hl e => hinj k l (Finset.mem_range.mp (Finset.mem_filter.mp hk).1) (Finset.mem_range.mp (Finset.mem_filter.mp hl).1) e)]
    symm
    refine Finset.sum_subset (fun i hi => ?_) fun i hi hni => ?_
    · obtain ⟨k, hk, rfl⟩ := Finset.mem_image.mp hi
      exact (Finset.mem_filter.mp hk).2
    · rw [setLeaves_other V fun k hk e => hni (Finset.mem_image.mpr ⟨k, Finset.mem_filter.mpr ⟨Finset.mem_range.mpr hk, ?_⟩, ?_⟩)]
      · simp [dot]
      · have : leaf k = i := by simpa using e
        rw [this]; exact hi
      · simpa using e
  · refine ⟨by simp [giveBack], fun k q q' hk hk' => ?_⟩
    have hkl := (List.getElem?_eq_some_iff.mp hk).1
    obtain ⟨a, ha⟩ := hsome k hkl
    obtain ⟨q0, h3, hia⟩ := hat k a ha
    rw [hk] at h3
    obtain rfl := Option.some.inj h3
    obtain ⟨-, h4, h5⟩ := hu.node k q hk
    rw [giveBack, List.getElem?_mapIdx, hk] at hk'
    obtain rfl := Option.some.inj hk'
    have hz := hzero a (List.mem_of_getElem? ha)
    refine ⟨rfl, rfl, ?_⟩
    show (((g'.sinkOf (leaf k)).getD q.gradient).Holds d q.value.shape (if Needs g root (leaf k) then D (leaf k) else fun _ _ => 0))
    rw [hia.value.shape]
    by_cases hn : Needs g root (leaf k)
    · obtain ⟨t', h6, h7⟩ := hs (leaf k) q.gradient hn h5
      rw [h6, if_pos hn]
      rw [hshape k a ha] at h7
      exact h7.congr fun c b _ => by simp
    · rw [if_neg hn, sink_not_needed hm.hist hr hb hn, h5]
      have := hia.grad
      rwa [hz] at this

/-- C57.  One iteration of training: `backward` on `root`, the graph dropped, one update by SGD without weight decay and clipping.  Every
execution completes, and every parameter moves by `- scale * eta * D`, where `D` is the gradient of the loss with respect to the parameters at
their values; the gradients are zero again. -/
theorem C57_training_step {qs : List (Param ℝ)} {as : List (PArr ℝ)} {leaf : Nat → Nat} (hit : Iteration p d m0 P g root θ leaf qs as)
    (hq : Params d qs as) {tr' order : List Nat} {r : Res (Graph (Tensor ℝ))} (hb : Backward (tensorLike p m0) g root tr' order r) :
    ∃ (g' : Graph (Tensor ℝ)) (D : Nat → Arr ℝ), r = ok g' ∧
      IsGradient (as.map PArr.shape) (g.loss P root θ leaf as.length) (PArr.vals as) D ∧
      ∀ (o : Opt ℝ) (eta : ℝ), o.kind = .sgd eta → o.l2 ≤ 0 → o.clip ≤ 0 → o.epoch + 1 < U32 → ∀ mm : Nat → Nat → Mem ℝ,
        ∃ qs', o.updateParameters p mm (g'.giveBack leaf qs) = (qs', ok (o.epoch + 1)) ∧ Params d qs' (PArr.descended (o.lrScale * eta) D as) := by
  obtain ⟨g', D, e, hD, hG⟩ := backward_gradients hit hq hb
  refine ⟨g', D, e, hD, fun o eta hk hl2 hclip he mm => ?_⟩
  obtain ⟨qs', e, hq'⟩ := C40_sgd mul_comm hk (by simpa [Flt.gt] using hl2) (by simpa [Flt.gt] using hclip) he (hG.params hq) p mm
  refine ⟨qs', e, ?_⟩
  convert hq' using 1
  unfold PArr.descended PArr.setGrads
  refine List.ext_getElem? fun k => ?_
  rw [List.getElem?_map, List.getElem?_mapIdx, List.getElem?_mapIdx]
  cases as[k]? with
  | none => rfl
  | some a =>
    simp only [Option.map_some, Option.some.injEq, PArr.withGrad, PArr.mk.injEq, true_and, and_true]
    funext c b
    ring

/-- A function with a gradient that is not zero decreases along it, for small steps. -/
theorem descends {ss : List Shape} {L : (Nat → Arr ℝ) → ℝ} {w D : Nat → Arr ℝ} (h : IsGradient ss L w D) (hss : ∀ s ∈ ss, s.WF)
    {k : Nat} (hk : k < ss.length) {c : Nat → Nat} {b : Nat} (hv : (shp ss k).Valid c b) (hD : D k c b ≠ 0) :
    ∃ ε : ℝ, 0 < ε ∧ ∀ r, 0 < r → r < ε → L (fun k c b => w k c b - r * D k c b) < L w := by
  have hd := h (fun t k c b => w k c b - t * D k c b) 0 (fun k c b => - D k c b) fun k _ => ⟨by funext c b; simp, fun c b _ => by
    have := ((hasDerivAt_id (0 : ℝ)).mul_const (D k c b)).const_sub (w k c b)
    simpa using this⟩
  have hneg : ∑ k ∈ Finset.range ss.length, dot (shp ss k) (D k) (fun c b => - D k c b) < 0 := by
    refine Finset.sum_neg' (fun k _ => Finset.sum_nonpos fun q _ => ?_) ⟨k, Finset.mem_range.mpr hk, ?_⟩
    · nlinarith [sq_nonneg (D k q.1 q.2)]
    · refine Finset.sum_neg' (fun q _ => by nlinarith [sq_nonneg (D k q.1 q.2)]) ⟨(c, b), ?_, ?_⟩
      · have hm : shp ss k ∈ ss := by
          simp only [shp, List.getD_eq_getElem?_getD, List.getElem?_eq_getElem hk, Option.getD_some]
          exact List.getElem_mem hk
        exact (hss _ hm).mem_pos.mpr hv
      · have := sq_pos_of_ne_zero hD
        simp only
        nlinarith
  have hs := hasDerivAt_iff_tendsto_slope.mp hd
  have ev := hs.eventually (gt_mem_nhds hneg)
  rw [eventually_nhdsWithin_iff, Metric.eventually_nhds_iff] at ev
  obtain ⟨ε, hε, hev⟩ := ev
  refine ⟨ε, hε, fun r h0 h1 => ?_⟩
  have := hev (y := r) (by simpa [abs_of_pos h0] using h1) (by simpa using h0.ne')
  rw [slope_def_field] at this
  simp only [sub_zero, zero_mul] at this
  have h2 := (div_lt_iff₀ h0).mp this
  simp only [zero_mul] at h2
  linarith

/-- C57: unless the gradient of the loss is zero, every iteration with a small enough learning rate lowers the loss. -/
theorem C57_loss_decreases {qs : List (Param ℝ)} {as : List (PArr ℝ)} {leaf : Nat → Nat} (hit : Iteration p d m0 P g root θ leaf qs as)
    (hq : Params d qs as) {tr' order : List Nat} {r : Res (Graph (Tensor ℝ))} (hb : Backward (tensorLike p m0) g root tr' order r) :
    ∃ (g' : Graph (Tensor ℝ)) (D : Nat → Arr ℝ), r = ok g' ∧
      IsGradient (as.map PArr.shape) (g.loss P root θ leaf as.length) (PArr.vals as) D ∧
      ((∃ k c b, k < as.length ∧ (shp (as.map PArr.shape) k).Valid c b ∧ D k c b ≠ 0) →
        ∃ ε : ℝ, 0 < ε ∧ ∀ (o : Opt ℝ) (eta : ℝ), o.kind = .sgd eta → o.l2 ≤ 0 → o.clip ≤ 0 → o.epoch + 1 < U32 →
          0 < o.lrScale * eta → o.lrScale * eta < ε → ∀ mm : Nat → Nat → Mem ℝ,
          ∃ qs' as', o.updateParameters p mm (g'.giveBack leaf qs) = (qs', ok (o.epoch + 1)) ∧ Params d qs' as' ∧
            g.loss P root θ leaf as.length (PArr.vals as') < g.loss P root θ leaf as.length (PArr.vals as)) := by
  obtain ⟨g', D, e, hD, hup⟩ := C57_training_step hit hq hb
  refine ⟨g', D, e, hD, ?_⟩
  rintro ⟨k, c, b, hk, hv, hne⟩
  obtain ⟨ε, hε, hdec⟩ := descends hD (fun s hs => by
    obtain ⟨a, ha, rfl⟩ := List.mem_map.mp hs
    obtain ⟨k, hk⟩ := List.getElem?_of_mem ha
    have hk' := (List.getElem?_eq_some_iff.mp hk).1
    have h2 := (List.forall₂_iff_get.mp hq).2 k (by rw [hq.length_eq]; exact hk') hk'
    rw [List.getElem?_eq_getElem hk'] at hk
    simp only [List.get_eq_getElem] at h2
    rw [Option.some.inj hk] at h2
    exact h2.value.wf) (by simpa using hk) hv hne
  refine ⟨ε, hε, fun o eta h1 h2 h3 h4 h5 h6 mm => ?_⟩
  obtain ⟨qs', h7, h8⟩ := hup o eta h1 h2 h3 h4 mm
  refine ⟨qs', _, h7, h8, lt_of_eq_of_lt ?_ (hdec _ h5 h6)⟩
  unfold loss
  congr 1
  funext a
  unfold setLeaves
  cases h : (List.range as.length).find? (fun k => decide ((leaf k, 0) = a)) with
  | none => rfl
  | some k =>
    have hk := List.mem_range.mp (List.mem_of_find?_eq_some h)
    simp [PArr.vals, PArr.descended, hk]

/-- C57: `N` iterations of training, each with a graph of its own (for its own inputs), all of which can start.  Then the values of the
parameters are the iterates of gradient descent: after each iteration `n` they are `w (n+1) = w n - scale n * eta * D n`, where `D n` is the
gradient of the loss of iteration `n` at `w n`. -/
theorem C57_training_run {N : Nat} {P : Nat → Nat → NodeOp ℝ} {g : Nat → Graph (Tensor ℝ)} {root : Nat → Nat} {θ : Nat → Nat × Nat → Arr ℝ}
    {leaf : Nat → Nat → Nat} {qs : Nat → List (Param ℝ)} {as : List (PArr ℝ)} (hq : Params d (qs 0) as) (hz : ∀ a ∈ as, a.grad = fun _ _ => 0)
    (hit : ∀ n, n < N → ∀ as', Params d (qs n) as' → (∀ a ∈ as', a.grad = fun _ _ => 0) → as'.map PArr.shape = as.map PArr.shape →
      Iteration p d m0 (P n) (g n) (root n) (θ n) (leaf n) (qs n) as')
    {o : Opt ℝ} {eta : ℝ} (hk : o.kind = .sgd eta) (hl2 : o.l2 ≤ 0) (hclip : o.clip ≤ 0) (he : o.epoch + N < U32) {scale : Nat → ℝ}
    (hrun : ∀ n, n < N → ∃ tr order g' mm, Backward (tensorLike p m0) (g n) (root n) tr order (ok g') ∧
      Opt.updateParameters p mm { o with epoch := o.epoch + n, lrScale := scale n } (g'.giveBack (leaf n) (qs n)) = (qs (n + 1), ok (o.epoch + n + 1))) :
    ∃ w D : Nat → Nat → Arr ℝ, w 0 = PArr.vals as ∧
      (∀ n, n ≤ N → Params d (qs n) (as.mapIdx fun k a => ⟨a.shape, w n k, fun _ _ => 0, a.stat⟩)) ∧
      ∀ n, n < N → IsGradient (as.map PArr.shape) ((g n).loss (P n) (root n) (θ n) (leaf n) as.length) (w n) (D n) ∧
        ∀ k, k < as.length → w (n + 1) k = fun c b => w n k c b - scale n * eta * D n k c b := by
  have step : ∀ n (w : Nat → Arr ℝ), ∃ D : Nat → Arr ℝ, n < N → Params d (qs n) (as.mapIdx fun k a => ⟨a.shape, w k, fun _ _ => 0, a.stat⟩) →
      IsGradient (as.map PArr.shape) ((g n).loss (P n) (root n) (θ n) (leaf n) as.length) w D ∧
      Params d (qs (n + 1)) (as.mapIdx fun k a => ⟨a.shape, fun c b => w k c b - scale n * eta * D k c b, fun _ _ => 0, a.stat⟩) := by
    intro n w
    by_cases h : n < N ∧ Params d (qs n) (as.mapIdx fun k a => ⟨a.shape, w k, fun _ _ => 0, a.stat⟩)
    swap
    · exact ⟨fun _ _ _ => 0, fun h1 h2 => absurd ⟨h1, h2⟩ h⟩
    obtain ⟨hn, hp⟩ := h
    have hsh : (as.mapIdx fun k a => (⟨a.shape, w k, fun _ _ => 0, a.stat⟩ : PArr ℝ)).map PArr.shape = as.map PArr.shape := by
      refine List.ext_getElem? fun k => ?_
      rw [List.getElem?_map, List.getElem?_map, List.getElem?_mapIdx]
      cases as[k]? <;> rfl
    have hI := hit n hn _ hp (fun a ha => by
      rw [List.mem_mapIdx] at ha
      obtain ⟨i, hi, rfl⟩ := ha
      rfl) hsh
    obtain ⟨tr, order, g', mm, hb, hup⟩ := hrun n hn
    obtain ⟨g'', D, e, hD, hstep⟩ := C57_training_step hI hp hb
    obtain rfl := Res.ok.inj e
    obtain ⟨qs', h1, h2⟩ := hstep { o with epoch := o.epoch + n, lrScale := scale n } eta hk hl2 hclip (by show o.epoch + n + 1 < U32; omega) mm
    rw [hup] at h1
    have h1 : qs (n + 1) = qs' := congrArg Prod.fst h1
    refine ⟨D, fun _ _ => ⟨?_, ?_⟩⟩
    · rw [hsh, List.length_mapIdx] at hD
      intro W t0 V hW
      refine hD W t0 V fun k hk => ⟨?_, (hW k hk).2⟩
      rw [(hW k hk).1]
      rw [List.length_map] at hk
      simp [PArr.vals, hk]
    · rw [h1]
      convert h2 using 1
      unfold PArr.descended
      refine List.ext_getElem? fun k => ?_
      rw [List.getElem?_mapIdx, List.getElem?_mapIdx, List.getElem?_mapIdx]
      cases as[k]? <;> rfl
  choose D hD using step
  let w : Nat → Nat → Arr ℝ := fun n => Nat.rec (PArr.vals as) (fun n w k c b => w k c b - scale n * eta * D n w k c b) n
  have hw : ∀ n, n ≤ N → Params d (qs n) (as.mapIdx fun k a => ⟨a.shape, w n k, fun _ _ => 0, a.stat⟩) := by
    intro n
    induction n with
    | zero =>
      intro _
      convert hq using 1
      refine List.ext_getElem? fun k => ?_
      rw [List.getElem?_mapIdx]
      cases h : as[k]? with
      | none => rfl
      | some a =>
        have := hz a (List.mem_of_getElem? h)
        simp only [Option.map_some, Option.some.injEq]
        rw [← this]
        show (⟨a.shape, PArr.vals as k, a.grad, a.stat⟩ : PArr ℝ) = a
        simp [PArr.vals, h]
    | succ n ih => exact fun hn => (hD n (w n) (by omega) (ih (by omega))).2
  exact ⟨w, fun n => D n (w n), rfl, hw, fun n hn => ⟨(hD n (w n) hn (hw n (by omega))).1, fun k _ => rfl⟩⟩

/-! ### Example: `sum(w * x + w)` with a parameter `w` of 2 elements -/

theorem ex_iteration (p : Profile) (d : Nat) (m0 : Nat → ℝ) (m : Mem ℝ) {q : Param ℝ} {x : Tensor ℝ} {a : PArr ℝ} {fx : Arr ℝ} (hq : q.Is d a)
    (hs : a.shape = vecShape 2 1) (hz : a.grad = fun _ _ => 0) (hx : x.Holds d (vecShape 2 1) fx) :
    Iteration p d m0 (exP q.value x) (exG p d m q.value x q.gradient) 4 (fun _ => fx) (fun _ => 0) [q] [a] := by
  have hw : q.value.shape = vecShape 2 1 := hq.value.shape.trans hs
  have hm := exG_made p d m0 m q.gradient hw hx.shape
  have hi : ∀ i, Needs (exG p d m q.value x q.gradient) 4 i → i ≤ 4 := fun i h => h.le hm.hist.inv.wf
  refine ⟨⟨_, hm⟩, by show 4 < 5; omega, ⟨fun k l h1 h2 _ => by simp at h1 h2; omega, fun k q' hk => ?_, fun i t ht => ⟨0, by simp, ?_⟩⟩,
    by simpa using hz, ?_, ?_, ?_, ?_, ?_⟩
  · rcases k with _ | k
    · obtain rfl := Option.some.inj hk
      exact ⟨by show 0 < 5; omega, rfl, rfl⟩
    · cases hk
  · rcases i with _ | _ | _ | _ | _ | i
    · rfl
    all_goals cases ht
  · intro i hn hl hne
    have := hi i hn
    interval_cases i
    · exact absurd rfl (hne 0 (by simp))
    · exact ⟨x, rfl, hx⟩
    all_goals cases hl
  · intro i v hn hv
    have := hi i hn
    interval_cases i <;> (have : v = 0 := Nat.lt_one_iff.mp hv) <;> subst this <;> show Shape.size (vecShape _ 1) ≤ _ <;> decide
  · intro i hn hl
    have := hi i hn
    interval_cases i
    · cases hl
    · cases hl
    · exact fun _ _ _ => trivial
    · exact fun _ _ _ => trivial
    · show 0 < (vecShape 2 1).depth
      decide
  · intro i o hn ho
    have := hi i hn
    interval_cases i <;> (obtain rfl := Option.some.inj ho) <;> rfl
  · intro i v hn _ h1
    have := hi i hn
    interval_cases i <;> exact absurd h1 (lt_irrefl 1)

/-- C57: training runs that meet the hypotheses exist, of every length, with every input `x n` in iteration `n`. -/
example (p : Profile) (d : Nat) (m0 : Nat → ℝ) (m : Mem ℝ) (mm : Nat → Nat → Mem ℝ) (N : Nat) (hN : N < U32) (eta : ℝ) (x : Nat → Tensor ℝ)
    (fx : Nat → Arr ℝ) (hx : ∀ n, (x n).Holds d (vecShape 2 1) (fx n)) (f0 : Nat → ℝ) : ∃ (qs : Nat → Param ℝ) (a : PArr ℝ),
    Params d [qs 0] [a] ∧ (∀ n as', Params d [qs n] as' → (∀ a ∈ as', a.grad = fun _ _ => 0) → as'.map PArr.shape = [a].map PArr.shape →
      Iteration p d m0 (exP (qs n).value (x n)) (exG p d m (qs n).value (x n) (qs n).gradient) 4 (fun _ => fx n) (fun _ => 0) [qs n] as') ∧
    ∀ n, n < N → ∃ tr order g', Backward (tensorLike p m0) (exG p d m (qs n).value (x n) (qs n).gradient) 4 tr order (ok g') ∧
      Opt.updateParameters p mm ⟨n, 1, 0, 0, .sgd eta⟩ (g'.giveBack (fun _ => 0) [qs n]) = ([qs (n + 1)], ok (n + 1)) := by
  have hwf : (vecShape 2 1).WF := vecShape_wf (n := 2) (b := 1) rfl
  obtain ⟨w, hw⟩ := exists_holds hwf (by decide) d f0
  obtain ⟨z, hz⟩ := exists_holds hwf (by decide) d (fun _ => (0 : ℝ))
  have hI : ∀ n (q : Param ℝ) as', Params d [q] as' → (∀ a ∈ as', a.grad = fun _ _ => 0) → as'.map PArr.shape = [vecShape 2 1] →
      Iteration p d m0 (exP q.value (x n)) (exG p d m q.value (x n) q.gradient) 4 (fun _ => fx n) (fun _ => 0) [q] as' := by
    intro n q as' h1 h2 h3
    unfold Params at h1
    obtain ⟨a, l, h4, h5, rfl⟩ := List.forall₂_cons_left_iff.mp h1
    obtain rfl := List.forall₂_nil_left_iff.mp h5
    exact ex_iteration p d m0 m h4 (by simpa using h3) (h2 a (by simp)) (hx n)
  let Inv : Param ℝ → Prop := fun q => ∃ a, q.Is d a ∧ a.shape = vecShape 2 1 ∧ a.grad = fun _ _ => 0
  have step : ∀ n (q : {q : Param ℝ // Inv q}), ∃ q' : {q : Param ℝ // Inv q}, n < N → ∃ tr order g',
      Backward (tensorLike p m0) (exG p d m q.1.value (x n) q.1.gradient) 4 tr order (ok g') ∧
      Opt.updateParameters p mm ⟨n, 1, 0, 0, .sgd eta⟩ (g'.giveBack (fun _ => 0) [q.1]) = ([q'.1], ok (n + 1)) := by
    rintro n ⟨q, a, h1, h2, h3⟩
    by_cases hn : n < N
    swap
    · exact ⟨⟨q, a, h1, h2, h3⟩, fun h => absurd h hn⟩
    have hP : Params d [q] [a] := .cons h1 .nil
    have hit := hI n q [a] hP (by simpa using h3) (by simpa using h2)
    obtain ⟨tr, hm⟩ := hit.made
    obtain ⟨tr', order, r, hb⟩ := C32_backward_total hm.hist hit.root_lt
    obtain ⟨g', D, rfl, -, hup⟩ := C57_training_step hit hP hb
    obtain ⟨qs', e, hq'⟩ := hup ⟨n, 1, 0, 0, .sgd eta⟩ eta rfl (le_refl _) (le_refl _) (by show n + 1 < U32; omega) mm
    unfold Params PArr.descended at hq'
    obtain ⟨q', l, h4, h5, rfl⟩ := List.forall₂_cons_right_iff.mp hq'
    obtain rfl := List.forall₂_nil_right_iff.mp h5
    exact ⟨⟨q', _, h4, h2, rfl⟩, fun _ => ⟨tr', order, g', hb, e⟩⟩
  choose next hnext using step
  have h0 : Inv ⟨w, z, []⟩ := ⟨⟨vecShape 2 1, _, fun _ _ => 0, fun _ => none⟩, ⟨rfl, hw, hz, fun _ _ => rfl, List.nodup_nil, fun _ _ _ h => by cases h⟩,
    rfl, rfl⟩
  let qs : Nat → {q : Param ℝ // Inv q} := fun n => Nat.rec ⟨_, h0⟩ (fun n q => next n q) n
  exact ⟨fun n => (qs n).1, ⟨vecShape 2 1, _, fun _ _ => 0, fun _ => none⟩,
    .cons ⟨rfl, hw, hz, fun _ _ => rfl, List.nodup_nil, fun _ _ _ h => by cases h⟩ .nil, fun n as' h1 h2 h3 => hI n _ as' h1 h2 h3,
    fun n hn => hnext n (qs n) hn⟩

end Graph
end Verif
