import Verif.PropsAdam

/-!
# Property C84: training depends only on the loss, and scaling the loss is the same as changing the settings

Two training runs (C63), with their own graphs, devices, builds, memory contents and execution orders.
-/

set_option linter.unusedSectionVars false

namespace Verif
open Res
attribute [local instance] realFlt

/-! ## Specification -/

/-- The settings for a loss multiplied by `c`. -/
noncomputable def OptKind.scaled (c : ℝ) : OptKind ℝ → OptKind ℝ
  | .sgd eta => .sgd (eta / c)
  | .momentum eta mu => .momentum (eta / c) mu
  | .adam alpha beta1 beta2 eps => .adam alpha beta1 beta2 (c * eps)

/-- The settings for a loss multiplied by `c`, with weight decay and clipping. -/
noncomputable def Opt.scaled (c : ℝ) (o : Opt ℝ) : Opt ℝ := { o with l2 := c * o.l2, clip := c * o.clip, kind := o.kind.scaled c }

/-! ## Updates -/

/-- The same parameter in two runs, the second with gradients multiplied by `c`. -/
structure PArr.Scaled (c : ℝ) (k : OptKind ℝ) (a a' : PArr ℝ) : Prop where
  shape : a'.shape = a.shape
  value : a'.value = a.value
  grad : a'.grad = fun x b => c * a.grad x b
  stat : match k with
    | .sgd _ => True
    | .momentum _ _ => a'.read "MomentumSGD.m" = a.read "MomentumSGD.m"
    | .adam _ _ _ _ => (a'.read "Adam.m1" = fun x b => c * a.read "Adam.m1" x b) ∧ a'.read "Adam.m2" = fun x b => c ^ 2 * a.read "Adam.m2" x b

namespace PArr
variable {c : ℝ} {k : OptKind ℝ}

theorem Scaled.withGrad {a a' : PArr ℝ} (h : Scaled c k a a') {G : Arr ℝ} {G' : Arr ℝ} (e : G' = fun x b => c * G x b) :
    Scaled c k (a.withGrad G) (a'.withGrad G') := ⟨h.shape, h.value, e, h.stat⟩

theorem Scaled.decayed (hc : 0 < c) {a a' : PArr ℝ} (h : Scaled c k a a') (l2 : ℝ) : Scaled c k (a.decayed l2) (a'.decayed (c * l2)) := by
  unfold PArr.decayed
  by_cases hl : 0 < l2
  · rw [real_gt.mpr hl, real_gt.mpr (mul_pos hc hl)]
    simp only [if_true]
    refine h.withGrad ?_
    rw [h.grad, h.value]
    funext x b
    ring
  · rw [real_gt_false.mpr (not_lt.mp hl), real_gt_false.mpr (mul_nonpos_of_nonneg_of_nonpos hc.le (not_lt.mp hl))]
    simpa using h

theorem Scaled.sqTotal {as as' : List (PArr ℝ)} (h : List.Forall₂ (Scaled c k) as as') : sqTotal as' = c ^ 2 * sqTotal as := by
  rw [sqTotal_eq, sqTotal_eq]
  induction h with
  | nil => simp
  | cons h1 _ ih =>
    rw [List.map_cons, List.map_cons, List.sum_cons, List.sum_cons, ih, mul_add]
    congr 1
    rw [h1.shape, h1.grad, elems, elems, List.map_map, List.map_map, ← List.sum_map_mul_left]
    congr 1
    refine List.map_congr_left fun j _ => ?_
    simp only [Function.comp, Arr.flat]
    ring

theorem Scaled.clipped (hc : 0 < c) {as as' : List (PArr ℝ)} (h : List.Forall₂ (Scaled c k) as as') (x : ℝ) :
    List.Forall₂ (Scaled c k) (clipped x as) (clipped (c * x) as') := by
  have ht := Scaled.sqTotal h
  have h0 := sqTotal_nonneg as
  unfold PArr.clipped
  rw [ht]
  have e1 : Flt.gt (c * x) 0 = Flt.gt x 0 := by
    rw [Bool.eq_iff_iff, real_gt, real_gt]
    exact mul_pos_iff_of_pos_left hc
  have e2 : Flt.gt (c ^ 2 * PArr.sqTotal as) (c * x * (c * x)) = Flt.gt (PArr.sqTotal as) (x * x) := by
    rw [Bool.eq_iff_iff, real_gt, real_gt, show c * x * (c * x) = c ^ 2 * (x * x) by ring]
    exact mul_lt_mul_iff_right₀ (pow_pos hc 2)
  rw [e1, e2]
  split
  · rw [List.forall₂_map_left_iff, List.forall₂_map_right_iff]
    refine h.imp fun a a' ha => ha.withGrad ?_
    have e3 : c * x / Flt.sqrt (c ^ 2 * PArr.sqTotal as) = x / Flt.sqrt (PArr.sqTotal as) := by
      show c * x / Real.sqrt (c ^ 2 * PArr.sqTotal as) = x / Real.sqrt (PArr.sqTotal as)
      rw [Real.sqrt_mul (sq_nonneg c), Real.sqrt_sq hc.le, mul_div_mul_left _ _ hc.ne']
    rw [e3, ha.grad]
    funext y b
    ring
  · exact h

theorem Scaled.rule (hc : 0 < c) {a a' : PArr ℝ} (h : Scaled c k a a') (t s : ℝ) :
    Scaled c k ((a.rule k t s).zeroed) ((a'.rule (k.scaled c) t s).zeroed) := by
  obtain ⟨h1, h2, h3, h4⟩ := h
  have hne := hc.ne'
  cases k with
  | sgd eta =>
    refine ⟨h1, ?_, by funext x b; exact (mul_zero c).symm, trivial⟩
    show (fun x b => a'.value x b - a'.grad x b * (s * (eta / c))) = fun x b => a.value x b - a.grad x b * (s * eta)
    rw [h2, h3]
    funext x b
    field_simp
  | momentum eta mu =>
    simp only at h4
    have e : (fun x b => a'.read "MomentumSGD.m" x b * mu - a'.grad x b * (s * (eta / c))) =
        fun x b => a.read "MomentumSGD.m" x b * mu - a.grad x b * (s * eta) := by
      rw [h3, h4]
      funext x b
      field_simp
    refine ⟨h1, ?_, by funext x b; exact (mul_zero c).symm, ?_⟩
    · show (fun x b => a'.value x b + (fun x b => a'.read "MomentumSGD.m" x b * mu - a'.grad x b * (s * (eta / c))) x b) = _
      rw [e, h2]
      rfl
    · show PArr.read _ "MomentumSGD.m" = PArr.read _ "MomentumSGD.m"
      simp only [OptKind.scaled, PArr.rule, PArr.zeroed, PArr.withGrad, PArr.put, PArr.read, if_true]
      exact e
  | adam alpha beta1 beta2 eps =>
    simp only at h4
    have e1 : (fun x b => a'.read "Adam.m1" x b * beta1 + a'.grad x b * (1 - beta1)) =
        fun x b => c * (a.read "Adam.m1" x b * beta1 + a.grad x b * (1 - beta1)) := by
      rw [h3, h4.1]
      funext x b
      ring
    have e2 : (fun x b => a'.read "Adam.m2" x b * beta2 + a'.grad x b * (1 - beta2) * a'.grad x b) =
        fun x b => c ^ 2 * (a.read "Adam.m2" x b * beta2 + a.grad x b * (1 - beta2) * a.grad x b) := by
      rw [h3, h4.2]
      funext x b
      ring
    have e1 := fun x b => congrFun (congrFun e1 x) b
    have e2 := fun x b => congrFun (congrFun e2 x) b
    refine ⟨h1, ?_, by funext x b; exact (mul_zero c).symm, ?_, ?_⟩
    · simp only [OptKind.scaled, PArr.rule, PArr.zeroed, PArr.withGrad, PArr.put]
      rw [h2]
      funext x b
      rw [e1 x b, e2 x b]
      simp only [Flt.sqrt]
      rw [mul_div_assoc (c ^ 2), Real.sqrt_mul (sq_nonneg c), Real.sqrt_sq hc.le, ← mul_add, mul_div_assoc c, mul_assoc c,
        mul_div_mul_left _ _ hne]
    · simp only [OptKind.scaled, PArr.rule, PArr.zeroed, PArr.withGrad, PArr.put, PArr.read, show ("Adam.m1" = "Adam.m2") = False by decide, if_true, if_false]
      funext x b
      exact e1 x b
    · simp only [OptKind.scaled, PArr.rule, PArr.zeroed, PArr.withGrad, PArr.put, PArr.read, if_true]
      funext x b
      exact e2 x b

theorem Scaled.updated (hc : 0 < c) {as as' : List (PArr ℝ)} (o : Opt ℝ) (h : List.Forall₂ (Scaled c o.kind) as as') :
    List.Forall₂ (Scaled c o.kind) (updated o as) (updated (o.scaled c) as') := by
  unfold PArr.updated
  rw [List.forall₂_map_left_iff, List.forall₂_map_right_iff]
  refine (Scaled.clipped hc (as := as.map (PArr.decayed o.l2)) (as' := as'.map (PArr.decayed (c * o.l2))) ?_ o.clip).imp fun a a' ha => ha.rule hc _ _
  rw [List.forall₂_map_left_iff, List.forall₂_map_right_iff]
  exact h.imp fun a a' ha => ha.decayed hc o.l2

theorem Scaled.setGrads {as as' : List (PArr ℝ)} (h : List.Forall₂ (Scaled c k) as as') (D : Nat → Arr ℝ) :
    List.Forall₂ (Scaled c k) (setGrads D as) (setGrads (fun k x b => c * D k x b) as') := by
  unfold PArr.setGrads
  rw [List.forall₂_iff_get]
  have hl := h.length_eq
  refine ⟨by simpa using hl, fun i h1 h2 => ?_⟩
  simp only [List.get_eq_getElem, List.getElem_mapIdx]
  exact ((List.forall₂_iff_get.mp h).2 i (by simpa using h1) (by simpa using h2)).withGrad rfl

theorem Scaled.vals {as as' : List (PArr ℝ)} (h : List.Forall₂ (Scaled c k) as as') : vals as' = vals as := by
  funext j
  unfold PArr.vals
  by_cases hj : j < as.length
  · have hj' : j < as'.length := h.length_eq ▸ hj
    rw [List.getElem?_eq_getElem hj, List.getElem?_eq_getElem hj']
    exact ((List.forall₂_iff_get.mp h).2 j hj hj').value
  · have hl := h.length_eq
    rw [List.getElem?_eq_none (l := as') (by omega), List.getElem?_eq_none (l := as) (by omega)]

end PArr

namespace Graph

/-- One iteration, with any gradient of the loss. -/
theorem step_gradient {p : Profile} {d : Nat} {m0 : Nat → ℝ} {P : Nat → NodeOp ℝ} {g : Graph (Tensor ℝ)} {root : Nat} {θ : Nat × Nat → Arr ℝ}
    {qs : List (Param ℝ)} {as : List (PArr ℝ)} {leaf : Nat → Nat} (hit : Iteration p d m0 P g root θ leaf qs as)
    (hq : Params d qs as) {tr' order : List Nat} {g' : Graph (Tensor ℝ)} (hb : Backward (tensorLike p m0) g root tr' order (ok g')) {E : Nat → Arr ℝ}
    (hE : IsGradient (as.map PArr.shape) (g.loss P root θ leaf as.length) (PArr.vals as) E) {o : Opt ℝ} (hr : ∀ a ∈ as, a.Ready o.kind)
    (he : o.epoch + 1 < U32) {mm : Nat → Nat → Mem ℝ} {qs' : List (Param ℝ)}
    (hup : o.updateParameters p mm (g'.giveBack leaf qs) = (qs', ok (o.epoch + 1))) : Params d qs' (PArr.updated o (PArr.setGrads E as)) := by
  obtain ⟨g'', D, e, hD, hG⟩ := backward_gradients hit hq hb
  obtain rfl := Res.ok.inj e
  have hp : Params d (g'.giveBack leaf qs) (PArr.setGrads E as) := by
    have h1 := hG.params hq
    obtain ⟨hl, h2⟩ := params_iff.mp h1
    refine params_iff.mpr ⟨by simpa [PArr.setGrads] using hl, fun k q a hk ha => ?_⟩
    unfold PArr.setGrads at ha
    rw [List.getElem?_mapIdx, Option.map_eq_some_iff] at ha
    obtain ⟨a0, ha0, rfl⟩ := ha
    obtain ⟨i1, i2, i3, i4, i5, i6⟩ := h2 k q (a0.withGrad (D k)) hk (by unfold PArr.setGrads; rw [List.getElem?_mapIdx, ha0]; rfl)
    refine ⟨i1, i2, ?_, i4, i5, i6⟩
    have hlt : k < as.length := (List.getElem?_eq_some_iff.mp ha0).1
    have hs : shp (as.map PArr.shape) k = a0.shape := by simp [shp, ha0]
    exact i3.congr fun c b hv => hE.unique hD (shp_wf hq) (by simpa using hlt) (by rw [hs]; exact hv)
  obtain ⟨qs'', h1, h2⟩ := updateParameters_ok mul_comm o he hp (PArr.setGrads_frame E as hr).2 p mm
  rw [hup] at h1
  rw [show qs' = qs'' from congrArg Prod.fst h1]
  exact h2

section
variable {p p' : Profile} {d d' : Nat} {m0 m0' : Nat → ℝ} {N : Nat} {P P' : Nat → Nat → NodeOp ℝ} {g g' : Nat → Graph (Tensor ℝ)} {root root' : Nat → Nat}
  {θ θ' : Nat → Nat × Nat → Arr ℝ} {leaf leaf' : Nat → Nat → Nat} {qs qs' : Nat → List (Param ℝ)} {as as' : List (PArr ℝ)} {o : Opt ℝ} {scale : Nat → ℝ}

theorem ready_scaled {c : ℝ} {k : OptKind ℝ} {a : PArr ℝ} : a.Ready (k.scaled c) ↔ a.Ready k := by
  cases k <;> rfl

/-- C84.  Two runs of training with the same number of iterations, from the same values and zero statistics, in which every loss of the second run is `c > 0` times
that of the first one, as a function of the values of the parameters; the settings of the second optimizer are those of the first one with the learning rate
divided by `c` (SGD, MomentumSGD) or `eps` multiplied by `c` (Adam), and weight decay and clipping threshold multiplied by `c`.  Then the parameters have the
same values in both runs after every iteration. -/
theorem C84_scaled_loss (h : Training p d m0 o scale N P g root θ leaf qs as) {c : ℝ} (hc : 0 < c)
    (h' : Training p' d' m0' (o.scaled c) scale N P' g' root' θ' leaf' qs' as')
    (hloss : ∀ n, n < N → ∀ W, (g' n).loss (P' n) (root' n) (θ' n) (leaf' n) as'.length W = c * (g n).loss (P n) (root n) (θ n) (leaf n) as.length W)
    (hshape : as'.map PArr.shape = as.map PArr.shape) (hval : as'.map PArr.value = as.map PArr.value)
    (hst : ∀ a ∈ as, ∀ n ∈ o.kind.names, a.stat n = some (a.shape, fun _ _ => 0)) (hst' : ∀ a ∈ as', ∀ n ∈ o.kind.names, a.stat n = some (a.shape, fun _ _ => 0)) :
    ∃ w : Nat → Nat → Arr ℝ, w 0 = PArr.vals as ∧
      ∀ n, n ≤ N → ValuesAre d (as.map PArr.shape) (qs n) (w n) ∧ ValuesAre d' (as.map PArr.shape) (qs' n) (w n) := by
  obtain ⟨W, D, h0, hw, hstep⟩ := C63_training_run h
  have hlen : as'.length = as.length := by simpa using congrArg List.length hshape
  have hbase : List.Forall₂ (PArr.Scaled c o.kind) as as' := by
    refine List.forall₂_iff_get.mpr ⟨hlen.symm, fun i h1 h2 => ?_⟩
    simp only [List.get_eq_getElem]
    have e1 : as'[i].shape = as[i].shape := by
      have := congrArg (fun l : List Shape => l[i]?) hshape
      simpa [h1, h2] using this
    have e2 : as'[i].value = as[i].value := by
      have := congrArg (fun l : List (Arr ℝ) => l[i]?) hval
      simpa [h1, h2] using this
    refine ⟨e1, e2, ?_, ?_⟩
    · rw [h'.zero _ (List.getElem_mem h2), h.zero _ (List.getElem_mem h1)]
      funext x b
      exact (mul_zero c).symm
    · have s1 := hst _ (List.getElem_mem h1)
      have s2 := hst' _ (List.getElem_mem h2)
      cases hk : o.kind with
      | sgd eta => trivial
      | momentum eta mu =>
        rw [hk] at s1 s2
        simp only [PArr.read, s1 "MomentumSGD.m" (by simp [OptKind.names]), s2 "MomentumSGD.m" (by simp [OptKind.names])]
      | adam alpha beta1 beta2 eps =>
        rw [hk] at s1 s2
        simp only [PArr.read, s1 "Adam.m1" (by simp [OptKind.names]), s2 "Adam.m1" (by simp [OptKind.names]), s1 "Adam.m2" (by simp [OptKind.names]),
          s2 "Adam.m2" (by simp [OptKind.names]), mul_zero, and_self]
  have hrun : ∀ n, n ≤ N → ∃ W', Params d' (qs' n) W' ∧ W'.map PArr.shape = as'.map PArr.shape ∧ (∀ a ∈ W', a.Ready (o.scaled c).kind) ∧
      (∀ a ∈ W', a.grad = fun _ _ => 0) ∧ List.Forall₂ (PArr.Scaled c o.kind) (W n) W' := by
    intro n
    induction n with
    | zero => exact fun _ => ⟨as', h'.start, rfl, h'.ready, h'.zero, h0 ▸ hbase⟩
    | succ n ih =>
      intro hn
      obtain ⟨W', i1, i2, i3, i4, i5⟩ := ih (by omega)
      obtain ⟨a1, a2⟩ := hstep n (by omega)
      obtain ⟨tr, order, gb, mm, hb, hup⟩ := h'.run n (by omega)
      have he := h'.epoch
      have hL' : W'.length = as'.length := by simpa using congrArg List.length i2
      have hE : IsGradient (W'.map PArr.shape) ((g' n).loss (P' n) (root' n) (θ' n) (leaf' n) W'.length) (PArr.vals W') (fun k x b => c * D n k x b) := by
        rw [i2, hshape, PArr.Scaled.vals i5, hL', show (g' n).loss (P' n) (root' n) (θ' n) (leaf' n) as'.length =
          fun V => c * (g n).loss (P n) (root n) (θ n) (leaf n) as.length V from funext (hloss n (by omega))]
        exact a1.scale c
      have hf := PArr.setGrads_frame (k := (o.scaled c).kind) (fun k x b => c * D n k x b) W' i3
      have hu := PArr.updated_frame { o.scaled c with epoch := (o.scaled c).epoch + n, lrScale := scale n } _ hf.2
      refine ⟨_, step_gradient (o := { o.scaled c with epoch := (o.scaled c).epoch + n, lrScale := scale n }) (h'.iter n (by omega) W' i1 i4 i2) i1 hb hE i3
        (by show (o.scaled c).epoch + n + 1 < U32; omega) hup, hu.1.trans (hf.1.trans i2), hu.2.2, hu.2.1, ?_⟩
      rw [a2]
      exact PArr.Scaled.updated hc { o with epoch := o.epoch + n, lrScale := scale n } (PArr.Scaled.setGrads i5 (D n))
  have hvals : ∀ {d : Nat} {qs : List (Param ℝ)} {as W : List (PArr ℝ)}, Params d qs W → W.map PArr.shape = as.map PArr.shape →
      ValuesAre d (as.map PArr.shape) qs (PArr.vals W) := by
    intro d qs as W hp hs
    obtain ⟨hl, h2⟩ := params_iff.mp hp
    have hl' : W.length = as.length := by simpa using congrArg List.length hs
    refine ⟨by rw [List.length_map, ← hl']; exact hl, fun k hk => ?_⟩
    rw [List.length_map] at hk
    have hkW : k < W.length := by omega
    have hkq : k < qs.length := by omega
    refine ⟨qs[k], List.getElem?_eq_getElem _, ?_⟩
    have := (h2 k qs[k] W[k] (List.getElem?_eq_getElem _) (List.getElem?_eq_getElem _)).value
    rw [← hs, PArr.vals_some (List.getElem?_eq_getElem hkW)]
    have e : shp (W.map PArr.shape) k = W[k].shape := by simp [shp, hkW]
    rw [e]
    exact this
  refine ⟨fun n => PArr.vals (W n), by show PArr.vals (W 0) = _; rw [h0], fun n hn => ⟨hvals (hw n hn).1 (hw n hn).2.1, ?_⟩⟩
  obtain ⟨W', i1, i2, -, -, i5⟩ := hrun n hn
  rw [← hshape]
  have := hvals i1 i2
  rw [PArr.Scaled.vals i5] at this
  exact this

/-- C84.  Two runs with the same settings whose losses are equal as functions of the values of the parameters, however the graphs compute them, on whatever devices and in
whatever order, give the parameters the same values. -/
theorem C84_same_loss (h : Training p d m0 o scale N P g root θ leaf qs as) (h' : Training p' d' m0' o scale N P' g' root' θ' leaf' qs' as')
    (hloss : ∀ n, n < N → ∀ W, (g' n).loss (P' n) (root' n) (θ' n) (leaf' n) as'.length W = (g n).loss (P n) (root n) (θ n) (leaf n) as.length W)
    (hshape : as'.map PArr.shape = as.map PArr.shape) (hval : as'.map PArr.value = as.map PArr.value)
    (hst : ∀ a ∈ as, ∀ n ∈ o.kind.names, a.stat n = some (a.shape, fun _ _ => 0)) (hst' : ∀ a ∈ as', ∀ n ∈ o.kind.names, a.stat n = some (a.shape, fun _ _ => 0)) :
    ∃ w : Nat → Nat → Arr ℝ, w 0 = PArr.vals as ∧
      ∀ n, n ≤ N → ValuesAre d (as.map PArr.shape) (qs n) (w n) ∧ ValuesAre d' (as.map PArr.shape) (qs' n) (w n) := by
  have e : o.scaled 1 = o := by
    obtain ⟨e1, e2, e3, e4, k⟩ := o
    cases k <;> simp [Opt.scaled, OptKind.scaled]
  exact C84_scaled_loss h one_pos (e.symm ▸ h') (fun n hn W => (hloss n hn W).trans (one_mul _).symm) hshape hval hst hst'

end

/-! ### Example: the squared distance of C80 multiplied by `k` in the graph -/

/-- The operators. -/
noncomputable def sqcP (k : ℝ) (w x : Tensor ℝ) : Nat → NodeOp ℝ
  | 0 => .parameter w
  | 1 => .input x
  | 2 => .bi .sub
  | 3 => .bi .mul
  | _ => .cn .mul k

/-- The graph. -/
noncomputable def sqcG (p : Profile) (d : Nat) (m : Mem ℝ) (k : ℝ) (w x gw : Tensor ℝ) : Graph (Tensor ℝ) :=
  push p d m (sqG p d m w x gw) (.cn .mul k) none [(3, 0)] [vecShape 2 1]

theorem sqcG_made (p : Profile) (d : Nat) (m0 : Nat → ℝ) (m : Mem ℝ) (k : ℝ) {w x : Tensor ℝ} (gw : Tensor ℝ) (hw : w.shape = vecShape 2 1)
    (hx : x.shape = vecShape 2 1) : Made p d m0 (sqcP k w x) (sqcG p d m k w x gw) [] := by
  have h0 : Made p d m0 (sqcP k w x) _ [] := Made.push .empty (op := .parameter w) rfl rfl (outs := [vecShape 2 1]) (args := [])
    (by show (ok [w.shape] : Res _) = _; rw [hw]) (by simp) m (some gw)
  have h1 := Made.push h0 (op := .input x) rfl rfl (outs := [vecShape 2 1]) (args := []) (by show (ok [x.shape] : Res _) = _; rw [hx]) (by simp) m none
  have h2 := Made.push h1 (op := .bi .sub) rfl rfl (outs := [vecShape 2 1]) (args := [(0, 0), (1, 0)]) rfl
    (by intro a ha; simp only [List.mem_cons, List.not_mem_nil, or_false] at ha; rcases ha with rfl | rfl <;> exact Nat.one_pos) m none
  have h3 := Made.push h2 (op := .bi .mul) rfl rfl (outs := [vecShape 2 1]) (args := [(2, 0), (2, 0)]) rfl
    (by intro a ha; simp only [List.mem_cons, List.not_mem_nil, or_false] at ha; rcases ha with rfl | rfl <;> exact Nat.one_pos) m none
  exact Made.push h3 (op := .cn .mul k) rfl rfl (outs := [vecShape 2 1]) (args := [(3, 0)]) rfl
    (by intro a ha; simp only [List.mem_cons, List.not_mem_nil, or_false] at ha; subst ha; exact Nat.one_pos) m none

theorem sqc_iteration (p : Profile) (d : Nat) (m0 : Nat → ℝ) (m : Mem ℝ) (k : ℝ) {q : Param ℝ} {x : Tensor ℝ} {a : PArr ℝ} {fx : Arr ℝ} (hq : q.Is d a)
    (hs : a.shape = vecShape 2 1) (hz : a.grad = fun _ _ => 0) (hx : x.Holds d (vecShape 2 1) fx) :
    Iteration p d m0 (sqcP k q.value x) (sqcG p d m k q.value x q.gradient) 4 (fun _ => fx) (fun _ => 0) [q] [a] := by
  have hw : q.value.shape = vecShape 2 1 := hq.value.shape.trans hs
  have hm := sqcG_made p d m0 m k q.gradient hw hx.shape
  have hi : ∀ i, Needs (sqcG p d m k q.value x q.gradient) 4 i → i ≤ 4 := fun i h => h.le hm.hist.inv.wf
  refine ⟨⟨_, hm⟩, by show 4 < 5; omega, ⟨fun k l h1 h2 _ => by simp at h1 h2; omega, fun k q' hk => ?_, fun i t ht => ⟨0, by simp, ?_⟩⟩,
    by simpa using hz, ?_, ?_, ?_, ?_, ?_⟩
  · rcases k with _ | k
    · obtain rfl := Option.some.inj hk
      exact ⟨by show 0 < 5; omega, rfl, rfl⟩
    · cases hk
  · rcases i with _ | _ | _ | _ | _ | i
    · rfl
    all_goals cases ht
  · intro i hn hl hne
    have := hi i hn
    interval_cases i
    · exact absurd rfl (hne 0 (by simp))
    · exact ⟨x, rfl, hx⟩
    all_goals cases hl
  · intro i v hn hv
    have := hi i hn
    interval_cases i <;> (have : v = 0 := Nat.lt_one_iff.mp hv) <;> subst this <;> show Shape.size (vecShape _ 1) ≤ _ <;> decide
  · intro i hn hl
    have := hi i hn
    interval_cases i
    · cases hl
    · cases hl
    all_goals exact fun _ _ _ => trivial
  · intro i o hn ho
    have := hi i hn
    interval_cases i <;> (obtain rfl := Option.some.inj ho) <;> rfl
  · intro i v hn _ h1
    have := hi i hn
    interval_cases i <;> exact absurd h1 (lt_irrefl 1)

theorem sqc_loss (p : Profile) (d : Nat) (m : Mem ℝ) (k : ℝ) {w x gw : Tensor ℝ} {fx : Arr ℝ} (hw : w.shape = vecShape 2 1) (hx : x.shape = vecShape 2 1)
    (W : Nat → Arr ℝ) : (sqcG p d m k w x gw).loss (sqcP k w x) 4 (fun _ => fx) (fun _ => 0) 1 W = k * sqDist [vecShape 2 1] W (fun _ => fx) := by
  have hwf : (vecShape 2 1).WF := vecShape_wf (n := 2) (b := 1) rfl
  have hg := (sqcG_made p d (fun _ => 0) m k gw hw hx).hist.inv.wf
  unfold loss
  have t0 : setLeaves (fun _ => fx) (fun _ => 0) 1 W (0, 0) = W 0 := rfl
  have t1 : setLeaves (fun _ => fx) (fun _ => 0) 1 W (1, 0) = fx := rfl
  generalize setLeaves (fun _ => fx) (fun _ => 0) 1 W = T at *
  have e0 : evalR (sqcG p d m k w x gw) (sqcP k w x) T 0 0 = T (0, 0) := evalR_leaf rfl 0
  have e1 : evalR (sqcG p d m k w x gw) (sqcP k w x) T 1 0 = T (1, 0) := evalR_leaf rfl 0
  have e2 : evalR (sqcG p d m k w x gw) (sqcP k w x) T 2 0 = fun c b => T (0, 0) c (bb (vecShape 2 1) b) - T (1, 0) c (bb (vecShape 2 1) b) := by
    rw [evalR_node hg rfl, ← e0, ← e1]; rfl
  have e3 : evalR (sqcG p d m k w x gw) (sqcP k w x) T 3 0 = fun c b =>
      evalR (sqcG p d m k w x gw) (sqcP k w x) T 2 0 c (bb (vecShape 2 1) b) *
        evalR (sqcG p d m k w x gw) (sqcP k w x) T 2 0 c (bb (vecShape 2 1) b) := by
    rw [evalR_node hg rfl]; rfl
  have e4 : evalR (sqcG p d m k w x gw) (sqcP k w x) T 4 0 = fun c b => evalR (sqcG p d m k w x gw) (sqcP k w x) T 3 0 c b * k := by
    rw [evalR_node hg rfl]; rfl
  have r3 : results (sqcG p d m k w x gw) 4 = 1 := rfl
  have n3 : nodeShape (sqcG p d m k w x gw) (4, 0) = vecShape 2 1 := rfl
  unfold objective sqDist sumSq
  rw [r3, Finset.sum_range_one, n3, e4, e3, e2, t0, t1]
  simp only [List.length_singleton, Finset.sum_range_one]
  unfold total dot
  rw [Finset.mul_sum]
  refine Finset.sum_congr rfl fun q hq => ?_
  have hb : q.2 = 0 := Nat.lt_one_iff.mp (hwf.mem_pos.mp hq).2
  have hbb : bb (vecShape 2 1) q.2 = q.2 := by rw [hb]; rfl
  simp only [hbb]
  ring

/-- Beside C84: for every optimizer, weight decay, threshold, factor `k > 0` and number of iterations there are two runs, one on the squared distance and one on `k`
times it with the settings of `Opt.scaled`, that meet the hypotheses; so the parameters agree in both. -/
example (p : Profile) (d : Nat) (m0 : Nat → ℝ) (x : Tensor ℝ) (fx : Arr ℝ) (hx : x.Holds d (vecShape 2 1) fx) (f0 : Nat → ℝ) (N : Nat) (hN : N < U32)
    (l2 clip k : ℝ) (hk : 0 < k) (kind : OptKind ℝ) :
    ∃ (P P' : Nat → Nat → NodeOp ℝ) (g g' : Nat → Graph (Tensor ℝ)) (qs qs' : Nat → List (Param ℝ)) (as as' : List (PArr ℝ)) (w : Nat → Nat → Arr ℝ),
      PArr.vals as 0 = (fun c b => f0 ((vecShape 2 1).offset c b)) ∧
      Training p d m0 ⟨0, 1, l2, clip, kind⟩ (fun _ => 1) N P g (fun _ => 3) (fun _ _ => fx) (fun _ _ => 0) qs as ∧
      Training p d m0 (Opt.scaled k ⟨0, 1, l2, clip, kind⟩) (fun _ => 1) N P' g' (fun _ => 4) (fun _ _ => fx) (fun _ _ => 0) qs' as' ∧
      ∀ n, n ≤ N → ValuesAre d [vecShape 2 1] (qs n) (w n) ∧ ValuesAre d [vecShape 2 1] (qs' n) (w n) := by
  obtain ⟨qs, a, hst, h1, h2, h3, h4⟩ := run_exists p d m0 (fun _ _ => 0) (fun _ _ _ _ => 0) N ⟨0, 1, l2, clip, kind⟩ (by show 0 + N < U32; omega) (fun _ => 1) f0
    (P := fun _ q => sqP q.value x) (G := fun _ q => sqG p d (fun _ _ => 0) q.value x q.gradient) (root := fun _ => 3) (θ := fun _ _ => fx)
    fun n q a b1 b2 b3 => sq_iteration p d m0 (fun _ _ => 0) b1 b2 b3 hx
  obtain ⟨qs', a', hst', h1', h2', h3', h4'⟩ := run_exists p d m0 (fun _ _ => 0) (fun _ _ _ _ => 0) N (Opt.scaled k ⟨0, 1, l2, clip, kind⟩)
    (by show 0 + N < U32; omega) (fun _ => 1) f0
    (P := fun _ q => sqcP k q.value x) (G := fun _ q => sqcG p d (fun _ _ => 0) k q.value x q.gradient) (root := fun _ => 4) (θ := fun _ _ => fx)
    fun n q a b1 b2 b3 => sqc_iteration p d m0 (fun _ _ => 0) k b1 b2 b3 hx
  have hn : (kind.scaled k).names = kind.names := by cases kind <;> rfl
  obtain ⟨w, -, e1⟩ := C84_scaled_loss h4 hk h4' (fun n hn W => by
      refine (sqc_loss p d (fun _ _ => 0) k (h3' n hn.le) hx.shape W).trans (congrArg (k * ·) ?_)
      exact (sq_loss p d (fun _ _ => 0) (h3 n hn.le) hx.shape W).symm)
    (by simp [h1, h1']) (by simp [h2, h2']) (by simpa using hst) (by
      intro b hb n hnn
      obtain rfl := List.mem_singleton.mp hb
      exact hst' n (by show n ∈ (kind.scaled k).names; rw [hn]; exact hnn))
  have hss : [a].map PArr.shape = [vecShape 2 1] := by simp [h1]
  rw [hss] at e1
  exact ⟨_, _, _, _, _, _, [a], [a'], w, h2, h4, h4', e1⟩

end Graph
end Verif
