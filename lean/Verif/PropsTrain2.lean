import Verif.PropsTrain
import Verif.PropsOpt2

/-!
# C63: training with any optimizer, with weight decay and clipping

`forward`, `backward` (C36) and the updates (C40–C42) together, over the real numbers, for every optimizer.  The gradients that the optimizers'
rules use are the true gradients of the loss at the current values of the parameters; weight decay makes them the gradients of the regularised
loss; clipping shortens them and does not turn them.
-/

set_option linter.unusedSectionVars false

namespace Verif
open Res
attribute [local instance] realFlt

/-! ## Specification -/

/-- `N` iterations of training with the optimizer `o` on device `d`, starting with parameters that contain `as` and have the statistics that the
optimizer needs (C44) and gradients zero.  Iteration `n` has a graph `g n` of its own, made by the user from the parameters `qs n`, calls
`backward` on `root n`, drops the graph and updates with learning rate scaling `scale n`; this gives the parameters `qs (n + 1)`. -/
structure Graph.Training (p : Profile) (d : Nat) (m0 : Nat → ℝ) (o : Opt ℝ) (scale : Nat → ℝ) (N : Nat) (P : Nat → Nat → NodeOp ℝ)
    (g : Nat → Graph (Tensor ℝ)) (root : Nat → Nat) (θ : Nat → Nat × Nat → Arr ℝ) (leaf : Nat → Nat → Nat) (qs : Nat → List (Param ℝ))
    (as : List (PArr ℝ)) : Prop where
  start : Params d (qs 0) as
  zero : ∀ a ∈ as, a.grad = fun _ _ => 0
  ready : ∀ a ∈ as, a.Ready o.kind
  epoch : o.epoch + N < U32
  iter : ∀ n, n < N → ∀ as', Params d (qs n) as' → (∀ a ∈ as', a.grad = fun _ _ => 0) → as'.map PArr.shape = as.map PArr.shape →
    Iteration p d m0 (P n) (g n) (root n) (θ n) (leaf n) (qs n) as'
  run : ∀ n, n < N → ∃ tr order g' mm, Backward (tensorLike p m0) (g n) (root n) tr order (ok g') ∧
    Opt.updateParameters p mm { o with epoch := o.epoch + n, lrScale := scale n } (g'.giveBack (leaf n) (qs n)) = (qs (n + 1), ok (o.epoch + n + 1))

/-- The sum of the squares of all elements of all arrays. -/
noncomputable def sumSq (ss : List Shape) (W : Nat → Arr ℝ) : ℝ := ∑ k ∈ Finset.range ss.length, dot (shp ss k) (W k) (W k)

/-- The loss with L2 regularisation. -/
noncomputable def regularised (l2 : ℝ) (ss : List Shape) (L : (Nat → Arr ℝ) → ℝ) (W : Nat → Arr ℝ) : ℝ := L W + l2 / 2 * sumSq ss W

/-! ## Lemmas -/

theorem shp_wf {d : Nat} {qs : List (Param ℝ)} {as : List (PArr ℝ)} (hq : Params d qs as) : ∀ s ∈ as.map PArr.shape, s.WF := fun s hs => by
  obtain ⟨a, ha, rfl⟩ := List.mem_map.mp hs
  obtain ⟨k, hk⟩ := List.getElem?_of_mem ha
  obtain ⟨hl, h⟩ := params_iff.mp hq
  have hk' := (List.getElem?_eq_some_iff.mp hk).1
  exact (h k (qs[k]'(by omega)) a (List.getElem?_eq_getElem _) hk).value.wf

namespace PArr

theorem updated_map (o : Opt ℝ) (as : List (PArr ℝ)) : ∃ k : PArr ℝ → PArr ℝ, (∀ a, (k a).shape = a.shape ∧ (k a).stat = a.stat) ∧
    updated o as = as.map fun a => ((k a).rule o.kind (Flt.ofInt (o.epoch + 1)) o.lrScale).zeroed := by
  have hdec : ∀ a : PArr ℝ, (a.decayed o.l2).shape = a.shape ∧ (a.decayed o.l2).stat = a.stat := by
    intro a; unfold PArr.decayed; split <;> exact ⟨rfl, rfl⟩
  unfold updated clipped
  split
  · exact ⟨fun a => (a.decayed o.l2).withGrad fun c b => (a.decayed o.l2).grad c b * (o.clip / Flt.sqrt (sqTotal (as.map (decayed o.l2)))), fun a => hdec a, by rw [List.map_map, List.map_map]; rfl⟩
  · exact ⟨fun a => a.decayed o.l2, hdec, by rw [List.map_map]; rfl⟩

theorem updated_frame (o : Opt ℝ) (as : List (PArr ℝ)) (hr : ∀ a ∈ as, a.Ready o.kind) :
    (updated o as).map shape = as.map shape ∧ (∀ a ∈ updated o as, a.grad = fun _ _ => 0) ∧ ∀ a ∈ updated o as, a.Ready o.kind := by
  obtain ⟨k, hk, e⟩ := updated_map o as
  rw [e]
  refine ⟨?_, ?_, ?_⟩
  · rw [List.map_map]
    exact List.map_congr_left fun a _ => (rule_shape _ _ _ _).trans (hk a).1
  · intro a ha
    obtain ⟨a0, -, rfl⟩ := List.mem_map.mp ha
    rfl
  · intro a ha
    obtain ⟨a0, h0, rfl⟩ := List.mem_map.mp ha
    refine rule_ready _ _ _ _ ?_
    have := hr a0 h0
    unfold PArr.Ready PArr.Has at *
    rw [(hk a0).1, (hk a0).2]; exact this

/-- An update without weight decay and clipping, one parameter. -/
theorem updated_plain {o : Opt ℝ} (hl2 : o.l2 ≤ 0) (hclip : o.clip ≤ 0) (D : Nat → Arr ℝ) {as : List (PArr ℝ)} {k : Nat} {a : PArr ℝ}
    (ha : as[k]? = some a) : (updated o (as.mapIdx fun k a => a.withGrad (D k)))[k]? =
      some (((a.withGrad (D k)).rule o.kind ((o.epoch : ℝ) + 1) o.lrScale).zeroed) := by
  have ht : (Flt.ofInt ((o.epoch : Int) + 1) : ℝ) = (o.epoch : ℝ) + 1 := by simp [Flt.ofInt]
  unfold updated clipped decayed
  rw [real_gt_false.mpr hl2, real_gt_false.mpr hclip, ht]
  simp only [Bool.false_and, Bool.false_eq_true, if_false, List.map_id', List.getElem?_map, List.getElem?_mapIdx, ha, Option.map_some]

theorem vals_some {as : List (PArr ℝ)} {k : Nat} {a : PArr ℝ} (ha : as[k]? = some a) : vals as k = a.value := by simp [vals, ha]

/-- The statistic `name` of the parameters. -/
noncomputable def stats (name : String) (as : List (PArr ℝ)) (k : Nat) : Arr ℝ := match as[k]? with
  | some a => a.read name
  | none => fun _ _ => 0

theorem stats_some {name : String} {as : List (PArr ℝ)} {k : Nat} {a : PArr ℝ} (ha : as[k]? = some a) : stats name as k = a.read name := by
  simp [stats, ha]

theorem setGrads_frame {k : OptKind ℝ} (D : Nat → Arr ℝ) (as : List (PArr ℝ)) (hr : ∀ a ∈ as, a.Ready k) :
    (setGrads D as).map shape = as.map shape ∧ ∀ a ∈ setGrads D as, a.Ready k := by
  refine ⟨?_, fun a ha => ?_⟩
  · refine List.ext_getElem? fun k => ?_
    rw [setGrads, List.getElem?_map, List.getElem?_map, List.getElem?_mapIdx]
    cases as[k]? <;> rfl
  · rw [setGrads, List.mem_iff_getElem?] at ha
    obtain ⟨k, hk⟩ := ha
    rw [List.getElem?_mapIdx, Option.map_eq_some_iff] at hk
    obtain ⟨a0, ha0, rfl⟩ := hk
    exact hr a0 (List.mem_iff_getElem?.mpr ⟨k, ha0⟩)

end PArr

theorem IsGradient.congr {ss : List Shape} {L : (Nat → Arr ℝ) → ℝ} {w w' D : Nat → Arr ℝ} (h : IsGradient ss L w D)
    (e : ∀ k, k < ss.length → w' k = w k) : IsGradient ss L w' D := fun W t0 V hW =>
  h W t0 V fun k hk => ⟨(hW k hk).1.trans (e k hk), (hW k hk).2⟩

/-- The gradient of the regularised loss. -/
theorem IsGradient.regularised {ss : List Shape} {L : (Nat → Arr ℝ) → ℝ} {w D : Nat → Arr ℝ} (h : IsGradient ss L w D) (hss : ∀ s ∈ ss, s.WF)
    (l2 : ℝ) : IsGradient ss (regularised l2 ss L) w (fun k c b => D k c b + l2 * w k c b) := by
  intro W t0 V hW
  have h1 := h W t0 V hW
  have hwf : ∀ k, k < ss.length → (shp ss k).WF := fun k hk => hss _ (by
    simp only [shp, List.getD_eq_getElem?_getD, List.getElem?_eq_getElem hk, Option.getD_some]
    exact List.getElem_mem hk)
  have h2 : HasDerivAt (fun t => sumSq ss (W t)) (∑ k ∈ Finset.range ss.length, 2 * dot (shp ss k) (w k) (V k)) t0 := by
    unfold sumSq
    refine HasDerivAt.fun_sum fun k hk => ?_
    have hk := Finset.mem_range.mp hk
    unfold dot
    rw [Finset.mul_sum]
    refine HasDerivAt.fun_sum fun q hq => ?_
    have hv := (hwf k hk).mem_pos.mp hq
    have := (hW k hk).2 q.1 q.2 hv
    refine (this.fun_mul this).congr_deriv ?_
    rw [← (hW k hk).1]
    ring
  refine (h1.fun_add (h2.const_mul (l2 / 2))).congr_deriv ?_
  rw [Finset.mul_sum, ← Finset.sum_add_distrib]
  refine Finset.sum_congr rfl fun k hk => ?_
  rw [dot_add]
  congr 1
  unfold dot
  rw [Finset.mul_sum, Finset.mul_sum]
  exact Finset.sum_congr rfl fun q _ => by ring

theorem sum_flat {s : Shape} (hs : s.WF) (F : ℝ → ℝ) (f : Arr ℝ) :
    ((PArr.elems s f).map F).sum = ∑ q ∈ s.pos, F (f q.1 q.2) := by
  classical
  unfold PArr.elems Shape.pos
  rw [List.map_map, list_sum_range, Finset.sum_image]
  · rfl
  · intro k hk l hl e
    have h1 := (hs.offset_coord (Finset.mem_range.mp hk)).2
    have h2 := (hs.offset_coord (Finset.mem_range.mp hl)).2
    have e1 := congrArg Prod.fst e
    have e2 := congrArg Prod.snd e
    simp only at e1 e2
    rw [← h1, ← h2, e1, e2]

/-- The global norm of C41 is the Euclidean norm of all elements of all gradients. -/
theorem gradNorm_sumSq {as : List (PArr ℝ)} (hss : ∀ s ∈ as.map PArr.shape, s.WF) {R : Nat → Arr ℝ}
    (hR : ∀ k a, as[k]? = some a → a.grad = R k) : gradNorm as = Real.sqrt (sumSq (as.map PArr.shape) R) := by
  unfold gradNorm sumSq
  congr 1
  rw [List.length_map, ← list_sum_range]
  congr 1
  refine List.ext_getElem? fun k => ?_
  rw [List.getElem?_map, List.getElem?_map]
  by_cases hk : k < as.length
  · rw [List.getElem?_range hk, List.getElem?_eq_getElem hk]
    simp only [Option.map_some, Option.some.injEq]
    have hm : as[k].shape ∈ as.map PArr.shape := List.mem_map.mpr ⟨_, List.getElem_mem hk, rfl⟩
    rw [sum_flat (hss _ hm), hR k as[k] (List.getElem?_eq_getElem hk)]
    have : shp (as.map PArr.shape) k = as[k].shape := by simp [shp, hk]
    rw [this]
    unfold dot
    exact Finset.sum_congr rfl fun q _ => sq _
  · rw [List.getElem?_eq_none (by simpa using hk), List.getElem?_eq_none (by simpa using hk)]
    rfl

namespace Graph
variable {p : Profile} {d : Nat} {m0 : Nat → ℝ}

/-! ## One iteration -/

section
variable {P : Nat → NodeOp ℝ} {g : Graph (Tensor ℝ)} {root : Nat} {θ : Nat × Nat → Arr ℝ}

/-- C63.  One iteration of training with any optimizer, any weight decay and any clipping: every execution completes, and the parameters are
updated by the rules of C40 and C41 with the gradient of the loss at their values. -/
theorem C63_training_step {qs : List (Param ℝ)} {as : List (PArr ℝ)} {leaf : Nat → Nat} (hit : Iteration p d m0 P g root θ leaf qs as)
    (hq : Params d qs as) {tr' order : List Nat} {r : Res (Graph (Tensor ℝ))} (hb : Backward (tensorLike p m0) g root tr' order r) :
    ∃ (g' : Graph (Tensor ℝ)) (D : Nat → Arr ℝ), r = ok g' ∧
      IsGradient (as.map PArr.shape) (g.loss P root θ leaf as.length) (PArr.vals as) D ∧
      ∀ (o : Opt ℝ), (∀ a ∈ as, a.Ready o.kind) → o.epoch + 1 < U32 → ∀ mm : Nat → Nat → Mem ℝ,
        ∃ qs', o.updateParameters p mm (g'.giveBack leaf qs) = (qs', ok (o.epoch + 1)) ∧
          Params d qs' (PArr.updated o (as.mapIdx fun k a => a.withGrad (D k))) := by
  obtain ⟨g', D, e, hD, hG⟩ := backward_gradients hit hq hb
  exact ⟨g', D, e, hD, fun o hr he mm => updateParameters_ok mul_comm o he (hG.params hq) (PArr.setGrads_frame D as hr).2 p mm⟩

/-- C63.  One iteration with SGD, weight decay `l2` and clipping: with `R` the gradient at the values of the parameters of the loss plus
`max l2 0 / 2` times the sum of the squares of all their elements, every parameter moves by `- scale * eta * k * R`; `k = 1` if there is no
clipping, and otherwise `0 ≤ k ≤ 1` and the norm of `k * R` is the smaller one of the norm of `R` and the threshold. -/
theorem C63_sgd_step {qs : List (Param ℝ)} {as : List (PArr ℝ)} {leaf : Nat → Nat} (hit : Iteration p d m0 P g root θ leaf qs as)
    (hq : Params d qs as) {tr' order : List Nat} {r : Res (Graph (Tensor ℝ))} (hb : Backward (tensorLike p m0) g root tr' order r) :
    ∃ g' : Graph (Tensor ℝ), r = ok g' ∧ ∀ l2 : ℝ, ∃ R : Nat → Arr ℝ,
      IsGradient (as.map PArr.shape) (regularised (max l2 0) (as.map PArr.shape) (g.loss P root θ leaf as.length)) (PArr.vals as) R ∧
      ∀ (o : Opt ℝ) (eta : ℝ), o.kind = .sgd eta → o.l2 = l2 → o.epoch + 1 < U32 → ∀ mm : Nat → Nat → Mem ℝ, ∃ qs' k,
        o.updateParameters p mm (g'.giveBack leaf qs) = (qs', ok (o.epoch + 1)) ∧ Params d qs' (PArr.descended (o.lrScale * eta * k) R as) ∧
        (o.clip ≤ 0 → k = 1) ∧ (0 < o.clip → 0 ≤ k ∧ k ≤ 1 ∧ k * Real.sqrt (sumSq (as.map PArr.shape) R) = min (Real.sqrt (sumSq (as.map PArr.shape) R)) o.clip) := by
  obtain ⟨g', D, e, hD, hG⟩ := backward_gradients hit hq hb
  refine ⟨g', e, fun l2 => ⟨_, hD.regularised (shp_wf hq) (max l2 0), fun o eta hk hl he mm => ?_⟩⟩
  subst hl
  have hp := hG.params hq
  have hr : ∀ a ∈ PArr.setGrads D as, a.Ready o.kind := fun a _ => by rw [hk]; trivial
  have hget : ∀ k, (PArr.setGrads D as)[k]? = (as[k]?).map fun a : PArr ℝ => a.withGrad (D k) := fun k : Nat => by rw [PArr.setGrads, List.getElem?_mapIdx]
  have hdesc : ∀ x : ℝ, ((PArr.setGrads D as).map fun a =>
      ((a.withGrad fun c b => decayedGrad o.l2 a c b * x).rule o.kind ((o.epoch : ℝ) + 1) o.lrScale).zeroed) =
      PArr.descended (o.lrScale * eta * x) (fun k c b => D k c b + max o.l2 0 * PArr.vals as k c b) as := fun x => by
    unfold PArr.descended
    refine List.ext_getElem? fun k => ?_
    rw [List.getElem?_map, hget, List.getElem?_mapIdx]
    cases ha : as[k]? with
    | none => rfl
    | some a =>
      simp only [Option.map_some, Option.some.injEq, hk, PArr.rule, PArr.zeroed, PArr.withGrad, PArr.mk.injEq, true_and, and_true]
      funext c b
      simp only [decayedGrad, PArr.vals, ha]
      ring
  by_cases hc : 0 < o.clip
  · obtain ⟨qs', k, e1, h0, h1, h2, h3⟩ := C41_clipping hc he hp hr p mm
    refine ⟨qs', k, e1, ?_, fun h => absurd hc (not_lt.mpr h), fun _ => ⟨h0, h1, ?_⟩⟩
    · rw [hdesc k] at h2
      exact h2
    · have hsh : ((PArr.setGrads D as).map fun a => a.withGrad (decayedGrad o.l2 a)).map PArr.shape = as.map PArr.shape := by
        rw [List.map_map]
        exact (List.map_congr_left fun a _ => rfl).trans (PArr.setGrads_frame (k := o.kind) D as fun a _ => by rw [hk]; trivial).1
      have hn := gradNorm_sumSq (as := (PArr.setGrads D as).map fun a => a.withGrad (decayedGrad o.l2 a))
        (R := fun k c b => D k c b + max o.l2 0 * PArr.vals as k c b) (by rw [hsh]; exact shp_wf hq) (fun k a ha => by
          rw [List.getElem?_map, hget] at ha
          cases ha' : as[k]? with
          | none => rw [ha'] at ha; cases ha
          | some a' =>
            rw [ha'] at ha
            obtain rfl := Option.some.inj ha
            funext c b
            simp [decayedGrad, PArr.withGrad, PArr.vals, ha'])
      rw [hsh] at hn
      rw [← hn]
      have hs := gradNorm_scale ((PArr.setGrads D as).map fun a => a.withGrad (decayedGrad o.l2 a)) h0
      rw [List.map_map] at hs
      rw [mul_comm, ← hs]
      exact h3
  · obtain ⟨qs', e1, h2⟩ := C41_decay (not_lt.mp hc) he hp hr p mm
    refine ⟨qs', 1, e1, ?_, fun _ => rfl, fun h => absurd h hc⟩
    rw [← hdesc 1]
    simpa only [mul_one] using h2

/-- C63: unless the gradient of the regularised loss is zero, every iteration of SGD with a small enough learning rate lowers the regularised loss,
whatever the threshold of clipping is. -/
theorem C63_regularised_loss_decreases {qs : List (Param ℝ)} {as : List (PArr ℝ)} {leaf : Nat → Nat} (hit : Iteration p d m0 P g root θ leaf qs as)
    (hq : Params d qs as) {tr' order : List Nat} {r : Res (Graph (Tensor ℝ))} (hb : Backward (tensorLike p m0) g root tr' order r) :
    ∃ g' : Graph (Tensor ℝ), r = ok g' ∧ ∀ l2 : ℝ, ∃ R : Nat → Arr ℝ,
      IsGradient (as.map PArr.shape) (regularised (max l2 0) (as.map PArr.shape) (g.loss P root θ leaf as.length)) (PArr.vals as) R ∧
      ((∃ k c b, k < as.length ∧ (shp (as.map PArr.shape) k).Valid c b ∧ R k c b ≠ 0) →
        ∃ ε : ℝ, 0 < ε ∧ ∀ (o : Opt ℝ) (eta : ℝ), o.kind = .sgd eta → o.l2 = l2 → o.epoch + 1 < U32 →
          0 < o.lrScale * eta → o.lrScale * eta < ε → ∀ mm : Nat → Nat → Mem ℝ,
          ∃ qs' as', o.updateParameters p mm (g'.giveBack leaf qs) = (qs', ok (o.epoch + 1)) ∧ Params d qs' as' ∧
            regularised (max l2 0) (as.map PArr.shape) (g.loss P root θ leaf as.length) (PArr.vals as') <
              regularised (max l2 0) (as.map PArr.shape) (g.loss P root θ leaf as.length) (PArr.vals as)) := by
  obtain ⟨g', e, hup⟩ := C63_sgd_step hit hq hb
  refine ⟨g', e, fun l2 => ?_⟩
  obtain ⟨R, hR, hup⟩ := hup l2
  refine ⟨R, hR, ?_⟩
  rintro ⟨k, c, b, hk, hv, hne⟩
  have hwf := shp_wf hq
  obtain ⟨ε, hε, hdec⟩ := descends hR hwf (by simpa using hk) hv hne
  refine ⟨ε, hε, fun o eta h1 h2 h3 h4 h5 mm => ?_⟩
  obtain ⟨qs', x, h6, h7, h8, h9⟩ := hup o eta h1 h2 h3 mm
  have hpos : 0 < sumSq (as.map PArr.shape) R := by
    unfold sumSq
    have hsq : ∀ j, 0 ≤ dot (shp (as.map PArr.shape) j) (R j) (R j) := fun j => Finset.sum_nonneg fun q _ => mul_self_nonneg _
    refine Finset.sum_pos' (fun j _ => hsq j) ⟨k, Finset.mem_range.mpr (by simpa using hk), ?_⟩
    refine Finset.sum_pos' (fun q _ => mul_self_nonneg _) ⟨(c, b), ?_, mul_self_pos.mpr hne⟩
    refine (hwf _ ?_).mem_pos.mpr hv
    simp only [shp, List.getD_eq_getElem?_getD, List.getElem?_eq_getElem (show k < (as.map PArr.shape).length by simpa using hk), Option.getD_some]
    exact List.getElem_mem _
  have hx : 0 < x ∧ x ≤ 1 := by
    by_cases hc : o.clip ≤ 0
    · rw [h8 hc]; exact ⟨one_pos, le_refl _⟩
    · obtain ⟨ha, hb, hcc⟩ := h9 (not_le.mp hc)
      refine ⟨lt_of_le_of_ne ha fun h => ?_, hb⟩
      rw [← h, zero_mul] at hcc
      have := lt_min (Real.sqrt_pos.mpr hpos) (not_le.mp hc)
      rw [← hcc] at this
      exact lt_irrefl _ this
  have hlt := hdec (o.lrScale * eta * x) (mul_pos h4 hx.1) (lt_of_le_of_lt (mul_le_of_le_one_right h4.le hx.2) h5)
  refine ⟨qs', _, h6, h7, lt_of_eq_of_lt ?_ hlt⟩
  have hval : ∀ j, j < as.length → PArr.vals (PArr.descended (o.lrScale * eta * x) R as) j =
      fun c b => PArr.vals as j c b - o.lrScale * eta * x * R j c b := fun j hj => by
    simp [PArr.vals, PArr.descended, hj]
  unfold regularised
  congr 1
  · unfold loss
    congr 1
    funext a
    unfold setLeaves
    cases h : (List.range as.length).find? (fun k => decide ((leaf k, 0) = a)) with
    | none => rfl
    | some k => exact hval k (List.mem_range.mp (List.mem_of_find?_eq_some h))
  · congr 1
    unfold sumSq
    refine Finset.sum_congr rfl fun j hj => ?_
    rw [hval j (by simpa using Finset.mem_range.mp hj)]

end

/-! ## Whole runs -/

section
variable {N : Nat} {P : Nat → Nat → NodeOp ℝ} {g : Nat → Graph (Tensor ℝ)} {root : Nat → Nat} {θ : Nat → Nat × Nat → Arr ℝ}
  {leaf : Nat → Nat → Nat} {qs : Nat → List (Param ℝ)} {as : List (PArr ℝ)} {o : Opt ℝ} {scale : Nat → ℝ}

/-- C63.  `N` iterations of training with any optimizer, weight decay and clipping: the contents of the parameters follow the recurrence of the
update rules of C40 and C41, in which every gradient is the gradient of the loss of the iteration at the values the parameters have then. -/
theorem C63_training_run (h : Training p d m0 o scale N P g root θ leaf qs as) : ∃ (w : Nat → List (PArr ℝ)) (D : Nat → Nat → Arr ℝ), w 0 = as ∧
    (∀ n, n ≤ N → Params d (qs n) (w n) ∧ (w n).map PArr.shape = as.map PArr.shape ∧ (∀ a ∈ w n, a.Ready o.kind) ∧ ∀ a ∈ w n, a.grad = fun _ _ => 0) ∧
    ∀ n, n < N → IsGradient (as.map PArr.shape) ((g n).loss (P n) (root n) (θ n) (leaf n) as.length) (PArr.vals (w n)) (D n) ∧
      w (n + 1) = PArr.updated { o with epoch := o.epoch + n, lrScale := scale n } ((w n).mapIdx fun k a => a.withGrad (D n k)) := by
  obtain ⟨hs, hz, hr, he, hit, hrun⟩ := h
  have step : ∀ n (w : List (PArr ℝ)), ∃ D : Nat → Arr ℝ, n < N → Params d (qs n) w → w.map PArr.shape = as.map PArr.shape →
      (∀ a ∈ w, a.Ready o.kind) → (∀ a ∈ w, a.grad = fun _ _ => 0) →
      IsGradient (as.map PArr.shape) ((g n).loss (P n) (root n) (θ n) (leaf n) as.length) (PArr.vals w) D ∧
      Params d (qs (n + 1)) (PArr.updated { o with epoch := o.epoch + n, lrScale := scale n } (w.mapIdx fun k a => a.withGrad (D k))) := by
    intro n w
    by_cases h : n < N ∧ Params d (qs n) w ∧ w.map PArr.shape = as.map PArr.shape ∧ (∀ a ∈ w, a.Ready o.kind) ∧ (∀ a ∈ w, a.grad = fun _ _ => 0)
    swap
    · exact ⟨fun _ _ _ => 0, fun h1 h2 h3 h4 h5 => absurd ⟨h1, h2, h3, h4, h5⟩ h⟩
    obtain ⟨hn, hp, hsh, hrd, hzr⟩ := h
    obtain ⟨tr, order, g', mm, hb, hup⟩ := hrun n hn
    obtain ⟨g'', D, e, hD, hstep⟩ := C63_training_step (hit n hn w hp hzr hsh) hp hb
    obtain rfl := Res.ok.inj e
    obtain ⟨qs', h1, h2⟩ := hstep { o with epoch := o.epoch + n, lrScale := scale n } hrd (by show o.epoch + n + 1 < U32; omega) mm
    rw [hup] at h1
    have h1 : qs (n + 1) = qs' := congrArg Prod.fst h1
    have hl : w.length = as.length := by simpa using congrArg List.length hsh
    exact ⟨D, fun _ _ _ _ _ => ⟨by rw [hsh, hl] at hD; exact hD, h1 ▸ h2⟩⟩
  choose D hD using step
  let w : Nat → List (PArr ℝ) := fun n => Nat.rec as (fun n w =>
    PArr.updated { o with epoch := o.epoch + n, lrScale := scale n } (w.mapIdx fun k a => a.withGrad (D n w k))) n
  have hw : ∀ n, n ≤ N → Params d (qs n) (w n) ∧ (w n).map PArr.shape = as.map PArr.shape ∧ (∀ a ∈ w n, a.Ready o.kind) ∧
      ∀ a ∈ w n, a.grad = fun _ _ => 0 := by
    intro n
    induction n with
    | zero => exact fun _ => ⟨hs, rfl, hr, hz⟩
    | succ n ih =>
      intro hn
      obtain ⟨h1, h2, h3, h4⟩ := ih (by omega)
      have hf := PArr.setGrads_frame (D n (w n)) (w n) h3
      have hu := PArr.updated_frame { o with epoch := o.epoch + n, lrScale := scale n } _ hf.2
      exact ⟨(hD n (w n) (by omega) h1 h2 h3 h4).2, hu.1.trans (hf.1.trans h2), hu.2.2, hu.2.1⟩
  refine ⟨w, fun n => D n (w n), rfl, hw, fun n hn => ?_⟩
  obtain ⟨h1, h2, h3, h4⟩ := hw n (by omega)
  exact ⟨(hD n (w n) hn h1 h2 h3 h4).1, rfl⟩

/-- The contents of parameter `k` before iteration `n`, for a run with the recurrence of `C63_training_run`. -/
theorem run_at {w : Nat → List (PArr ℝ)} (hw : ∀ n, n ≤ N → Params d (qs n) (w n) ∧ (w n).map PArr.shape = as.map PArr.shape ∧
    (∀ a ∈ w n, a.Ready o.kind) ∧ ∀ a ∈ w n, a.grad = fun _ _ => 0) {n : Nat} (hn : n ≤ N) {k : Nat} (hk : k < as.length) :
    ∃ a q, (w n)[k]? = some a ∧ a.shape = shp (as.map PArr.shape) k ∧ (qs n)[k]? = some q ∧ q.Is d a ∧ a.Ready o.kind := by
  obtain ⟨h1, h2, h3, -⟩ := hw n hn
  have hl : (w n).length = as.length := by simpa using congrArg List.length h2
  obtain ⟨hl', hp⟩ := params_iff.mp h1
  have hkw : k < (w n).length := by omega
  have e := congrArg (fun l : List Shape => l[k]?) h2
  simp only [List.getElem?_map, List.getElem?_eq_getElem hkw, List.getElem?_eq_getElem hk, Option.map_some, Option.some.injEq] at e
  exact ⟨(w n)[k], (qs n)[k]'(by omega), List.getElem?_eq_getElem _, by rw [e]; simp [shp, hk], List.getElem?_eq_getElem _,
    hp k _ _ (List.getElem?_eq_getElem _) (List.getElem?_eq_getElem _), h3 _ (List.getElem_mem hkw)⟩

/-- C63: training with MomentumSGD is gradient descent with momentum: before iteration `n` the values of the parameters are `w n` and the
statistics `v n`, with `v (n+1) = mu * v n - scale n * eta * D n` and `w (n+1) = w n + v (n+1)`, `D n` being the gradient of the loss of iteration
`n` at `w n`. -/
theorem C63_momentum_run (h : Training p d m0 o scale N P g root θ leaf qs as) {eta mu : ℝ} (hk : o.kind = .momentum eta mu) (hl2 : o.l2 ≤ 0)
    (hclip : o.clip ≤ 0) : ∃ w v D : Nat → Nat → Arr ℝ,
    (∀ k a, as[k]? = some a → w 0 k = a.value ∧ a.stat "MomentumSGD.m" = some (a.shape, v 0 k)) ∧
    (∀ n, n ≤ N → ∀ k, k < as.length → ∃ q t, (qs n)[k]? = some q ∧ q.value.Holds d (shp (as.map PArr.shape) k) (w n k) ∧
      q.stat "MomentumSGD.m" = some t ∧ t.Holds d (shp (as.map PArr.shape) k) (v n k)) ∧
    ∀ n, n < N → IsGradient (as.map PArr.shape) ((g n).loss (P n) (root n) (θ n) (leaf n) as.length) (w n) (D n) ∧
      ∀ k, k < as.length → (∀ c b, v (n + 1) k c b = mu * v n k c b - scale n * eta * D n k c b) ∧ ∀ c b, w (n + 1) k c b = w n k c b + v (n + 1) k c b := by
  have hr := h.ready
  obtain ⟨W, D, h0, hw, hstep⟩ := C63_training_run h
  have hat := fun n (hn : n ≤ N) k (hk : k < as.length) => run_at hw hn hk
  rw [hk] at hat
  refine ⟨fun n => PArr.vals (W n), fun n => PArr.stats "MomentumSGD.m" (W n), D, fun k a ha => ?_, fun n hn k hlt => ?_, fun n hn => ?_⟩
  · subst h0
    have := hr a (List.mem_of_getElem? ha)
    rw [hk] at this
    obtain ⟨m, hm⟩ := this
    exact ⟨PArr.vals_some ha, by simp only [PArr.stats_some ha, hm.read]; exact hm⟩
  · obtain ⟨a, q, h1, h2, h3, h4, m, h5⟩ := hat n hn k hlt
    obtain ⟨t, h6, h7⟩ := h4.stat_some _ _ _ h5
    refine ⟨q, t, h3, ?_, h6, ?_⟩
    · rw [← h2]; simp only [PArr.vals_some h1]; exact h4.value
    · rw [← h2]; simp only [PArr.stats_some h1]; rw [h5.read]; exact h7
  · obtain ⟨h1, h2⟩ := hstep n hn
    refine ⟨h1, fun k hlt => ?_⟩
    obtain ⟨a, q, h3, h4, -⟩ := hat n (by omega) k hlt
    have e := PArr.updated_plain (o := { o with epoch := o.epoch + n, lrScale := scale n }) hl2 hclip (D n) h3
    rw [← h2] at e
    simp only [PArr.vals_some h3, PArr.vals_some e, PArr.stats_some h3, PArr.stats_some e]
    simp only [hk, PArr.rule, PArr.zeroed, PArr.withGrad, PArr.put, PArr.read, if_true]
    exact ⟨fun c b => by ring, fun _ _ => trivial⟩

/-- C63: training with Adam: `m1` and `m2` are the moving averages of the gradients of the losses and of their squares, and the values move by
`- scale n * alpha * mm1 / (sqrt mm2 + eps)`, where `mm1` and `mm2` are the averages corrected by `1 - beta^t`, `t` the number of the step. -/
theorem C63_adam_run (h : Training p d m0 o scale N P g root θ leaf qs as) {alpha beta1 beta2 eps : ℝ} (hk : o.kind = .adam alpha beta1 beta2 eps)
    (hl2 : o.l2 ≤ 0) (hclip : o.clip ≤ 0) : ∃ w m1 m2 D : Nat → Nat → Arr ℝ,
    (∀ k a, as[k]? = some a → w 0 k = a.value ∧ a.stat "Adam.m1" = some (a.shape, m1 0 k) ∧ a.stat "Adam.m2" = some (a.shape, m2 0 k)) ∧
    (∀ n, n ≤ N → ∀ k, k < as.length → ∃ q t1 t2, (qs n)[k]? = some q ∧ q.value.Holds d (shp (as.map PArr.shape) k) (w n k) ∧
      q.stat "Adam.m1" = some t1 ∧ t1.Holds d (shp (as.map PArr.shape) k) (m1 n k) ∧
      q.stat "Adam.m2" = some t2 ∧ t2.Holds d (shp (as.map PArr.shape) k) (m2 n k)) ∧
    ∀ n, n < N → IsGradient (as.map PArr.shape) ((g n).loss (P n) (root n) (θ n) (leaf n) as.length) (w n) (D n) ∧
      ∀ k, k < as.length → (∀ c b, m1 (n + 1) k c b = beta1 * m1 n k c b + (1 - beta1) * D n k c b) ∧
        (∀ c b, m2 (n + 1) k c b = beta2 * m2 n k c b + (1 - beta2) * D n k c b ^ 2) ∧
        ∀ c b, w (n + 1) k c b = w n k c b - scale n * alpha * (m1 (n + 1) k c b / (1 - beta1 ^ ((o.epoch + n + 1 : ℕ) : ℝ))) /
          (Real.sqrt (m2 (n + 1) k c b / (1 - beta2 ^ ((o.epoch + n + 1 : ℕ) : ℝ))) + eps) := by
  have hr := h.ready
  obtain ⟨W, D, h0, hw, hstep⟩ := C63_training_run h
  have hat := fun n (hn : n ≤ N) k (hk : k < as.length) => run_at hw hn hk
  rw [hk] at hat
  refine ⟨fun n => PArr.vals (W n), fun n => PArr.stats "Adam.m1" (W n), fun n => PArr.stats "Adam.m2" (W n), D, fun k a ha => ?_, fun n hn k hlt => ?_,
    fun n hn => ?_⟩
  · subst h0
    have := hr a (List.mem_of_getElem? ha)
    rw [hk] at this
    obtain ⟨⟨m, hm⟩, m', hm'⟩ := this
    exact ⟨PArr.vals_some ha, by simp only [PArr.stats_some ha, hm.read]; exact hm, by simp only [PArr.stats_some ha, hm'.read]; exact hm'⟩
  · obtain ⟨a, q, h1, h2, h3, h4, ⟨m, h5⟩, m', h5'⟩ := hat n hn k hlt
    obtain ⟨t, h6, h7⟩ := h4.stat_some _ _ _ h5
    obtain ⟨t', h6', h7'⟩ := h4.stat_some _ _ _ h5'
    refine ⟨q, t, t', h3, ?_, h6, ?_, h6', ?_⟩
    · rw [← h2]; simp only [PArr.vals_some h1]; exact h4.value
    · rw [← h2]; simp only [PArr.stats_some h1]; rw [h5.read]; exact h7
    · rw [← h2]; simp only [PArr.stats_some h1]; rw [h5'.read]; exact h7'
  · obtain ⟨h1, h2⟩ := hstep n hn
    refine ⟨h1, fun k hlt => ?_⟩
    obtain ⟨a, q, h3, h4, -⟩ := hat n (by omega) k hlt
    have e := PArr.updated_plain (o := { o with epoch := o.epoch + n, lrScale := scale n }) hl2 hclip (D n) h3
    rw [← h2] at e
    simp only [PArr.vals_some h3, PArr.vals_some e, PArr.stats_some h3, PArr.stats_some e]
    simp only [hk, PArr.rule, PArr.zeroed, PArr.withGrad, PArr.put, PArr.read, if_true, show ("Adam.m1" = "Adam.m2") = False by decide, if_false]
    refine ⟨fun c b => by ring, fun c b => by ring, fun c b => ?_⟩
    push_cast
    simp only [Flt.powf, Flt.sqrt]
    ring

/-- C63: the first step of Adam from zero statistics moves every element by less than the learning rate, against the sign of its gradient. -/
theorem C63_adam_first_step (h : Training p d m0 o scale N P g root θ leaf qs as) (hN : 0 < N) {alpha beta1 beta2 eps : ℝ}
    (hk : o.kind = .adam alpha beta1 beta2 eps) (hl2 : o.l2 ≤ 0) (hclip : o.clip ≤ 0) (he : o.epoch = 0) (hb1 : beta1 ≠ 1) (hb2 : beta2 ≠ 1)
    (heps : 0 < eps) (hrate : 0 < scale 0 * alpha)
    (hst : ∀ a ∈ as, a.stat "Adam.m1" = some (a.shape, fun _ _ => 0) ∧ a.stat "Adam.m2" = some (a.shape, fun _ _ => 0)) :
    ∃ w w' D : Nat → Arr ℝ, (∀ k a, as[k]? = some a → w k = a.value) ∧
      (∀ k, k < as.length → ∃ q, (qs 1)[k]? = some q ∧ q.value.Holds d (shp (as.map PArr.shape) k) (w' k)) ∧
      IsGradient (as.map PArr.shape) ((g 0).loss (P 0) (root 0) (θ 0) (leaf 0) as.length) w D ∧
      ∀ k, k < as.length → ∀ c b, w' k c b = w k c b - scale 0 * alpha * (D k c b / (|D k c b| + eps)) ∧ |w' k c b - w k c b| < scale 0 * alpha := by
  obtain ⟨w, m1, m2, D, h0, h1, h2⟩ := C63_adam_run h hk hl2 hclip
  obtain ⟨h3, h4⟩ := h2 0 hN
  refine ⟨w 0, w 1, D 0, fun k a ha => (h0 k a ha).1, fun k hlt => ?_, h3, fun k hlt c b => ?_⟩
  · obtain ⟨q, -, -, e1, e2, -⟩ := h1 1 hN k hlt
    exact ⟨q, e1, e2⟩
  · obtain ⟨e1, e2, e3⟩ := h4 k hlt
    have ha : as[k]? = some as[k] := List.getElem?_eq_getElem hlt
    obtain ⟨-, z1, z2⟩ := h0 k _ ha
    obtain ⟨y1, y2⟩ := hst _ (List.getElem_mem hlt)
    rw [y1] at z1
    rw [y2] at z2
    have z1 : (fun _ _ => 0) = m1 0 k := by simpa using z1
    have z2 : (fun _ _ => 0) = m2 0 k := by simpa using z2
    have hw : w 1 k c b = w 0 k c b - scale 0 * alpha * (D 0 k c b / (|D 0 k c b| + eps)) := by
      have e3 := e3 c b
      simp only [Nat.zero_add] at e1 e2 e3
      rw [e3, e1, e2, ← z1, ← z2, he]
      have h1' : (1 - beta1) ≠ 0 := sub_ne_zero.mpr (Ne.symm hb1)
      have h2' : (1 - beta2) ≠ 0 := sub_ne_zero.mpr (Ne.symm hb2)
      have e4 : (beta1 * 0 + (1 - beta1) * D 0 k c b) / (1 - beta1 ^ (((0 + 0 + 1 : ℕ)) : ℝ)) = D 0 k c b := by
        simp [h1']
      have e5 : (beta2 * 0 + (1 - beta2) * D 0 k c b ^ 2) / (1 - beta2 ^ (((0 + 0 + 1 : ℕ)) : ℝ)) = D 0 k c b ^ 2 := by
        simp [h2']
      simp only [Nat.zero_add, Nat.add_zero] at e4 e5 ⊢
      rw [e4, e5, Real.sqrt_sq_eq_abs]
      ring
    refine ⟨hw, ?_⟩
    rw [hw, show w 0 k c b - scale 0 * alpha * (D 0 k c b / (|D 0 k c b| + eps)) - w 0 k c b = -(scale 0 * alpha * (D 0 k c b / (|D 0 k c b| + eps))) by ring,
      abs_neg, abs_mul, abs_of_pos hrate, abs_div]
    have hpos : 0 < |D 0 k c b| + eps := add_pos_of_nonneg_of_pos (abs_nonneg _) heps
    rw [abs_of_pos hpos]
    have : |D 0 k c b| / (|D 0 k c b| + eps) < 1 := by rw [div_lt_one hpos]; linarith
    exact mul_lt_of_lt_one_right hrate this

/-- C63: such runs exist, of every length, with every optimizer, weight decay, clipping and scaling, and every input `x n` in iteration `n`: training
`sum(w * x + w)` with a configured parameter `w` of 2 elements. -/
theorem training_exists (p : Profile) (d : Nat) (m0 : Nat → ℝ) (m : Mem ℝ) (mm : Nat → Nat → Mem ℝ) (N : Nat) (o : Opt ℝ) (he : o.epoch + N < U32)
    (scale : Nat → ℝ) (x : Nat → Tensor ℝ) (fx : Nat → Arr ℝ) (hx : ∀ n, (x n).Holds d (vecShape 2 1) (fx n)) (f0 : Nat → ℝ) :
    ∃ (qs : Nat → Param ℝ) (a : PArr ℝ), a.shape = vecShape 2 1 ∧ (∀ n ∈ o.kind.names, a.stat n = some (a.shape, fun _ _ => 0)) ∧
      Training p d m0 o scale N (fun n => exP (qs n).value (x n)) (fun n => exG p d m (qs n).value (x n) (qs n).gradient) (fun _ => 4)
        (fun n _ => fx n) (fun _ _ => 0) (fun n => [qs n]) [a] := by
  have hwf : (vecShape 2 1).WF := vecShape_wf (n := 2) (b := 1) rfl
  obtain ⟨w, hw⟩ := exists_holds hwf (by decide) d f0
  obtain ⟨z, hz⟩ := exists_holds hwf (by decide) d (fun _ => (0 : ℝ))
  have hI : ∀ n (q : Param ℝ) as', Params d [q] as' → (∀ a ∈ as', a.grad = fun _ _ => 0) → as'.map PArr.shape = [vecShape 2 1] →
      Iteration p d m0 (exP q.value (x n)) (exG p d m q.value (x n) q.gradient) 4 (fun _ => fx n) (fun _ => 0) [q] as' := by
    intro n q as' h1 h2 h3
    unfold Params at h1
    obtain ⟨a, l, h4, h5, rfl⟩ := List.forall₂_cons_left_iff.mp h1
    obtain rfl := List.forall₂_nil_left_iff.mp h5
    exact ex_iteration p d m0 m h4 (by simpa using h3) (h2 a (by simp)) (hx n)
  let Inv : Param ℝ → Prop := fun q => ∃ a, q.Is d a ∧ a.shape = vecShape 2 1 ∧ a.grad = (fun _ _ => 0) ∧ a.Ready o.kind
  have step : ∀ n (q : {q : Param ℝ // Inv q}), ∃ q' : {q : Param ℝ // Inv q}, n < N → ∃ tr order g',
      Backward (tensorLike p m0) (exG p d m q.1.value (x n) q.1.gradient) 4 tr order (ok g') ∧
      Opt.updateParameters p mm { o with epoch := o.epoch + n, lrScale := scale n } (g'.giveBack (fun _ => 0) [q.1]) = ([q'.1], ok (o.epoch + n + 1)) := by
    rintro n ⟨q, a, h1, h2, h3, hr⟩
    by_cases hn : n < N
    swap
    · exact ⟨⟨q, a, h1, h2, h3, hr⟩, fun h => absurd h hn⟩
    have hP : Params d [q] [a] := .cons h1 .nil
    have hit := hI n q [a] hP (by simpa using h3) (by simpa using h2)
    obtain ⟨tr, hm⟩ := hit.made
    obtain ⟨tr', order, r, hb⟩ := C32_backward_total hm.hist hit.root_lt
    obtain ⟨g', D, rfl, -, hup⟩ := C63_training_step hit hP hb
    obtain ⟨qs', e, hq'⟩ := hup { o with epoch := o.epoch + n, lrScale := scale n } (by simpa using hr) (by show o.epoch + n + 1 < U32; omega) mm
    have hf := PArr.setGrads_frame (k := o.kind) D [a] (by simpa using hr)
    have hu := PArr.updated_frame { o with epoch := o.epoch + n, lrScale := scale n } _ hf.2
    unfold PArr.setGrads at hf hu
    generalize PArr.updated { o with epoch := o.epoch + n, lrScale := scale n } (List.mapIdx (fun k a => a.withGrad (D k)) [a]) = as' at *
    have hsh : as'.map PArr.shape = [a.shape] := hu.1.trans hf.1
    obtain ⟨a', rfl⟩ : ∃ a', as' = [a'] := List.length_eq_one_iff.mp (by simpa using congrArg List.length hsh)
    unfold Params at hq'
    obtain ⟨q', l, h4, h5, rfl⟩ := List.forall₂_cons_right_iff.mp hq'
    obtain rfl := List.forall₂_nil_right_iff.mp h5
    have ea : a'.shape = a.shape := by simpa using hsh
    exact ⟨⟨q', a', h4, ea.trans h2, hu.2.1 a' (by simp), hu.2.2 a' (by simp)⟩, fun _ => ⟨tr', order, g', hb, e⟩⟩
  choose next hnext using step
  have hi0 : Param.Is (⟨w, z, []⟩ : Param ℝ) d ⟨vecShape 2 1, _, fun _ _ => 0, fun _ => none⟩ :=
    ⟨rfl, hw, hz, fun _ _ => rfl, List.nodup_nil, fun _ _ _ h => by cases h⟩
  obtain ⟨q0, -, hq0⟩ := configureParameter_ok hi0 o p m
  have hrd := configured_ready (a := (⟨vecShape 2 1, fun c b => f0 ((vecShape 2 1).offset c b), fun _ _ => 0, fun _ => none⟩ : PArr ℝ)) o.kind
    (fun _ _ _ h => by cases h)
  have h0 : Inv q0 := ⟨_, hq0, rfl, rfl, hrd⟩
  let qs : Nat → {q : Param ℝ // Inv q} := fun n => Nat.rec ⟨_, h0⟩ (fun n q => next n q) n
  refine ⟨fun n => (qs n).1, _, rfl, fun n hn => ?_, .cons hq0 .nil, by simp [PArr.configured], by simpa using hrd, he,
    fun n _ as' h1 h2 h3 => hI n _ as' h1 h2 (by simpa [PArr.configured] using h3), fun n hn => ?_⟩
  · simp [PArr.configured, hn]
  · obtain ⟨tr, order, g', h1, h2⟩ := hnext n (qs n) hn
    exact ⟨tr, order, g', mm, h1, h2⟩

/-- C63: the hypotheses of `C63_adam_first_step` and `C63_adam_run` are met by a run of 3 iterations with Adam's defaults. -/
example (p : Profile) (d : Nat) (m0 : Nat → ℝ) (x : Tensor ℝ) (fx : Arr ℝ) (hx : x.Holds d (vecShape 2 1) fx) : ∃ (o : Opt ℝ) (P : Nat → Nat → NodeOp ℝ)
    (g : Nat → Graph (Tensor ℝ)) (qs : Nat → List (Param ℝ)) (as : List (PArr ℝ)), as.length = 1 ∧
    Training p d m0 o (fun _ => 1) 3 P g (fun _ => 4) (fun _ _ => fx) (fun _ _ => 0) qs as ∧ o.kind = .adam (1 / 1000) (9 / 10) (999 / 1000) (1 / 100000000) ∧
    o.l2 ≤ 0 ∧ o.clip ≤ 0 ∧ o.epoch = 0 ∧ (0 : ℝ) < 1 * (1 / 1000) ∧
    ∀ a ∈ as, a.stat "Adam.m1" = some (a.shape, fun _ _ => 0) ∧ a.stat "Adam.m2" = some (a.shape, fun _ _ => 0) := by
  obtain ⟨qs, a, -, h2, h3⟩ := training_exists p d m0 (fun _ _ => 0) (fun _ _ _ _ => 0) 3 ⟨0, 1, 0, 0, .adam (1 / 1000) (9 / 10) (999 / 1000) (1 / 100000000)⟩
    (by decide) (fun _ => 1) (fun _ => x) (fun _ => fx) (fun _ => hx) (fun _ => 1)
  refine ⟨_, _, _, _, _, rfl, h3, rfl, le_refl _, le_refl _, rfl, by norm_num, fun b hb => ?_⟩
  obtain rfl := List.mem_singleton.mp hb
  exact ⟨h2 _ (by simp [OptKind.names]), h2 _ (by simp [OptKind.names])⟩

/-- C63: one with momentum, weight decay and clipping exists as well. -/
example (p : Profile) (d : Nat) (m0 : Nat → ℝ) (x : Tensor ℝ) (fx : Arr ℝ) (hx : x.Holds d (vecShape 2 1) fx) : ∃ (o : Opt ℝ) (P : Nat → Nat → NodeOp ℝ)
    (g : Nat → Graph (Tensor ℝ)) (qs : Nat → List (Param ℝ)) (as : List (PArr ℝ)), as.length = 1 ∧ o.kind = .momentum (1 / 100) (9 / 10) ∧ o.l2 = 1 ∧ o.clip = 2 ∧
    Training p d m0 o (fun n => 1 / (n + 1)) 5 P g (fun _ => 4) (fun _ _ => fx) (fun _ _ => 0) qs as := by
  obtain ⟨qs, a, -, -, h3⟩ := training_exists p d m0 (fun _ _ => 0) (fun _ _ _ _ => 0) 5 ⟨7, 1, 1, 2, .momentum (1 / 100) (9 / 10)⟩
    (by decide) (fun n => 1 / (n + 1)) (fun _ => x) (fun _ => fx) (fun _ => hx) (fun _ => 1)
  exact ⟨_, _, _, _, _, rfl, rfl, rfl, rfl, h3⟩

end
end Graph
end Verif
