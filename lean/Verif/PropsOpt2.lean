import Verif.PropsOpt
import Mathlib.Algebra.BigOperators.Intervals
import Mathlib.Tactic.Ring
import Mathlib.Tactic.Linarith
import Mathlib.Tactic.NormNum

/-!
# Properties of optimizers over the real numbers (C40, C41, C43)
-/

set_option linter.unusedSectionVars false

namespace Verif
open Res Finset
attribute [local instance] realFlt
variable {d : Nat} {p : Profile}

theorem real_gt {a b : ℝ} : Flt.gt a b = true ↔ b < a := by simp [Flt.gt]
theorem real_gt_false {a b : ℝ} : Flt.gt a b = false ↔ a ≤ b := by simp [Flt.gt]

/-- Runs of every length exist: the gradients can be set to anything and the update does not fail. -/
theorem exists_trains {o : Opt ℝ} (scale : Nat → ℝ) (G : Nat → Nat → Arr ℝ) (N : Nat) (he : o.epoch + N < U32) {qs : List (Param ℝ)}
    {as : List (PArr ℝ)} (h : Params d qs as) (hr : ∀ a, a ∈ as → a.Ready o.kind) (p : Profile) :
    ∃ qss : Nat → List (Param ℝ), qss 0 = qs ∧ o.Trains p d scale G N qss := by
  have hset : ∀ (G : Nat → Arr ℝ) (qs : List (Param ℝ)) (as : List (PArr ℝ)), Params d qs as → ∃ qs', GradsSet d G qs qs' := by
    intro G qs as h
    induction h generalizing G with
    | nil => exact ⟨[], rfl, fun k q q' hq => by simp at hq⟩
    | @cons q a qs as hq _ ih =>
      obtain ⟨qs', hl, hg⟩ := ih (fun k => G (k + 1))
      obtain ⟨t, ht⟩ := exists_holds hq.value.wf hq.value.small d (Arr.flat a.shape (G 0))
      refine ⟨{ q with gradient := t } :: qs', by simp [hl], fun k q1 q2 h1 h2 => ?_⟩
      cases k with
      | zero =>
        simp only [List.getElem?_cons_zero, Option.some.injEq] at h1 h2
        subst h1 h2
        refine ⟨rfl, rfl, ?_⟩
        rw [hq.value.shape]
        exact ht.congr fun c b hv => (Arr.flat_offset hq.value.wf (G 0) hv).symm
      | succ k => exact hg k q1 q2 (by simpa using h1) (by simpa using h2)
  induction N with
  | zero => exact ⟨fun _ => qs, rfl, fun n hn => absurd hn (by omega)⟩
  | succ N ih =>
    obtain ⟨qss, h0, ht⟩ := ih (by omega)
    have hall : ∀ n, n ≤ N → ∃ as, Params d (qss n) as ∧ ∀ a, a ∈ as → a.Ready o.kind := by
      intro n
      induction n with
      | zero => exact fun _ => ⟨as, h0 ▸ h, hr⟩
      | succ n ihn =>
        intro hn
        obtain ⟨as1, h1, hr1⟩ := ihn (by omega)
        refine ⟨_, trains_step mul_comm ht (by omega) (by omega) h1 hr1, ?_⟩
        have : ∀ a, a ∈ PArr.setGrads (G n) as1 → a.Ready o.kind := by
          intro a ha
          unfold PArr.setGrads at ha
          rw [List.mem_iff_getElem?] at ha
          obtain ⟨k, hk⟩ := ha
          rw [List.getElem?_mapIdx, Option.map_eq_some_iff] at hk
          obtain ⟨a0, ha0, rfl⟩ := hk
          exact hr1 a0 (List.mem_iff_getElem?.mpr ⟨k, ha0⟩)
        intro a ha
        unfold PArr.updated at ha
        obtain ⟨a1, ha1, rfl⟩ := List.mem_map.mp ha
        refine rule_ready _ _ _ _ ?_
        have hdec : ∀ a, a ∈ (PArr.setGrads (G n) as1).map (PArr.decayed o.l2) → a.Ready o.kind := by
          intro a ha
          obtain ⟨a0, ha0, rfl⟩ := List.mem_map.mp ha
          have := this a0 ha0
          unfold PArr.decayed; split
          · exact this
          · exact this
        unfold PArr.clipped at ha1
        split at ha1
        · obtain ⟨a2, ha2, rfl⟩ := List.mem_map.mp ha1
          exact hdec a2 ha2
        · exact hdec a1 ha1
    obtain ⟨as1, h1, hr1⟩ := hall N (le_refl _)
    obtain ⟨qs', hg⟩ := hset (G N) _ _ h1
    have hr' : ∀ a, a ∈ PArr.setGrads (G N) as1 → a.Ready o.kind := by
      intro a ha
      unfold PArr.setGrads at ha
      rw [List.mem_iff_getElem?] at ha
      obtain ⟨k, hk⟩ := ha
      rw [List.getElem?_mapIdx, Option.map_eq_some_iff] at hk
      obtain ⟨a0, ha0, rfl⟩ := hk
      exact hr1 a0 (List.mem_iff_getElem?.mpr ⟨k, ha0⟩)
    obtain ⟨qs2, e2, -⟩ := updateParameters_ok mul_comm { o with epoch := o.epoch + N, lrScale := scale N } (by simp only; omega)
      (hg.params h1) hr' p (fun _ _ _ _ => 0)
    refine ⟨fun n => if n ≤ N then qss n else qs2, by simp [h0], fun n hn => ?_⟩
    by_cases hnN : n < N
    · obtain ⟨qs3, m3, g3, e3⟩ := ht n hnN
      refine ⟨qs3, m3, ?_, ?_⟩
      · simp only [if_pos (show n ≤ N by omega)]; exact g3
      · simp only [if_pos (show n + 1 ≤ N by omega)]; exact e3
    · have : n = N := by omega
      subst this
      refine ⟨qs', fun _ _ _ _ => 0, ?_, ?_⟩
      · simp only [if_pos (le_refl n)]; exact hg
      · simp only [if_neg (show ¬ n + 1 ≤ n by omega)]; exact e2

/-! ### C40 -/

/-- C40: after `n` steps of SGD with learning rate scalings `scale i` and gradients `G i k` (step `i`, parameter `k`) every value is
`v - eta * Σ_{i<n} scale i * G i k`. -/
theorem C40_sgd_run {o : Opt ℝ} {eta : ℝ} (hk : o.kind = .sgd eta) (hl2 : o.l2 ≤ 0) (hclip : o.clip ≤ 0) {scale : Nat → ℝ} {G : Nat → Nat → Arr ℝ}
    {N : Nat} {qs : Nat → List (Param ℝ)} (ht : o.Trains p d scale G N qs) (he : o.epoch + N < U32) {as : List (PArr ℝ)} (h : Params d (qs 0) as) :
    ∀ n, n ≤ N → Params d (qs n) (as.mapIdx fun k a =>
      ⟨a.shape, fun c b => a.value c b - eta * ∑ i ∈ range n, scale i * G i k c b, if n = 0 then a.grad else fun _ _ => 0, a.stat⟩) := by
  intro n
  induction n with
  | zero =>
    intro _
    simp only [range_zero, sum_empty, mul_zero, sub_zero, if_true]
    rw [show (as.mapIdx fun k a => (⟨a.shape, a.value, a.grad, a.stat⟩ : PArr ℝ)) = as by
      apply List.ext_getElem? ; intro i; rw [List.getElem?_mapIdx]; cases as[i]? <;> rfl]
    exact h
  | succ n ih =>
    intro hn
    have := trains_step mul_comm ht he (by omega) (ih (by omega)) (by intro a _; rw [hk]; trivial)
    convert this using 1
    unfold PArr.updated PArr.clipped PArr.decayed PArr.setGrads
    rw [real_gt_false.mpr hl2, real_gt_false.mpr hclip, hk]
    simp only [Bool.false_and, Bool.false_eq_true, if_false, List.map_id']
    apply List.ext_getElem?
    intro k
    simp only [List.getElem?_mapIdx, List.getElem?_map, Option.map_map]
    congr 1
    funext a
    simp only [Function.comp, PArr.rule, PArr.zeroed, PArr.withGrad, Nat.succ_ne_zero, if_false, PArr.mk.injEq, true_and, and_true]
    funext c b
    rw [sum_range_succ]
    ring

/-- C40: after `n` steps of MomentumSGD the statistic is `mu^n * m - Σ_{j<n} mu^(n-1-j) * scale j * eta * G j k` and the value has been increased by
the sum of the statistics after each of the steps. -/
theorem C40_momentum_run {o : Opt ℝ} {eta mu : ℝ} (hk : o.kind = .momentum eta mu) (hl2 : o.l2 ≤ 0) (hclip : o.clip ≤ 0) {scale : Nat → ℝ}
    {G : Nat → Nat → Arr ℝ} {N : Nat} {qs : Nat → List (Param ℝ)} (ht : o.Trains p d scale G N qs) (he : o.epoch + N < U32) {as : List (PArr ℝ)}
    (h : Params d (qs 0) as) (m0 : PArr ℝ → Arr ℝ) (hm : ∀ a, a ∈ as → a.stat "MomentumSGD.m" = some (a.shape, m0 a))
    (mom : Nat → Nat → PArr ℝ → Arr ℝ)
    (hmom : ∀ n k a c b, mom n k a c b = mu ^ n * m0 a c b - ∑ j ∈ range n, mu ^ (n - 1 - j) * (scale j * eta * G j k c b)) :
    ∀ n, n ≤ N → Params d (qs n) (as.mapIdx fun k a =>
      ⟨a.shape, fun c b => a.value c b + ∑ i ∈ range n, mom (i + 1) k a c b, if n = 0 then a.grad else fun _ _ => 0,
        fun name => if name = "MomentumSGD.m" then some (a.shape, mom n k a) else a.stat name⟩) := by
  have hsucc : ∀ n k a c b, mom (n + 1) k a c b = mom n k a c b * mu - G n k c b * (scale n * eta) := by
    intro n k a c b
    rw [hmom, hmom, sum_range_succ, sub_mul, sum_mul, pow_succ]
    have : ∀ j ∈ range n, mu ^ (n + 1 - 1 - j) * (scale j * eta * G j k c b) = mu ^ (n - 1 - j) * (scale j * eta * G j k c b) * mu := by
      intro j hj
      have hj := mem_range.mp hj
      rw [show n + 1 - 1 - j = (n - 1 - j) + 1 by omega, pow_succ]; ring
    rw [sum_congr rfl this]
    simp only [Nat.add_sub_cancel, Nat.sub_self, pow_zero]
    ring
  intro n
  induction n with
  | zero =>
    intro _
    simp only [range_zero, sum_empty, add_zero, if_true]
    have e : (as.mapIdx fun k a => (⟨a.shape, a.value, a.grad, fun name => if name = "MomentumSGD.m" then some (a.shape, mom 0 k a) else a.stat name⟩ : PArr ℝ)) = as := by
      apply List.ext_getElem?
      intro i
      rw [List.getElem?_mapIdx]
      cases hi : as[i]? with
      | none => rfl
      | some a =>
        simp only [Option.map_some, Option.some.injEq]
        have h1 := hm a (List.mem_iff_getElem?.mpr ⟨i, hi⟩)
        obtain ⟨s, v, g, st⟩ := a
        simp only [PArr.mk.injEq, true_and] at *
        funext name
        split
        · rename_i hn
          subst hn
          rw [h1]
          have : mom 0 i ⟨s, v, g, st⟩ = m0 ⟨s, v, g, st⟩ := by funext c b; rw [hmom]; simp
          rw [this]
        · rfl
    exact Eq.mpr (by rw [e]) h
  | succ n ih =>
    intro hn
    have := trains_step mul_comm ht he (by omega) (ih (by omega)) (by
      intro a ha
      rw [hk]
      rw [List.mem_iff_getElem?] at ha
      obtain ⟨k, hk⟩ := ha
      rw [List.getElem?_mapIdx, Option.map_eq_some_iff] at hk
      obtain ⟨a0, ha0, rfl⟩ := hk
      exact ⟨mom n k a0, by unfold PArr.Has; simp⟩)
    convert this using 1
    unfold PArr.updated PArr.clipped PArr.decayed PArr.setGrads
    rw [real_gt_false.mpr hl2, real_gt_false.mpr hclip, hk]
    simp only [Bool.false_and, Bool.false_eq_true, if_false, List.map_id']
    apply List.ext_getElem?
    intro k
    simp only [List.getElem?_mapIdx, List.getElem?_map, Option.map_map]
    congr 1
    funext a
    simp only [Function.comp, PArr.rule, PArr.zeroed, PArr.withGrad, PArr.put, PArr.read, Nat.succ_ne_zero, if_false, PArr.mk.injEq, true_and, if_true]
    refine ⟨?_, ?_⟩
    · funext c b
      rw [sum_range_succ, hsucc, add_assoc]
    · funext name
      split
      · simp only [Option.some.injEq, Prod.mk.injEq, true_and]
        funext c b; exact hsucc n k a c b
      · rfl

/-! ### C41 -/

/-- The global L2 norm of the gradients: the root of the sum of the squares of all elements (in the order of `to_vec`) of all gradients. -/
noncomputable def gradNorm (as : List (PArr ℝ)) : ℝ :=
  Real.sqrt ((as.map fun a => ((PArr.elems a.shape a.grad).map fun x => x ^ 2).sum).sum)

theorem foldl_sum {β : Type} (l : List β) (f : β → ℝ) (z : ℝ) : l.foldl (fun acc a => acc + f a) z = z + (l.map f).sum := by
  induction l generalizing z with
  | nil => simp
  | cons a l ih => rw [List.foldl_cons, ih, List.map_cons, List.sum_cons]; ring

theorem sqTotal_eq (as : List (PArr ℝ)) :
    PArr.sqTotal as = (as.map fun a => ((PArr.elems a.shape a.grad).map fun x => x ^ 2).sum).sum := by
  unfold PArr.sqTotal
  rw [foldl_sum, zero_add]
  congr 1
  refine List.map_congr_left fun a _ => ?_
  rw [foldl_sum _ (fun x => x), zero_add]
  unfold PArr.elems
  rw [List.map_id', List.map_map]
  congr 1
  refine List.map_congr_left fun k _ => ?_
  simp only [Function.comp, Arr.flat]
  ring

theorem sqTotal_nonneg (as : List (PArr ℝ)) : 0 ≤ PArr.sqTotal as := by
  rw [sqTotal_eq]
  refine List.sum_nonneg fun x hx => ?_
  obtain ⟨a, _, rfl⟩ := List.mem_map.mp hx
  refine List.sum_nonneg fun y hy => ?_
  obtain ⟨z, _, rfl⟩ := List.mem_map.mp hy
  positivity

theorem gradNorm_eq (as : List (PArr ℝ)) : gradNorm as = Real.sqrt (PArr.sqTotal as) := by rw [sqTotal_eq]; rfl

theorem gradNorm_scale (as : List (PArr ℝ)) {k : ℝ} (hk : 0 ≤ k) :
    gradNorm (as.map fun a => a.withGrad fun c b => a.grad c b * k) = gradNorm as * k := by
  unfold gradNorm
  rw [List.map_map]
  have : ((as.map ((fun a => ((PArr.elems a.shape a.grad).map fun x => x ^ 2).sum) ∘ fun a => a.withGrad fun c b => a.grad c b * k))).sum =
      (as.map fun a => ((PArr.elems a.shape a.grad).map fun x => x ^ 2).sum).sum * k ^ 2 := by
    rw [← List.sum_map_mul_right]
    congr 1
    refine List.map_congr_left fun a _ => ?_
    simp only [Function.comp, PArr.withGrad, PArr.elems, List.map_map]
    rw [← List.sum_map_mul_right]
    congr 1
    refine List.map_congr_left fun j _ => ?_
    simp only [Function.comp, Arr.flat]
    ring
  rw [this, Real.sqrt_mul' _ (by positivity), Real.sqrt_sq hk]

/-- The gradient with weight decay: `g + l2 * v` when `l2 > 0`. -/
noncomputable def decayedGrad (l2 : ℝ) (a : PArr ℝ) : Arr ℝ := fun c b => a.grad c b + max l2 0 * a.value c b

theorem decayed_eq (l2 : ℝ) (a : PArr ℝ) : a.decayed l2 = a.withGrad (decayedGrad l2 a) := by
  unfold PArr.decayed decayedGrad
  split
  · rename_i h
    rw [max_eq_left (le_of_lt (real_gt.mp h))]
    unfold PArr.withGrad
    congr 1
    funext c b
    ring
  · rename_i h
    rw [max_eq_right (by simpa [Flt.gt] using h)]
    simp [PArr.withGrad]

/-- C41: an update with weight decay `l2` and clipping threshold `clip > 0` is the textbook rule applied to the gradients `k * (g + l2 * v)`, with one
factor `0 ≤ k ≤ 1` for all parameters, such that the global norm of these gradients is the smaller one of `clip` and the norm of the gradients
`g + l2 * v`. -/
theorem C41_clipping {o : Opt ℝ} (hc : 0 < o.clip) (he : o.epoch + 1 < U32) {qs : List (Param ℝ)} {as : List (PArr ℝ)} (h : Params d qs as)
    (hr : ∀ a, a ∈ as → a.Ready o.kind) (p : Profile) (m : Nat → Nat → Mem ℝ) :
    ∃ qs' k, o.updateParameters p m qs = (qs', ok (o.epoch + 1)) ∧ 0 ≤ k ∧ k ≤ 1 ∧
      Params d qs' (as.map fun a =>
        ((a.withGrad fun c b => decayedGrad o.l2 a c b * k).rule o.kind ((o.epoch : ℝ) + 1) o.lrScale).zeroed) ∧
      gradNorm (as.map fun a => a.withGrad fun c b => decayedGrad o.l2 a c b * k) =
        min (gradNorm (as.map fun a => a.withGrad (decayedGrad o.l2 a))) o.clip := by
  obtain ⟨qs', e, hq⟩ := updateParameters_ok mul_comm o he h hr p m
  have ht : (Flt.ofInt ((o.epoch : Int) + 1) : ℝ) = (o.epoch : ℝ) + 1 := by simp [Flt.ofInt]
  unfold PArr.updated at hq
  rw [ht] at hq
  have hdec : as.map (PArr.decayed o.l2) = as.map fun a => a.withGrad (decayedGrad o.l2 a) :=
    List.map_congr_left fun a _ => decayed_eq o.l2 a
  rw [hdec] at hq
  generalize hb : (as.map fun a => a.withGrad (decayedGrad o.l2 a)) = bs at *
  unfold PArr.clipped at hq
  have hmap : ∀ k : ℝ, (as.map fun a => a.withGrad fun c b => decayedGrad o.l2 a c b * k) = bs.map fun a => a.withGrad fun c b => a.grad c b * k := by
    intro k; rw [← hb, List.map_map]; rfl
  by_cases hs : o.clip * o.clip < PArr.sqTotal bs
  · rw [real_gt.mpr hc, real_gt.mpr hs] at hq
    simp only [Bool.and_self, if_true] at hq
    have hpos : 0 < Real.sqrt (PArr.sqTotal bs) := Real.sqrt_pos.mpr (lt_of_le_of_lt (by positivity) hs)
    have hlt : o.clip < Real.sqrt (PArr.sqTotal bs) := by
      rw [Real.lt_sqrt hc.le, sq]; exact hs
    have hk0 : 0 ≤ o.clip / Real.sqrt (PArr.sqTotal bs) := by positivity
    refine ⟨qs', o.clip / Real.sqrt (PArr.sqTotal bs), e, hk0, ?_, ?_, ?_⟩
    · rw [div_le_one hpos]; exact hlt.le
    · rw [List.map_map, ← hb, List.map_map] at hq
      rw [← hb]
      exact hq
    · rw [hmap, gradNorm_scale _ hk0, gradNorm_eq, min_eq_right hlt.le]
      field_simp
  · rw [real_gt.mpr hc, real_gt_false.mpr (not_lt.mp hs)] at hq
    simp only [Bool.and_false, Bool.false_eq_true, if_false] at hq
    refine ⟨qs', 1, e, zero_le_one, le_refl 1, ?_, ?_⟩
    · simp only [mul_one]
      rw [← hb, List.map_map] at hq
      exact hq
    · rw [hmap, gradNorm_scale _ zero_le_one, mul_one, gradNorm_eq, min_eq_left]
      rw [Real.sqrt_le_left hc.le, sq]
      exact not_lt.mp hs

/-- C41: without clipping the textbook rule is applied to the gradients `g + l2 * v` (to `g` itself when the strength of the decay is 0). -/
theorem C41_decay {o : Opt ℝ} (hc : o.clip ≤ 0) (he : o.epoch + 1 < U32) {qs : List (Param ℝ)} {as : List (PArr ℝ)} (h : Params d qs as)
    (hr : ∀ a, a ∈ as → a.Ready o.kind) (p : Profile) (m : Nat → Nat → Mem ℝ) :
    ∃ qs', o.updateParameters p m qs = (qs', ok (o.epoch + 1)) ∧
      Params d qs' (as.map fun a => ((a.withGrad (decayedGrad o.l2 a)).rule o.kind ((o.epoch : ℝ) + 1) o.lrScale).zeroed) := by
  obtain ⟨qs', e, hq⟩ := updateParameters_ok mul_comm o he h hr p m
  have ht : (Flt.ofInt ((o.epoch : Int) + 1) : ℝ) = (o.epoch : ℝ) + 1 := by simp [Flt.ofInt]
  unfold PArr.updated PArr.clipped at hq
  rw [ht, real_gt_false.mpr hc, show as.map (PArr.decayed o.l2) = as.map fun a => a.withGrad (decayedGrad o.l2 a) from
    List.map_congr_left fun a _ => decayed_eq o.l2 a] at hq
  simp only [Bool.false_and, Bool.false_eq_true, if_false, List.map_map] at hq
  exact ⟨qs', e, hq⟩

/-! ### C43 -/

/-- The only element of a scalar. -/
def one1 : Shape := matShape 1 1 1

theorem one1_wf : one1.WF := matShape_wf (n := 1) (m := 1) (b := 1) rfl

/-- The contents of a scalar parameter with Adam's statistics. -/
def adamArr (v g m1 m2 : ℝ) : PArr ℝ :=
  ⟨one1, fun _ _ => v, fun _ _ => g, fun n => if n = "Adam.m2" then some (one1, fun _ _ => m2) else if n = "Adam.m1" then some (one1, fun _ _ => m1) else none⟩

theorem exists_adam (d : Nat) (v g m1 m2 : ℝ) : ∃ q : Param ℝ, q.Is d (adamArr v g m1 m2) := by
  obtain ⟨t1, h1⟩ := exists_holds (α := ℝ) one1_wf (by decide) d (fun _ => v)
  obtain ⟨t2, h2⟩ := exists_holds (α := ℝ) one1_wf (by decide) d (fun _ => g)
  obtain ⟨t3, h3⟩ := exists_holds (α := ℝ) one1_wf (by decide) d (fun _ => m1)
  obtain ⟨t4, h4⟩ := exists_holds (α := ℝ) one1_wf (by decide) d (fun _ => m2)
  refine ⟨⟨t1, t2, [("Adam.m2", t4), ("Adam.m1", t3)]⟩, rfl, h1, h2, fun n hn => ?_, by simp, fun n s f hn => ?_⟩
  · simp only [adamArr] at hn
    split at hn
    · simp at hn
    · split at hn
      · simp at hn
      · rename_i e1 e2
        have b1 : (n == "Adam.m2") = false := by simpa using e1
        have b2 : (n == "Adam.m1") = false := by simpa using e2
        simp [Param.stat, List.lookup_cons, b1, b2]
  · simp only [adamArr] at hn
    split at hn
    · rename_i e1
      subst e1
      simp only [Option.some.injEq, Prod.mk.injEq] at hn
      obtain ⟨rfl, rfl⟩ := hn
      exact ⟨t4, by simp [Param.stat], h4⟩
    · split at hn
      · rename_i e1
        subst e1
        simp only [Option.some.injEq, Prod.mk.injEq] at hn
        obtain ⟨rfl, rfl⟩ := hn
        exact ⟨t3, by simp [Param.stat, List.lookup_cons], h3⟩
      · simp at hn

/-- One step of the Adam optimizer of the example below. -/
theorem adam_step (e : Nat) (v g m1 m2 : ℝ) :
    PArr.updated { epoch := e, lrScale := 1, l2 := 0, clip := 0, kind := .adam (1 : ℝ) (1 / 2) 0 0 } (PArr.setGrads (fun _ _ _ => 1) [adamArr v g m1 m2]) =
      [adamArr (v - (m1 * (1 / 2) + 1 / 2) / (1 - (1 / 2) ^ (e + 1))) 0 (m1 * (1 / 2) + 1 / 2) 1] := by
  unfold PArr.updated PArr.clipped PArr.decayed PArr.setGrads
  have hz : Flt.gt (0 : ℝ) 0 = false := real_gt_false.mpr (le_refl _)
  simp only [hz, Bool.false_and, Bool.false_eq_true, if_false, List.map_id']
  have hp : ∀ b : ℝ, Flt.powf b (Flt.ofInt ((e : Int) + 1)) = b ^ (e + 1) := by
    intro b
    have : (Flt.ofInt ((e : Int) + 1) : ℝ) = ((e + 1 : Nat) : ℝ) := by simp [Flt.ofInt]
    rw [this]
    exact Real.rpow_natCast b (e + 1)
  simp only [List.mapIdx_cons, List.mapIdx_nil, List.map_cons, List.map_nil, PArr.rule, hp]
  have hs : (Flt.sqrt (1 : ℝ)) = 1 := Real.sqrt_one
  simp only [adamArr, PArr.withGrad, PArr.zeroed, PArr.put, PArr.read, if_true, zero_pow (Nat.succ_ne_zero e),
    if_neg (show ¬ "Adam.m1" = "Adam.m2" by decide)]
  norm_num [hs]
  funext n
  by_cases h2 : n = "Adam.m2" <;> by_cases h1 : n = "Adam.m1" <;> simp [h1, h2]

/-- C43, the full claim is false of the code for Adam: the epoch, which the bias correction depends on, is not saved with the parameters.  Two
steps of Adam (on a scalar parameter, with gradient 1 in both) give -2; saving after the first step, loading and continuing with a new
optimizer with the same settings gives -5/2. -/
theorem C43_adam_resume_differs : ∃ (o : Opt ℝ) (qs qs' : Nat → List (Param ℝ)) (mem : Nat → Mem ℝ) (a a' : PArr ℝ),
    o = Opt.new (.adam 1 (1 / 2) 0 0) ∧
    (∃ a0, Params 0 (qs 0) [a0] ∧ a0.value czero 0 = 0 ∧ a0.Ready o.kind) ∧
    o.Trains .debug 0 (fun _ => 1) (fun _ _ _ _ => 1) 2 qs ∧
    Opt.forEach (fun i q => q.reload .debug 0 (mem i)) 0 (qs 1) = (qs' 0, ok ()) ∧
    o.Trains .debug 0 (fun _ => 1) (fun _ _ _ _ => 1) 1 qs' ∧
    Params 0 (qs 2) [a] ∧ Params 0 (qs' 1) [a'] ∧ a.value czero 0 = -2 ∧ a'.value czero 0 = -5 / 2 := by
  have hready : ∀ v g m1 m2, PArr.Ready (OptKind.adam (α := ℝ) 1 (1 / 2) 0 0) (adamArr v g m1 m2) := fun v g m1 m2 =>
    ⟨⟨fun _ _ => m1, by unfold PArr.Has adamArr; simp⟩, fun _ _ => m2, by unfold PArr.Has adamArr; simp⟩
  obtain ⟨q0, hq0⟩ := exists_adam 0 0 0 0 0
  have h0 : Params 0 [q0] [adamArr 0 0 0 0] := .cons hq0 .nil
  obtain ⟨o, ho⟩ : ∃ o : Opt ℝ, o = Opt.new (.adam 1 (1 / 2) 0 0) := ⟨_, rfl⟩
  have hke : o.kind = .adam 1 (1 / 2) 0 0 := by rw [ho]; rfl
  have hup : ∀ (e : Nat) as, PArr.updated { o with epoch := e, lrScale := 1 } as =
      PArr.updated { epoch := e, lrScale := 1, l2 := 0, clip := 0, kind := .adam (1 : ℝ) (1 / 2) 0 0 } as := by
    intro e as; rw [ho]; rfl
  have he : o.epoch = 0 := by rw [ho]; rfl
  have hu : (3 : Nat) < U32 := by decide
  obtain ⟨qs, e0, ht⟩ := exists_trains (o := o) (d := 0) (fun _ => 1) (fun _ _ _ _ => 1) 2 (by omega) h0 (by
    intro a ha; simp only [List.mem_singleton] at ha; subst ha; rw [hke]; exact hready _ _ _ _) .debug
  have hr1 : ∀ v g m1 m2 a, a ∈ [adamArr v g m1 m2] → a.Ready o.kind := by
    intro v g m1 m2 a ha; simp only [List.mem_singleton] at ha; subst ha; rw [hke]; exact hready _ _ _ _
  rw [← e0] at h0
  have h1 := trains_step mul_comm ht (by omega) (n := 0) (by omega) h0 (hr1 _ _ _ _)
  rw [hup, adam_step] at h1
  have h2 := trains_step mul_comm ht (by omega) (n := 1) (by omega) h1 (hr1 _ _ _ _)
  rw [hup, adam_step] at h2
  obtain ⟨qr, er, hqr⟩ := Params.reload_ok h1 .debug 0 (fun _ _ _ => 0)
  obtain ⟨qs', e0', ht'⟩ := exists_trains (o := o) (d := 0) (fun _ => 1) (fun _ _ _ _ => 1) 1 (by omega) hqr (hr1 _ _ _ _) .debug
  rw [← e0'] at hqr er
  have h3 := trains_step mul_comm ht' (by omega) (n := 0) (by omega) hqr (hr1 _ _ _ _)
  rw [hup, adam_step] at h3
  refine ⟨o, qs, qs', _, _, _, ho, ⟨_, h0, rfl, hr1 0 0 0 0 _ (by simp)⟩, ht, er, ht', h2, h3, ?_, ?_⟩
  · simp only [adamArr, he]; norm_num
  · simp only [adamArr, he]; norm_num

/-! ### The hypotheses can be met -/

/-- C40, C42–C44 with MomentumSGD: two parameters, of shapes 2×3 and 1×1, with the statistic, and a run of five steps; a parameter that was not
configured in between. -/
example : ∃ (o : Opt ℝ) (qs : List (Param ℝ)) (a1 a2 a3 : PArr ℝ) (qss : Nat → List (Param ℝ)),
    o = Opt.new (.momentum (1 / 10) (9 / 10)) ∧ o.epoch + 5 < U32 ∧ Flt.gt o.l2 0 = false ∧ Flt.gt o.clip 0 = false ∧
    Params 0 qs [a1, a3, a2] ∧ a1.shape = matShape 2 3 1 ∧ a3.stat "MomentumSGD.m" = none ∧ "MomentumSGD.m" ∈ o.kind.names ∧
    (∀ a, a ∈ [a1, a2] → a.Ready o.kind ∧ ∃ f, a.stat "MomentumSGD.m" = some (a.shape, f)) ∧
    Params 0 (qss 0) [a1, a2] ∧ o.Trains .debug 0 (fun n => n) (fun n k _ _ => n + k) 5 qss := by
  have hex : ∀ s : Shape, s.WF → s.size ≤ 2 ^ 31 → s.batch = 1 → ∀ name, ∃ (q : Param ℝ) (a : PArr ℝ) (f : Arr ℝ), q.Is 0 a ∧ a.shape = s ∧
      ∀ n, a.stat n = if n = name then some (s, f) else none := by
    intro s hs hsz hb name
    obtain ⟨q, hq⟩ := exists_param hs hsz hb 0 (fun k => (k : ℝ)) (fun k => 2 * k) (fun k => 3 * k) name
    exact ⟨q, _, _, hq, rfl, fun _ => rfl⟩
  obtain ⟨q1, a1, f1, h1, s1, e1⟩ := hex (matShape 2 3 1) (matShape_wf (n := 2) (m := 3) (b := 1) rfl) (by decide) rfl "MomentumSGD.m"
  obtain ⟨q2, a2, f2, h2, s2, e2⟩ := hex (matShape 1 1 1) (matShape_wf (n := 1) (m := 1) (b := 1) rfl) (by decide) rfl "MomentumSGD.m"
  obtain ⟨q3, a3, f3, h3, s3, e3⟩ := hex (matShape 1 1 1) (matShape_wf (n := 1) (m := 1) (b := 1) rfl) (by decide) rfl "other"
  have hr : ∀ a, a ∈ [a1, a2] → PArr.Ready (OptKind.momentum (1 / 10 : ℝ) (9 / 10)) a ∧ ∃ f, a.stat "MomentumSGD.m" = some (a.shape, f) := by
    intro a ha
    simp only [List.mem_cons, List.not_mem_nil, or_false] at ha
    rcases ha with rfl | rfl
    · have : a.stat "MomentumSGD.m" = some (a.shape, f1) := by rw [e1, s1, if_pos rfl]
      exact ⟨⟨f1, this⟩, f1, this⟩
    · have : a.stat "MomentumSGD.m" = some (a.shape, f2) := by rw [e2, s2, if_pos rfl]
      exact ⟨⟨f2, this⟩, f2, this⟩
  have h12 : Params 0 [q1, q2] [a1, a2] := .cons h1 (.cons h2 .nil)
  obtain ⟨qss, e, ht⟩ := exists_trains (o := Opt.new (.momentum (1 / 10 : ℝ) (9 / 10))) (d := 0) (fun n => n) (fun n k _ _ => n + k) 5
    (by decide) h12 (fun a ha => (hr a ha).1) .debug
  exact ⟨_, [q1, q3, q2], a1, a2, a3, qss, rfl, by decide, real_gt_false.mpr (le_refl _), real_gt_false.mpr (le_refl _),
    .cons h1 (.cons h3 (.cons h2 .nil)), s1, by rw [e3]; exact if_neg (by decide), by simp [Opt.new, OptKind.names], fun a ha => hr a ha, by rw [e]; exact h12, ht⟩

/-- C40, C43 with Adam: a parameter with both statistics; C41: positive decay and clipping. -/
example : ∃ (o : Opt ℝ) (qs : List (Param ℝ)) (a : PArr ℝ), o = ⟨3, 1, 1 / 100, 5, .adam 1 (9 / 10) (99 / 100) 1⟩ ∧ o.epoch + 1 < U32 ∧ 0 < o.clip ∧
    Params 0 qs [a] ∧ a.Ready o.kind := by
  obtain ⟨q, hq⟩ := exists_adam 0 1 2 3 4
  refine ⟨_, [q], _, rfl, by decide, by norm_num, .cons hq .nil, ?_⟩
  exact ⟨⟨fun _ _ => 3, by unfold PArr.Has adamArr; simp⟩, fun _ _ => 4, by unfold PArr.Has adamArr; simp⟩

end Verif
