import Verif.OptLemmas2
import Verif.PropsSerde
import Verif.RealInst

/-!
# Properties of optimizers (C40–C44)

`hmul` says that multiplication of elements is commutative (as it is for f32 and for real numbers).
-/

set_option linter.unusedSectionVars false

namespace Verif
open Res

section generic
variable {α : Type} [Flt α] {d : Nat} {p : Profile}

/-! ### C40 -/

/-- C40: SGD without weight decay and clipping: every element of every value becomes `v - g * (scale * eta)`; gradients are reset, statistics
stay. -/
theorem C40_sgd (hmul : ∀ u v : α, u * v = v * u) {o : Opt α} {eta : α} (hk : o.kind = .sgd eta) (hl2 : Flt.gt o.l2 0 = false)
    (hclip : Flt.gt o.clip 0 = false) (he : o.epoch + 1 < U32) {qs : List (Param α)} {as : List (PArr α)} (h : Params d qs as) (p : Profile)
    (m : Nat → Nat → Mem α) :
    ∃ qs', o.updateParameters p m qs = (qs', ok (o.epoch + 1)) ∧ Params d qs' (as.map fun a =>
      ⟨a.shape, fun c b => a.value c b - a.grad c b * (o.lrScale * eta), fun _ _ => 0, a.stat⟩) := by
  obtain ⟨qs', e, hq⟩ := updateParameters_ok hmul o he h (by intro a _; rw [hk]; trivial) p m
  refine ⟨qs', e, ?_⟩
  have : PArr.updated o as = as.map fun a => ⟨a.shape, fun c b => a.value c b - a.grad c b * (o.lrScale * eta), fun _ _ => 0, a.stat⟩ := by
    unfold PArr.updated PArr.clipped PArr.decayed
    rw [hclip, hl2, hk]
    simp only [Bool.false_and, Bool.false_eq_true, if_false, List.map_map]
    rfl
  rwa [this] at hq

/-- C40: MomentumSGD without weight decay and clipping: the statistic becomes `m * momentum - g * (scale * eta)` and is then added to the
value. -/
theorem C40_momentum (hmul : ∀ u v : α, u * v = v * u) {o : Opt α} {eta mu : α} (hk : o.kind = .momentum eta mu) (hl2 : Flt.gt o.l2 0 = false)
    (hclip : Flt.gt o.clip 0 = false) (he : o.epoch + 1 < U32) {qs : List (Param α)} {as : List (PArr α)} (h : Params d qs as)
    (mom : PArr α → Arr α) (hm : ∀ a, a ∈ as → a.stat "MomentumSGD.m" = some (a.shape, mom a)) (p : Profile) (m : Nat → Nat → Mem α) :
    ∃ qs', o.updateParameters p m qs = (qs', ok (o.epoch + 1)) ∧ Params d qs' (as.map fun a =>
      ⟨a.shape, fun c b => a.value c b + (mom a c b * mu - a.grad c b * (o.lrScale * eta)), fun _ _ => 0,
        fun n => if n = "MomentumSGD.m" then some (a.shape, fun c b => mom a c b * mu - a.grad c b * (o.lrScale * eta)) else a.stat n⟩) := by
  obtain ⟨qs', e, hq⟩ := updateParameters_ok hmul o he h (by intro a ha; rw [hk]; exact ⟨mom a, hm a ha⟩) p m
  refine ⟨qs', e, ?_⟩
  have : PArr.updated o as = as.map fun a =>
      ⟨a.shape, fun c b => a.value c b + (mom a c b * mu - a.grad c b * (o.lrScale * eta)), fun _ _ => 0,
        fun n => if n = "MomentumSGD.m" then some (a.shape, fun c b => mom a c b * mu - a.grad c b * (o.lrScale * eta)) else a.stat n⟩ := by
    unfold PArr.updated PArr.clipped PArr.decayed
    rw [hclip, hl2, hk]
    simp only [Bool.false_and, Bool.false_eq_true, if_false, List.map_map]
    refine List.map_congr_left fun a ha => ?_
    simp only [Function.comp, PArr.rule, PArr.Has.read (hm a ha)]
    rfl
  rwa [this] at hq

/-- C40: Adam without weight decay and clipping, in step `t = epoch + 1`: the two moving averages are updated, corrected by `1 - beta^t`, and the
value changes by `scale * alpha * mm1 / (sqrt mm2 + eps)`. -/
theorem C40_adam (hmul : ∀ u v : α, u * v = v * u) {o : Opt α} {alpha beta1 beta2 eps : α} (hk : o.kind = .adam alpha beta1 beta2 eps)
    (hl2 : Flt.gt o.l2 0 = false) (hclip : Flt.gt o.clip 0 = false) (he : o.epoch + 1 < U32) {qs : List (Param α)} {as : List (PArr α)}
    (h : Params d qs as) (m1 m2 : PArr α → Arr α) (hm1 : ∀ a, a ∈ as → a.stat "Adam.m1" = some (a.shape, m1 a))
    (hm2 : ∀ a, a ∈ as → a.stat "Adam.m2" = some (a.shape, m2 a)) (p : Profile) (m : Nat → Nat → Mem α) :
    ∃ qs', o.updateParameters p m qs = (qs', ok (o.epoch + 1)) ∧ Params d qs' (as.map fun a =>
      let t : α := Flt.ofInt (o.epoch + 1)
      let m1' : Arr α := fun c b => m1 a c b * beta1 + a.grad c b * (1 - beta1)
      let m2' : Arr α := fun c b => m2 a c b * beta2 + a.grad c b * (1 - beta2) * a.grad c b
      ⟨a.shape,
        fun c b => a.value c b - m1' c b / (1 - Flt.powf beta1 t) * (o.lrScale * alpha) / (Flt.sqrt (m2' c b / (1 - Flt.powf beta2 t)) + eps),
        fun _ _ => 0,
        fun n => if n = "Adam.m2" then some (a.shape, m2') else if n = "Adam.m1" then some (a.shape, m1') else a.stat n⟩) := by
  obtain ⟨qs', e, hq⟩ := updateParameters_ok hmul o he h (by intro a ha; rw [hk]; exact ⟨⟨m1 a, hm1 a ha⟩, m2 a, hm2 a ha⟩) p m
  refine ⟨qs', e, ?_⟩
  have : PArr.updated o as = as.map fun a =>
      let t : α := Flt.ofInt (o.epoch + 1)
      let m1' : Arr α := fun c b => m1 a c b * beta1 + a.grad c b * (1 - beta1)
      let m2' : Arr α := fun c b => m2 a c b * beta2 + a.grad c b * (1 - beta2) * a.grad c b
      ⟨a.shape,
        fun c b => a.value c b - m1' c b / (1 - Flt.powf beta1 t) * (o.lrScale * alpha) / (Flt.sqrt (m2' c b / (1 - Flt.powf beta2 t)) + eps),
        fun _ _ => 0,
        fun n => if n = "Adam.m2" then some (a.shape, m2') else if n = "Adam.m1" then some (a.shape, m1') else a.stat n⟩ := by
    unfold PArr.updated PArr.clipped PArr.decayed
    rw [hclip, hl2, hk]
    simp only [Bool.false_and, Bool.false_eq_true, if_false, List.map_map]
    refine List.map_congr_left fun a ha => ?_
    simp only [Function.comp, PArr.rule, PArr.Has.read (hm1 a ha), PArr.Has.read (hm2 a ha)]
    rfl
  rwa [this] at hq

/-! ### C42 -/

/-- C42: a completed update (with any optimizer, weight decay and clipping) keeps the number and shapes of the parameters, resets every gradient to
zero, leaves every statistic of other optimizers alone, stays on the device and advances the epoch by exactly one. -/
theorem C42_frame (hmul : ∀ u v : α, u * v = v * u) (o : Opt α) (he : o.epoch + 1 < U32) {qs : List (Param α)} {as : List (PArr α)}
    (h : Params d qs as) (hr : ∀ a, a ∈ as → a.Ready o.kind) (p : Profile) (m : Nat → Nat → Mem α) :
    ∃ qs' as', o.updateParameters p m qs = (qs', ok (o.epoch + 1)) ∧ Params d qs' as' ∧
      List.Forall₂ (fun a a' => a'.shape = a.shape ∧ (∀ c b, a'.grad c b = 0) ∧ (∀ n, n ∉ o.kind.names → a'.stat n = a.stat n) ∧ a'.Ready o.kind) as as' := by
  obtain ⟨qs', e, hq⟩ := updateParameters_ok hmul o he h hr p m
  refine ⟨qs', _, e, hq, ?_⟩
  have key : ∀ (k : PArr α → PArr α), (∀ a, (k a).shape = a.shape ∧ (k a).stat = a.stat) →
      List.Forall₂ (fun a a' => a'.shape = a.shape ∧ (∀ c b, a'.grad c b = 0) ∧ (∀ n, n ∉ o.kind.names → a'.stat n = a.stat n) ∧ a'.Ready o.kind) as
        (as.map fun a => ((k a).rule o.kind (Flt.ofInt (o.epoch + 1)) o.lrScale).zeroed) := by
    intro k hk
    rw [List.forall₂_map_right_iff, List.forall₂_same]
    intro a ha
    refine ⟨(rule_shape _ _ _ _).trans (hk a).1, fun _ _ => rfl, fun n hn => (rule_stat _ _ _ _ hn).trans (by rw [(hk a).2]), ?_⟩
    have h1 : (k a).Ready o.kind := by
      have := hr a ha
      unfold PArr.Ready PArr.Has at *
      rw [(hk a).1, (hk a).2]; exact this
    exact rule_ready _ _ _ _ h1
  have hdec : ∀ a : PArr α, (a.decayed o.l2).shape = a.shape ∧ (a.decayed o.l2).stat = a.stat := by
    intro a; unfold PArr.decayed; split <;> exact ⟨rfl, rfl⟩
  unfold PArr.updated PArr.clipped
  split
  · rw [List.map_map, List.map_map]
    exact key (fun a => (a.decayed o.l2).withGrad _) fun a => hdec a
  · rw [List.map_map]
    exact key (fun a => a.decayed o.l2) hdec

/-- C42: if some parameter lacks a statistic of the optimizer, the update panics there: the parameters before it have been updated, it and those
after it only had their gradients decayed and clipped, and the epoch has not advanced (there is no new epoch). -/
theorem C42_panic_midway (hmul : ∀ u v : α, u * v = v * u) (o : Opt α) (he : o.epoch + 1 < U32) {qs : List (Param α)}
    {as1 as2 : List (PArr α)} {a : PArr α} (h : Params d qs (as1 ++ a :: as2)) (hr : ∀ a, a ∈ as1 → a.Ready o.kind) {n : String} (hn : n ∈ o.kind.names)
    (hs : a.stat n = none) (p : Profile) (m : Nat → Nat → Mem α) :
    ∃ qs', o.updateParameters p m qs = (qs', panic) ∧
      Params d qs' (((PArr.updated o (as1 ++ a :: as2)).take as1.length) ++
        (PArr.clipped o.clip ((as1 ++ a :: as2).map (PArr.decayed o.l2))).drop as1.length) := by
  have h1 : ∃ qs1, (if Flt.gt o.l2 0 then Opt.forEach (fun i q => Opt.decay p (m 0 i 0) o.l2 q) 0 qs else (qs, ok ())) = (qs1, ok ()) ∧
      Params d qs1 ((as1 ++ a :: as2).map (PArr.decayed o.l2)) := by
    unfold PArr.decayed
    split
    · exact forEach_ok h (fun i q a _ hq => decay_ok hq p _ _) 0
    · simp only [List.map_id']
      exact ⟨qs, rfl, h⟩
  obtain ⟨qs1, e1, hq1⟩ := h1
  have h3 : ∀ (k : PArr α → PArr α), (∀ a, (k a).shape = a.shape ∧ (k a).stat = a.stat) → ∀ qs2, Params d qs2 ((as1 ++ a :: as2).map k) →
      ∃ qs', Opt.andThen qs2 (Opt.forEach (fun i q => Opt.step p (m 2 i) o q) 0 qs2) (fun qs => (qs, uadd p o.epoch 1)) = (qs', panic) ∧
        Params d qs' ((((as1 ++ a :: as2).map k).map fun a => (a.rule o.kind (Flt.ofInt (o.epoch + 1)) o.lrScale).zeroed).take as1.length ++
          ((as1 ++ a :: as2).map k).drop as1.length) := by
    intro k hk qs2 hq2
    rw [List.map_append, List.map_cons] at hq2
    obtain ⟨done, e, hd, rest, er, hrest⟩ := forEach_panic (R' := fun q a => q.Is d a)
      (h := fun a => (a.rule o.kind (Flt.ofInt (o.epoch + 1)) o.lrScale).zeroed) hq2
      (fun i q a' ha' hq => step_ok hmul o he hq (by
        obtain ⟨a0, ha0, rfl⟩ := List.mem_map.mp ha'
        have := hr a0 ha0
        unfold PArr.Ready PArr.Has at *
        rw [(hk a0).1, (hk a0).2]; exact this) p (m 2 i))
      (fun i q hq => by
        unfold Opt.step
        rw [updateParameter_missing hq o he hn (by rw [(hk a).2]; exact hs)]; rfl) 0
    refine ⟨done ++ rest, ?_, ?_⟩
    · rw [e]
      unfold Opt.andThen
      simp only [er]
    · have : (((as1 ++ a :: as2).map k).map fun a => (a.rule o.kind (Flt.ofInt (o.epoch + 1)) o.lrScale).zeroed).take as1.length ++
          ((as1 ++ a :: as2).map k).drop as1.length =
          (as1.map k).map (fun a => (a.rule o.kind (Flt.ofInt (o.epoch + 1)) o.lrScale).zeroed) ++ (k a :: as2.map k) := by
        simp
      rw [this]
      exact List.rel_append hd hrest
  have hdec : ∀ a : PArr α, (a.decayed o.l2).shape = a.shape ∧ (a.decayed o.l2).stat = a.stat := by
    intro a; unfold PArr.decayed; split <;> exact ⟨rfl, rfl⟩
  unfold Opt.updateParameters
  rw [e1, andThen_ok]
  simp only
  unfold PArr.updated PArr.clipped
  by_cases hc : Flt.gt o.clip 0 = true
  · simp only [hc, if_true, Bool.true_and]
    rw [sqNorms_ok hmul hq1]
    simp only
    rw [show List.foldl _ 0 ((as1 ++ a :: as2).map (PArr.decayed o.l2)) = PArr.sqTotal ((as1 ++ a :: as2).map (PArr.decayed o.l2)) from rfl]
    by_cases hs2 : Flt.gt (PArr.sqTotal ((as1 ++ a :: as2).map (PArr.decayed o.l2))) (o.clip * o.clip) = true
    · simp only [hs2, if_true]
      generalize o.clip / Flt.sqrt (PArr.sqTotal ((as1 ++ a :: as2).map (PArr.decayed o.l2))) = T
      obtain ⟨qs2, e2, hq2⟩ := forEach_ok (R' := fun q a => q.Is d a) (f := fun _ q => Opt.scaleGrad p T q)
        (h := fun a => a.withGrad fun c b => a.grad c b * T) hq1 (fun i q a _ hq => scaleGrad_ok hq p T) 0
      rw [e2, andThen_ok]
      rw [List.map_map] at hq2
      simpa only [List.map_map] using h3 ((fun a : PArr α => a.withGrad fun c b => a.grad c b * T) ∘ PArr.decayed o.l2) (fun a => hdec a) qs2 hq2
    · simp only [hs2]
      exact h3 _ hdec qs1 hq1
  · simp only [hc]
    exact h3 _ hdec qs1 hq1

/-- Weight decay and clipping always complete; what is left is the loop over the parameters and the counter. -/
theorem update_phases (hmul : ∀ u v : α, u * v = v * u) (o : Opt α) {qs : List (Param α)} {as : List (PArr α)} (h : Params d qs as) (p : Profile)
    (m : Nat → Nat → Mem α) : ∃ qs2, Params d qs2 (PArr.clipped o.clip (as.map (PArr.decayed o.l2))) ∧ o.updateParameters p m qs =
      Opt.andThen qs2 (Opt.forEach (fun i q => Opt.step p (m 2 i) o q) 0 qs2) (fun qs => (qs, uadd p o.epoch 1)) := by
  have h1 : ∃ qs1, (if Flt.gt o.l2 0 then Opt.forEach (fun i q => Opt.decay p (m 0 i 0) o.l2 q) 0 qs else (qs, ok ())) = (qs1, ok ()) ∧
      Params d qs1 (as.map (PArr.decayed o.l2)) := by
    unfold PArr.decayed
    split
    · exact forEach_ok h (fun i q a _ hq => decay_ok hq p _ _) 0
    · simp only [List.map_id']
      exact ⟨qs, rfl, h⟩
  obtain ⟨qs1, e1, hq1⟩ := h1
  generalize as.map (PArr.decayed o.l2) = as1 at *
  unfold Opt.updateParameters
  rw [e1, andThen_ok]
  simp only
  unfold PArr.clipped
  by_cases hc : Flt.gt o.clip 0 = true
  · simp only [hc, if_true, Bool.true_and]
    rw [sqNorms_ok hmul hq1]
    simp only
    rw [show List.foldl _ 0 as1 = PArr.sqTotal as1 from rfl]
    by_cases hs : Flt.gt (PArr.sqTotal as1) (o.clip * o.clip) = true
    · simp only [hs, if_true]
      obtain ⟨qs2, e2, hq2⟩ := forEach_ok (R' := fun q a => q.Is d a) hq1
        (fun i q a _ hq => scaleGrad_ok hq p (o.clip / Flt.sqrt (PArr.sqTotal as1))) 0
      exact ⟨qs2, hq2, by rw [e2, andThen_ok]⟩
    · simp only [hs]
      exact ⟨qs1, hq1, rfl⟩
  · simp only [hc]
    exact ⟨qs1, hq1, rfl⟩

/-- C42: when the counter of the epochs is at its maximum, an update with SGD or MomentumSGD (with any weight decay and clipping) panics in a build
with overflow checks, after all parameters have been updated. -/
theorem C42_epoch_overflow (hmul : ∀ u v : α, u * v = v * u) (o : Opt α) (hk : ∀ alpha b1 b2 eps, o.kind ≠ .adam alpha b1 b2 eps)
    (he : o.epoch + 1 = U32) {qs : List (Param α)} {as : List (PArr α)} (h : Params d qs as) (hr : ∀ a, a ∈ as → a.Ready o.kind)
    (m : Nat → Nat → Mem α) :
    ∃ qs', o.updateParameters .debug m qs = (qs', panic) ∧ Params d qs' (PArr.updated o as) := by
  obtain ⟨qs2, hq2, e⟩ := update_phases hmul o h .debug m
  have hr2 : ∀ a, a ∈ PArr.clipped o.clip (as.map (PArr.decayed o.l2)) → a.Ready o.kind := by
    have hdec : ∀ a, a ∈ as.map (PArr.decayed o.l2) → a.Ready o.kind := by
      intro a ha
      obtain ⟨a0, ha0, rfl⟩ := List.mem_map.mp ha
      have := hr a0 ha0
      unfold PArr.decayed; split
      · exact this
      · exact this
    intro a ha
    unfold PArr.clipped at ha
    split at ha
    · obtain ⟨a2, ha2, rfl⟩ := List.mem_map.mp ha
      exact hdec a2 ha2
    · exact hdec a ha
  have hstep : ∀ i q a, a ∈ PArr.clipped o.clip (as.map (PArr.decayed o.l2)) → q.Is d a → ∃ q', o.step .debug (m 2 i) q = ok q' ∧
      q'.Is d (a.rule o.kind (Flt.ofInt (o.epoch + 1)) o.lrScale).zeroed := by
    intro i q a ha hq
    obtain ⟨q', e', h'⟩ := step_ok hmul { o with epoch := 0 } (by show 0 + 1 < U32; decide) hq (hr2 a ha) .debug (m 2 i)
    refine ⟨q', ?_, ?_⟩
    · rw [← e']
      unfold Opt.step Opt.updateParameter
      cases hkind : o.kind with
      | sgd eta => rfl
      | momentum eta mu => rfl
      | adam _ _ _ _ => exact absurd hkind (hk _ _ _ _)
    · have er : a.rule o.kind (Flt.ofInt (o.epoch + 1)) o.lrScale = a.rule o.kind (Flt.ofInt (0 + 1)) o.lrScale := by
        cases hkind : o.kind with
        | sgd eta => rfl
        | momentum eta mu => rfl
        | adam _ _ _ _ => exact absurd hkind (hk _ _ _ _)
      rw [er]; exact h'
  obtain ⟨qs', e2, hq⟩ := forEach_ok (R' := fun q a => q.Is d a) hq2 hstep 0
  refine ⟨qs', ?_, hq⟩
  have : uadd .debug o.epoch 1 = panic := by
    unfold uadd u32; rw [he, if_neg (lt_irrefl _)]
  rw [e, e2, andThen_ok, this]

/-- C42: with Adam the same overflow panics in the first parameter already: every parameter only had its gradient decayed and clipped. -/
theorem C42_epoch_overflow_adam (hmul : ∀ u v : α, u * v = v * u) (o : Opt α) {alpha b1 b2 eps : α} (hk : o.kind = .adam alpha b1 b2 eps)
    (he : o.epoch + 1 = U32) {qs : List (Param α)} {as : List (PArr α)} (h : Params d qs as) (m : Nat → Nat → Mem α) :
    ∃ qs', o.updateParameters .debug m qs = (qs', panic) ∧ Params d qs' (PArr.clipped o.clip (as.map (PArr.decayed o.l2))) := by
  obtain ⟨qs2, hq2, e⟩ := update_phases hmul o h .debug m
  have hov : uadd .debug o.epoch 1 = panic := by
    unfold uadd u32; rw [he, if_neg (lt_irrefl _)]
  refine ⟨qs2, ?_, hq2⟩
  rw [e]
  cases hcl : PArr.clipped o.clip (as.map (PArr.decayed o.l2)) with
  | nil =>
    rw [hcl] at hq2
    cases hq2
    simp only [Opt.forEach, andThen_ok, hov]
  | cons a0 as2 =>
    rw [hcl] at hq2
    obtain ⟨done, e2, hd, rest, er, hrest⟩ := forEach_panic (R' := fun q a => q.Is d a) (h := fun a => a) (as1 := []) hq2
      (f := fun i q => Opt.step .debug (m 2 i) o q) (fun i q a ha => by cases ha) (fun i q hq => by
        unfold Opt.step Opt.updateParameter
        simp only [hk, hov]; rfl) 0
    have : done = [] := by cases hd; rfl
    subst this
    rw [e2]; rfl

/-! ### C43 -/

theorem resume_aux (hmul : ∀ u v : α, u * v = v * u) {o o' : Opt α} (hk' : o'.kind = o.kind)
    {scale : Nat → α} {G : Nat → Nat → Arr α} {N M : Nat} {qs qs' : Nat → List (Param α)} (he : o.epoch + (N + M) < U32) (he' : o'.epoch + M < U32)
    (heq : ∀ n as, PArr.updated { o with epoch := o.epoch + (N + n), lrScale := scale (N + n) } as =
      PArr.updated { o' with epoch := o'.epoch + n, lrScale := scale (N + n) } as)
    (ht : o.Trains p d scale G (N + M) qs) {as0 : List (PArr α)} (h0 : Params d (qs 0) as0) (hr : ∀ a, a ∈ as0 → a.Ready o.kind) {d' : Nat}
    {mem : Nat → Mem α} (hload : Opt.forEach (fun i q => q.reload p d' (mem i)) 0 (qs N) = (qs' 0, ok ()))
    (ht' : o'.Trains p d' (fun n => scale (N + n)) (fun n => G (N + n)) M qs') :
    ∀ n, n ≤ M → ∃ as, Params d (qs (N + n)) as ∧ Params d' (qs' n) as := by
  have hready : ∀ (o' : Opt α) as, o'.kind = o.kind → (∀ a, a ∈ as → a.Ready o.kind) → ∀ a, a ∈ PArr.updated o' as → a.Ready o.kind := by
    intro o' as hk' hr a ha
    unfold PArr.updated at ha
    obtain ⟨a1, ha1, rfl⟩ := List.mem_map.mp ha
    rw [hk']
    refine rule_ready _ _ _ _ ?_
    have hdec : ∀ a, a ∈ as.map (PArr.decayed o'.l2) → a.Ready o.kind := by
      intro a ha
      obtain ⟨a0, ha0, rfl⟩ := List.mem_map.mp ha
      have := hr a0 ha0
      unfold PArr.decayed; split
      · exact this
      · exact this
    unfold PArr.clipped at ha1
    split at ha1
    · obtain ⟨a2, ha2, rfl⟩ := List.mem_map.mp ha1
      exact hdec a2 ha2
    · exact hdec a1 ha1
  have hset : ∀ G as, (∀ a, a ∈ as → a.Ready o.kind) → ∀ a, a ∈ PArr.setGrads G as → a.Ready o.kind := by
    intro G as hr a ha
    unfold PArr.setGrads at ha
    rw [List.mem_iff_getElem?] at ha
    obtain ⟨k, hk⟩ := ha
    rw [List.getElem?_mapIdx, Option.map_eq_some_iff] at hk
    obtain ⟨a0, ha0, rfl⟩ := hk
    exact hr a0 (List.mem_iff_getElem?.mpr ⟨k, ha0⟩)
  -- the contents after n steps
  have h1 : ∀ n, n ≤ N + M → ∃ as, Params d (qs n) as ∧ ∀ a, a ∈ as → a.Ready o.kind := by
    intro n
    induction n with
    | zero => exact fun _ => ⟨as0, h0, hr⟩
    | succ n ih =>
      intro hn
      obtain ⟨as, h, hr⟩ := ih (by omega)
      exact ⟨_, trains_step hmul ht he (by omega) h hr, hready _ _ rfl (hset _ _ hr)⟩
  intro n hn
  suffices hs : ∃ as, Params d (qs (N + n)) as ∧ Params d' (qs' n) as ∧ ∀ a, a ∈ as → a.Ready o.kind by
    obtain ⟨as, h, h', _⟩ := hs
    exact ⟨as, h, h'⟩
  induction n with
  | zero =>
    obtain ⟨as, h, hr⟩ := h1 N (by omega)
    obtain ⟨qs2, e, h2⟩ := Params.reload_ok h p d' mem
    rw [hload] at e; cases e
    exact ⟨as, h, h2, hr⟩
  | succ n ih =>
    obtain ⟨as, h, h', hr⟩ := ih (by omega)
    have s1 := trains_step hmul ht he (n := N + n) (by omega) h hr
    have s2 := trains_step hmul ht' he' (n := n) (by omega) h' (by rw [hk']; exact hr)
    refine ⟨_, s1, ?_, hready _ _ rfl (hset _ _ hr)⟩
    rw [heq n]
    exact s2

/-- C43: with SGD or MomentumSGD (and any weight decay and clipping), training that is interrupted after any number `N` of steps – all parameters saved,
loaded and moved to any device – and continued with a new optimizer with the same settings gives, after any number of further steps, parameters with
the same contents as training without interruption, for the same gradients. -/
theorem C43_resume (hmul : ∀ u v : α, u * v = v * u) {o : Opt α} (hk : (∃ eta, o.kind = .sgd eta) ∨ ∃ eta mu, o.kind = .momentum eta mu)
    {scale : Nat → α} {G : Nat → Nat → Arr α} {N M : Nat} {qs qs' : Nat → List (Param α)} (he : o.epoch + (N + M) < U32)
    (ht : o.Trains p d scale G (N + M) qs) {as0 : List (PArr α)} (h0 : Params d (qs 0) as0) (hr : ∀ a, a ∈ as0 → a.Ready o.kind) {d' : Nat}
    {mem : Nat → Mem α} (hload : Opt.forEach (fun i q => q.reload p d' (mem i)) 0 (qs N) = (qs' 0, ok ()))
    (ht' : ({ o with epoch := 0 } : Opt α).Trains p d' (fun n => scale (N + n)) (fun n => G (N + n)) M qs') :
    ∀ n, n ≤ M → ∃ as, Params d (qs (N + n)) as ∧ Params d' (qs' n) as := by
  generalize ho : ({ o with epoch := 0 } : Opt α) = o' at ht'
  have e1 : o'.kind = o.kind := by rw [← ho]
  have e2 : o'.epoch = 0 := by rw [← ho]
  have e3 : ∀ n as, PArr.updated { o with epoch := o.epoch + (N + n), lrScale := scale (N + n) } as =
      PArr.updated { o' with epoch := o'.epoch + n, lrScale := scale (N + n) } as := by
    intro n as
    subst ho
    unfold PArr.updated
    refine List.map_congr_left fun a _ => ?_
    rcases hk with ⟨eta, hk⟩ | ⟨eta, mu, hk⟩ <;> simp only [hk, PArr.rule]
  exact resume_aux hmul e1 he (by omega) e3 ht h0 hr hload ht'

/-- C43: with every optimizer, including Adam, the continued training is the same if the new optimizer's epoch is set to the old one's. -/
theorem C43_resume_with_epoch (hmul : ∀ u v : α, u * v = v * u) {o : Opt α}
    {scale : Nat → α} {G : Nat → Nat → Arr α} {N M : Nat} {qs qs' : Nat → List (Param α)} (he : o.epoch + (N + M) < U32)
    (ht : o.Trains p d scale G (N + M) qs) {as0 : List (PArr α)} (h0 : Params d (qs 0) as0) (hr : ∀ a, a ∈ as0 → a.Ready o.kind) {d' : Nat}
    {mem : Nat → Mem α} (hload : Opt.forEach (fun i q => q.reload p d' (mem i)) 0 (qs N) = (qs' 0, ok ()))
    (ht' : ({ o with epoch := o.epoch + N } : Opt α).Trains p d' (fun n => scale (N + n)) (fun n => G (N + n)) M qs') :
    ∀ n, n ≤ M → ∃ as, Params d (qs (N + n)) as ∧ Params d' (qs' n) as := by
  generalize ho : ({ o with epoch := o.epoch + N } : Opt α) = o' at ht'
  have e1 : o'.kind = o.kind := by rw [← ho]
  have e2 : o'.epoch = o.epoch + N := by rw [← ho]
  have e3 : ∀ n as, PArr.updated { o with epoch := o.epoch + (N + n), lrScale := scale (N + n) } as =
      PArr.updated { o' with epoch := o'.epoch + n, lrScale := scale (N + n) } as := by
    intro n as
    subst ho
    simp only [Nat.add_assoc]
  exact resume_aux hmul e1 he (by omega) e3 ht h0 hr hload ht'

/-! ### C44 -/

/-- C44: configuring parameters adds to each of them exactly the missing statistics of the optimizer, filled with zeros and of the parameter's shape,
and changes nothing else; configuring again changes nothing at all. -/
theorem C44_configure (o : Opt α) {qs : List (Param α)} {as : List (PArr α)} (h : Params d qs as) (p : Profile) (m : Nat → Mem α) :
    ∃ qs', o.configureParameters p m qs = (qs', ok ()) ∧ Params d qs' (as.map fun a => a.configured o.kind.names) ∧
      ∀ p' m', o.configureParameters p' m' qs' = (qs', ok ()) := by
  obtain ⟨qs', e, hq⟩ := forEach_ok (R' := fun q a => q.Is d a) h (fun i q a _ hq => configureParameter_ok hq o p (m i)) 0
  refine ⟨qs', e, hq, fun p' m' => ?_⟩
  have key : ∀ (i : Nat) (qs : List (Param α)), (∀ q, q ∈ qs → ∀ n, n ∈ o.kind.names → q.hasStat n = true) →
      Opt.forEach (fun i q => o.configureParameter p' (m' i) q) i qs = (qs, ok ()) := by
    intro i qs
    induction qs generalizing i with
    | nil => intro _; rfl
    | cons q qs ih =>
      intro hall
      have hc : o.configureParameter p' (m' i) q = ok q := by
        have := hall q (by simp)
        unfold Opt.configureParameter Opt.ensureStat
        cases hk : o.kind with
        | sgd eta => rfl
        | momentum eta mu =>
          rw [hk] at this
          simp only [this "MomentumSGD.m" (by simp [OptKind.names]), if_true]
        | adam alpha beta1 beta2 eps =>
          rw [hk] at this
          simp only [this "Adam.m1" (by simp [OptKind.names]), this "Adam.m2" (by simp [OptKind.names]), if_true, ok_bind]
      unfold Opt.forEach
      simp only [hc, ih (i + 1) (fun q hq => hall q (by simp [hq]))]
  refine key 0 qs' fun q hm n hn => ?_
  obtain ⟨k, hk⟩ := List.mem_iff_getElem?.mp hm
  obtain ⟨hl, hp⟩ := params_iff.mp hq
  have hlt : k < (as.map fun a => a.configured o.kind.names).length := by
    rw [← hl]; exact (List.getElem?_eq_some_iff.mp hk).1
  have hi := hp k q _ hk (List.getElem?_eq_getElem hlt)
  rw [hasStat_iff hi, List.getElem_map]
  unfold PArr.configured
  simp only
  split
  · rfl
  · rename_i hc
    cases e : (as[k]'(by simpa using hlt)).stat n with
    | none => exact absurd ⟨hn, e⟩ hc
    | some _ => rfl

/-- C44: configuring one parameter – whatever it contains – leaves its value, its gradient and every existing statistic as they are. -/
theorem C44_configure_frame (o : Opt α) (p : Profile) (m : Mem α) {q q' : Param α} (h : o.configureParameter p m q = ok q') :
    q'.value = q.value ∧ q'.gradient = q.gradient ∧ (∀ n t, q.stat n = some t → q'.stat n = some t) ∧
      ∀ n, n ∉ o.kind.names → q'.stat n = q.stat n := by
  have key : ∀ (q q' : Param α) m name, Opt.ensureStat p m name q = ok q' → q'.value = q.value ∧ q'.gradient = q.gradient ∧
      (∀ n t, q.stat n = some t → q'.stat n = some t) ∧ ∀ n, n ≠ name → q'.stat n = q.stat n := by
    intro q q' m name h
    unfold Opt.ensureStat at h
    split at h
    · cases h; exact ⟨rfl, rfl, fun _ _ h => h, fun _ _ => rfl⟩
    · rename_i hs
      unfold Param.addStat at h
      rw [Res.bind_eq_ok] at h
      obtain ⟨_, hc, h⟩ := h
      rw [Res.bind_eq_ok] at h
      obtain ⟨dv, _, h⟩ := h
      rw [Res.bind_eq_ok] at h
      obtain ⟨t, _, h⟩ := h
      cases h
      have hb : ∀ n, n ≠ name → Param.stat { q with stats := (name, t) :: q.stats } n = q.stat n := by
        intro n hn
        have hb : (n == name) = false := by simpa using hn
        unfold Param.stat
        rw [List.lookup_cons, hb]
      refine ⟨rfl, rfl, fun n t' hn => ?_, hb⟩
      have hne : n ≠ name := fun e => by
        subst e
        unfold Param.hasStat at hs
        rw [hn] at hs; simp at hs
      rw [hb n hne]; exact hn
  unfold Opt.configureParameter at h
  cases hk : o.kind with
  | sgd eta =>
    rw [hk] at h; cases h
    exact ⟨rfl, rfl, fun _ _ h => h, fun _ _ => rfl⟩
  | momentum eta mu =>
    rw [hk] at h
    obtain ⟨h1, h2, h3, h4⟩ := key _ _ _ _ h
    exact ⟨h1, h2, h3, fun n hn => h4 n (by simpa [OptKind.names] using hn)⟩
  | adam alpha beta1 beta2 eps =>
    rw [hk] at h
    simp only [Res.bind_eq_ok] at h
    obtain ⟨q1, e1, e2⟩ := h
    obtain ⟨h1, h2, h3, h4⟩ := key _ _ _ _ e1
    obtain ⟨k1, k2, k3, k4⟩ := key _ _ _ _ e2
    refine ⟨k1.trans h1, k2.trans h2, fun n t hn => k3 n t (h3 n t hn), fun n hn => ?_⟩
    simp only [OptKind.names, List.mem_cons, List.not_mem_nil, or_false, not_or] at hn
    rw [k4 n hn.2, h4 n hn.1]

/-- C44: after configuration an update is possible (statistics that were there before must have the parameter's shape). -/
theorem C44_configured_updates (hmul : ∀ u v : α, u * v = v * u) (o : Opt α) (he : o.epoch + 1 < U32) {qs : List (Param α)} {as : List (PArr α)}
    (h : Params d qs as) (hs : ∀ a, a ∈ as → ∀ n s f, a.stat n = some (s, f) → n ∈ o.kind.names → s = a.shape) (p : Profile)
    (m : Nat → Mem α) (m' : Nat → Nat → Mem α) :
    ∃ qs' qs'', o.configureParameters p m qs = (qs', ok ()) ∧ o.updateParameters p m' qs' = (qs'', ok (o.epoch + 1)) := by
  obtain ⟨qs', e, hq, -⟩ := C44_configure o h p m
  obtain ⟨qs'', e2, -⟩ := updateParameters_ok hmul o he hq (by
    intro a ha
    obtain ⟨a0, ha0, rfl⟩ := List.mem_map.mp ha
    exact configured_ready o.kind (hs a0 ha0)) p m'
  exact ⟨qs', qs'', e, e2⟩

/-- C44: an update with MomentumSGD or Adam of parameters of which one was not configured panics; SGD needs no configuration. -/
theorem C44_unconfigured_panics (hmul : ∀ u v : α, u * v = v * u) (o : Opt α) (he : o.epoch + 1 < U32) {qs : List (Param α)} {as : List (PArr α)}
    (h : Params d qs as) (hr : ∀ a, a ∈ as → a.Ready o.kind ∨ ∃ n, n ∈ o.kind.names ∧ a.stat n = none) {a : PArr α} (ha : a ∈ as) {n : String}
    (hn : n ∈ o.kind.names) (hs : a.stat n = none) (p : Profile) (m : Nat → Nat → Mem α) : (o.updateParameters p m qs).2 = panic := by
  -- split at the first parameter that is not ready
  have hsplit : ∀ as : List (PArr α), (∀ a, a ∈ as → a.Ready o.kind ∨ ∃ n, n ∈ o.kind.names ∧ a.stat n = none) →
      (∃ a, a ∈ as ∧ ∃ n, n ∈ o.kind.names ∧ a.stat n = none) →
      ∃ as1 a as2, as = as1 ++ a :: as2 ∧ (∀ a, a ∈ as1 → a.Ready o.kind) ∧ ∃ n, n ∈ o.kind.names ∧ a.stat n = none := by
    intro as
    induction as with
    | nil => rintro _ ⟨a, ha, _⟩; simp at ha
    | cons x as ih =>
      intro hr hex
      rcases hr x (by simp) with hx | hx
      · by_cases hx' : ∃ n, n ∈ o.kind.names ∧ x.stat n = none
        · exact ⟨[], x, as, rfl, by simp, hx'⟩
        · obtain ⟨a, ha, hn⟩ := hex
          simp only [List.mem_cons] at ha
          rcases ha with rfl | ha
          · exact absurd hn hx'
          · obtain ⟨as1, a1, as2, e, h1, h2⟩ := ih (fun a ha => hr a (by simp [ha])) ⟨a, ha, hn⟩
            refine ⟨x :: as1, a1, as2, by rw [e]; rfl, fun a ha => ?_, h2⟩
            simp only [List.mem_cons] at ha
            rcases ha with rfl | ha
            · exact hx
            · exact h1 a ha
      · exact ⟨[], x, as, rfl, by simp, hx⟩
  obtain ⟨as1, a1, as2, rfl, h1, n1, hn1, hs1⟩ := hsplit as hr ⟨a, ha, n, hn, hs⟩
  obtain ⟨qs', e, -⟩ := C42_panic_midway hmul o he h h1 hn1 hs1 p m
  rw [e]

/-- C44: a new optimizer has epoch 0, learning rate scaling 1, no weight decay and no clipping; the setters accept exactly the values `>= 0`. -/
theorem C44_settings (k : OptKind α) (o : Opt α) (x : α) :
    Opt.new k = ⟨0, 1, 0, 0, k⟩ ∧
      (Flt.le 0 x = true → o.setLearningRateScaling x = ok { o with lrScale := x } ∧ o.setWeightDecay x = ok { o with l2 := x } ∧
        o.setGradientClipping x = ok { o with clip := x }) ∧
      (Flt.le 0 x = false → o.setLearningRateScaling x = panic ∧ o.setWeightDecay x = panic ∧ o.setGradientClipping x = panic) := by
  refine ⟨rfl, fun h => ?_, fun h => ?_⟩
  · simp [Opt.setLearningRateScaling, Opt.setWeightDecay, Opt.setGradientClipping, h, check]
  · simp [Opt.setLearningRateScaling, Opt.setWeightDecay, Opt.setGradientClipping, h, check]

end generic
end Verif
