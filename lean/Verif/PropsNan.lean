import Verif.PropsAdam32

/-!
# C88: NaN and the optimizers
-/

set_option linter.unusedSectionVars false
set_option linter.style.haveILetI false

namespace Verif
open Fmt Res Shape

namespace Fl
variable {F : Fmt} {N : Near F} {x y : Fl F}

theorem mul_nan (x : Fl F) : mul N x nan = nan := by cases x <;> rfl

/-- Adding a finite number does not give NaN. -/
theorem add_ne_nan (hx : x ≠ nan) {l u : ℝ} (hy : y.In l u) : add N x y ≠ nan := by
  cases x with
  | nan => exact absurd rfl hx
  | inf s =>
    cases y with
    | nan => exact hy.elim
    | inf t => exact hy.elim
    | fin t v hv => intro h; cases h
  | fin s u hu =>
    cases y with
    | nan => exact hy.elim
    | inf t => exact hy.elim
    | fin t v hv => exact round_ne_nan _ _

theorem foldl_nan {A : Type} (f : A → Fl F) {l : List A} {a : A} (ha : a ∈ l) (hn : f a = nan) (acc : Fl F) :
    l.foldl (fun acc a => add N acc (f a)) acc = nan := by
  have key : ∀ (l : List A), l.foldl (fun acc a => add N acc (f a)) nan = nan := by
    intro l
    induction l with
    | nil => rfl
    | cons b l ih => exact ih
  induction l generalizing acc with
  | nil => exact absurd ha List.not_mem_nil
  | cons b l ih =>
    rcases List.mem_cons.mp ha with rfl | ha
    · rw [List.foldl_cons, hn, add_nan]; exact key l
    · exact ih ha _

end Fl

section
variable [E : Ieee] {d : Nat}

/-- The gradient that an update of the parameters `as` uses for the parameter `a`: after weight decay and clipping. -/
noncomputable def PArr.used (o : Opt (Fl f32)) (as : List (PArr (Fl f32))) (a : PArr (Fl f32)) : Arr (Fl f32) := fun c b =>
  if Flt.gt o.clip 0 && Flt.gt (PArr.sqTotal (as.map (PArr.decayed o.l2))) (o.clip * o.clip) then
    (a.decayed o.l2).grad c b * (o.clip / Flt.sqrt (PArr.sqTotal (as.map (PArr.decayed o.l2))))
  else (a.decayed o.l2).grad c b

theorem updated_used (o : Opt (Fl f32)) (as : List (PArr (Fl f32))) :
    PArr.updated o as = as.map fun a => ((a.withGrad (PArr.used o as a)).rule o.kind (Flt.ofInt (o.epoch + 1)) o.lrScale).zeroed := by
  have hdec : ∀ (a : PArr (Fl f32)) (g : Arr (Fl f32)), (a.decayed o.l2).withGrad g = a.withGrad g := by
    intro a g
    unfold PArr.decayed
    split <;> rfl
  have hself : ∀ a : PArr (Fl f32), a.decayed o.l2 = a.withGrad (a.decayed o.l2).grad := by
    intro a
    unfold PArr.decayed
    split <;> rfl
  unfold PArr.updated PArr.clipped PArr.used
  split
  · rw [List.map_map, List.map_map]
    refine List.map_congr_left fun a _ => ?_
    simp only [Function.comp, hdec]
  · rw [List.map_map]
    refine List.map_congr_left fun a _ => ?_
    simp only [Function.comp]
    rw [← hself a]

theorem rule_names (k : OptKind (Fl f32)) (t s : Fl f32) (a : PArr (Fl f32)) {name : String} (h : name ∈ k.names) :
    ∃ f, ((a.rule k t s).zeroed).stat name = some (a.shape, f) ∧ (a.rule k t s).read name = f := by
  cases k with
  | sgd eta => exact absurd h List.not_mem_nil
  | momentum eta mu =>
    rw [List.mem_singleton.mp h]
    exact ⟨_, rfl, rfl⟩
  | adam alpha beta1 beta2 eps =>
    rcases List.mem_cons.mp h with rfl | h
    · exact ⟨_, rfl, rfl⟩
    · rw [List.mem_singleton.mp h]
      exact ⟨_, rfl, rfl⟩

variable {n : Nat} {p : Profile} {m : Nat → Nat → Nat → Mem (Fl f32)} {o : Nat → Opt (Fl f32)} {q : Nat → List (Param (Fl f32))}
  {as : Nat → List (PArr (Fl f32))}

/-- One iteration of a run with any optimizer, with weight decay and clipping. -/
theorem next_used (ho : ∀ k, k < n → (o k).epoch + 1 < U32) (h : AdamRun d n p m o q as) {i : Nat} {a : Nat → PArr (Fl f32)}
    (ha : ∀ k, k ≤ n → (as k)[i]? = some (a k)) {k : Nat} (hk : k < n) :
    (a (k + 1)).shape = (a k).shape ∧ ∀ c b, (a k).shape.Valid c b →
      (a (k + 1)).value c b = (((a k).withGrad (PArr.used (o k) (as k) (a k))).rule (o k).kind (Flt.ofInt ((o k).epoch + 1)) (o k).lrScale).value c b ∧
      ∀ name ∈ (o k).kind.names, (a (k + 1)).read name c b =
        (((a k).withGrad (PArr.used (o k) (as k) (a k))).rule (o k).kind (Flt.ofInt ((o k).epoch + 1)) (o k).lrScale).read name c b := by
  obtain ⟨q', e, hu, hn⟩ := h.next k hk
  obtain ⟨qs', e', hq⟩ := updateParameters_ok (Fl.mul_comm E.near32) (o k) (ho k hk) (h.holds k hk.le) (h.ready k hk) p (m k)
  rw [hu] at e'
  cases e'
  rw [updated_used] at hq
  have e1 := ha k hk.le
  have e2 := ha (k + 1) hk
  obtain ⟨l1, g1⟩ := List.getElem?_eq_some_iff.mp e1
  obtain ⟨l2, g2⟩ := List.getElem?_eq_some_iff.mp e2
  have lq : i < q'.length := by rw [hq.length_eq, List.length_map]; exact l1
  have lq' : i < (q (k + 1)).length := by rw [← hn.length_eq]; exact lq
  have i1 := (List.forall₂_iff_get.mp hq).2 i lq (by rw [List.length_map]; exact l1)
  have i2 := (List.forall₂_iff_get.mp hn).2 i lq lq'
  have i3 := (List.forall₂_iff_get.mp (h.holds (k + 1) hk)).2 i lq' l2
  simp only [List.get_eq_getElem, List.getElem_map] at i1 i2 i3
  rw [g1] at i1
  rw [g2] at i3
  have hv := i3.value
  rw [i2.1] at hv
  obtain ⟨_, hsh, hval⟩ := i1.value.unique hv
  have hsh' : (((a k).withGrad (PArr.used (o k) (as k) (a k))).rule (o k).kind (Flt.ofInt ((o k).epoch + 1)) (o k).lrScale).zeroed.shape = (a k).shape :=
    rule_shape _ _ _ _
  refine ⟨by rw [← hsh, hsh'], fun c b hcb => ⟨(hval c b (by rw [hsh']; exact hcb)).symm, fun name hname => ?_⟩⟩
  obtain ⟨f, f1, f2⟩ := rule_names (o k).kind (Flt.ofInt ((o k).epoch + 1)) (o k).lrScale ((a k).withGrad (PArr.used (o k) (as k) (a k))) hname
  obtain ⟨t, ht, hh⟩ := i1.stat_some name _ _ f1
  rw [f2]
  exact read_of i3 ((i2.2 _).trans ht) hh hcb

theorem used_nan {o : Opt (Fl f32)} {as : List (PArr (Fl f32))} {a : PArr (Fl f32)} {c : Nat → Nat} {b : Nat} (h : a.grad c b = .nan) :
    PArr.used o as a c b = .nan := by
  have hd : (a.decayed o.l2).grad c b = .nan := by
    unfold PArr.decayed
    split
    · show Fl.add _ (a.grad c b) _ = _
      rw [h]; rfl
    · exact h
  unfold PArr.used
  rw [hd]
  split <;> rfl

theorem rule_nan (k : OptKind (Fl f32)) (t s : Fl f32) (a : PArr (Fl f32)) {c : Nat → Nat} {b : Nat} (h : a.grad c b = .nan ∨ a.value c b = .nan) :
    (a.rule k t s).value c b = .nan := by
  rcases h with h | h
  · cases k with
    | sgd eta =>
      show Fl.add _ _ (Fl.neg (Fl.mul _ (a.grad c b) _)) = _
      rw [h]; exact Fl.add_nan _
    | momentum eta mu =>
      show Fl.add _ _ (Fl.add _ _ (Fl.neg (Fl.mul _ (a.grad c b) _))) = _
      rw [h, show Fl.neg (Fl.mul E.near32 .nan (s * eta)) = .nan from rfl, Fl.add_nan, Fl.add_nan]
    | adam alpha beta1 beta2 eps =>
      show Fl.add _ _ (Fl.neg (Fl.div _ (Fl.mul _ (Fl.div _ (Fl.add _ _ (Fl.mul _ (a.grad c b) _)) _) _) _)) = _
      rw [h, show Fl.mul E.near32 .nan (1 - beta1) = .nan from rfl, Fl.add_nan]
      exact Fl.add_nan _
  · cases k with
    | sgd eta =>
      show Fl.add _ (a.value c b) _ = _
      rw [h]; rfl
    | momentum eta mu =>
      show Fl.add _ (a.value c b) _ = _
      rw [h]; rfl
    | adam alpha beta1 beta2 eps =>
      show Fl.add _ (a.value c b) _ = _
      rw [h]; rfl

/-- C88: an element of a parameter whose gradient is NaN once is NaN after this update and all that follow, with every optimizer, weight decay and
clipping; and so is one whose value is NaN. -/
theorem C88_nan_forever (ho : ∀ k, k < n → (o k).epoch + 1 < U32) (h : AdamRun d n p m o q as) {i : Nat} {a : Nat → PArr (Fl f32)}
    (ha : ∀ k, k ≤ n → (as k)[i]? = some (a k)) {c : Nat → Nat} {b : Nat} (hv : (a 0).shape.Valid c b) {k₀ : Nat}
    (hnan : (a k₀).grad c b = .nan ∨ (a k₀).value c b = .nan) : ∀ k, k₀ < k → k ≤ n → (a k).value c b = .nan := by
  have hsh : ∀ k, k ≤ n → (a k).shape = (a 0).shape := by
    intro k hk
    induction k with
    | zero => rfl
    | succ k ih => exact ((next_used ho h ha (by omega)).1).trans (ih (by omega))
  intro k hk hkn
  induction k, hk using Nat.le_induction with
  | base =>
    rw [((next_used ho h ha (k := k₀) (by omega)).2 c b (by rw [hsh k₀ (by omega)]; exact hv)).1]
    exact rule_nan _ _ _ _ (hnan.imp used_nan id)
  | succ k hk ih =>
    rw [((next_used ho h ha (k := k) (by omega)).2 c b (by rw [hsh k (by omega)]; exact hv)).1]
    exact rule_nan _ _ _ _ (.inr (ih (by omega)))

/-- C88: one NaN among the gradients of all parameters switches clipping off: the update is the one without clipping, however large the other gradients
are. -/
theorem C88_nan_disables_clipping {o : Opt (Fl f32)} (he : o.epoch + 1 < U32) {qs : List (Param (Fl f32))} {as : List (PArr (Fl f32))} (h : Params d qs as)
    (hr : ∀ a ∈ as, a.Ready o.kind) (hnan : ∃ a ∈ as, ∃ c b, a.shape.Valid c b ∧ a.grad c b = .nan) (p : Profile) (m : Nat → Nat → Mem (Fl f32)) :
    ∃ qs', o.updateParameters p m qs = (qs', ok (o.epoch + 1)) ∧
      Params d qs' (as.map fun a => ((a.decayed o.l2).rule o.kind (Flt.ofInt (o.epoch + 1)) o.lrScale).zeroed) := by
  obtain ⟨qs', e, hq⟩ := updateParameters_ok (Fl.mul_comm E.near32) o he h hr p m
  refine ⟨qs', e, ?_⟩
  obtain ⟨a, ha, c, b, hv, hn⟩ := hnan
  have hd : (a.decayed o.l2).grad c b = .nan ∧ (a.decayed o.l2).shape = a.shape := by
    unfold PArr.decayed
    split
    · refine ⟨?_, rfl⟩
      show Fl.add _ (a.grad c b) _ = _
      rw [hn]; rfl
    · exact ⟨hn, rfl⟩
  have hs : PArr.sqTotal (as.map (PArr.decayed o.l2)) = .nan := by
    rw [sqTotal_eq32]
    refine Fl.foldl_nan (a := a.decayed o.l2) (fun a : PArr (Fl f32) => (List.range a.shape.size).foldl (fun acc i => Fl.add E.near32 acc
      (Fl.mul E.near32 (Arr.flat a.shape a.grad i) (Arr.flat a.shape a.grad i))) 0) (List.mem_map_of_mem ha) ?_ _
    have hw := h.wf a ha
    refine Fl.foldl_nan (a := a.shape.offset c b) (fun i => Fl.mul E.near32 (Arr.flat (a.decayed o.l2).shape (a.decayed o.l2).grad i)
      (Arr.flat (a.decayed o.l2).shape (a.decayed o.l2).grad i)) (by rw [hd.2]; exact List.mem_range.mpr (hw.offset_lt hv)) ?_ _
    rw [hd.2, Arr.flat_offset hw _ hv, hd.1]
    rfl
  have hu : PArr.updated o as = as.map fun a => ((a.decayed o.l2).rule o.kind (Flt.ofInt (o.epoch + 1)) o.lrScale).zeroed := by
    unfold PArr.updated PArr.clipped
    rw [hs, show Flt.gt (Fl.nan : Fl f32) (o.clip * o.clip) = false from Fl.gt_nan_left _, Bool.and_false]
    simp only [Bool.false_eq_true, if_false, List.map_map]
    rfl
  rwa [hu] at hq

/-- C88: without clipping, an element is not affected by any other: in two runs with the same optimizers, an element with the same value and statistics
at the beginning and the same gradients has the same values, whatever the other elements and parameters are, NaN or not. -/
theorem C88_independent (ho : ∀ k, k < n → (o k).epoch + 1 < U32 ∧ Flt.gt (o k).clip 0 = false) (hk : ∀ k, k < n → (o k).kind.names = (o 0).kind.names)
    (h : AdamRun d n p m o q as) {i : Nat} {a : Nat → PArr (Fl f32)} (ha : ∀ k, k ≤ n → (as k)[i]? = some (a k)) {c : Nat → Nat} {b : Nat}
    (hv : (a 0).shape.Valid c b) {d' : Nat} {p' : Profile} {m' : Nat → Nat → Nat → Mem (Fl f32)} {q' : Nat → List (Param (Fl f32))}
    {as' : Nat → List (PArr (Fl f32))} (h' : AdamRun d' n p' m' o q' as') {i' : Nat} {a' : Nat → PArr (Fl f32)}
    (ha' : ∀ k, k ≤ n → (as' k)[i']? = some (a' k)) {c' : Nat → Nat} {b' : Nat} (hv' : (a' 0).shape.Valid c' b')
    (h0 : (a' 0).value c' b' = (a 0).value c b) (hs : ∀ name ∈ (o 0).kind.names, (a' 0).read name c' b' = (a 0).read name c b)
    (hg : ∀ k, k < n → (a' k).grad c' b' = (a k).grad c b) : ∀ k, k ≤ n → (a' k).value c' b' = (a k).value c b := by
  have key : ∀ k, k ≤ n → (a k).shape = (a 0).shape ∧ (a' k).shape = (a' 0).shape ∧ (a' k).value c' b' = (a k).value c b ∧
      ∀ name ∈ (o 0).kind.names, (a' k).read name c' b' = (a k).read name c b := by
    intro k hkn
    induction k with
    | zero => exact ⟨rfl, rfl, h0, hs⟩
    | succ k ih =>
      obtain ⟨i1, i2, i3, i4⟩ := ih (by omega)
      obtain ⟨s1, r1⟩ := next_used (fun k hk => (ho k hk).1) h ha (k := k) (by omega)
      obtain ⟨s2, r2⟩ := next_used (fun k hk => (ho k hk).1) h' ha' (k := k) (by omega)
      obtain ⟨r1, t1⟩ := r1 c b (by rw [i1]; exact hv)
      obtain ⟨r2, t2⟩ := r2 c' b' (by rw [i2]; exact hv')
      have hu : PArr.used (o k) (as' k) (a' k) c' b' = PArr.used (o k) (as k) (a k) c b := by
        unfold PArr.used PArr.decayed
        rw [(ho k (by omega)).2]
        simp only [Bool.false_and, Bool.false_eq_true, if_false]
        have e := hg k (by omega)
        split
        · show Fl.add _ _ (Fl.mul _ _ _) = Fl.add _ _ (Fl.mul _ _ _)
          rw [e, i3]
        · exact e
      rw [← hk k (by omega)] at i4 ⊢
      refine ⟨s1.trans i1, s2.trans i2, ?_, fun name hname => ?_⟩
      · rw [r1, r2]
        cases hkind : (o k).kind with
        | sgd eta =>
          show _ - PArr.used _ _ _ c' b' * _ = _ - PArr.used _ _ _ c b * _
          rw [hu]; exact congrArg (· - _) i3
        | momentum eta mu =>
          have e1 := i4 "MomentumSGD.m" (by rw [hkind]; exact List.mem_singleton.mpr rfl)
          show (a' k).value c' b' + ((a' k).read "MomentumSGD.m" c' b' * mu - PArr.used _ _ _ c' b' * _) =
            (a k).value c b + ((a k).read "MomentumSGD.m" c b * mu - PArr.used _ _ _ c b * _)
          rw [hu, i3, e1]
        | adam alpha beta1 beta2 eps =>
          have e1 := i4 "Adam.m1" (by rw [hkind]; simp [OptKind.names])
          have e2 := i4 "Adam.m2" (by rw [hkind]; simp [OptKind.names])
          show (a' k).value c' b' - ((a' k).read "Adam.m1" c' b' * beta1 + PArr.used _ _ _ c' b' * _) / _ * _ /
              (Flt.sqrt (((a' k).read "Adam.m2" c' b' * beta2 + PArr.used _ _ _ c' b' * _ * PArr.used _ _ _ c' b') / _) + _) =
            (a k).value c b - ((a k).read "Adam.m1" c b * beta1 + PArr.used _ _ _ c b * _) / _ * _ /
              (Flt.sqrt (((a k).read "Adam.m2" c b * beta2 + PArr.used _ _ _ c b * _ * PArr.used _ _ _ c b) / _) + _)
          rw [hu, i3, e1, e2]
      · rw [t1 name hname, t2 name hname]
        have e1 := i4 name hname
        cases hkind : (o k).kind with
        | sgd eta => rw [hkind] at hname; exact absurd hname List.not_mem_nil
        | momentum eta mu =>
          rw [hkind] at hname
          obtain rfl := List.mem_singleton.mp hname
          show (a' k).read "MomentumSGD.m" c' b' * mu - PArr.used _ _ _ c' b' * _ = (a k).read "MomentumSGD.m" c b * mu - PArr.used _ _ _ c b * _
          rw [hu, e1]
        | adam alpha beta1 beta2 eps =>
          rw [hkind] at hname
          rcases List.mem_cons.mp hname with rfl | hname
          · show (a' k).read "Adam.m1" c' b' * beta1 + PArr.used _ _ _ c' b' * _ = (a k).read "Adam.m1" c b * beta1 + PArr.used _ _ _ c b * _
            rw [hu, e1]
          · obtain rfl := List.mem_singleton.mp hname
            show (a' k).read "Adam.m2" c' b' * beta2 + PArr.used _ _ _ c' b' * _ * PArr.used _ _ _ c' b' =
              (a k).read "Adam.m2" c b * beta2 + PArr.used _ _ _ c b * _ * PArr.used _ _ _ c b
            rw [hu, e1]
  exact fun k hk => (key k hk).2.2.1

/-- MomentumSGD without weight decay and clipping, with a rate of at most 1 and a momentum in [0, 1 - 2^-20]. -/
structure PlainMomentum (o : Opt (Fl f32)) (eta mu : Fl f32) : Prop where
  kind : o.kind = .momentum eta mu
  no_decay : Flt.gt o.l2 0 = false
  no_clip : Flt.gt o.clip 0 = false
  epoch : o.epoch + 1 < U32
  rate : (o.lrScale * eta).In (-1) 1
  mu : mu.In 0 (1 - 1 / 2 ^ 20)

/-- C88: with MomentumSGD and finite gradients of at most `2^80`, the momentum stays finite and no element ever becomes NaN, in any number of iterations. -/
theorem C88_momentum_no_nan {eta mu : Nat → Fl f32} (ho : ∀ k, k < n → PlainMomentum (o k) (eta k) (mu k)) (h : AdamRun d n p m o q as) {i : Nat}
    {a : Nat → PArr (Fl f32)} (ha : ∀ k, k ≤ n → (as k)[i]? = some (a k)) {c : Nat → Nat} {b : Nat} (hv : (a 0).shape.Valid c b)
    (h0 : (a 0).value c b ≠ .nan) (h1 : ((a 0).read "MomentumSGD.m" c b).In (-2 ^ 100) (2 ^ 100))
    (hg : ∀ k, k < n → ((a k).grad c b).In (-2 ^ 80) (2 ^ 80)) :
    ∀ k, k ≤ n → (a k).value c b ≠ .nan ∧ ((a k).read "MomentumSGD.m" c b).In (-2 ^ 100) (2 ^ 100) := by
  have key : ∀ k, k ≤ n → (a k).shape = (a 0).shape ∧ (a k).value c b ≠ .nan ∧ ((a k).read "MomentumSGD.m" c b).In (-2 ^ 100) (2 ^ 100) := by
    intro k hkn
    induction k with
    | zero => exact ⟨rfl, h0, h1⟩
    | succ k ih =>
      obtain ⟨i1, i2, i3⟩ := ih (by omega)
      have hk := ho k (by omega)
      obtain ⟨s1, r1⟩ := next_used (fun k hk => (ho k hk).epoch) h ha (k := k) (by omega)
      obtain ⟨r1, t1⟩ := r1 c b (by rw [i1]; exact hv)
      have hu : PArr.used (o k) (as k) (a k) c b = (a k).grad c b := by
        unfold PArr.used PArr.decayed
        rw [hk.no_clip, hk.no_decay]
        rfl
      have t1 := t1 "MomentumSGD.m" (by rw [hk.kind]; exact List.mem_singleton.mpr rfl)
      rw [hk.kind] at r1 t1
      have t2 : (a (k + 1)).read "MomentumSGD.m" c b = (a k).read "MomentumSGD.m" c b * mu k - (a k).grad c b * ((o k).lrScale * eta k) := by
        rw [t1, ← hu]; rfl
      have r2 : (a (k + 1)).value c b = (a k).value c b + ((a k).read "MomentumSGD.m" c b * mu k - (a k).grad c b * ((o k).lrScale * eta k)) := by
        rw [r1, ← hu]; rfl
      have m1 : (Fl.mul E.near32 ((a k).read "MomentumSGD.m" c b) (mu k)).In (-(2 ^ 100 - 2 ^ 80)) (2 ^ 100 - 2 ^ 80) :=
        Fl.mul_mag i3 (hk.mu.mono (c := -(1 - 1 / 2 ^ 20)) (by norm_num) le_rfl) Fl.hasBig (by norm_num)
      have m2 : (Fl.mul E.near32 ((a k).grad c b) ((o k).lrScale * eta k)).In (-(2 ^ 80)) (2 ^ 80) :=
        Fl.mul_mag (hg k (by omega)) hk.rate (Fl.hasTwo 80 (by norm_num)) (by norm_num)
      have m3 : (Fl.sub E.near32 (Fl.mul E.near32 ((a k).read "MomentumSGD.m" c b) (mu k)) (Fl.mul E.near32 ((a k).grad c b) ((o k).lrScale * eta k))).In (-2 ^ 100) (2 ^ 100) :=
        Fl.sub_in m1 m2 (Fl.hasTwo 100 (by norm_num)).neg (Fl.hasTwo 100 (by norm_num)) (by norm_num) (by norm_num)
      exact ⟨s1.trans i1, by rw [r2]; exact Fl.add_ne_nan i2 m3, by rw [t2]; exact m3⟩
  exact fun k hk => (key k hk).2

/-- A run with any optimizers of one kind on one 2×3 parameter with any values and any gradients exists. -/
theorem opt_run_exists (kind : OptKind (Fl f32)) (o : Nat → Opt (Fl f32)) (hk : ∀ k, (o k).kind = kind) (n : Nat) (he : ∀ k, k < n → (o k).epoch + 1 < U32)
    (v : Nat → Fl f32) (g : Nat → Nat → Fl f32) (p : Profile) (m : Nat → Nat → Nat → Mem (Fl f32)) :
    ∃ (q : Nat → List (Param (Fl f32))) (a : Nat → PArr (Fl f32)), AdamRun 0 n p m o q (fun k => [a k]) ∧ (a 0).shape = matShape 2 3 1 ∧
      (∀ k c b, (a k).grad c b = g k ((matShape 2 3 1).offset c b)) ∧ (∀ c b, (a 0).value c b = v ((matShape 2 3 1).offset c b)) ∧
      ∀ name c b, (a 0).read name c b = 0 := by
  have hs := matShape_wf (n := 2) (m := 3) (b := 1) rfl
  have hsz : (matShape 2 3 1).size ≤ 2 ^ 31 := by decide
  obtain ⟨t1, e1⟩ := exists_holds hs hsz 0 v
  have hgr : ∀ k, ∃ t : Tensor (Fl f32), t.Holds 0 (matShape 2 3 1) (fun c b => g k ((matShape 2 3 1).offset c b)) := fun k => exists_holds hs hsz 0 (g k)
  choose t2 e2 using hgr
  let a1 : PArr (Fl f32) := ⟨matShape 2 3 1, fun c b => v ((matShape 2 3 1).offset c b), fun c b => g 0 ((matShape 2 3 1).offset c b), fun _ => none⟩
  have hq1 : (⟨t1, t2 0, []⟩ : Param (Fl f32)).Is 0 a1 := ⟨rfl, e1, e2 0, fun _ _ => rfl, List.nodup_nil, fun _ _ _ h => by cases h⟩
  obtain ⟨q0, -, hq0⟩ := configureParameter_ok hq1 (o 0) p (fun _ => 0)
  have hrd := configured_ready (a := a1) (o 0).kind (fun _ _ _ h => by cases h)
  let a : Nat → PArr (Fl f32) := fun k => Nat.rec (a1.configured (o 0).kind.names) (fun k a =>
    (((a.withGrad (PArr.used (o k) [a] a)).rule (o k).kind (Flt.ofInt ((o k).epoch + 1)) (o k).lrScale).zeroed).withGrad
      fun c b => g (k + 1) ((matShape 2 3 1).offset c b)) k
  let q : Nat → List (Param (Fl f32)) := fun k => Nat.rec [q0] (fun k q =>
    ((o k).updateParameters p (m k) q).1.map fun x => { x with gradient := t2 (k + 1) }) k
  have hsh : ∀ k, (a k).shape = matShape 2 3 1 := by
    intro k
    induction k with
    | zero => rfl
    | succ k ih => exact (rule_shape _ _ _ _).trans ih
  have hready : ∀ k, (a k).Ready kind := by
    intro k
    induction k with
    | zero => rw [← hk 0]; exact hrd
    | succ k ih =>
      have h1 : ((a k).withGrad (PArr.used (o k) [a k] (a k))).Ready kind := ih
      have h2 : (a (k + 1)).Ready (o k).kind := rule_ready (o k).kind (Flt.ofInt ((o k).epoch + 1)) (o k).lrScale _ ((hk k).symm ▸ h1)
      rwa [hk k] at h2
  have hall : ∀ k, k ≤ n → Params 0 (q k) [a k] := by
    intro k hkn
    induction k with
    | zero => exact .cons hq0 .nil
    | succ k ih =>
      obtain ⟨qs', x1, x2⟩ := updateParameters_ok (Fl.mul_comm E.near32) (o k) (he k (by omega)) (ih (by omega))
        (by intro x hx; rw [List.mem_singleton.mp hx, hk]; exact hready k) p (m k)
      rw [updated_used] at x2
      show Params 0 (((o k).updateParameters p (m k) (q k)).1.map fun x => { x with gradient := t2 (k + 1) }) _
      rw [x1]
      cases x2 with
      | cons y1 y2 =>
        cases y2
        refine .cons ⟨y1.batch, y1.value, ?_, y1.stat_none, y1.nodup, y1.stat_some⟩ .nil
        have : (a (k + 1)).shape = matShape 2 3 1 := hsh (k + 1)
        rw [this]
        exact e2 (k + 1)
  refine ⟨q, a, ⟨hall, fun k _ x hx => ?_, fun k hkn => ?_⟩, rfl, fun k c b => ?_, fun c b => rfl, fun name c b => ?_⟩
  · rw [List.mem_singleton.mp hx, hk]; exact hready k
  · obtain ⟨qs', x1, x2⟩ := updateParameters_ok (Fl.mul_comm E.near32) (o k) (he k hkn) (hall k hkn.le)
      (by intro x hx; rw [List.mem_singleton.mp hx, hk]; exact hready k) p (m k)
    refine ⟨qs', _, x1, ?_⟩
    show List.Forall₂ _ qs' (((o k).updateParameters p (m k) (q k)).1.map fun x => { x with gradient := t2 (k + 1) })
    rw [x1, List.forall₂_map_right_iff, List.forall₂_same]
    exact fun x _ => ⟨rfl, fun _ => rfl⟩
  · cases k with
    | zero => rfl
    | succ k => rfl
  · show (a1.configured (o 0).kind.names).read name c b = 0
    unfold PArr.read PArr.configured
    by_cases h : name ∈ (o 0).kind.names
    · simp [a1, h]
    · simp [a1, h]

/-- A run of any length of a 2×3 parameter with a NaN in the gradient of the first element in the first iteration: with weight decay, clipping and any optimizer,
the first element is NaN after every iteration. -/
example (kind : OptKind (Fl f32)) (n : Nat) (hn : n < U32) (p : Profile) (m : Nat → Nat → Nat → Mem (Fl f32)) :
    ∃ (q : Nat → List (Param (Fl f32))) (a : Nat → PArr (Fl f32)), AdamRun 0 n p m (fun k => ⟨k, fl1, fl1, fl1, kind⟩) q (fun k => [a k]) ∧
      (a 0).shape.size = 6 ∧ (∀ c b, (a 0).value c b = fl1) ∧ ∀ k, 0 < k → k ≤ n → (a k).value czero 0 = .nan := by
  have hs := matShape_wf (n := 2) (m := 3) (b := 1) rfl
  obtain ⟨q, a, h, h1, h2, h3, -⟩ := opt_run_exists kind (fun k => ⟨k, fl1, fl1, fl1, kind⟩) (fun _ => rfl) n (fun k hk => show k + 1 < U32 by omega)
    (fun _ => fl1) (fun k i => if k = 0 ∧ i = 0 then .nan else fl1) p m
  refine ⟨q, a, h, by rw [h1]; rfl, h3, ?_⟩
  exact C88_nan_forever (fun k hk => show k + 1 < U32 by omega) h (i := 0) (fun _ _ => rfl) (c := czero) (b := 0)
    ⟨fun i => by rw [h1]; exact hs.get_pos i, by rw [h1]; exact hs.batch_pos⟩ (k₀ := 0) (.inl (by rw [h2]; rfl))

/-- A parameter with a NaN and otherwise the gradient `2^26`, which a clip threshold of 1 would have scaled down. -/
example (p : Profile) (m : Nat → Nat → Mem (Fl f32)) : ∃ (q : List (Param (Fl f32))) (a : PArr (Fl f32)) (q' : List (Param (Fl f32))), Params 0 q [a] ∧
    a.grad czero 0 = .nan ∧ a.grad (fun i => if i = 0 then 1 else 0) 0 = fl26 ∧
    (⟨0, fl1, 0, fl1, .sgd fl1⟩ : Opt (Fl f32)).updateParameters p m q = (q', ok 1) ∧
    Params 0 q' [((a.decayed 0).rule (.sgd fl1) (Flt.ofInt 1) fl1).zeroed] := by
  have hs := matShape_wf (n := 2) (m := 3) (b := 1) rfl
  obtain ⟨q, a, h, h1, h2, -⟩ := opt_run_exists (.sgd fl1) (fun k => ⟨k, fl1, 0, fl1, .sgd fl1⟩) (fun _ => rfl) 1 (fun k hk => show k + 1 < U32 by unfold U32; omega)
    (fun _ => fl1) (fun _ i => if i = 0 then .nan else fl26) p (fun _ => m)
  obtain ⟨q', e1, e2⟩ := C88_nan_disables_clipping (o := ⟨0, fl1, 0, fl1, .sgd fl1⟩) (show 0 + 1 < U32 by decide) (h.holds 0 (by omega))
    (by intro x hx; rw [List.mem_singleton.mp hx]; trivial)
    ⟨a 0, List.mem_singleton.mpr rfl, czero, 0, ⟨fun i => by rw [h1]; exact hs.get_pos i, by rw [h1]; exact hs.batch_pos⟩, by rw [h2]; rfl⟩ p m
  exact ⟨q 0, a 0, q', h.holds 0 (by omega), by rw [h2]; rfl, by rw [h2]; rfl, e1, e2⟩

/-- Two runs with any optimizer: in the second, all gradients but those of the first element are NaN. The values of the first element are the same. -/
example (kind : OptKind (Fl f32)) (n : Nat) (hn : n < U32) (p : Profile) (m : Nat → Nat → Nat → Mem (Fl f32)) :
    ∃ (q q' : Nat → List (Param (Fl f32))) (a a' : Nat → PArr (Fl f32)), AdamRun 0 n p m (fun k => ⟨k, fl1, fl1, 0, kind⟩) q (fun k => [a k]) ∧
      AdamRun 0 n p m (fun k => ⟨k, fl1, fl1, 0, kind⟩) q' (fun k => [a' k]) ∧ (∀ k c b, (a k).grad c b = fl1) ∧
      (∀ k, (a' k).grad (fun i => if i = 0 then 1 else 0) 0 = .nan) ∧ ∀ k, k ≤ n → (a' k).value czero 0 = (a k).value czero 0 := by
  have hs := matShape_wf (n := 2) (m := 3) (b := 1) rfl
  have he : ∀ k, k < n → (⟨k, fl1, fl1, 0, kind⟩ : Opt (Fl f32)).epoch + 1 < U32 := fun k hk => show k + 1 < U32 by omega
  obtain ⟨q, a, h, h1, h2, h3, h4⟩ := opt_run_exists kind (fun k => ⟨k, fl1, fl1, 0, kind⟩) (fun _ => rfl) n he (fun _ => fl1) (fun _ _ => fl1) p m
  obtain ⟨q', a', h', h1', h2', h3', h4'⟩ := opt_run_exists kind (fun k => ⟨k, fl1, fl1, 0, kind⟩) (fun _ => rfl) n he (fun _ => fl1)
    (fun _ i => if i = 0 then fl1 else .nan) p m
  refine ⟨q, q', a, a', h, h', h2, fun k => by rw [h2']; rfl, ?_⟩
  exact C88_independent (fun k hk => ⟨he k hk, gt_zero_zero⟩) (fun _ _ => rfl) h (i := 0) (fun _ _ => rfl) (c := czero) (b := 0)
    ⟨fun i => by rw [h1]; exact hs.get_pos i, by rw [h1]; exact hs.batch_pos⟩ h' (i' := 0) (fun _ _ => rfl) (c' := czero) (b' := 0)
    ⟨fun i => by rw [h1']; exact hs.get_pos i, by rw [h1']; exact hs.batch_pos⟩ (by rw [h3, h3']) (fun _ _ => by rw [h4, h4']) (fun k _ => by rw [h2, h2']; rfl)

/-- MomentumSGD with rate 1, momentum 1/2 and gradients of 1: no element becomes NaN. -/
example (n : Nat) (hn : n < U32) (p : Profile) (m : Nat → Nat → Nat → Mem (Fl f32)) : ∃ (q : Nat → List (Param (Fl f32))) (a : Nat → PArr (Fl f32)) (o : Nat → Opt (Fl f32)),
    AdamRun 0 n p m o q (fun k => [a k]) ∧ (∀ k c b, (a k).grad c b = fl1) ∧ ∀ k, k ≤ n → (a k).value czero 0 ≠ .nan := by
  have hs := matShape_wf (n := 2) (m := 3) (b := 1) rfl
  let mu : Fl f32 := flPos (has_pow (-1) (by norm_num) (by norm_num)) (by positivity)
  have hmu : mu.Is (2 ^ (-1 : ℤ)) := flPos_is _ _
  obtain ⟨q, a, h, h1, h2, h3, h4⟩ := opt_run_exists (.momentum fl1 mu) (fun k => ⟨k, fl1, 0, 0, .momentum fl1 mu⟩) (fun _ => rfl) n
    (fun k hk => show k + 1 < U32 by omega) (fun _ => fl1) (fun _ _ => fl1) p m
  refine ⟨q, a, _, h, h2, fun k hk => ?_⟩
  refine (C88_momentum_no_nan (eta := fun _ => fl1) (mu := fun _ => mu) (fun k hk => ⟨rfl, gt_zero_zero, gt_zero_zero, show k + 1 < U32 by omega, ?_, ?_⟩) h (i := 0)
    (fun _ _ => rfl) (c := czero) (b := 0) ⟨fun i => by rw [h1]; exact hs.get_pos i, by rw [h1]; exact hs.batch_pos⟩ ?_ ?_ (fun k _ => ?_) k hk).1
  · obtain ⟨z, ez⟩ := Fl.mul_eq (N := E.near32) (show fl1.Is 1 from ⟨le_rfl, le_rfl⟩) (show fl1.Is 1 from ⟨le_rfl, le_rfl⟩)
    show (Fl.mul E.near32 fl1 fl1).In _ _
    rw [ez]
    exact Fl.round_in has1.neg has1 (by norm_num) (by norm_num)
  · exact Fl.In.mono (a := 2 ^ (-1 : ℤ)) (b := 2 ^ (-1 : ℤ)) hmu (by positivity) (by norm_num)
  · rw [h3]; intro h; cases h
  · rw [h4]; exact ⟨by show (-2 ^ 100 : ℝ) ≤ 0; norm_num, by show (0 : ℝ) ≤ 2 ^ 100; norm_num⟩
  · rw [h2]; exact ⟨by show (-2 ^ 80 : ℝ) ≤ 1; norm_num, by show (1 : ℝ) ≤ 2 ^ 80; norm_num⟩

end
end Verif
