import Verif.PropsSafety2

/-!
# Property C55: memory safety of whole programs

Programs that use tensors, graphs, parameters and optimizers in any combination, in a build with overflow checks.  `ub` is a raw-pointer
access outside the buffer of a tensor.
-/

set_option linter.unusedSectionVars false

namespace Verif
open Res

section
variable {α : Type} [Flt α]

/-- A parameter as the library makes and keeps it: value, gradient and statistics are proper tensors of one shape. -/
structure Param.Sound (q : Param α) : Prop where
  value : q.value.Fine
  gradient : q.gradient.Fine
  shape : q.gradient.shape = q.value.shape
  stats : ∀ a ∈ q.stats, a.2.Fine ∧ a.2.shape = q.value.shape

/-- Sound parameters stay sound and keep their shape. -/
def Param.Stays (q : Param α) (r : Res (Param α)) : Prop := r.Safe ∧ ∀ q', r = ok q' → q'.Sound ∧ q'.value.shape = q.value.shape

/-- A tensor with the shape `s`. -/
theorem Like.of {t : Tensor α} {s : Shape} (h : t.Fine) (hs : t.shape = s) : Like s.get s.batch t := ⟨h, fun _ => by rw [hs], .inr (by rw [hs])⟩

theorem Param.Stays.bind {q : Param α} {B : Type} {r : Res B} {k : B → Res (Param α)} (h : r.Safe) (hk : ∀ b, r = ok b → q.Stays (k b)) :
    q.Stays (r >>= k) := by
  refine ⟨Res.Safe.bind h fun b hb => (hk b hb).1, fun q' e => ?_⟩
  rw [Res.bind_eq_ok] at e
  obtain ⟨b, hb, e⟩ := e
  exact (hk b hb).2 q' e

theorem Param.Stays.then {q : Param α} {r : Res (Param α)} {k : Param α → Res (Param α)} (h : q.Stays r)
    (hk : ∀ q' : Param α, q'.Sound → q'.value.shape = q.value.shape → q'.Stays (k q')) : q.Stays (r >>= k) :=
  Param.Stays.bind h.1 fun q' e => by
    obtain ⟨h1, h2⟩ := h.2 q' e
    obtain ⟨h3, h4⟩ := hk q' h1 h2
    exact ⟨h3, fun z hz => ⟨(h4 z hz).1, (h4 z hz).2.trans h2⟩⟩

theorem TF.mulAssign_keeps {g : Tensor α} (hg : g.Fine) (k : α) : KeepsT g (TF.mulAssign .debug g k) := by
  unfold TF.mulAssign
  refine KeepsT.bind (Tensor.dev_safe _) fun e he => KeepsT.of_good (Dev.mulAssignConst_good hg k) (e := e) fun _ _ => ?_
  simp only [Tensor.dev, unwrap] at he
  split at he
  · cases he; assumption
  · cases he

theorem TF.cn_gives {c : Cn} {k : α} {m : Nat → α} {x : Tensor α} {f : Nat → Nat} {B : Nat} (hx : Like f B x) :
    Gives f B (TF.call (.cn c k) .debug m x [x]) := by
  refine TF.call_gives (by simpa using hx.fine) fun s hs => ?_
  have hs : ok x.shape = ok s := hs
  cases hs
  exact ⟨x.shape.batch, ⟨hx.fine.wf, hx.dims, rfl⟩, hx.batch⟩

theorem KeepsT.like {g : Tensor α} {r : Res (Tensor α)} (h : KeepsT g r) {y : Tensor α} (hy : r = ok y) {s : Shape} (hs : g.shape = s) :
    Like s.get s.batch y := Like.of (h.2 y hy).1 ((h.2 y hy).2.2.trans hs)

theorem Tensor.reset_keeps {t : Tensor α} (h : t.Fine) (k : α) : KeepsT t (t.reset .debug k) := by
  unfold Tensor.reset
  refine KeepsT.bind (Tensor.dev_safe _) fun e he => KeepsT.of_good (e := e) ?_ fun _ _ => ?_
  · simp only [Tensor.dev, unwrap] at he
    split at he
    · cases he; exact Dev.resetTensor_good h (by assumption) k
    · cases he
  · simp only [Tensor.dev, unwrap] at he
    split at he
    · cases he; assumption
    · cases he

theorem stat_lookup_mem {l : List (String × Tensor α)} {n : String} {t : Tensor α} (h : l.lookup n = some t) : ∃ a ∈ l, a.2 = t := by
  induction l with
  | nil => cases h
  | cons a l ih =>
    simp only [List.lookup] at h
    split at h
    · cases h; exact ⟨a, by simp, rfl⟩
    · obtain ⟨b, hb, e⟩ := ih h
      exact ⟨b, by simp [hb], e⟩

theorem Param.Sound.stat {q : Param α} (h : q.Sound) {n : String} {t : Tensor α} (ht : unwrap (q.stat n) = ok t) : t.Fine ∧ t.shape = q.value.shape := by
  simp only [unwrap] at ht
  split at ht
  · rename_i t' e
    cases ht
    obtain ⟨a, ha, rfl⟩ := stat_lookup_mem (l := q.stats) (n := n) e
    exact h.stats a ha
  · cases ht

theorem Param.Sound.setStat {q : Param α} (h : q.Sound) {n : String} {t : Tensor α} (ht : t.Fine) (hs : t.shape = q.value.shape) :
    (q.setStat n t).Sound := by
  refine ⟨h.value, h.gradient, h.shape, fun a ha => ?_⟩
  simp only [Param.setStat, List.mem_map] at ha
  obtain ⟨b, hb, rfl⟩ := ha
  split
  · exact ⟨ht, hs⟩
  · exact h.stats b hb

theorem uadd_safe (p : Profile) (a b : Nat) : (uadd p a b).Safe := Shape.u32_safe _ _

/-- a new parameter of the library is sound: `Device::new_parameter` with value and gradient of one shape. -/
theorem new_sound {v g : Tensor α} (hv : v.Fine) (hg : g.Fine) (hs : g.shape = v.shape) {q : Param α}
    (h : Param.new v g = ok q) : q.Sound := by
  simp only [Param.new, Res.bind_eq_ok, Res.ok.injEq] at h
  obtain ⟨_, _, _, _, rfl⟩ := h
  exact ⟨hv, hg, hs, fun a ha => by cases ha⟩

/-- `reset_gradient` -/
theorem reset_gradient_stays {q : Param α} (h : q.Sound) : q.Stays (q.resetGradient .debug) := by
  unfold Param.resetGradient
  have hk := Tensor.reset_keeps h.gradient (0 : α)
  refine Param.Stays.bind hk.1 fun g hg => ⟨safe_ok _, fun q' e => ?_⟩
  cases e
  obtain ⟨h1, _, h2⟩ := hk.2 g hg
  exact ⟨⟨h.value, h1, h2.trans h.shape, h.stats⟩, rfl⟩

theorem moveStats_good {d : Nat} {m : Mem α} {s : Shape} : ∀ (l : List (String × Tensor α)) (i : Nat), (∀ a ∈ l, a.2.Fine ∧ a.2.shape = s) →
    (Param.moveStats .debug d m i l).Safe ∧ ∀ l', Param.moveStats .debug d m i l = ok l' → ∀ a ∈ l', a.2.Fine ∧ a.2.shape = s := by
  intro l
  induction l with
  | nil => exact fun i _ => ⟨safe_ok _, fun l' e => by cases e; simp⟩
  | cons a l ih =>
    intro i h
    obtain ⟨h1, h2⟩ := h a (by simp)
    have hm := Tensor.moveToDevice_good (d := d) h1 (m i)
    obtain ⟨h3, h4⟩ := ih (i + 1) fun b hb => h b (by simp [hb])
    refine ⟨Res.Safe.bind hm.1 fun _ _ => Res.Safe.bind h3 fun _ _ => safe_ok _, fun l' e => ?_⟩
    simp only [Param.moveStats, Res.bind_eq_ok, Res.ok.injEq] at e
    obtain ⟨t, ht, r, hr, rfl⟩ := e
    obtain ⟨f1, _, f2, _⟩ := hm.2 t ht
    intro b hb
    rcases List.mem_cons.mp hb with rfl | hb
    · exact ⟨f1, f2.trans h2⟩
    · exact h4 r hr b hb

/-- `move_to_device` -/
theorem move_to_device_stays {q : Param α} (h : q.Sound) (d : Nat) (m : Mem α) : q.Stays (q.moveToDevice .debug d m) := by
  have h1 := Tensor.moveToDevice_good (d := d) h.value (m 0)
  have h2 := Tensor.moveToDevice_good (d := d) h.gradient (m 1)
  have h3 := moveStats_good (d := d) (m := m) q.stats 2 h.stats
  unfold Param.moveToDevice
  refine Param.Stays.bind h1.1 fun v hv => Param.Stays.bind h2.1 fun g hg => Param.Stays.bind h3.1 fun st hst => ⟨safe_ok _, fun q' e => ?_⟩
  cases e
  obtain ⟨a1, _, a2, _⟩ := h1.2 v hv
  obtain ⟨b1, _, b2, _⟩ := h2.2 g hg
  exact ⟨⟨a1, b1, b2.trans (h.shape.trans a2.symm), fun a ha => ⟨(h3.2 st hst a ha).1, (h3.2 st hst a ha).2.trans a2.symm⟩⟩, a2⟩

theorem ensureStat_stays {q : Param α} (h : q.Sound) (m : Nat → α) (name : String) : q.Stays (Opt.ensureStat .debug m name q) := by
  unfold Opt.ensureStat
  split
  · exact ⟨safe_ok _, fun q' e => by cases e; exact ⟨h, rfl⟩⟩
  · unfold Param.addStat
    refine Param.Stays.bind (check_safe _) fun _ _ => Param.Stays.bind (Tensor.dev_safe _) fun d _ => ?_
    have hn := Dev.newByConstant_good h.value.wf d m (0 : α)
    refine Param.Stays.bind hn.1 fun t ht => ⟨safe_ok _, fun q' e => ?_⟩
    cases e
    obtain ⟨h1, _, h2, _⟩ := hn.2 t ht
    refine ⟨⟨h.value, h.gradient, h.shape, fun a ha => ?_⟩, rfl⟩
    rcases List.mem_cons.mp ha with rfl | ha
    · exact ⟨h1, h2⟩
    · exact h.stats a ha

/-- `configure_parameter` of every optimizer -/
theorem configure_stays {q : Param α} (h : q.Sound) (o : Opt α) (m : Mem α) : q.Stays (o.configureParameter .debug m q) := by
  unfold Opt.configureParameter
  split
  · exact ⟨safe_ok _, fun q' e => by cases e; exact ⟨h, rfl⟩⟩
  · exact ensureStat_stays h _ _
  · exact (ensureStat_stays h _ _).then fun _ h' _ => ensureStat_stays h' _ _

theorem Param.Sound.setValue {q : Param α} (h : q.Sound) {v : Tensor α} (hv : KeepsT q.value (ok v)) : ({ q with value := v } : Param α).Sound ∧ v.shape = q.value.shape := by
  obtain ⟨h1, _, h2⟩ := hv.2 v rfl
  exact ⟨⟨h1, h.gradient, h.shape.trans h2.symm, fun a ha => ⟨(h.stats a ha).1, (h.stats a ha).2.trans h2.symm⟩⟩, h2⟩

/-- `update_parameter` of every optimizer, also of one for which the parameter is not configured -/
theorem update_stays {q : Param α} (h : q.Sound) (o : Opt α) (scale : α) (m : Mem α) : q.Stays (o.updateParameter .debug m scale q) := by
  have hv := Like.of h.value rfl
  have hg := Like.of h.gradient h.shape
  unfold Opt.updateParameter
  cases o.kind with
  | sgd eta =>
    have c := TF.cn_gives (c := .mul) (k := scale * eta) (m := m 0) hg
    refine Param.Stays.bind c.1 fun diff hd => ?_
    have k := TF.subAssign_keeps hv (c.2 diff hd)
    refine Param.Stays.bind k.1 fun v e => ⟨safe_ok _, fun q' e' => ?_⟩
    cases e'
    exact h.setValue (e ▸ k)
  | momentum eta mo =>
    have c := TF.cn_gives (c := .mul) (k := scale * eta) (m := m 0) hg
    refine Param.Stays.bind c.1 fun diff hd => Param.Stays.bind (unwrap_safe _) fun mm hmm => ?_
    obtain ⟨f1, f2⟩ := h.stat hmm
    have k1 := TF.mulAssign_keeps f1 mo
    refine Param.Stays.bind k1.1 fun m1 e1 => ?_
    obtain ⟨g1, _, g2⟩ := k1.2 m1 e1
    have k2 := TF.subAssign_keeps (Like.of g1 (g2.trans f2)) (c.2 diff hd)
    refine Param.Stays.bind k2.1 fun m2 e2 => ?_
    obtain ⟨i1, _, i2⟩ := k2.2 m2 e2
    have i2 := i2.trans (g2.trans f2)
    have k3 := TF.addAssign_keeps hv (Like.of i1 i2)
    refine Param.Stays.bind k3.1 fun v e => ⟨safe_ok _, fun q' e' => ?_⟩
    cases e'
    exact (h.setStat (n := "MomentumSGD.m") i1 i2).setValue (e ▸ k3)
  | adam alpha b1 b2 eps =>
    refine Param.Stays.bind (uadd_safe _ _ _) fun ep _ => Param.Stays.bind (unwrap_safe _) fun m1 hm1 => Param.Stays.bind (unwrap_safe _) fun m2 hm2 => ?_
    obtain ⟨f1, f2⟩ := h.stat hm1
    obtain ⟨f3, f4⟩ := h.stat hm2
    have k1 := TF.mulAssign_keeps f1 b1
    refine Param.Stays.bind k1.1 fun m1' e1 => ?_
    have l1 := k1.like e1 f2
    have c1 := TF.cn_gives (c := .mul) (k := 1 - b1) (m := m 0) hg
    refine Param.Stays.bind c1.1 fun t1 ht1 => ?_
    have k2 := TF.addAssign_keeps l1 (c1.2 t1 ht1)
    refine Param.Stays.bind k2.1 fun m1'' e2 => ?_
    have s2 := (k2.2 _ e2).2.2.trans ((k1.2 _ e1).2.2.trans f2)
    have l2 := k2.like e2 ((k1.2 _ e1).2.2.trans f2)
    have k3 := TF.mulAssign_keeps f3 b2
    refine Param.Stays.bind k3.1 fun m2' e3 => ?_
    have l3 := k3.like e3 f4
    have c2 := TF.cn_gives (c := .mul) (k := 1 - b2) (m := m 1) hg
    refine Param.Stays.bind c2.1 fun t2 ht2 => ?_
    have c3 := TF.abOp_gives (b := .mul) (l := .mul) (r := .mul) (m := m 2) (c2.2 t2 ht2) hg
    refine Param.Stays.bind c3.1 fun t3 ht3 => ?_
    have k4 := TF.addAssign_keeps l3 (c3.2 t3 ht3)
    refine Param.Stays.bind k4.1 fun m2'' e4 => ?_
    have s4 := (k4.2 _ e4).2.2.trans ((k3.2 _ e3).2.2.trans f4)
    have l4 := k4.like e4 ((k3.2 _ e3).2.2.trans f4)
    have c4 := TF.cn_gives (c := .divR) (k := 1 - Flt.powf b1 (Flt.ofInt ep)) (m := m 3) l2
    refine Param.Stays.bind c4.1 fun t4 ht4 => ?_
    have c5 := TF.cn_gives (c := .divR) (k := 1 - Flt.powf b2 (Flt.ofInt ep)) (m := m 4) l4
    refine Param.Stays.bind c5.1 fun t5 ht5 => ?_
    have c6 := TF.cn_gives (c := .mul) (k := scale * alpha) (m := m 5) (c4.2 t4 ht4)
    refine Param.Stays.bind c6.1 fun t6 ht6 => ?_
    have c7 := TF.un_gives (u := .sqrt) (m := m 6) (c5.2 t5 ht5)
    refine Param.Stays.bind c7.1 fun t7 ht7 => ?_
    have c8 := TF.cn_gives (c := .add) (k := eps) (m := m 7) (c7.2 t7 ht7)
    refine Param.Stays.bind c8.1 fun t8 ht8 => ?_
    have c9 := TF.abOp_gives (b := .div) (l := .divL) (r := .divR) (m := m 8) (c6.2 t6 ht6) (c8.2 t8 ht8)
    refine Param.Stays.bind c9.1 fun t9 ht9 => ?_
    have k5 := TF.subAssign_keeps hv (c9.2 t9 ht9)
    refine Param.Stays.bind k5.1 fun v e => ⟨safe_ok _, fun q' e' => ?_⟩
    cases e'
    exact ((h.setStat (n := "Adam.m1") l2.fine s2).setStat (n := "Adam.m2") l4.fine s4).setValue (e ▸ k5)

theorem decay_stays {q : Param α} (h : q.Sound) (m : Nat → α) (l2 : α) : q.Stays (Opt.decay .debug m l2 q) := by
  have c := TF.cn_gives (c := .mul) (k := l2) (m := m) (Like.of h.value rfl)
  unfold Opt.decay
  refine Param.Stays.bind c.1 fun diff hd => ?_
  have k := TF.addAssign_keeps (Like.of h.gradient h.shape) (c.2 diff hd)
  refine Param.Stays.bind k.1 fun g e => ⟨safe_ok _, fun q' e' => ?_⟩
  cases e'
  obtain ⟨h1, _, h2⟩ := k.2 g e
  exact ⟨⟨h.value, h1, h2.trans h.shape, h.stats⟩, rfl⟩

theorem scaleGrad_stays {q : Param α} (h : q.Sound) (k : α) : q.Stays (Opt.scaleGrad .debug k q) := by
  have c := TF.mulAssign_keeps h.gradient k
  unfold Opt.scaleGrad
  refine Param.Stays.bind c.1 fun g e => ⟨safe_ok _, fun q' e' => ?_⟩
  cases e'
  obtain ⟨h1, _, h2⟩ := c.2 g e
  exact ⟨⟨h.value, h1, h2.trans h.shape, h.stats⟩, rfl⟩

theorem sqNorm_safe {q : Param α} (h : q.Sound) (m : Mem α) : (Opt.sqNorm .debug m q).Safe := by
  have c := TF.abOp_fine (b := .mul) (l := .mul) (r := .mul) (m := m 0) h.gradient h.gradient
  unfold Opt.sqNorm
  refine Res.Safe.bind c.1 fun t ht => ?_
  have ht := c.2 t ht
  have hf : GivesFine (TF.flatten .debug (m 1) t) := by
    unfold TF.flatten TF.reshape
    exact GivesFine.bind (Shape.new_safe _ _ _) fun s hs => GivesFine.bind (Tensor.dev_safe _) fun e _ =>
      (Tensor.reshape_gives ht (Shape.Reachable.new hs).wf e).fine
  refine Res.Safe.bind hf.1 fun u hu => ?_
  have c2 := TF.call_fine (op := .sum 0) (m := m 2) (x := u) (args := [u]) (by simpa using hf.2 u hu)
  exact Res.Safe.bind c2.1 fun v hv => Res.Safe.bind (Tensor.dev_safe _) fun _ _ => Dev.tensorToFloat_safe (c2.2 v hv)

theorem sqNorms_safe {m : Nat → Mem α} : ∀ {qs : List (Param α)} {i : Nat} {acc : α}, (∀ q ∈ qs, q.Sound) → (Opt.sqNorms .debug m i qs acc).Safe := by
  intro qs
  induction qs with
  | nil => exact fun _ => safe_ok _
  | cons q qs ih => exact fun h => Res.Safe.bind (sqNorm_safe (h q (by simp)) _) fun _ _ => ih fun q hq => h q (by simp [hq])

theorem forEach_stays {f : Nat → Param α → Res (Param α)} (hf : ∀ (i : Nat) (q : Param α), q.Sound → q.Stays (f i q)) : ∀ {qs : List (Param α)} {i : Nat},
    (∀ q ∈ qs, q.Sound) → (Opt.forEach f i qs).2.Safe ∧ (∀ q ∈ (Opt.forEach f i qs).1, q.Sound) := by
  intro qs
  induction qs with
  | nil => exact fun _ => ⟨safe_ok _, by simp [Opt.forEach]⟩
  | cons q qs ih =>
    intro i h
    have hq := hf i q (h q (by simp))
    obtain ⟨h1, h2⟩ := ih (i := i + 1) fun q hq => h q (by simp [hq])
    unfold Opt.forEach
    split
    · rename_i q' e
      refine ⟨h1, fun r hr => ?_⟩
      rcases List.mem_cons.mp hr with rfl | hr
      · exact (hq.2 _ e).1
      · exact h2 r hr
    · exact ⟨safe_panic, by simp⟩
    · rename_i e
      exact absurd e hq.1

theorem andThen_stays {qs : List (Param α)} (hqs : ∀ q ∈ qs, q.Sound) {r : List (Param α) × Res Unit} (hr : r.2.Safe) (hr1 : ∀ q ∈ r.1, q.Sound)
    {k : List (Param α) → List (Param α) × Res Nat} (hk : ∀ l, (∀ q ∈ l, q.Sound) → (k l).2.Safe ∧ ∀ q ∈ (k l).1, q.Sound) :
    (Opt.andThen qs r k).2.Safe ∧ ∀ q ∈ (Opt.andThen qs r k).1, q.Sound := by
  unfold Opt.andThen
  have hd : ∀ q ∈ r.1 ++ qs.drop r.1.length, q.Sound := by
    intro q hq
    rcases List.mem_append.mp hq with h | h
    · exact hr1 q h
    · exact hqs q (List.mem_of_mem_drop h)
  split
  · exact hk _ hr1
  · exact ⟨safe_panic, hd⟩
  · rename_i e
    exact absurd e hr

/-- `configure_parameters` (`configure_model`) -/
theorem configure_all_sound {qs : List (Param α)} (h : ∀ q ∈ qs, q.Sound) (o : Opt α) (m : Nat → Mem α) :
    (o.configureParameters .debug m qs).2.Safe ∧ ∀ q ∈ (o.configureParameters .debug m qs).1, q.Sound :=
  forEach_stays (fun i _ hq => configure_stays hq o (m i)) h

/-- `update_parameters` (`update_model`) with any weight decay and gradient clipping, for any number of parameters: no access
outside of the tensors, and the parameters stay sound, also when the call panics between two parameters. -/
theorem update_all_sound {qs : List (Param α)} (h : ∀ q ∈ qs, q.Sound) (o : Opt α) (m : Nat → Nat → Mem α) :
    (o.updateParameters .debug m qs).2.Safe ∧ ∀ q ∈ (o.updateParameters .debug m qs).1, q.Sound := by
  have hupd : ∀ l : List (Param α), (∀ q ∈ l, q.Sound) →
      (Opt.andThen l (Opt.forEach (fun i q => Opt.step .debug (m 2 i) o q) 0 l) fun qs => (qs, uadd .debug o.epoch 1)).2.Safe ∧
      ∀ q ∈ (Opt.andThen l (Opt.forEach (fun i q => Opt.step .debug (m 2 i) o q) 0 l) fun qs => (qs, uadd .debug o.epoch 1)).1, q.Sound := by
    intro l hl
    have := forEach_stays (f := fun i q => Opt.step .debug (m 2 i) o q)
      (fun i q hq => (update_stays hq o o.lrScale (m 2 i)).then fun _ h' _ => reset_gradient_stays h') (i := 0) hl
    exact andThen_stays hl this.1 this.2 fun l hl => ⟨uadd_safe .debug o.epoch 1, hl⟩
  unfold Opt.updateParameters
  have h0 : ∀ r : List (Param α) × Res Unit, r = (if Flt.gt o.l2 0 then Opt.forEach (fun i q => Opt.decay .debug (m 0 i 0) o.l2 q) 0 qs else (qs, ok ())) →
      r.2.Safe ∧ ∀ q ∈ r.1, q.Sound := by
    intro r hr
    split at hr
    · subst hr
      exact forEach_stays (fun i q hq => decay_stays hq (m 0 i 0) o.l2) h
    · subst hr
      exact ⟨safe_ok _, h⟩
  refine andThen_stays h (h0 _ rfl).1 (h0 _ rfl).2 fun l hl => ?_
  dsimp only
  split
  · split
    · split
      · rename_i sq _ _
        have := forEach_stays (f := fun _ q => Opt.scaleGrad .debug (o.clip / Flt.sqrt sq) q) (fun i q hq => scaleGrad_stays hq _) (i := 0) hl
        exact andThen_stays hl this.1 this.2 hupd
      · exact hupd l hl
    · exact ⟨safe_panic, hl⟩
    · rename_i e
      exact absurd e (sqNorms_safe hl)
  · exact hupd l hl

/-! ### Programs -/

/-- Something a program can have. -/
inductive Thing (α : Type) where
  /-- a tensor it can read -/
  | shared (t : Tensor α)
  /-- a tensor it can also change -/
  | owned (t : Tensor α)
  | param (q : Param α)
  | graph (g : Graph (Tensor α))

/-- The calls that make nodes of other nodes only. -/
def NodeCall.Plain : NodeCall α → Prop
  | .ofTensor _ => False
  | .ofOwned _ => False
  | .ofParameter _ _ => False
  | .un op _ => op.OfNodes
  | .bin op _ _ => op.OfPairs
  | _ => True

/-- `Operator::device()`: the operators for tensors and parameters are on the device of their tensor (operators/input.rs:20-22, 52-54,
parameter.rs:24-26), the others on the device `dev` with which they were made (operators/common.rs). -/
def NodeOp.deviceOr (dev : Nat) : NodeOp α → Res Nat
  | .input v => v.dev
  | .inputOwner v => v.dev
  | .parameter v => v.dev
  | _ => ok dev

/-- `Node::create(operator, arguments)` (graph.rs:189-202, public) with an operator of `prima_undine::operators` that was made with the
device `dev`. -/
def createDirect (m : Mem α) (g : Graph (Tensor α)) (dev : Nat) (op : NodeOp α) (sink : Option (Tensor α)) (args : List NF.Node) :
    Res (Graph (Tensor α) × List NF.Node) := do
  let d ← op.deviceOr dev
  NF.create .debug m g d op sink args

/-- The operators without tensors; `Reshape` has a shape that the library made. -/
def NodeOp.Free : NodeOp α → Prop
  | .input _ => False
  | .inputOwner _ => False
  | .parameter _ => False
  | .reshape s => s.Reachable
  | _ => True

/-- What programs can have.  Restrictions (each is needed, see the negations of C18, C54, C55): `+=` and `-=` only with an operand of at
most the volume of the tensor and a compatible batch, `batch_pick` differentiated only with one id, value and gradient of a new parameter of one shape;
the tensors in a parameter are changed only by `backward`, the optimizers, `reset_gradient` and `move_to_device`, statistics are added
only by the optimizers. -/
inductive Has : Thing α → Prop
  /- tensors -/
  | borrow {t : Tensor α} : Has (.owned t) → Has (.shared t)
  | new (d : Nat) {s : Shape} : s.Reachable → Has (.owned (Tensor.new d s))
  | newHost {s : Shape} (v : List α) : s.Reachable → Has (.owned (Tensor.newHost s v))
  | alloc {t y : Tensor α} {m : Nat → α} : Has (.owned t) → t.alloc .debug m = ok y → Has (.owned y)
  | moveToDevice {t y : Tensor α} {d : Nat} {m : Nat → α} : Has (.owned t) → t.moveToDevice .debug d m = ok y → Has (.owned y)
  | updateShape {t y : Tensor α} {s : Shape} : Has (.owned t) → s.Reachable → t.updateShape .debug s = ok y → Has (.owned y)
  | reset {t y : Tensor α} {k : α} : Has (.owned t) → Dev.resetTensor .debug t k = ok y → Has (.owned y)
  | resetBySlice {t y : Tensor α} {v : List α} : Has (.owned t) → Dev.resetTensorBySlice .debug t v = ok y → Has (.owned y)
  | resetByTensor {t x y : Tensor α} : Has (.owned t) → Has (.shared x) → Dev.resetTensorByTensor .debug t x = ok y → Has (.owned y)
  | copy {t y : Tensor α} {d : Nat} {m : Nat → α} : Has (.shared t) → Dev.copyTensor .debug d m t = ok y → Has (.owned y)
  | mulAssignConst {t y : Tensor α} {d : Nat} {k : α} : Has (.owned t) → Dev.mulAssignConst .debug d k t = ok y → Has (.owned y)
  | addAssign {t x y : Tensor α} {d : Nat} : Has (.owned t) → Has (.shared x) → x.shape.volume ≤ t.shape.volume →
      BatchCompat x.shape t.shape → Dev.addAssign .debug d x t = ok y → Has (.owned y)
  | subAssign {t x y : Tensor α} {d : Nat} : Has (.owned t) → Has (.shared x) → x.shape.volume ≤ t.shape.volume →
      BatchCompat x.shape t.shape → Dev.subAssign .debug d x t = ok y → Has (.owned y)
  | fw {op : FwOp α} {xs : List (Tensor α)} {y : Tensor α} {d : Nat} {m : Nat → α} : (∀ x, x ∈ xs → Has (.shared x)) →
      Dev.fw op .debug d m xs = ok y → Has (.owned y)
  | bw {op : BwOp α} {xs ys : List (Tensor α)} {gy gx y : Tensor α} {d : Nat} {m : Mem α} : op.Checked →
      (∀ x, x ∈ xs → Has (.shared x)) → (∀ x, x ∈ ys → Has (.shared x)) → Has (.shared gy) → Has (.owned gx) →
      Dev.bw op .debug d m xs ys gy gx = ok y → Has (.owned y)
  /-- A tensor that was passed mutably to a call that panicked. -/
  | caught {t t' : Tensor α} : Has (.owned t) → t.Disturbed t' → Has (.owned t')
  /- graphs -/
  | emptyGraph : Has (.graph [])
  | ofTensor {g g' : Graph (Tensor α)} {t : Tensor α} {m : Mem α} {ns : List NF.Node} : Has (.graph g) → Has (.shared t) →
      (NodeCall.ofTensor t).run m g = ok (g', ns) → Has (.graph g')
  | ofOwned {g g' : Graph (Tensor α)} {t : Tensor α} {m : Mem α} {ns : List NF.Node} : Has (.graph g) → Has (.owned t) →
      (NodeCall.ofOwned t).run m g = ok (g', ns) → Has (.graph g')
  | ofParameter {g g' : Graph (Tensor α)} {q : Param α} {m : Mem α} {ns : List NF.Node} : Has (.graph g) → Has (.param q) →
      (NodeCall.ofParameter q.value q.gradient).run m g = ok (g', ns) → Has (.graph g')
  | call {g g' : Graph (Tensor α)} {c : NodeCall α} {m : Mem α} {ns : List NF.Node} : Has (.graph g) → c.Plain → c.run m g = ok (g', ns) → Has (.graph g')
  /-- Operators created directly, with any device and any number of arguments. -/
  | createInput {g g' : Graph (Tensor α)} {t : Tensor α} {dev : Nat} {args : List NF.Node} {m : Mem α} {ns : List NF.Node} : Has (.graph g) →
      Has (.shared t) → createDirect m g dev (.input t) none args = ok (g', ns) → Has (.graph g')
  | createInputOwner {g g' : Graph (Tensor α)} {t : Tensor α} {dev : Nat} {args : List NF.Node} {m : Mem α} {ns : List NF.Node} : Has (.graph g) →
      Has (.owned t) → createDirect m g dev (.inputOwner t) none args = ok (g', ns) → Has (.graph g')
  | createParameter {g g' : Graph (Tensor α)} {q : Param α} {dev : Nat} {args : List NF.Node} {m : Mem α} {ns : List NF.Node} : Has (.graph g) →
      Has (.param q) → createDirect m g dev (.parameter q.value) (some q.gradient) args = ok (g', ns) → Has (.graph g')
  | create {g g' : Graph (Tensor α)} {op : NodeOp α} {dev : Nat} {args : List NF.Node} {m : Mem α} {ns : List NF.Node} : Has (.graph g) →
      op.Free → createDirect m g dev op none args = ok (g', ns) → Has (.graph g')
  | forward {g g' : Graph (Tensor α)} {root : Nat} {tr : List Nat} {r : Res Unit} : Has (.graph g) → Graph.Forward g root g' tr r → Has (.graph g')
  | backward {g g' : Graph (Tensor α)} {m0 : Nat → α} {root : Nat} {tr popped : List Nat} : Has (.graph g) →
      (∀ i ∈ popped, ∀ o ids d m, g[i]? = some o → o.oper = (NodeOp.batchPick ids).oper .debug d m → ids.length = 1) →
      Graph.Backward (tensorLike .debug m0) g root tr popped (ok g') → Has (.graph g')
  | backwardPanic {g g1 g' : Graph (Tensor α)} {m0 : Nat → α} {root : Nat} {tr popped : List Nat} : Has (.graph g) →
      Graph.Forward g root g1 tr (ok ()) → Graph.BackwardOnly (tensorLike .debug m0) g1 root popped panic → g1.Disturbed g' → Has (.graph g')
  | nodeValue {g : Graph (Tensor α)} {a : Nat × Nat} {t : Tensor α} : Has (.graph g) → g.val a = ok t → Has (.shared t)
  | nodeGradient {g : Graph (Tensor α)} {a : Nat × Nat} {t : Tensor α} : Has (.graph g) → g.grad a = ok t → Has (.shared t)
  /- parameters -/
  | newParam {v dv : Tensor α} {q : Param α} : Has (.owned v) → Has (.owned dv) → dv.shape = v.shape → Param.new v dv = ok q → Has (.param q)
  | paramValue {q : Param α} : Has (.param q) → Has (.shared q.value)
  | paramGradient {q : Param α} : Has (.param q) → Has (.shared q.gradient)
  | paramStat {q : Param α} {a : String × Tensor α} : Has (.param q) → a ∈ q.stats → Has (.shared a.2)
  /-- A parameter after the graph that used it: its gradient is what `backward` has left. -/
  | trained {g : Graph (Tensor α)} {q : Param α} {i : Nat} {t : Tensor α} : Has (.graph g) → Has (.param q) → g.sinkOf i = some t →
      t.shape = q.value.shape → Has (.param { q with gradient := t })
  | resetGradient {q q' : Param α} : Has (.param q) → q.resetGradient .debug = ok q' → Has (.param q')
  | moveParam {q q' : Param α} {d : Nat} {m : Mem α} : Has (.param q) → q.moveToDevice .debug d m = ok q' → Has (.param q')
  | configure {qs : List (Param α)} {o : Opt α} {m : Nat → Mem α} {q : Param α} : (∀ q ∈ qs, Has (.param q)) →
      q ∈ (o.configureParameters .debug m qs).1 → Has (.param q)
  | update {qs : List (Param α)} {o : Opt α} {m : Nat → Nat → Mem α} {q : Param α} : (∀ q ∈ qs, Has (.param q)) →
      q ∈ (o.updateParameters .debug m qs).1 → Has (.param q)
  /-- A parameter in the middle of a call that panicked: some statistics may have been added, some of its tensors changed or moved. -/
  | statAdded {q q' : Param α} {m : Nat → α} {name : String} : Has (.param q) → Opt.ensureStat .debug m name q = ok q' → Has (.param q')
  | caughtParam {q q' : Param α} : Has (.param q) → q.value.Disturbed q'.value → q.gradient.Disturbed q'.gradient →
      List.Forall₂ (fun a b => a.1 = b.1 ∧ Tensor.Disturbed a.2 b.2) q.stats q'.stats → Has (.param q')

/-- The invariant behind C55. -/
def Thing.Good : Thing α → Prop
  | .shared t => t.Fine
  | .owned t => t.Fine ∧ (t.device = none → t.buf = none)
  | .param q => q.Sound
  | .graph g => ∃ ops D, Graph.GFine ops D g

theorem sink_fine {ops : List (NodeOp α)} {D : List (List Shape)} {g : Graph (Tensor α)} (h : Graph.GFine ops D g) {i : Nat} {t : Tensor α}
    (hi : g.sinkOf i = some t) : t.Fine := by
  unfold Graph.sinkOf at hi
  cases ho : g[i]? with
  | none => simp [ho] at hi
  | some o =>
    obtain ⟨op, outs, _, _, hk⟩ := h.at' i o ho
    exact (hk.sink t (by simpa [ho] using hi)).1

theorem NodeCall.Plain.fineArgs {c : NodeCall α} (h : c.Plain) : c.FineArgs := by
  cases c <;> first | exact h.elim | exact h

theorem NodeOp.Free.proper {op : NodeOp α} (h : op.Free) : op.Proper := by
  cases op <;> first | trivial | exact h.elim | exact Shape.Reachable.wf h

theorem createDirect_safe (m : Mem α) (g : Graph (Tensor α)) (dev : Nat) (op : NodeOp α) (sink : Option (Tensor α)) (args : List NF.Node) :
    (createDirect m g dev op sink args).Safe := by
  unfold createDirect
  refine Res.Safe.bind ?_ fun d _ => Res.Safe.bind (Graph.create_safe _ _ _ _ _ _ _) fun _ _ => Res.Safe.bind (at_safe _ _) fun _ _ => safe_ok _
  cases op <;> first | exact Tensor.dev_safe _ | exact safe_ok _

theorem createDirect_fine {ops : List (NodeOp α)} {D : List (List Shape)} {g g' : Graph (Tensor α)} (h : Graph.GFine ops D g) {m : Mem α} {dev : Nat}
    {op : NodeOp α} {sink : Option (Tensor α)} {args ns : List NF.Node} (hp : op.Proper)
    (hs : ∀ t, sink = some t → t.Fine ∧ ∃ v, op = .parameter v ∧ t.shape = v.shape) (e : createDirect m g dev op sink args = ok (g', ns)) :
    ∃ ops D, Graph.GFine ops D g' := by
  unfold createDirect NF.create at e
  simp only [Res.bind_eq_ok] at e
  obtain ⟨d, _, g2, hg, o, _, e⟩ := e
  cases e
  have hx : ∃ xs, mapR g.val (args.map NF.Node.id) = ok xs := by
    simp only [Graph.create, Res.bind_eq_ok] at hg
    obtain ⟨xs, hxs, _⟩ := hg
    exact ⟨xs, hxs⟩
  obtain ⟨xs, hxs⟩ := hx
  obtain ⟨outs, ho⟩ := h.create hxs hp hs hg
  exact ⟨_, _, ho⟩

theorem Has.good {x : Thing α} (h : Has x) : x.Good := by
  have dn : ∀ {y : Tensor α} {d : Nat}, y.device = some d → (y.device = none → y.buf = none) :=
    fun h1 h2 => by rw [h1] at h2; cases h2
  induction h with
  | borrow _ ih => exact ih.1
  | new d hs => exact ⟨⟨hs.wf, fun _ => rfl, fun l hl => by cases hl⟩, fun _ => rfl⟩
  | newHost v hs => exact ⟨⟨hs.wf, fun h => absurd rfl h, fun l hl => by cases hl⟩, fun _ => rfl⟩
  | @alloc t y m _ hy ih =>
    refine ⟨(Tensor.alloc_good ih.1 m).2 y hy, ?_⟩
    unfold Tensor.alloc at hy
    simp only [check_bind_ok] at hy
    simp only [Res.bind_eq_ok] at hy
    obtain ⟨_, _, d, hd, _, _, _, _, hy⟩ := hy
    cases hy
    cases hdd : t.device with
    | none => rw [hdd] at hd; cases hd
    | some e => intro hn; cases hn
  | moveToDevice _ hy ih =>
    obtain ⟨h1, h2, _⟩ := (Tensor.moveToDevice_good ih.1 _).2 _ hy
    exact ⟨h1, dn h2⟩
  | @updateShape t y s _ hs hy ih =>
    refine ⟨(Tensor.updateShape_good ih.1 hs.wf).2 y hy, ?_⟩
    unfold Tensor.updateShape at hy
    simp only [Res.bind_eq_ok] at hy
    obtain ⟨_, _, _, _, _, _, hy⟩ := hy
    cases hy; exact ih.2
  | reset _ hy ih => exact (Dev.resetTensor_safe ih.1 ih.2).2 _ hy
  | resetBySlice _ hy ih => exact (Dev.resetBySlice_safe ih.1 ih.2).2 _ hy
  | resetByTensor _ _ hy ih1 ih2 => exact (Dev.resetByTensor_safe ih1.1 ih1.2 ih2).2 _ hy
  | copy _ hy ih => obtain ⟨h1, h2, _⟩ := (Dev.copyTensor_good ih _ _).2 _ hy; exact ⟨h1, dn h2⟩
  | mulAssignConst _ hy ih => obtain ⟨h1, h2, _⟩ := (Dev.mulAssignConst_good ih.1 _).2 _ hy; exact ⟨h1, dn h2⟩
  | addAssign _ _ hd hb hy ih1 ih2 => obtain ⟨h1, h2, _⟩ := (Dev.addAssign_good' ih2 ih1.1 hd hb.cases).2 _ hy; exact ⟨h1, dn h2⟩
  | subAssign _ _ hd hb hy ih1 ih2 => obtain ⟨h1, h2, _⟩ := (Dev.subAssign_good' ih2 ih1.1 hd hb.cases).2 _ hy; exact ⟨h1, dn h2⟩
  | @fw op xs y d m _ hy ih =>
    obtain ⟨_, _, h1, h2, _⟩ := (Dev.fw_good (op := op) (p := .debug) (fun x h => ih x h) (.inl rfl) d m).2 y hy
    exact ⟨h1, dn h2⟩
  | @bw op xs ys gy gx y d m hop _ _ _ _ hy ih1 ih2 ih3 ih4 =>
    obtain ⟨h1, h2, _⟩ := (Dev.bw_good (op := op) (fun x h => ih1 x h) (fun x h => ih2 x h) ih3 ih4.1 hop d m).2 y hy
    exact ⟨h1, dn h2⟩
  | emptyGraph => exact ⟨[], [], rfl, rfl, fun i o h => by cases h⟩
  | ofTensor _ _ e ih1 ih2 => obtain ⟨_, _, ih1⟩ := ih1; exact call_fine (c := .ofTensor _) ih2 ih1 e
  | ofOwned _ _ e ih1 ih2 => obtain ⟨_, _, ih1⟩ := ih1; exact call_fine (c := .ofOwned _) ih2.1 ih1 e
  | ofParameter _ _ e ih1 ih2 =>
    obtain ⟨_, _, ih1⟩ := ih1
    exact call_fine (c := .ofParameter _ _) ⟨ih2.value, ih2.gradient, ih2.shape⟩ ih1 e
  | call _ hc e ih => obtain ⟨_, _, ih⟩ := ih; exact call_fine hc.fineArgs ih e
  | createInput _ _ e ih1 ih2 => obtain ⟨_, _, ih1⟩ := ih1; exact createDirect_fine ih1 (op := .input _) ih2 (fun t h => by cases h) e
  | createInputOwner _ _ e ih1 ih2 => obtain ⟨_, _, ih1⟩ := ih1; exact createDirect_fine ih1 (op := .inputOwner _) ih2.1 (fun t h => by cases h) e
  | createParameter _ _ e ih1 ih2 =>
    obtain ⟨_, _, ih1⟩ := ih1
    exact createDirect_fine ih1 (op := .parameter _) ih2.value (fun t h => by cases h; exact ⟨ih2.gradient, _, rfl, ih2.shape⟩) e
  | create _ hop e ih => obtain ⟨_, _, ih⟩ := ih; exact createDirect_fine ih hop.proper (fun t h => by cases h) e
  | forward _ hf ih => obtain ⟨_, _, ih⟩ := ih; exact ⟨_, _, (Graph.forward_fine ih hf).1⟩
  | backward _ hone hb ih =>
    obtain ⟨ops, D, ih⟩ := ih
    obtain ⟨g1, r1, hf, hb | hb | hb⟩ := hb
    · exact ⟨ops, D, (Graph.backwardOnly_fine (Graph.forward_fine ih hf).1 (oneId_of ih hone) hb.2).2 _ rfl⟩
    · cases hb.2.1
    · cases hb.2.1
  | nodeValue _ e ih => obtain ⟨_, _, ih⟩ := ih; exact (ih.val e).1
  | nodeGradient _ e ih => obtain ⟨_, _, ih⟩ := ih; exact (ih.grad e).1
  | newParam _ _ hs e ih1 ih2 => exact new_sound ih1.1 ih2.1 hs e
  | paramValue _ ih => exact ih.value
  | paramGradient _ ih => exact ih.gradient
  | paramStat _ ha ih => exact (ih.stats _ ha).1
  | trained _ _ hi hs ih1 ih2 => obtain ⟨_, _, ih1⟩ := ih1; exact ⟨ih2.value, sink_fine ih1 hi, hs, ih2.stats⟩
  | resetGradient _ e ih => exact ((reset_gradient_stays ih).2 _ e).1
  | moveParam _ e ih => exact ((move_to_device_stays ih _ _).2 _ e).1
  | configure _ hq ih => exact (configure_all_sound ih _ _).2 _ hq
  | update _ hq ih => exact (update_all_sound ih _ _).2 _ hq
  | caught _ hd ih => exact ⟨hd.fine ih.1, hd.null ih.2⟩
  | backwardPanic _ hf _ hd ih => obtain ⟨ops, D, ih⟩ := ih; exact ⟨ops, D, hd.fine (Graph.forward_fine ih hf).1⟩
  | statAdded _ e ih => exact ((ensureStat_stays ih _ _).2 _ e).1
  | @caughtParam q q' _ h1 h2 h3 ih =>
    have ih : q.Sound := ih
    refine ⟨h1.fine ih.value, h2.fine ih.gradient, by rw [h1.shape, h2.shape, ih.shape], ?_⟩
    rw [h1.shape]
    have key : ∀ {l l' : List (String × Tensor α)} {s : Shape}, List.Forall₂ (fun a b => a.1 = b.1 ∧ Tensor.Disturbed a.2 b.2) l l' →
        (∀ a ∈ l, a.2.Fine ∧ a.2.shape = s) → ∀ a ∈ l', a.2.Fine ∧ a.2.shape = s := by
      intro l l' s hl
      induction hl with
      | nil => intro _ a ha; cases ha
      | cons hd _ ih =>
        intro hf a ha
        rcases List.mem_cons.mp ha with rfl | ha
        · obtain ⟨f1, f2⟩ := hf _ List.mem_cons_self
          exact ⟨hd.2.fine f1, by rw [hd.2.shape]; exact f2⟩
        · exact ih (fun t ht => hf t (by simp [ht])) a ha
    exact key h3 ih.stats

/-- C55: every function on tensors: the device functions forward and backward, copying, filling and reading. -/
theorem C55_tensors {xs ys : List (Tensor α)} {gy gx t x : Tensor α} (hxs : ∀ x ∈ xs, Has (.shared x)) (hys : ∀ y ∈ ys, Has (.shared y))
    (hgy : Has (.shared gy)) (hgx : Has (.owned gx)) (ht : Has (.owned t)) (hx : Has (.shared x)) (d dim : Nat) (m : Mem α) (k : α) (v : List α)
    {s : Shape} (hs : s.Reachable) :
    (∀ op : FwOp α, (Dev.fw op .debug d (m 0) xs).Safe) ∧ (∀ op : BwOp α, op.Checked → (Dev.bw op .debug d m xs ys gy gx).Safe) ∧
    (t.alloc .debug (m 0)).Safe ∧ (t.moveToDevice .debug d (m 0)).Safe ∧ (t.updateShape .debug s).Safe ∧ (Dev.copyTensor .debug d (m 0) x).Safe ∧
    (Dev.resetTensor .debug t k).Safe ∧ (Dev.resetTensorBySlice .debug t v).Safe ∧ (Dev.resetTensorByTensor .debug t x).Safe ∧
    (Dev.mulAssignConst .debug d k t).Safe ∧
    (x.shape.volume ≤ t.shape.volume → BatchCompat x.shape t.shape → (Dev.addAssign .debug d x t).Safe ∧ (Dev.subAssign .debug d x t).Safe) ∧
    (x.toVec .debug).Safe ∧ (Dev.tensorToFloat .debug x).Safe ∧ (Dev.argmax .debug d x dim).Safe ∧ (Dev.argmin .debug d x dim).Safe ∧
    ∀ srt : (Nat → Nat → Bool) → List Nat → List Nat, (∀ le l, (srt le l).Perm l) → (Dev.argsort srt .debug d x dim).Safe := by
  obtain ⟨h1, h2⟩ := ht.good
  have h3 : x.Fine := hx.good
  exact ⟨fun op => (Dev.fw_good (fun x h => (hxs x h).good) (.inl rfl) d _).1,
    fun op hop => (Dev.bw_good (fun x h => (hxs x h).good) (fun x h => (hys x h).good) hgy.good hgx.good.1 hop d m).1,
    (Tensor.alloc_good h1 _).1, (Tensor.moveToDevice_good h1 _).1, (Tensor.updateShape_good h1 hs.wf).1, (Dev.copyTensor_good h3 d _).1,
    (Dev.resetTensor_safe h1 h2).1, (Dev.resetBySlice_safe h1 h2).1, (Dev.resetByTensor_safe h1 h2 h3).1, (Dev.mulAssignConst_good h1 k).1,
    fun hd hb => ⟨(Dev.addAssign_good' h3 h1 hd hb.cases).1, (Dev.subAssign_good' h3 h1 hd hb.cases).1⟩,
    Tensor.toVec_safe h3, Dev.tensorToFloat_safe h3, Dev.argmax_safe h3 dim, Dev.argmin_safe h3 dim, fun srt hs => Dev.argsort_safe hs h3 dim⟩

/-- C55: every function that makes nodes, `Node::create` with every operator, `forward` and `backward`. -/
theorem C55_graphs {g : Graph (Tensor α)} (hg : Has (.graph g)) {t : Tensor α} (ht : Has (.shared t)) {q : Param α} (hq : Has (.param q)) (m : Mem α) :
    ((NodeCall.ofTensor t).run m g).Safe ∧ ((NodeCall.ofOwned t).run m g).Safe ∧ ((NodeCall.ofParameter q.value q.gradient).run m g).Safe ∧
    (∀ c : NodeCall α, c.Plain → (c.run m g).Safe) ∧
    (∀ dev op sink args, (createDirect m g dev op sink args).Safe) ∧
    (∀ root g' tr r, Graph.Forward g root g' tr r → r.Safe) ∧
    ∀ m0 root tr popped r, (∀ i ∈ popped, ∀ o ids d m, g[i]? = some o → o.oper = (NodeOp.batchPick ids).oper .debug d m → ids.length = 1) →
      Graph.Backward (tensorLike .debug m0) g root tr popped r → r.Safe := by
  have hq : q.Sound := hq.good
  obtain ⟨ops, D, h⟩ : ∃ ops D, Graph.GFine ops D g := hg.good
  refine ⟨(NodeCall.makes (c := .ofTensor t) ht.good m g).safe, (NodeCall.makes (c := .ofOwned t) ht.good m g).safe,
    (NodeCall.makes (c := .ofParameter _ _) ⟨hq.value, hq.gradient, hq.shape⟩ m g).safe, fun c hc => (NodeCall.makes hc.fineArgs m g).safe,
    fun dev op sink args => createDirect_safe m g dev op sink args, fun root g' tr r hf => (Graph.forward_fine h hf).2, fun m0 root tr popped r hone hb => ?_⟩
  obtain ⟨g1, r1, hf, hb | hb | hb⟩ := hb
  · exact (Graph.backwardOnly_fine (Graph.forward_fine h hf).1 (oneId_of h hone) hb.2).1
  · rw [hb.2.1]; exact safe_panic
  · exact absurd hb.1 (Graph.forward_fine h hf).2

/-- C55: parameters and optimizers: every optimizer with any settings, on any number of parameters, configured or not. -/
theorem C55_parameters {qs : List (Param α)} (h : ∀ q ∈ qs, Has (.param q)) (o : Opt α) (m : Nat → Nat → Mem α) (d : Nat) :
    (o.configureParameters .debug (m 0) qs).2.Safe ∧ (o.updateParameters .debug m qs).2.Safe ∧
    ∀ q ∈ qs, (q.resetGradient .debug).Safe ∧ (q.moveToDevice .debug d (m 0 0)).Safe := by
  have h' : ∀ q ∈ qs, q.Sound := fun q hq => (h q hq).good
  exact ⟨(configure_all_sound h' o _).1, (update_all_sound h' o m).1,
    fun q hq => ⟨(reset_gradient_stays (h' q hq)).1, (move_to_device_stays (h' q hq) d _).1⟩⟩

end

/-! ### Examples, over the integers -/

attribute [local instance] intFlt

theorem obtainable_has {t : Tensor ℤ} (h : Obtainable t) : Has (.owned t) := by
  induction h with
  | new d hs => exact .new d hs
  | newHost v hs => exact .newHost v hs
  | alloc _ e ih => exact .alloc ih e
  | moveToDevice _ e ih => exact .moveToDevice ih e
  | updateShape _ hs e ih => exact .updateShape ih hs e
  | reset _ e ih => exact .reset ih e
  | resetBySlice _ e ih => exact .resetBySlice ih e
  | resetByTensor _ _ e ih1 ih2 => exact .resetByTensor ih1 (.borrow ih2) e
  | copy _ e ih => exact .copy (.borrow ih) e
  | mulAssignConst _ e ih => exact .mulAssignConst ih e
  | addAssign _ _ h1 h2 e ih1 ih2 => exact .addAssign ih1 (.borrow ih2) h1 h2 e
  | subAssign _ _ h1 h2 e ih1 ih2 => exact .subAssign ih1 (.borrow ih2) h1 h2 e
  | fw _ e ih => exact .fw (fun x hx => .borrow (ih x hx)) e
  | bw hop _ _ _ _ e ih1 ih2 ih3 ih4 => exact .bw hop (fun x hx => .borrow (ih1 x hx)) (fun x hx => .borrow (ih2 x hx)) (.borrow ih3) ih4 e
  | caught _ h ih => exact .caught ih h

/-- What `to_vec` returns for the value of a parameter. -/
def showsValue (qs : List (Param ℤ)) : List (Res (List ℤ)) := qs.map fun q => q.value.toVec .debug

/-- `w` (parameter) and `5 * w`. -/
def exG55 (q : Param ℤ) : Graph (Tensor ℤ) := gOf2 ((NodeCall.un (.cn .mul 5) ⟨0, 0, 0⟩).run (fun _ _ => 0) (gOf2 ((NodeCall.ofParameter q.value q.gradient).run (fun _ _ => 0) [])))

/-- The parameter `w = [2, 3]`. -/
def exQ : Param ℤ := ⟨Graph.vec2 2 3, Graph.vec2 0 0, []⟩

/-- The gradient of `w` after `backward`. -/
def exT : Tensor ℤ := ((Graph.gOf (Graph.bwd (Graph.fwd (exG55 exQ) [0, 1]) 1 [1, 0])).sinkOf 0).getD (Graph.vec2 0 0)

/-- C55 has instances: a training step of `5 * w` with SGD (learning rate 2): the parameter becomes `w - 2 * 5`, and the next one can
be taken with it. -/
example : ∃ qs : List (Param ℤ), (∀ q ∈ qs, Has (.param q)) ∧ qs = ((Opt.new (.sgd 2)).updateParameters .debug (fun _ _ _ _ => 0) [{ exQ with gradient := exT }]).1 ∧
    ((Opt.new (.sgd 2)).updateParameters .debug (fun _ _ _ _ => 0) [{ exQ with gradient := exT }]).2 = ok 1 ∧ showsValue qs = [ok [-8, -7]] := by
  have h1 : Has (.param exQ) := .newParam (obtainable_has (vec2_obtainable 2 3)) (obtainable_has (vec2_obtainable 0 0)) rfl rfl
  have h2 : Has (.graph (exG55 exQ)) := by
    refine .call (c := .un (.cn .mul 5) ⟨0, 0, 0⟩) (m := fun _ _ => 0) (ns := _) (.ofParameter (q := exQ) (m := fun _ _ => 0) .emptyGraph h1 (gOf2_eq (by decide +kernel))) trivial (gOf2_eq (by decide +kernel))
  have hf : Graph.Forward (exG55 exQ) 1 (Graph.fwd (exG55 exQ) [0, 1]) [0, 1] (ok ()) :=
    Graph.Forward.mk' (pushed := [1, 0]) (by decide +kernel) (by decide +kernel) (by decide +kernel)
  have hb := Graph.Backward.mk' hf (pushed := [1, 0]) (popped := [1, 0]) (by decide +kernel) (by decide +kernel) (by decide +kernel)
  have hsh : ∀ i ∈ [1, 0], ((exG55 exQ)[i]?.map fun o => o.oper.shapes [vecShape 2 1]) = some (ok [vecShape 2 1]) := by decide +kernel
  have h3 : Has (.graph (Graph.gOf (Graph.bwd (Graph.fwd (exG55 exQ) [0, 1]) 1 [1, 0]))) := by
    refine .backward h2 (fun i hi o ids d m ho hop => ?_) hb
    have := hsh i hi
    rw [ho, Option.map_some, hop, Option.some.injEq] at this
    change (do let s ← ShapeOps.batchPick (vecShape 2 1) ids; ok [s]) = _ at this
    rw [Res.bind_eq_ok] at this
    obtain ⟨s, hs, e⟩ := this
    cases e
    exact ((Shape.batchPick_iff (vecShape_wf rfl)).mp hs).2.2.2.2.symm
  have h4 : Has (.param { exQ with gradient := exT }) := .trained (i := 0) h3 h1 (by
    have : ((Graph.gOf (Graph.bwd (Graph.fwd (exG55 exQ) [0, 1]) 1 [1, 0])).sinkOf 0).isSome = true := by decide +kernel
    unfold exT
    rcases h : (Graph.gOf (Graph.bwd (Graph.fwd (exG55 exQ) [0, 1]) 1 [1, 0])).sinkOf 0 with _ | t
    · rw [h] at this; cases this
    · rfl) (by decide +kernel)
  exact ⟨_, fun q hq => .update (qs := [_]) (by simpa using h4) hq, rfl, by decide +kernel, by decide +kernel⟩

/-- The parameter in a result. -/
def qOf : Res (Param ℤ) → Param ℤ
  | ok q => q
  | _ => exQ

theorem qOf_eq {r : Res (Param ℤ)} (h : Graph.isOk r = true) : r = ok (qOf r) := by
  cases r with
  | ok _ => rfl
  | panic => cases h
  | ub => cases h

/-- A parameter of 65 elements. -/
def exQ65 : Param ℤ := ⟨zeros0 (vecShape 65 1), zeros0 (vecShape 65 1), []⟩

/-- The same with a statistic `MomentumSGD.m` of one element. -/
def exQ65s : Param ℤ := qOf (exQ65.addStat .debug (fun _ => 0) "MomentumSGD.m" (vecShape 1 1))

/-- C55, exception: a program can add a statistic under the name an optimizer uses, with another shape (`add_stat` is public and takes
any shape).  `configure_parameter` then leaves it as it is, and `update_parameter` accesses memory outside of it. -/
theorem C55_stat_out_of_bounds : ∃ (q q' : Param ℤ) (s : Shape) (o : Opt ℤ), Has (.param q) ∧ s.Reachable ∧
    q.addStat .debug (fun _ => 0) "MomentumSGD.m" s = ok q' ∧ o.configureParameter .debug (fun _ _ => 0) q' = ok q' ∧
    (o.updateParameters .debug (fun _ _ _ _ => 0) [q']).2 = ub := by
  have key : ∀ r : Res (Tensor ℤ), Graph.isOk r = true → r = ok (tOf r) := by
    intro r h
    cases r with
    | ok _ => rfl
    | panic => cases h
    | ub => cases h
  have hz : Has (.owned (zeros0 (vecShape 65 1))) :=
    obtainable_has (.const (vecShape_reachable rfl) (key (Dev.newByConstant .debug 0 (fun _ => 0) (vecShape 65 1) 0) (by decide +kernel)))
  have hb : (zeros0 (vecShape 65 1)).shape.batch = 1 := by decide +kernel
  have hnew : Param.new (zeros0 (vecShape 65 1)) (zeros0 (vecShape 65 1)) = ok exQ65 := by
    unfold Param.new
    rw [check_true _ hb]; rfl
  refine ⟨exQ65, exQ65s, vecShape 1 1, Opt.new (.momentum 1 1), .newParam hz hz rfl hnew, vecShape_reachable rfl,
    qOf_eq (by decide +kernel), ?_, by decide +kernel⟩
  have : exQ65s.hasStat "MomentumSGD.m" = true := by decide +kernel
  simp [Opt.configureParameter, Opt.new, Opt.ensureStat, this]

/-- `a`, `b`, and `AddScalar` of both, created directly. -/
def exDirect : Graph (Tensor ℤ) :=
  gOf2 (createDirect (fun _ _ => 0) (runs [] [.ofTensor (Graph.vec2 2 3), .ofTensor (Graph.vec2 5 7)]) 0 (.sc .add) none [⟨0, 0, 0⟩, ⟨1, 0, 0⟩])

theorem exDirect_has : Has (.graph exDirect) := by
  have h1 : Has (.graph (gOf2 ((NodeCall.ofTensor (Graph.vec2 2 3)).run (fun _ _ => 0) []))) :=
    .ofTensor .emptyGraph (.borrow (obtainable_has (vec2_obtainable _ _))) (gOf2_eq (by decide +kernel))
  have h2 : Has (.graph (runs [] [.ofTensor (Graph.vec2 2 3), .ofTensor (Graph.vec2 5 7)])) :=
    .ofTensor h1 (.borrow (obtainable_has (vec2_obtainable 5 7))) (gOf2_eq (by decide +kernel))
  exact .create (op := .sc .add) h2 trivial (gOf2_eq (by decide +kernel))

/-- C55 has instances: the operator for a tensor and a scalar, created directly for two tensors that are not scalars, is accepted; its
`forward` panics; after that its `backward` (which does not run `forward` again) returns, and the gradients can be read. -/
example : Has (.graph exDirect) ∧ ∃ g1 g2 tr popped, Graph.Forward exDirect 2 g1 tr Res.panic ∧ Has (.graph g1) ∧
    Graph.Backward (tensorLike .debug fun _ => 0) g1 2 [] popped (ok g2) ∧ Has (.graph g2) ∧
    (g2.grad (0, 0) >>= fun t => t.toVec .debug) = ok [1, 1] ∧ (g2.grad (1, 0) >>= fun t => t.toVec .debug) = ok [2, 0] := by
  have hf : Graph.Forward exDirect 2 (Graph.fwd exDirect [0, 1, 2]) [0, 1, 2] Res.panic :=
    Graph.Forward.mk' (pushed := [2, 0, 1]) (by decide +kernel) (by decide +kernel) (by decide +kernel)
  have hf2 : Graph.Forward (Graph.fwd exDirect [0, 1, 2]) 2 (Graph.fwd (Graph.fwd exDirect [0, 1, 2]) [0, 1, 2]) [] (ok ()) :=
    Graph.Forward.mk' (pushed := [2, 0, 1]) (by decide +kernel) (by decide +kernel) (by decide +kernel)
  have hb := Graph.Backward.mk' hf2 (pushed := [2, 0, 1]) (popped := [2, 0, 1]) (by decide +kernel) (by decide +kernel) (by decide +kernel)
  have h1 : Has (.graph (Graph.fwd exDirect [0, 1, 2])) := .forward exDirect_has hf
  refine ⟨exDirect_has, _, _, _, _, hf, h1, hb, .backward h1 (fun i hi o ids d m ho e => ?_) hb, by decide +kernel, by decide +kernel⟩
  have hk : ∀ j, j ≤ 2 → ∀ o, (Graph.fwd exDirect [0, 1, 2])[j]? = some o → (o.oper.shapes [vecShape 2 1, vecShape 2 1]) = ok [vecShape 2 1] := by
    intro j hj o ho
    match j, hj with
    | 0, _ | 1, _ | 2, _ => cases ho; decide +kernel
  have := hk i (by simp at hi; omega) o ho
  rw [e] at this
  simp only [NodeOp.oper, NodeOp.shapes, Res.bind_eq_ok] at this
  obtain ⟨x, hx, s, hs, hk⟩ := this
  cases hx
  cases hk
  exact ((Shape.batchPick_iff (vecShape_wf rfl)).mp hs).2.2.2.2.symm

end Verif
